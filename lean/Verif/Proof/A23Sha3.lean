import Verif.Model.A23Sha3
import Verif.Spec.Sha3
import Verif.Proof.A23Sort

/-! The permutation of sha3.c. -/

namespace TinyGarble.A23
open Spec

/-- A list of 25 lanes. -/
def list25 (f : Nat → Lane) : List Lane :=
  [f 0, f 1, f 2, f 3, f 4, f 5, f 6, f 7, f 8, f 9, f 10, f 11, f 12, f 13, f 14, f 15, f 16, f 17, f 18, f 19, f 20, f 21, f 22, f 23, f 24]

/-- The state of the standard. -/
def lanesState (f : Nat → Lane) : Sha3.State := fun x y z => (f (5 * y.val + x.val)).getLsbD z.val

def laneColumn (f : Nat → Lane) (x : Nat) : Lane := f x ^^^ f (x + 5) ^^^ f (x + 10) ^^^ f (x + 15) ^^^ f (x + 20)

def thetaLane (f : Nat → Lane) (p : Nat) : Lane :=
  f p ^^^ (rotl64 (laneColumn f ((p % 5 + 1) % 5)) 1 ^^^ laneColumn f ((p % 5 + 4) % 5))

theorem keccakTheta_eq (f : Nat → Lane) : keccakTheta (list25 f) = some (list25 (thetaLane f)) := by
  have hC : loop (fun x C => do
    let a0 ← (list25 f)[x]?
    let a1 ← (list25 f)[x + 5]?
    let a2 ← (list25 f)[x + 10]?
    let a3 ← (list25 f)[x + 15]?
    let a4 ← (list25 f)[x + 20]?
    store C x (a0 ^^^ a1 ^^^ a2 ^^^ a3 ^^^ a4)) 5 (List.replicate 5 0) =
      some [laneColumn f 0, laneColumn f 1, laneColumn f 2, laneColumn f 3, laneColumn f 4] := rfl
  unfold keccakTheta
  rw [hC, Option.bind_eq_bind, Option.bind_some]
  simp only [List.getElem?_cons_zero, List.getElem?_cons_succ, Option.bind_eq_bind, Option.bind_some]
  obtain ⟨s, h, e⟩ := loop_inv (body := fun x A => do
    let d ← [rotl64 (laneColumn f 1) 1 ^^^ laneColumn f 4, rotl64 (laneColumn f 2) 1 ^^^ laneColumn f 0,
      rotl64 (laneColumn f 3) 1 ^^^ laneColumn f 1, rotl64 (laneColumn f 4) 1 ^^^ laneColumn f 2,
      rotl64 (laneColumn f 0) 1 ^^^ laneColumn f 3][x]?
    let A ← xorInto A x d
    let A ← xorInto A (x + 5) d
    let A ← xorInto A (x + 10) d
    let A ← xorInto A (x + 15) d
    xorInto A (x + 20) d) (fun k A => A = list25 fun p => if p % 5 < k then thetaLane f p else f p) (n := 5) (s := list25 f) rfl (by
      rintro i hi st rfl
      refine ⟨_, ?_, rfl⟩
      have hi : i = 0 ∨ i = 1 ∨ i = 2 ∨ i = 3 ∨ i = 4 := by omega
      rcases hi with rfl | rfl | rfl | rfl | rfl <;> rfl)
  simp only [Option.bind_eq_bind] at h
  rw [h, e]; rfl

/-- `f` changed at `d`. -/
def upd (f : Nat → Lane) (d : Nat) (v : Lane) : Nat → Lane := fun p => if p = d then v else f p

theorem cases25 {p : Nat} (h : p < 25) : p = 0 ∨ p = 1 ∨ p = 2 ∨ p = 3 ∨ p = 4 ∨ p = 5 ∨ p = 6 ∨ p = 7 ∨ p = 8 ∨ p = 9 ∨ p = 10 ∨ p = 11
    ∨ p = 12 ∨ p = 13 ∨ p = 14 ∨ p = 15 ∨ p = 16 ∨ p = 17 ∨ p = 18 ∨ p = 19 ∨ p = 20 ∨ p = 21 ∨ p = 22 ∨ p = 23 ∨ p = 24 := by omega

theorem list25_get (f : Nat → Lane) {p : Nat} (h : p < 25) : (list25 f)[p]? = some (f p) := by
  rcases cases25 h with rfl | rfl | rfl | rfl | rfl | rfl | rfl | rfl | rfl | rfl | rfl | rfl | rfl | rfl | rfl | rfl | rfl | rfl | rfl
    | rfl | rfl | rfl | rfl | rfl | rfl <;> rfl

theorem list25_congr {f g : Nat → Lane} (h : ∀ p < 25, f p = g p) : list25 f = list25 g := by
  unfold list25
  rw [h 0 (by omega), h 1 (by omega), h 2 (by omega), h 3 (by omega), h 4 (by omega), h 5 (by omega), h 6 (by omega), h 7 (by omega),
    h 8 (by omega), h 9 (by omega), h 10 (by omega), h 11 (by omega), h 12 (by omega), h 13 (by omega), h 14 (by omega), h 15 (by omega),
    h 16 (by omega), h 17 (by omega), h 18 (by omega), h 19 (by omega), h 20 (by omega), h 21 (by omega), h 22 (by omega),
    h 23 (by omega), h 24 (by omega)]

theorem list25_of_length {l : List Lane} (h : l.length = 25) : l = list25 (l.getD · 0) := by
  apply List.ext_getElem?
  intro i
  by_cases hi : i < 25
  · rw [list25_get _ hi, List.getD_eq_getElem?_getD, List.getElem?_eq_getElem (by omega)]; rfl
  · rw [List.getElem?_eq_none (by omega), List.getElem?_eq_none (by show 25 ≤ i; omega)]

theorem list25_store (f : Nat → Lane) {p : Nat} (h : p < 25) (v : Lane) : store (list25 f) p v = some (list25 (upd f p v)) := by
  rw [store_lt (show p < 25 from h)]
  congr 1
  apply List.ext_getElem?
  intro i
  by_cases hi : i < 25
  · rw [List.getElem?_set, list25_get _ hi, list25_get _ hi]
    unfold upd
    by_cases e : p = i
    · subst e; rw [if_pos rfl, if_pos (show p < (list25 f).length from h), if_pos rfl]
    · rw [if_neg e, if_neg (Ne.symm e)]
  · rw [List.getElem?_eq_none (by rw [List.length_set]; show 25 ≤ i; omega), List.getElem?_eq_none (by show 25 ≤ i; omega)]

def rhoFun : List (Nat × Nat) → (Nat → Lane) → Nat → Lane
  | [], f => f
  | (i, n) :: rest, f => rhoFun rest (upd f i (rotl64 (f i) n))

theorem keccakRho_fun (l : List (Nat × Nat)) (h : ∀ q ∈ l, q.1 < 25) (f : Nat → Lane) : keccakRho l (list25 f) = some (list25 (rhoFun l f)) := by
  induction l generalizing f with
  | nil => rfl
  | cons q l ih =>
    obtain ⟨i, n⟩ := q
    have hi : i < 25 := h (i, n) (List.mem_cons_self ..)
    unfold keccakRho
    rw [list25_get _ hi, Option.bind_eq_bind, Option.bind_some, list25_store _ hi, Option.bind_eq_bind, Option.bind_some,
      ih (fun q hq => h q (List.mem_cons_of_mem _ hq))]
    rfl

def movesFun : List (Nat × Nat) → (Nat → Lane) → Nat → Lane
  | [], f => f
  | (d, s) :: rest, f => movesFun rest (upd f d (f s))

theorem moves_fun (l : List (Nat × Nat)) (h : ∀ q ∈ l, q.1 < 25 ∧ q.2 < 25) (f : Nat → Lane) : moves l (list25 f) = some (list25 (movesFun l f)) := by
  induction l generalizing f with
  | nil => rfl
  | cons q l ih =>
    obtain ⟨i, n⟩ := q
    have hi := h (i, n) (List.mem_cons_self ..)
    unfold moves
    rw [list25_get _ hi.2, Option.bind_eq_bind, Option.bind_some, list25_store _ hi.1, Option.bind_eq_bind, Option.bind_some,
      ih (fun q hq => h q (List.mem_cons_of_mem _ hq))]
    rfl

def rhoAmount (p : Nat) : Nat := [0, 1, 62, 28, 27, 36, 44, 6, 55, 20, 3, 10, 43, 25, 39, 41, 45, 15, 21, 8, 18, 2, 61, 56, 14].getD p 0

def rhoLane (f : Nat → Lane) (p : Nat) : Lane := if p = 0 then f 0 else rotl64 (f p) (rhoAmount p)

theorem keccakRho_eq (f : Nat → Lane) : keccakRho rhoConstants (list25 f) = some (list25 (rhoLane f)) := by
  rw [keccakRho_fun _ (by decide)]
  refine congrArg some (list25_congr fun p hp => ?_)
  rcases cases25 hp with rfl | rfl | rfl | rfl | rfl | rfl | rfl | rfl | rfl | rfl | rfl | rfl | rfl | rfl | rfl | rfl | rfl | rfl | rfl
    | rfl | rfl | rfl | rfl | rfl | rfl <;> rfl

/-- Lane `(x, y)` comes from lane `(x + 3 y, x)`. -/
def piLane (f : Nat → Lane) (p : Nat) : Lane := f (5 * (p % 5) + (p % 5 + 3 * (p / 5)) % 5)

theorem keccakPi_eq (f : Nat → Lane) : keccakPi (list25 f) = some (list25 (piLane f)) := by
  unfold keccakPi
  rw [list25_get _ (by omega), Option.bind_eq_bind, Option.bind_some, moves_fun _ (by decide), Option.bind_eq_bind, Option.bind_some, list25_store _ (by omega)]
  refine congrArg some (list25_congr fun p hp => ?_)
  rcases cases25 hp with rfl | rfl | rfl | rfl | rfl | rfl | rfl | rfl | rfl | rfl | rfl | rfl | rfl | rfl | rfl | rfl | rfl | rfl | rfl
    | rfl | rfl | rfl | rfl | rfl | rfl <;> rfl

def chiLane (f : Nat → Lane) (p : Nat) : Lane :=
  f p ^^^ (~~~ f (5 * (p / 5) + (p % 5 + 1) % 5) &&& f (5 * (p / 5) + (p % 5 + 2) % 5))

theorem keccakChi_eq (f : Nat → Lane) : keccakChi (list25 f) = some (list25 (chiLane f)) := by
  unfold keccakChi
  obtain ⟨s, h, e⟩ := loop_inv (body := fun t A => (do
    let i := 5 * t
    let a0 ← A[0 + i]?
    let a1 ← A[1 + i]?
    let a2 ← A[2 + i]?
    let A ← xorInto A (0 + i) (~~~a1 &&& a2)
    let a2 ← A[2 + i]?
    let a3 ← A[3 + i]?
    let A ← xorInto A (1 + i) (~~~a2 &&& a3)
    let a3 ← A[3 + i]?
    let a4 ← A[4 + i]?
    let A ← xorInto A (2 + i) (~~~a3 &&& a4)
    let a4 ← A[4 + i]?
    let A ← xorInto A (3 + i) (~~~a4 &&& a0)
    xorInto A (4 + i) (~~~a0 &&& a1))) (fun k A => A = list25 fun p => if p < 5 * k then chiLane f p else f p) (n := 5) (s := list25 f) rfl (by
      rintro i hi st rfl
      refine ⟨_, ?_, rfl⟩
      have hi : i = 0 ∨ i = 1 ∨ i = 2 ∨ i = 3 ∨ i = 4 := by omega
      rcases hi with rfl | rfl | rfl | rfl | rfl <;> rfl)
  rw [h, e]; rfl

theorem xorInto_eq (f : Nat → Lane) (c : Lane) : xorInto (list25 f) 0 c = some (list25 fun p => if p = 0 then f p ^^^ c else f p) := rfl

/-! ### Lanes and states -/

theorem getLsbD_rotl64 (q : Lane) {n : Nat} (h0 : 0 < n) (hn : n < 64) {z : Nat} (hz : z < 64) :
    (rotl64 q n).getLsbD z = q.getLsbD ((z + (64 - n)) % 64) := by
  unfold rotl64
  rw [BitVec.getLsbD_xor, BitVec.getLsbD_shiftLeft, BitVec.getLsbD_ushiftRight]
  by_cases h : z < n
  · rw [show (z + (64 - n)) % 64 = 64 - n + z by omega]
    simp [h]
  · rw [show (z + (64 - n)) % 64 = z - n by omega, BitVec.getLsbD_of_ge q (64 - n + z) (by omega)]
    simp [h, hz]

theorem fin5_cases (x : Fin 5) : x = 0 ∨ x = 1 ∨ x = 2 ∨ x = 3 ∨ x = 4 := by omega

theorem state_theta (f : Nat → Lane) : lanesState (thetaLane f) = Sha3.theta (lanesState f) := by
  have hc : ∀ (x : Fin 5) (z : Fin 64), (laneColumn f x.val).getLsbD z.val = Sha3.column (lanesState f) x z := by
    intro x z
    unfold laneColumn Sha3.column lanesState
    simp only [BitVec.getLsbD_xor]
    rw [show 5 * (0 : Fin 5).val + x.val = x.val from Nat.zero_add _, show 5 * (1 : Fin 5).val + x.val = x.val + 5 from Nat.add_comm _ _,
      show 5 * (2 : Fin 5).val + x.val = x.val + 10 from Nat.add_comm _ _, show 5 * (3 : Fin 5).val + x.val = x.val + 15 from Nat.add_comm _ _,
      show 5 * (4 : Fin 5).val + x.val = x.val + 20 from Nat.add_comm _ _]
  funext x y z
  show (thetaLane f (5 * y.val + x.val)).getLsbD z.val = _
  unfold thetaLane Sha3.theta
  rw [show (5 * y.val + x.val) % 5 = x.val by omega, BitVec.getLsbD_xor, BitVec.getLsbD_xor, getLsbD_rotl64 _ (by omega) (by omega) z.isLt]
  have h1 := hc (x + 1) (z - 1)
  have h4 := hc (x - 1) z
  have e1 : (x + 1).val = (x.val + 1) % 5 := by rcases fin5_cases x with rfl | rfl | rfl | rfl | rfl <;> rfl
  have e4 : (x - 1).val = (x.val + 4) % 5 := by rcases fin5_cases x with rfl | rfl | rfl | rfl | rfl <;> rfl
  have ez : (z - 1).val = (z.val + (64 - 1)) % 64 := by
    rw [Fin.sub_def]; show (64 - 1 + z.val) % 64 = _; rw [Nat.add_comm]
  rw [← e1, ← e4, ← ez, h1, h4, Bool.xor_comm (Sha3.column _ (x + 1) _)]
  rfl

theorem rho_table : ∀ x y : Fin 5, Sha3.rhoOffset x y % 64 = rhoAmount (5 * y.val + x.val) ∧ rhoAmount (5 * y.val + x.val) < 64 := by
  decide +kernel

theorem rho_positive : ∀ x y : Fin 5, 5 * y.val + x.val ≠ 0 → 0 < rhoAmount (5 * y.val + x.val) := by decide +kernel

theorem state_rho (f : Nat → Lane) : lanesState (rhoLane f) = Sha3.rho (lanesState f) := by
  funext x y z
  obtain ⟨h1, h2⟩ := rho_table x y
  show (rhoLane f (5 * y.val + x.val)).getLsbD z.val = (f (5 * y.val + x.val)).getLsbD (z - Fin.ofNat 64 (Sha3.rhoOffset x y)).val
  have ez : (z - Fin.ofNat 64 (Sha3.rhoOffset x y)).val = (z.val + (64 - rhoAmount (5 * y.val + x.val))) % 64 := by
    rw [← h1, Fin.sub_def]; show (64 - Sha3.rhoOffset x y % 64 + z.val) % 64 = _; rw [Nat.add_comm]
  rw [ez]
  unfold rhoLane
  by_cases h : 5 * y.val + x.val = 0
  · rw [if_pos h, h]
    show (f 0).getLsbD z.val = (f 0).getLsbD ((z.val + 64) % 64)
    rw [show (z.val + 64) % 64 = z.val by omega]
  · rw [if_neg h, getLsbD_rotl64 _ (rho_positive x y h) h2 z.isLt]

theorem state_pi (f : Nat → Lane) : lanesState (piLane f) = Sha3.pi (lanesState f) := by
  funext x y z
  show (piLane f (5 * y.val + x.val)).getLsbD z.val = (f (5 * x.val + (x + 3 * y).val)).getLsbD z.val
  rcases fin5_cases x with rfl | rfl | rfl | rfl | rfl <;> rcases fin5_cases y with rfl | rfl | rfl | rfl | rfl <;> rfl

theorem state_chi (f : Nat → Lane) : lanesState (chiLane f) = Sha3.chi (lanesState f) := by
  funext x y z
  show (chiLane f (5 * y.val + x.val)).getLsbD z.val = ((f (5 * y.val + x.val)).getLsbD z.val ^^
    ((! (f (5 * y.val + (x + 1).val)).getLsbD z.val) && (f (5 * y.val + (x + 2).val)).getLsbD z.val))
  unfold chiLane
  rw [show (5 * y.val + x.val) % 5 = x.val by omega, show (5 * y.val + x.val) / 5 = y.val by omega, BitVec.getLsbD_xor, BitVec.getLsbD_and,
    BitVec.getLsbD_not, decide_eq_true z.isLt, Bool.true_and]
  rfl

theorem constants_table : ∀ ir : Fin 24, ∀ z : Fin 64, (keccakRoundConstants.getD ir.val 0).getLsbD z.val = Sha3.roundConstant ir.val z := by
  decide +kernel

theorem constants_get {ir : Nat} (h : ir < 24) : keccakRoundConstants[ir]? = some (keccakRoundConstants.getD ir 0) := by
  rw [List.getD_eq_getElem?_getD, List.getElem?_eq_getElem (show ir < keccakRoundConstants.length from h)]; rfl

theorem state_iota (f : Nat → Lane) {ir : Nat} (h : ir < 24) :
    lanesState (fun p => if p = 0 then f p ^^^ keccakRoundConstants.getD ir 0 else f p) = Sha3.iota (lanesState f) ir := by
  funext x y z
  show (if 5 * y.val + x.val = 0 then f (5 * y.val + x.val) ^^^ keccakRoundConstants.getD ir 0 else f (5 * y.val + x.val)).getLsbD z.val
    = if x = 0 ∧ y = 0 then (f (5 * y.val + x.val)).getLsbD z.val ^^ Sha3.roundConstant ir z else (f (5 * y.val + x.val)).getLsbD z.val
  by_cases hp : 5 * y.val + x.val = 0
  · rw [if_pos hp, if_pos ⟨by omega, by omega⟩, BitVec.getLsbD_xor, constants_table ⟨ir, h⟩ z]
  · rw [if_neg hp, if_neg (by omega)]

/-- The permutation. -/
theorem sha3Permutation_eq (f : Nat → Lane) : ∃ f', sha3Permutation (list25 f) = some (list25 f') ∧ lanesState f' = Sha3.keccakP (lanesState f) := by
  obtain ⟨A, h1, f1, e1, e2⟩ := loop_inv (body := fun round A => do
    let A ← keccakTheta A
    let A ← keccakRho rhoConstants A
    let A ← keccakPi A
    let A ← keccakChi A
    let c ← keccakRoundConstants[round]?
    xorInto A 0 c) (fun r A => ∃ f', A = list25 f' ∧ lanesState f' = Sha3.rounds (lanesState f) r) (n := 24)
    (s := list25 f) ⟨_, rfl, rfl⟩ (by
      rintro r hr A ⟨f', rfl, e⟩
      rw [keccakTheta_eq, Option.bind_eq_bind, Option.bind_some, keccakRho_eq, Option.bind_some, keccakPi_eq,
        Option.bind_some, keccakChi_eq, Option.bind_some, constants_get hr, Option.bind_eq_bind, Option.bind_some, xorInto_eq]
      refine ⟨_, rfl, _, rfl, ?_⟩
      rw [state_iota _ hr, state_chi, state_pi, state_rho, state_theta, Sha3.rounds, ← e]; rfl)
  subst e1
  exact ⟨f1, h1, e2⟩

end TinyGarble.A23
