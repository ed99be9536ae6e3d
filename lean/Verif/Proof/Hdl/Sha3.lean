import Verif.Model.Hdl.Sha3
import Verif.Proof.Hdl.Aes
import Verif.Proof.A23Sha3

/-! Keccak as a circuit. -/

namespace TinyGarble.Proof.Hdl.Sha3

open TinyGarble.Hdl TinyGarble.Hdl.Sha3 TinyGarble.Proof.Hdl
open TinyGarble.A23 (thetaLane rhoLane piLane chiLane lanesState rotl64 laneColumn)
open TinyGarble (Spec.Sha3.State)

/-- Lane `p` of a vector. -/
def lanes (v : BitVec 1600) (p : Nat) : BitVec 64 := v.extractLsb' (64 * (24 - p)) 64

/-- The state array of a vector. -/
def stateOf (v : BitVec 1600) : Spec.Sha3.State := lanesState (lanes v)

/-- A round without the constant. -/
def plain (A : Spec.Sha3.State) : Spec.Sha3.State := Spec.Sha3.chi (Spec.Sha3.pi (Spec.Sha3.rho (Spec.Sha3.theta A)))

theorem rotUp_eq (a : BitVec 64) {n : Nat} (h0 : 0 < n) (hn : n < 64) : rotUp a n = rotl64 a n := by
  apply eq_of_bits
  intro z hz
  rw [TinyGarble.A23.getLsbD_rotl64 a h0 hn hz, rotUp, BitVec.getLsbD_setWidth, BitVec.getLsbD_append]
  simp only [hz, decide_true, Bool.true_and, BitVec.getLsbD_extractLsb']
  by_cases h : z < n
  · rw [if_pos h, show (z + (64 - n)) % 64 = 64 - n + z by omega]
    simp [h]
  · rw [if_neg h, show (z + (64 - n)) % 64 = z - n by omega]
    have : z - n < 64 - n := by omega
    simp [this]

theorem moves_find : ∀ x < 5, ∀ y < 5, moves.find? (fun m => m.1 == (x, y)) = some ((x, y), ((x + 3 * y) % 5, x)) := by decide

theorem rotations_eq : ∀ x < 5, ∀ y < 5, ¬ (x = 0 ∧ y = 0) → rotations.getD (5 * y + x) 0 = TinyGarble.A23.rhoAmount (5 * y + x) ∧
    0 < TinyGarble.A23.rhoAmount (5 * y + x) ∧ TinyGarble.A23.rhoAmount (5 * y + x) < 64 := by decide

theorem roundLane_eq (v : BitVec 1600) (rc : BitVec 64) {x y : Nat} (hx : x < 5) (hy : y < 5) (z : Nat) (hz : z < 64) :
    (roundLane v rc x y).getLsbD z = ((chiLane (piLane (rhoLane (thetaLane (lanes v)))) (5 * y + x)).getLsbD z ^^
      (decide (x = 0 ∧ y = 0) && decide (z = 0 ∨ z = 1 ∨ z = 3 ∨ z = 7 ∨ z = 15 ∨ z = 31 ∨ z = 63) && rc.getLsbD z)) := by
  unfold roundLane
  extract_lets a b c d e f
  have ha : ∀ x < 5, ∀ y < 5, a x y = lanes v (5 * y + x) := by
    intro x hx y hy
    show v.extractLsb' (lowPos x y) 64 = _
    rw [lanes, lowPos, show 1599 - 64 * (5 * y + x) - 63 = 64 * (24 - (5 * y + x)) by omega]
  have hb : ∀ x < 5, b x = laneColumn (lanes v) x := by
    intro x hx
    show a x 0 ^^^ a x 1 ^^^ a x 2 ^^^ a x 3 ^^^ a x 4 = _
    rw [ha x hx 0 (by omega), ha x hx 1 (by omega), ha x hx 2 (by omega), ha x hx 3 (by omega), ha x hx 4 (by omega), laneColumn,
      show 5 * 0 + x = x by omega, show 5 * 1 + x = x + 5 by omega, show 5 * 2 + x = x + 10 by omega, show 5 * 3 + x = x + 15 by omega,
      show 5 * 4 + x = x + 20 by omega]
  have hs1 : ∀ x < 5, sub1 x = (x + 4) % 5 := by decide
  have ha1 : ∀ x < 5, add1 x = (x + 1) % 5 := by decide
  have ha2 : ∀ x < 5, add2 x = (x + 2) % 5 := by decide
  have hc : ∀ x < 5, ∀ y < 5, c x y = thetaLane (lanes v) (5 * y + x) := by
    intro x hx y hy
    show a x y ^^^ b (sub1 x) ^^^ rotUp (b (add1 x)) 1 = _
    rw [ha x hx y hy, hs1 x hx, ha1 x hx, hb _ (by omega), hb _ (by omega), rotUp_eq _ (by omega) (by omega), thetaLane,
      show (5 * y + x) % 5 = x by omega, BitVec.xor_assoc, BitVec.xor_comm (laneColumn _ ((x + 4) % 5))]
  have hd : ∀ x < 5, ∀ y < 5, d x y = rhoLane (thetaLane (lanes v)) (5 * y + x) := by
    intro x hx y hy
    show (if x = 0 ∧ y = 0 then c 0 0 else rotUp (c x y) (rotations.getD (5 * y + x) 0)) = _
    rw [rhoLane]
    by_cases h : x = 0 ∧ y = 0
    · rw [if_pos h, if_pos (by omega), hc 0 (by omega) 0 (by omega)]
    · obtain ⟨h1, h2, h3⟩ := rotations_eq x hx y hy h
      rw [if_neg h, if_neg (by omega), hc x hx y hy, h1, rotUp_eq _ h2 h3]
  have he : ∀ x < 5, ∀ y < 5, e x y = piLane (rhoLane (thetaLane (lanes v))) (5 * y + x) := by
    intro x hx y hy
    show (match moves.find? fun m => m.1 == (x, y) with | some m => d m.2.1 m.2.2 | none => 0) = _
    rw [moves_find x hx y hy]
    show d ((x + 3 * y) % 5) x = _
    rw [hd _ (by omega) _ hx, piLane, show (5 * y + x) % 5 = x by omega, show (5 * y + x) / 5 = y by omega]
  have hf : ∀ x < 5, ∀ y < 5, f x y = chiLane (piLane (rhoLane (thetaLane (lanes v)))) (5 * y + x) := by
    intro x hx y hy
    show e x y ^^^ (~~~(e (add1 x) y) &&& e (add2 x) y) = _
    rw [he x hx y hy, ha1 x hx, ha2 x hx, he _ (by omega) y hy, he _ (by omega) y hy, chiLane, show (5 * y + x) % 5 = x by omega,
      show (5 * y + x) / 5 = y by omega]
  clear_value f
  by_cases h : x = 0 ∧ y = 0
  · obtain ⟨rfl, rfl⟩ := h
    rw [if_pos ⟨rfl, rfl⟩, getLsbD_ofBits, hf 0 hx 0 hy]
    by_cases hz' : z = 0 ∨ z = 1 ∨ z = 3 ∨ z = 7 ∨ z = 15 ∨ z = 31 ∨ z = 63
    · simp [hz, hz']
    · simp [hz, hz']
  · rw [if_neg h, hf x hx y hy]
    simp [h]

theorem lanes_round (v : BitVec 1600) (rc : BitVec 64) {p : Nat} (hp : p < 25) : lanes (round v rc) p = roundLane v rc (p % 5) (p / 5) := by
  show entry 64 (round v rc) (24 - p) = _
  rw [round, Aes.entry_of _ (by omega), show 24 - (24 - p) = p by omega]

theorem state_round (v : BitVec 1600) (rc : BitVec 64) : stateOf (round v rc) = fun x y z => plain (stateOf v) x y z ^^
    (decide (x = 0 ∧ y = 0) && decide (z.val = 0 ∨ z.val = 1 ∨ z.val = 3 ∨ z.val = 7 ∨ z.val = 15 ∨ z.val = 31 ∨ z.val = 63) && rc.getLsbD z.val) := by
  funext x y z
  show (lanes (round v rc) (5 * y.val + x.val)).getLsbD z.val = _
  rw [lanes_round v rc (by omega), roundLane_eq _ _ (by omega) (by omega) _ z.isLt, show 5 * ((5 * y.val + x.val) / 5) + (5 * y.val + x.val) % 5 = 5 * y.val + x.val by omega,
    show (5 * y.val + x.val) % 5 = x.val by omega, show (5 * y.val + x.val) / 5 = y.val by omega]
  have h1 : (chiLane (piLane (rhoLane (thetaLane (lanes v)))) (5 * y.val + x.val)).getLsbD z.val =
      plain (stateOf v) x y z := by
    show lanesState _ x y z = _
    rw [TinyGarble.A23.state_chi, TinyGarble.A23.state_pi, TinyGarble.A23.state_rho, TinyGarble.A23.state_theta]
    rfl
  have h2 : (x.val = 0 ∧ y.val = 0) = (x = 0 ∧ y = 0) := by
    apply propext
    constructor <;> rintro ⟨h, h'⟩ <;> constructor <;> omega
  rw [h1]
  simp only [h2]

theorem rconst_table : ∀ ir : Fin 24, ∀ z : Fin 64, (decide (z.val = 0 ∨ z.val = 1 ∨ z.val = 3 ∨ z.val = 7 ∨ z.val = 15 ∨ z.val = 31 ∨ z.val = 63) &&
    (rconst (BitVec.twoPow 24 ir.val)).getLsbD z.val) = Spec.Sha3.roundConstant ir.val z := by decide +kernel

theorem rconst_zero : rconst 0 = 0 := by decide +kernel

/-- A round with the constant of its number. -/
theorem state_round_const (v : BitVec 1600) {ir : Nat} (h : ir < 24) :
    stateOf (round v (rconst (BitVec.twoPow 24 ir))) = Spec.Sha3.round (stateOf v) ir := by
  rw [state_round]
  funext x y z
  show _ = Spec.Sha3.iota (plain (stateOf v)) ir x y z
  rw [Spec.Sha3.iota, Bool.and_assoc, rconst_table ⟨ir, h⟩ z]
  by_cases h' : x = 0 ∧ y = 0
  · simp [h']
  · rw [if_neg h']
    simp [h']

theorem state_round_zero (v : BitVec 1600) : stateOf (round v (rconst 0)) = plain (stateOf v) := by
  rw [state_round, rconst_zero]
  funext x y z
  simp

theorem state_comb (v : BitVec 1600) (n : Nat) (hn : n ≤ 24) : stateOf (combRounds v n) = Spec.Sha3.rounds (stateOf v) n := by
  induction n with
  | zero => rfl
  | succ n ih => rw [combRounds, state_round_const _ (by omega), ih (by omega)]; rfl

/-! ### Sequential -/

theorem getLsbD_rcJ {CC : Nat} (rcI : BitVec CC) (k p : Nat) (hn : 0 < 24 / CC) (hp : p < 24) :
    (rcJ rcI k).getLsbD p = decide (∃ t, t < CC ∧ p = 24 / CC * t + k ∧ rcI.getLsbD t = true) := by
  unfold rcJ
  rw [getLsbD_ofBits]
  have key : ∀ n, ((List.range n).foldl (fun r t => setBit r (24 / CC * t + k) (rcI.getLsbD t)) (fun _ => false)) p =
      decide (∃ t, t < n ∧ p = 24 / CC * t + k ∧ rcI.getLsbD t = true) := by
    intro n
    induction n with
    | zero => simp
    | succ n ih =>
      rw [List.range_succ, List.foldl_append, List.foldl_cons, List.foldl_nil, setBit, ih]
      by_cases h : p = 24 / CC * n + k
      · rw [if_pos h]
        rw [Bool.eq_iff_iff, decide_eq_true_iff]
        constructor
        · intro h2
          exact ⟨n, by omega, h, h2⟩
        · rintro ⟨t, h1, h2, h3⟩
          have : t = n := Nat.eq_of_mul_eq_mul_left hn (by omega)
          rwa [← this]
      · rw [if_neg h]
        congr 1
        apply propext
        constructor
        · rintro ⟨t, h1, h2⟩
          exact ⟨t, by omega, h2⟩
        · rintro ⟨t, h1, h2, h3⟩
          refine ⟨t, ?_, h2, h3⟩
          rcases Nat.lt_or_ge t n with h4 | h4
          · exact h4
          · obtain rfl : t = n := by omega
            exact absurd h2 h
  rw [key CC]
  simp [hp]

theorem rcJ_zero {CC : Nat} (k : Nat) (hn : 0 < 24 / CC) : rcJ (0 : BitVec CC) k = 0 := by
  apply eq_of_bits
  intro p hp
  rw [getLsbD_rcJ _ _ _ hn hp]
  simp

theorem rcJ_one {CC : Nat} (k t : Nat) (hn : 0 < 24 / CC) (ht : t < CC) (hk : k < 24 / CC) :
    rcJ (BitVec.twoPow CC t) k = BitVec.twoPow 24 (24 / CC * t + k) := by
  have hlt : 24 / CC * t + k < 24 := by
    have h1 : 24 / CC * (t + 1) ≤ 24 / CC * CC := Nat.mul_le_mul_left _ ht
    have h2 := Nat.div_mul_le_self 24 CC
    rw [Nat.mul_succ] at h1
    omega
  apply eq_of_bits
  intro p hp
  rw [getLsbD_rcJ _ _ _ hn hp, BitVec.getLsbD_twoPow]
  simp only [BitVec.getLsbD_twoPow]
  rw [Bool.eq_iff_iff, decide_eq_true_iff]
  constructor
  · rintro ⟨t', h1, h2, h3⟩
    simp at h3
    rw [← h3.2] at h2
    simp [h2, hlt]
  · intro h
    simp at h
    exact ⟨t, ht, by omega, by simp [ht]⟩

/-- The registers before cycle `t`. -/
def RegsAt (CC t : Nat) (s : Regs CC) (A : Spec.Sha3.State) : Prop :=
  s.init = decide (0 < t) ∧ s.rcI = (if t = 0 then 0 else BitVec.twoPow CC (t - 1)) ∧
  stateOf s.roundReg = if t = 0 then A else Spec.Sha3.rounds (plain^[24 / CC] A) (24 / CC * (t - 1))

theorem seqRounds_zero {CC : Nat} (hn : 0 < 24 / CC) (s : Regs CC) (h : s.rcI = 0) (q : Nat) :
    stateOf (seqRounds s q) = plain^[q] (stateOf s.roundReg) := by
  induction q with
  | zero => rfl
  | succ q ih =>
    rw [seqRounds, h, rcJ_zero _ hn, state_round_zero, ih, Function.iterate_succ_apply']

theorem seqRounds_const {CC : Nat} (hn : 0 < 24 / CC) (s : Regs CC) {t : Nat} (ht : t < CC) (h : s.rcI = BitVec.twoPow CC t)
    (B : Spec.Sha3.State) (hB : stateOf s.roundReg = Spec.Sha3.rounds B (24 / CC * t)) (q : Nat) (hq : q ≤ 24 / CC) :
    stateOf (seqRounds s q) = Spec.Sha3.rounds B (24 / CC * t + q) := by
  induction q with
  | zero => exact hB
  | succ q ih =>
    have hlt : 24 / CC * t + q < 24 := by
      have h1 : 24 / CC * (t + 1) ≤ 24 / CC * CC := Nat.mul_le_mul_left _ ht
      have h2 := Nat.div_mul_le_self 24 CC
      rw [Nat.mul_succ] at h1
      omega
    rw [seqRounds, h, rcJ_one _ _ hn ht (by omega), state_round_const _ hlt, ih (by omega)]
    rfl

theorem step_regs {CC t : Nat} (hCC : 2 ≤ CC) (hn : 0 < 24 / CC) (ht : t ≤ CC) (s : Regs CC) (A : Spec.Sha3.State) (h : RegsAt CC t s A) :
    stateOf (sha3SeqStep CC s ()).2 = Spec.Sha3.rounds (plain^[24 / CC] A) (24 / CC * t) ∧
    (t < CC → RegsAt CC (t + 1) (sha3SeqStep CC s ()).1 A) := by
  obtain ⟨h1, h2, h3⟩ := h
  have hout : stateOf (sha3SeqStep CC s ()).2 = Spec.Sha3.rounds (plain^[24 / CC] A) (24 / CC * t) := by
    show stateOf (seqRounds s (24 / CC)) = _
    cases t with
    | zero =>
      rw [if_pos rfl] at h2 h3
      rw [seqRounds_zero hn s h2, h3]
      rfl
    | succ t =>
      rw [if_neg (by omega)] at h2 h3
      rw [seqRounds_const hn s (t := t) (by omega) h2 _ h3 _ (Nat.le_refl _), Nat.mul_succ]
  refine ⟨hout, fun htl => ⟨?_, ?_, ?_⟩⟩
  · simp [sha3SeqStep]
  · rw [if_neg (by omega), Nat.add_sub_cancel]
    show (s.rcI.extractLsb' 0 (CC - 1) ++ BitVec.ofBool (!s.init)).setWidth CC = _
    apply eq_of_bits
    intro j hj
    rw [BitVec.getLsbD_setWidth, BitVec.getLsbD_append, BitVec.getLsbD_extractLsb', BitVec.getLsbD_twoPow, h1, h2]
    cases j with
    | zero =>
      by_cases h0 : t = 0
      · simp [h0, hj]
      · simp [h0, hj]
        omega
    | succ j =>
      have hj1 : j < CC - 1 := by omega
      simp only [hj, decide_true, Bool.true_and, show ¬ j + 1 < 1 by omega, if_false, Nat.add_sub_cancel, hj1]
      by_cases h0 : t = 0
      · simp [h0]
      · rw [if_neg h0, Nat.zero_add, BitVec.getLsbD_twoPow]
        rw [Bool.eq_iff_iff]
        simp
        omega
  · rw [if_neg (by omega), Nat.add_sub_cancel]
    exact hout

theorem run_regs {CC : Nat} (hCC : 2 ≤ CC) (hn : 0 < 24 / CC) (A : Spec.Sha3.State) (n t : Nat) (h : t + n ≤ CC + 1) (s : Regs CC) (hs : RegsAt CC t s A) :
    ∀ i, i < n → ∃ o, (runSeq (sha3SeqStep CC) s (List.replicate n ()))[i]? = some o ∧
      stateOf o = Spec.Sha3.rounds (plain^[24 / CC] A) (24 / CC * (t + i)) := by
  induction n generalizing t s with
  | zero => intro i hi; omega
  | succ n ih =>
    intro i hi
    rw [List.replicate_succ, runSeq]
    obtain ⟨h1, h2⟩ := step_regs hCC hn (by omega) s A hs
    cases i with
    | zero => exact ⟨_, rfl, h1⟩
    | succ i =>
      rw [List.getElem?_cons_succ]
      obtain ⟨o, h3, h4⟩ := ih (t + 1) (by omega) _ (h2 (by omega)) i (by omega)
      exact ⟨o, h3, by rw [h4, show t + 1 + i = t + (i + 1) by omega]⟩

/-! ### Computing a permutation -/

/-- The rounds of `sha3Permutation`. -/
def listRounds (n : Nat) (A : List (BitVec 64)) : Option (List (BitVec 64)) :=
  A23.loop (fun round A => do
    let A ← A23.keccakTheta A
    let A ← A23.keccakRho A23.rhoConstants A
    let A ← A23.keccakPi A
    let A ← A23.keccakChi A
    let c ← A23.keccakRoundConstants[round]?
    A23.xorInto A 0 c) n A

open TinyGarble.A23 in
theorem listRounds_eq (f : Nat → BitVec 64) {n : Nat} (hn : n ≤ 24) :
    ∃ f', listRounds n (list25 f) = some (list25 f') ∧ lanesState f' = Spec.Sha3.rounds (lanesState f) n := by
  obtain ⟨A, h1, f1, e1, e2⟩ := loop_inv (body := fun round A => do
    let A ← keccakTheta A
    let A ← keccakRho rhoConstants A
    let A ← keccakPi A
    let A ← keccakChi A
    let c ← keccakRoundConstants[round]?
    xorInto A 0 c) (fun r A => ∃ f', A = list25 f' ∧ lanesState f' = Spec.Sha3.rounds (lanesState f) r) (n := n)
    (s := list25 f) ⟨_, rfl, rfl⟩ (by
      rintro r hr A ⟨f', rfl, e⟩
      rw [keccakTheta_eq, Option.bind_eq_bind, Option.bind_some, keccakRho_eq, Option.bind_some, keccakPi_eq,
        Option.bind_some, keccakChi_eq, Option.bind_some, constants_get (by omega), Option.bind_eq_bind, Option.bind_some, xorInto_eq]
      refine ⟨_, rfl, _, rfl, ?_⟩
      rw [state_iota _ (by omega), state_chi, state_pi, state_rho, state_theta, Spec.Sha3.rounds, ← e]; rfl)
  subst e1
  exact ⟨f1, h1, e2⟩

/-- After 23 rounds from the state of zeros bit 0 of the first lane is not what it is after 24. -/
theorem zero_rounds_ne : Spec.Sha3.rounds (fun _ _ _ => false) 23 ≠ Spec.Sha3.rounds (fun _ _ _ => false) 24 := by
  obtain ⟨f, h1, h2⟩ := listRounds_eq (fun _ => 0) (n := 23) (by omega)
  obtain ⟨f', h3, h4⟩ := listRounds_eq (fun _ => 0) (n := 24) (by omega)
  have hz : lanesState (fun _ => 0) = fun _ _ _ => false := by
    funext x y z
    show (0 : BitVec 64).getLsbD z.val = false
    simp
  rw [hz] at h2 h4
  rw [← h2, ← h4]
  intro h
  have h0 : f 0 = f' 0 := by
    apply eq_of_bits
    intro j hj
    exact congrFun (congrFun (congrFun h 0) 0) ⟨j, hj⟩
  have hk : ((listRounds 23 (List.replicate 25 0)).bind (·[0]?)) ≠ ((listRounds 24 (List.replicate 25 0)).bind (·[0]?)) := by decide +kernel
  apply hk
  have e : List.replicate 25 (0 : BitVec 64) = A23.list25 (fun _ => 0) := rfl
  rw [e, h1, h3]
  show (A23.list25 f)[0]? = (A23.list25 f')[0]?
  rw [A23.list25_get _ (by omega), A23.list25_get _ (by omega), h0]

theorem plain_zero : plain (fun _ _ _ => false) = fun _ _ _ => false := by
  funext x y z
  simp [plain, Spec.Sha3.chi, Spec.Sha3.pi, Spec.Sha3.rho, Spec.Sha3.theta, Spec.Sha3.column]

end TinyGarble.Proof.Hdl.Sha3
