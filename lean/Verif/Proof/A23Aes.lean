import Verif.Proof.A23Sbox
import Verif.Proof.A23Sum
import Verif.Proof.Aes

/-! The cipher of aes.c. -/

namespace TinyGarble.A23
open Spec

theorem loop_congr {σ : Type} {body body' : Nat → σ → Option σ} {n : Nat} (h : ∀ i < n, ∀ s, body i s = body' i s) (s : σ) :
    loop body n s = loop body' n s := by
  induction n with
  | zero => rfl
  | succ n ih =>
    rw [loop, loop, ih fun i hi => h i (by omega)]
    cases loop body' n s with
    | none => rfl
    | some s' => exact h n (by omega) s'

/-- A list of 16 elements. -/
def list16 (f : Nat → Byte) : List Byte :=
  [f 0, f 1, f 2, f 3, f 4, f 5, f 6, f 7, f 8, f 9, f 10, f 11, f 12, f 13, f 14, f 15]

theorem list16_of_length {l : List Byte} (h : l.length = 16) : l = list16 (l.getD · 0) := by
  apply List.ext_getElem h
  intro i h1 h2
  have hi : i = 0 ∨ i = 1 ∨ i = 2 ∨ i = 3 ∨ i = 4 ∨ i = 5 ∨ i = 6 ∨ i = 7 ∨ i = 8 ∨ i = 9 ∨ i = 10 ∨ i = 11
      ∨ i = 12 ∨ i = 13 ∨ i = 14 ∨ i = 15 := by omega
  rcases hi with rfl | rfl | rfl | rfl | rfl | rfl | rfl | rfl | rfl | rfl | rfl | rfl | rfl | rfl | rfl | rfl <;>
    simp [list16, List.getD_eq_getElem?_getD, h1]

/-- The state of the standard: row `r`, column `c` is `(*state)[c][r]`. -/
def stateOf (f : Nat → Byte) : Aes.State := Aes.stateOfBytes f

/-- A word of the key schedule. -/
def rkWord (rk : List Byte) (i : Nat) : Aes.Word := fun r => rk.getD (4 * i + r.val) 0

theorem loop_rows (u : Nat → Byte → Byte) (f : Nat → Byte) : loop (fun i st => loop (fun j st => do
    let x ← st[i * 4 + j]?
    store st (i * 4 + j) (u (i * 4 + j) x)) 4 st) 4 (list16 f) = some (list16 fun p => u p (f p)) := by
  simp [loop, store, list16]

theorem loop_columns (u : Byte → Byte) (f : Nat → Byte) : loop (fun i st => loop (fun j st => do
    let x ← st[j * 4 + i]?
    store st (j * 4 + i) (u x)) 4 st) 4 (list16 f) = some (list16 fun p => u (f p)) := by
  simp [loop, store, list16]

theorem addRoundKey_eq {rk : List Byte} (hrk : rk.length = 176) {round : Nat} (hr : round < 11) (f : Nat → Byte) :
    addRoundKey rk round (list16 f) = some (list16 fun p => f p ^^^ rk.getD (16 * round + p) 0) := by
  rw [← loop_rows fun p x => x ^^^ rk.getD (16 * round + p) 0]
  apply loop_congr
  intro i hi st
  apply loop_congr
  intro j hj st
  have e : rk[round * 4 * 4 + i * 4 + j]? = some (rk.getD (16 * round + (i * 4 + j)) 0) := by
    have hlt : 16 * round + (i * 4 + j) < rk.length := by omega
    rw [List.getD_eq_getElem?_getD, show round * 4 * 4 + i * 4 + j = 16 * round + (i * 4 + j) by omega,
      List.getElem?_eq_getElem hlt]; rfl
  rw [e]; rfl

theorem subBytes_eq {sub : Byte → Option Byte} (hs : ∀ b, sub b = some (Aes.sbox b)) (f : Nat → Byte) :
    subBytes sub (list16 f) = some (list16 fun p => Aes.sbox (f p)) := by
  rw [← loop_columns Aes.sbox]
  apply loop_congr
  intro i hi st
  apply loop_congr
  intro j hj st
  simp only [hs, Option.bind_eq_bind, Option.bind_some]

theorem shiftRows_eq (f : Nat → Byte) : shiftRows (list16 f) = some (list16 fun p => f (4 * ((p / 4 + p % 4) % 4) + p % 4)) := rfl

/-- A byte of `MixColumns`. -/
def mixed (f : Nat → Byte) (p : Nat) : Byte :=
  f (4 * (p / 4) + p % 4) ^^^ (xtime (f (4 * (p / 4) + p % 4) ^^^ f (4 * (p / 4) + (p % 4 + 1) % 4))
    ^^^ (f (4 * (p / 4)) ^^^ f (4 * (p / 4) + 1) ^^^ f (4 * (p / 4) + 2) ^^^ f (4 * (p / 4) + 3)))

theorem mixColumns_eq (f : Nat → Byte) : mixColumns (list16 f) = some (list16 (mixed f)) := by
  obtain ⟨s, h, e⟩ := loop_inv (body := fun i st => do
    let t ← st[i * 4 + 0]?
    let a1 ← st[i * 4 + 1]?
    let a2 ← st[i * 4 + 2]?
    let a3 ← st[i * 4 + 3]?
    let tmp := t ^^^ a1 ^^^ a2 ^^^ a3
    let st ← mixStep st (i * 4 + 0) t a1 tmp
    let a1 ← st[i * 4 + 1]?
    let a2 ← st[i * 4 + 2]?
    let st ← mixStep st (i * 4 + 1) a1 a2 tmp
    let a2 ← st[i * 4 + 2]?
    let a3 ← st[i * 4 + 3]?
    let st ← mixStep st (i * 4 + 2) a2 a3 tmp
    let a3 ← st[i * 4 + 3]?
    mixStep st (i * 4 + 3) a3 t tmp) (fun k st => st = list16 fun p => if p < 4 * k then mixed f p else f p) (n := 4) (s := list16 f) rfl (by
      rintro i hi st rfl
      refine ⟨_, ?_, rfl⟩
      have hi : i = 0 ∨ i = 1 ∨ i = 2 ∨ i = 3 := by omega
      rcases hi with rfl | rfl | rfl | rfl <;> rfl)
  unfold mixColumns
  rw [h, e]; rfl

theorem xtime_eq (b : Byte) : xtime b = double8 b := by
  have : ∀ b : Fin 256, xtime (BitVec.ofFin b) = double8 (BitVec.ofFin b) := by decide +kernel
  exact this b.toFin

theorem fin4_cases (r : Fin 4) : r = 0 ∨ r = 1 ∨ r = 2 ∨ r = 3 := by omega

theorem state_addRoundKey (rk : List Byte) (round : Nat) (f : Nat → Byte) :
    stateOf (fun p => f p ^^^ rk.getD (16 * round + p) 0) = Aes.addRoundKey (rkWord rk) round (stateOf f) := by
  funext r c
  show f _ ^^^ rk.getD _ 0 = f _ ^^^ rk.getD _ 0
  rw [show 16 * round + (4 * c.val + r.val) = 4 * (4 * round + c.val) + r.val by omega]

theorem state_shiftRows (f : Nat → Byte) :
    stateOf (fun p => f (4 * ((p / 4 + p % 4) % 4) + p % 4)) = Aes.shiftRows (stateOf f) := by
  funext r c
  rcases fin4_cases r with rfl | rfl | rfl | rfl <;> rcases fin4_cases c with rfl | rfl | rfl | rfl <;> rfl

theorem mix_algebra (x y z w p q : Byte) : x ^^^ ((p ^^^ q) ^^^ (x ^^^ y ^^^ z ^^^ w)) = p ^^^ (q ^^^ y) ^^^ z ^^^ w := by
  apply BitVec.eq_of_getLsbD_eq
  intro i hi
  simp only [BitVec.getLsbD_xor]
  cases x.getLsbD i <;> cases y.getLsbD i <;> cases z.getLsbD i <;> cases w.getLsbD i <;> cases p.getLsbD i <;> cases q.getLsbD i <;> rfl

theorem state_mixColumns (f : Nat → Byte) : stateOf (mixed f) = Aes.mixColumns (stateOf f) := by
  funext r c
  have h4 : (4 * c.val + r.val) / 4 = c.val := by omega
  have h5 : (4 * c.val + r.val) % 4 = r.val := by omega
  show f _ ^^^ (xtime (f _ ^^^ f _) ^^^ _) = Aes.mul 0x02 (f _) ^^^ Aes.mul 0x03 (f _) ^^^ f _ ^^^ f _
  rw [h4, h5, xtime_eq, double8_xor, mul_two, mul_three, ← mix_algebra (f (4 * c.val + r.val))]
  have hy : ((r + 1 : Fin 4)).val = (r.val + 1) % 4 := rfl
  have hz : ((r + 2 : Fin 4)).val = (r.val + 2) % 4 := rfl
  have hw : ((r + 3 : Fin 4)).val = (r.val + 3) % 4 := rfl
  rw [hy, hz, hw]
  congr 2
  rcases fin4_cases r with rfl | rfl | rfl | rfl
  · rfl
  · show f (4 * c.val) ^^^ f (4 * c.val + 1) ^^^ f (4 * c.val + 2) ^^^ f (4 * c.val + 3)
      = f (4 * c.val + 1) ^^^ f (4 * c.val + 2) ^^^ f (4 * c.val + 3) ^^^ f (4 * c.val)
    ac_rfl
  · show f (4 * c.val) ^^^ f (4 * c.val + 1) ^^^ f (4 * c.val + 2) ^^^ f (4 * c.val + 3)
      = f (4 * c.val + 2) ^^^ f (4 * c.val + 3) ^^^ f (4 * c.val) ^^^ f (4 * c.val + 1)
    ac_rfl
  · show f (4 * c.val) ^^^ f (4 * c.val + 1) ^^^ f (4 * c.val + 2) ^^^ f (4 * c.val + 3)
      = f (4 * c.val + 3) ^^^ f (4 * c.val) ^^^ f (4 * c.val + 1) ^^^ f (4 * c.val + 2)
    ac_rfl

theorem cipher_eq {sub : Byte → Option Byte} (hs : ∀ b, sub b = some (Aes.sbox b)) {rk : List Byte} (hrk : rk.length = 176)
    (f : Nat → Byte) : ∃ f', cipher sub rk (list16 f) = some (list16 f') ∧ stateOf f' = Aes.cipher 10 (rkWord rk) (stateOf f) := by
  obtain ⟨st, h1, f1, e1, e2⟩ := loop_inv (body := fun r st => do
    let st ← subBytes sub st
    let st ← shiftRows st
    let st ← mixColumns st
    addRoundKey rk (1 + r) st) (fun r st => ∃ f', st = list16 f' ∧ stateOf f' = Aes.rounds (rkWord rk) (stateOf f) r) (n := 9)
    (s := list16 fun p => f p ^^^ rk.getD (16 * 0 + p) 0) ⟨_, rfl, state_addRoundKey rk 0 f⟩ (by
      rintro r hr st ⟨f', rfl, e⟩
      rw [subBytes_eq hs, Option.bind_eq_bind, Option.bind_some, shiftRows_eq, Option.bind_some, mixColumns_eq,
        Option.bind_some, addRoundKey_eq hrk (by omega)]
      refine ⟨_, rfl, _, rfl, ?_⟩
      rw [state_addRoundKey, state_mixColumns, state_shiftRows fun p => Aes.sbox (f' p), Aes.rounds, ← e, Nat.add_comm 1 r]; rfl)
  subst e1
  unfold cipher
  rw [addRoundKey_eq hrk (by omega)]
  simp only [Option.bind_eq_bind, Option.bind_some] at h1 ⊢
  rw [h1, Option.bind_some, subBytes_eq hs, Option.bind_some, shiftRows_eq, Option.bind_some, addRoundKey_eq hrk (by omega)]
  refine ⟨_, rfl, ?_⟩
  rw [state_addRoundKey, state_shiftRows fun p => Aes.sbox (f1 p), Aes.cipher, ← e2]; rfl

theorem blockCopy_eq {o0 e : List Byte} (ho : o0.length = 16) (he : e.length = 16) : blockCopy o0 e = some (list16 (e.getD · 0)) := by
  rw [← list16_of_length he]
  obtain ⟨o, h1, h2, h3⟩ := loop_inv (body := fun i o => do
    let x ← e[i]?
    store o i x) (fun k (o : List Byte) => o.length = 16 ∧ ∀ i < k, o[i]? = e[i]?) (n := 16) (s := o0) ⟨ho, fun _ h => by omega⟩ (by
      intro k hk o ⟨l1, p1⟩
      have ek : e[k]? = some (e[k]'(by omega)) := List.getElem?_eq_getElem _
      simp only [ek, Option.bind_eq_bind, Option.bind_some]
      refine ⟨_, store_lt (by omega), by simpa using l1, fun i hi => ?_⟩
      rw [List.getElem?_set]
      by_cases h : k = i
      · subst h; rw [if_pos rfl, if_pos (by omega), ek]
      · rw [if_neg h]; exact p1 i (by omega))
  unfold blockCopy
  rw [h1]
  congr 1
  apply List.ext_getElem?
  intro i
  by_cases hi : i < 16
  · exact h3 i hi
  · rw [List.getElem?_eq_none (by omega), List.getElem?_eq_none (by omega)]

/-! ### The key schedule -/

/-- Storing a word. -/
theorem store4 {rk : List Byte} {i : Nat} (h : i * 4 + 3 < rk.length) (w : Aes.Word) :
    rkWord ((((rk.set (i * 4 + 0) (w 0)).set (i * 4 + 1) (w 1)).set (i * 4 + 2) (w 2)).set (i * 4 + 3) (w 3)) i = w
    ∧ ∀ j, j ≠ i → rkWord ((((rk.set (i * 4 + 0) (w 0)).set (i * 4 + 1) (w 1)).set (i * 4 + 2) (w 2)).set (i * 4 + 3) (w 3)) j = rkWord rk j := by
  constructor
  · funext r
    unfold rkWord
    simp only [List.getD_eq_getElem?_getD, List.getElem?_set, List.length_set]
    rcases fin4_cases r with rfl | rfl | rfl | rfl
    · rw [if_neg (by show ¬ i * 4 + 3 = 4 * i + 0; omega), if_neg (by show ¬ i * 4 + 2 = 4 * i + 0; omega),
        if_neg (by show ¬ i * 4 + 1 = 4 * i + 0; omega), if_pos (by show i * 4 + 0 = 4 * i + 0; omega), if_pos (by omega)]; rfl
    · rw [if_neg (by show ¬ i * 4 + 3 = 4 * i + 1; omega), if_neg (by show ¬ i * 4 + 2 = 4 * i + 1; omega),
        if_pos (by show i * 4 + 1 = 4 * i + 1; omega), if_pos (by omega)]; rfl
    · rw [if_neg (by show ¬ i * 4 + 3 = 4 * i + 2; omega), if_pos (by show i * 4 + 2 = 4 * i + 2; omega), if_pos (by omega)]; rfl
    · rw [if_pos (by show i * 4 + 3 = 4 * i + 3; omega), if_pos (by omega)]; rfl
  · intro j hj
    funext r
    unfold rkWord
    simp only [List.getD_eq_getElem?_getD, List.getElem?_set]
    rw [if_neg (by omega), if_neg (by omega), if_neg (by omega), if_neg (by omega)]

theorem rk_get {rk : List Byte} {i : Nat} (r : Fin 4) {k : Nat} (hk : k = 4 * i + r.val) (h : k < rk.length) : rk[k]? = some (rkWord rk i r) := by
  subst hk
  unfold rkWord
  rw [List.getD_eq_getElem?_getD, List.getElem?_eq_getElem h]; rfl

theorem Rcon_eq : ∀ i < 11, 0 < i → Rcon[i]? = some (Aes.rcon i 0) := by decide

theorem getD_set_ne {rk : List Byte} {p q : Nat} {v : Byte} (h : p ≠ q) : (rk.set p v)[q]? = rk[q]? := by
  rw [List.getElem?_set, if_neg h]

theorem keyStep_eq {sub : Byte → Option Byte} (hs : ∀ b, sub b = some (Aes.sbox b)) {rk : List Byte} (hrk : rk.length = 176) {i : Nat}
    (h4 : 4 ≤ i) (hi : i < 44) :
    ∃ rk', keyStep sub i rk = some rk' ∧ rk'.length = 176 ∧ (∀ j, j ≠ i → rkWord rk' j = rkWord rk j)
      ∧ rkWord rk' i = Aes.addWord (rkWord rk (i - 4))
        (if i % 4 = 0 then Aes.addWord (Aes.subWord (Aes.rotWord (rkWord rk (i - 1)))) (Aes.rcon (i / 4)) else rkWord rk (i - 1)) := by
  generalize hw : (if i % 4 = 0 then Aes.addWord (Aes.subWord (Aes.rotWord (rkWord rk (i - 1)))) (Aes.rcon (i / 4))
    else rkWord rk (i - 1)) = w
  have t0 := rk_get (rk := rk) (i := i - 1) 0 (k := (i - 1) * 4 + 0) (by show _ = 4 * (i - 1) + 0; omega) (by omega)
  have t1 := rk_get (rk := rk) (i := i - 1) 1 (k := (i - 1) * 4 + 1) (by show _ = 4 * (i - 1) + 1; omega) (by omega)
  have t2 := rk_get (rk := rk) (i := i - 1) 2 (k := (i - 1) * 4 + 2) (by show _ = 4 * (i - 1) + 2; omega) (by omega)
  have t3 := rk_get (rk := rk) (i := i - 1) 3 (k := (i - 1) * 4 + 3) (by show _ = 4 * (i - 1) + 3; omega) (by omega)
  have k0 := rk_get (rk := rk) (i := i - 4) 0 (k := (i - 4) * 4 + 0) (by show _ = 4 * (i - 4) + 0; omega) (by omega)
  have k1 := rk_get (rk := rk) (i := i - 4) 1 (k := (i - 4) * 4 + 1) (by show _ = 4 * (i - 4) + 1; omega) (by omega)
  have k2 := rk_get (rk := rk) (i := i - 4) 2 (k := (i - 4) * 4 + 2) (by show _ = 4 * (i - 4) + 2; omega) (by omega)
  have k3 := rk_get (rk := rk) (i := i - 4) 3 (k := (i - 4) * 4 + 3) (by show _ = 4 * (i - 4) + 3; omega) (by omega)
  have hsel : (if i % 4 = 0 then (do
      let (t0, t1, t2, t3) := (rkWord rk (i - 1) 1, rkWord rk (i - 1) 2, rkWord rk (i - 1) 3, rkWord rk (i - 1) 0)
      let t0 ← sub t0
      let t1 ← sub t1
      let t2 ← sub t2
      let t3 ← sub t3
      let c ← Rcon[i / 4]?
      some (t0 ^^^ c, t1, t2, t3) : Option (Byte × Byte × Byte × Byte))
    else some (rkWord rk (i - 1) 0, rkWord rk (i - 1) 1, rkWord rk (i - 1) 2, rkWord rk (i - 1) 3)) = some (w 0, w 1, w 2, w 3) := by
    subst hw
    by_cases h : i % 4 = 0
    · rw [if_pos h, if_pos h, Rcon_eq (i / 4) (by omega) (by omega)]
      simp only [hs, Option.bind_eq_bind, Option.bind_some]
      have hz : ∀ r : Fin 4, r ≠ 0 → Aes.rcon (i / 4) r = 0#8 := fun r hr => if_neg hr
      simp only [Aes.addWord, hz 1 (by decide), hz 2 (by decide), hz 3 (by decide), BitVec.xor_zero]
      rfl
    · rw [if_neg h, if_neg h]
  unfold keyStep
  simp only [t0, t1, t2, t3, Option.bind_eq_bind, Option.bind_some]
  simp only [Option.bind_eq_bind] at hsel
  rw [hsel, Option.bind_some]
  dsimp only
  rw [k0, Option.bind_some, store_lt (by omega), Option.bind_some,
    getD_set_ne (by omega), k1, Option.bind_some, store_lt (by simp only [List.length_set]; omega), Option.bind_some,
    getD_set_ne (by omega), getD_set_ne (by omega), k2, Option.bind_some, store_lt (by simp only [List.length_set]; omega), Option.bind_some,
    getD_set_ne (by omega), getD_set_ne (by omega), getD_set_ne (by omega), k3, Option.bind_some,
    store_lt (by simp only [List.length_set]; omega)]
  have hst := store4 (rk := rk) (i := i) (by omega) (Aes.addWord (rkWord rk (i - 4)) w)
  exact ⟨_, rfl, by simp only [List.length_set]; exact hrk, hst.2, hst.1⟩

theorem keyExpansion_eq {sub : Byte → Option Byte} (hs : ∀ b, sub b = some (Aes.sbox b)) {key : List Byte} (hk : key.length = 16) :
    ∃ rk, keyExpansion sub key = some rk ∧ rk.length = 176 ∧ Aes.KeySchedule 4 (Aes.wordsOfBytes (key.getD · 0)) (rkWord rk) := by
  obtain ⟨rk0, h0, l0, p0⟩ := loop_inv (body := fun i rk => do
    let k ← key[i * 4 + 0]?
    let rk ← store rk (i * 4 + 0) k
    let k ← key[i * 4 + 1]?
    let rk ← store rk (i * 4 + 1) k
    let k ← key[i * 4 + 2]?
    let rk ← store rk (i * 4 + 2) k
    let k ← key[i * 4 + 3]?
    store rk (i * 4 + 3) k) (fun n (rk : List Byte) => rk.length = 176 ∧ ∀ i < n, rkWord rk i = rkWord key i) (n := 4)
    (s := List.replicate 176 0) ⟨List.length_replicate, fun _ h => by omega⟩ (by
      intro i hi rk ⟨l1, p1⟩
      have t0 := rk_get (rk := key) (i := i) 0 (k := i * 4 + 0) (by show _ = 4 * i + 0; omega) (by omega)
      have t1 := rk_get (rk := key) (i := i) 1 (k := i * 4 + 1) (by show _ = 4 * i + 1; omega) (by omega)
      have t2 := rk_get (rk := key) (i := i) 2 (k := i * 4 + 2) (by show _ = 4 * i + 2; omega) (by omega)
      have t3 := rk_get (rk := key) (i := i) 3 (k := i * 4 + 3) (by show _ = 4 * i + 3; omega) (by omega)
      simp only [t0, t1, t2, t3, Option.bind_eq_bind, Option.bind_some]
      rw [store_lt (by omega), Option.bind_some, store_lt (by simp only [List.length_set]; omega), Option.bind_some,
        store_lt (by simp only [List.length_set]; omega), Option.bind_some, store_lt (by simp only [List.length_set]; omega)]
      have hst := store4 (rk := rk) (i := i) (by omega) (rkWord key i)
      refine ⟨_, rfl, by simp only [List.length_set]; exact l1, fun j hj => ?_⟩
      by_cases h : j = i
      · subst h; exact hst.1
      · rw [hst.2 j h]; exact p1 j (by omega))
  obtain ⟨rk, h1, l1, p1, q1⟩ := loop_inv (body := fun t rk => keyStep sub (4 + t) rk) (fun n (rk : List Byte) => rk.length = 176
      ∧ (∀ i < 4, rkWord rk i = rkWord key i)
      ∧ ∀ i, 4 ≤ i → i < 4 + n → rkWord rk i = Aes.addWord (rkWord rk (i - 4))
        (if i % 4 = 0 then Aes.addWord (Aes.subWord (Aes.rotWord (rkWord rk (i - 1)))) (Aes.rcon (i / 4)) else rkWord rk (i - 1)))
    (n := 40) (s := rk0) ⟨l0, p0, fun i h1 h2 => by omega⟩ (by
      intro n hn rk ⟨l1, p1, q1⟩
      obtain ⟨rk', e1, e2, e3, e4⟩ := keyStep_eq hs l1 (i := 4 + n) (by omega) (by omega)
      refine ⟨rk', e1, e2, fun i hi => by rw [e3 i (by omega)]; exact p1 i hi, fun i h4 hi => ?_⟩
      by_cases h : i = 4 + n
      · subst h
        rw [e4, e3 (4 + n - 4) (by omega), e3 (4 + n - 1) (by omega)]
      · rw [e3 i h, e3 (i - 4) (by omega), e3 (i - 1) (by omega)]; exact q1 i h4 (by omega))
  refine ⟨rk, ?_, l1, p1, fun i h4 hi => ?_⟩
  · unfold keyExpansion
    rw [h0]; exact h1
  · rw [q1 i h4 (by omega)]
    rfl

theorem aesMain_eq {sub : Byte → Option Byte} (hs : ∀ b, sub b = some (Aes.sbox b)) {g e o0 : List Byte} (hg : g.length = 16)
    (he : e.length = 16) (ho : o0.length = 16) :
    ∃ o w, aesMain sub g e o0 = some o ∧ o.length = 16 ∧ Aes.KeySchedule 4 (Aes.wordsOfBytes (g.getD · 0)) w
      ∧ Aes.stateOfBytes (o.getD · 0) = Aes.cipher 10 w (Aes.stateOfBytes (e.getD · 0)) := by
  obtain ⟨rk, h1, h2, h3⟩ := keyExpansion_eq hs hg
  obtain ⟨f', h4, h5⟩ := cipher_eq hs h2 (e.getD · 0)
  refine ⟨list16 f', rkWord rk, ?_, rfl, h3, ?_⟩
  · unfold aesMain
    rw [blockCopy_eq ho he, Option.bind_eq_bind, Option.bind_some, h1, Option.bind_some, h4]
  · show _ = Aes.cipher 10 (rkWord rk) (stateOf (e.getD · 0))
    rw [← h5]
    funext r c
    rcases fin4_cases r with rfl | rfl | rfl | rfl <;> rcases fin4_cases c with rfl | rfl | rfl | rfl <;> rfl

/-- If the substitution box is undefined, so is the whole. -/
theorem aesMain_none {sub : Byte → Option Byte} (hs : ∀ b, sub b = none) (g e o0 : List Byte) : aesMain sub g e o0 = none := by
  have hk : keyExpansion sub g = none := by
    have hstep : ∀ rk, keyStep sub (4 + 0) rk = none := by
      intro rk
      unfold keyStep
      simp only [hs, Option.bind_eq_bind, Option.bind_none]
      cases rk[(4 + 0 - 1) * 4 + 0]? <;> cases rk[(4 + 0 - 1) * 4 + 1]? <;> cases rk[(4 + 0 - 1) * 4 + 2]? <;>
        cases rk[(4 + 0 - 1) * 4 + 3]? <;> rfl
    unfold keyExpansion
    generalize loop (fun i rk => (do
      let k ← g[i * 4 + 0]?
      let rk ← store rk (i * 4 + 0) k
      let k ← g[i * 4 + 1]?
      let rk ← store rk (i * 4 + 1) k
      let k ← g[i * 4 + 2]?
      let rk ← store rk (i * 4 + 2) k
      let k ← g[i * 4 + 3]?
      store rk (i * 4 + 3) k : Option (List Byte))) 4 (List.replicate 176 0) = x
    cases x with
    | none => rfl
    | some rk => exact loop_none (i := 0) (by omega) hstep rk
  unfold aesMain
  rw [hk]
  cases blockCopy o0 e <;> rfl

end TinyGarble.A23
