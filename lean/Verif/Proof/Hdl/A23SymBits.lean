import Verif.Proof.Hdl.A23SymFlow
import Verif.Proof.Hdl.A23ProgHamming

/-!
# Symbolic execution: single bits

The bits of an expression as exclusive disjunctions of bits of the memory. With `Flow.T.wordsAre` the bits of words after a part of a program are compared with
lists that a specification gives.
-/

namespace TinyGarble.Proof.Hdl.A23.Sym.Flow

open TinyGarble.Spec.Arm

/-- Bit `i` of the memory: bit `i % 8` of the byte at `i / 8`. -/
def bitAt (s : State) (i : Nat) : Bool := (s.mem (BitVec.ofNat 32 (i / 8))).getLsbD (i % 8)

/-- True, a bit of the memory, or a bit of the memory and not another one. -/
inductive B
  | one
  | at (i : Nat)
  | andNot (i j : Nat)
  deriving DecidableEq

def B.eqb : B → B → Bool
  | .one, .one => true
  | .at i, .at j => i == j
  | .andNot i j, .andNot k l => i == k && j == l
  | _, _ => false

instance : BEq B := ⟨B.eqb⟩

instance : LawfulBEq B where
  eq_of_beq {a b} h := by
    have h : B.eqb a b = true := h
    cases a <;> cases b <;> simp_all [B.eqb]
  rfl {a} := by
    show B.eqb a a = true
    cases a <;> simp [B.eqb]

def B.val (s : State) : B → Bool
  | .one => true
  | .at i => bitAt s i
  | .andNot i j => bitAt s i && !bitAt s j

/-- Exclusive disjunction. -/
def vals (s : State) (l : List B) : Bool := l.foldr (fun b acc => b.val s ^^ acc) false

theorem vals_cons (s : State) (b : B) (l : List B) : vals s (b :: l) = (b.val s ^^ vals s l) := rfl

theorem vals_nil (s : State) : vals s [] = false := rfl

theorem vals_append (s : State) (l r : List B) : vals s (l ++ r) = (vals s l ^^ vals s r) := by
  induction l with
  | nil => exact (Bool.false_xor _).symm
  | cons b l ih => rw [List.cons_append, vals_cons, vals_cons, ih, Bool.xor_assoc]

theorem vals_perm (s : State) {l r : List B} (h : l.Perm r) : vals s l = vals s r := by
  induction h with
  | nil => rfl
  | cons b _ ih => rw [vals_cons, vals_cons, ih]
  | swap a b l => rw [vals_cons, vals_cons, vals_cons, vals_cons, ← Bool.xor_assoc, ← Bool.xor_assoc, Bool.xor_comm (b.val s)]
  | trans _ _ h1 h2 => exact h1.trans h2

/-- Bit `j` of an expression. -/
def E.bits : E → Nat → Option (List B)
  | .c v, j => some (if v.getLsbD j then [.one] else [])
  | .b a, j => some (if j < 8 then [.at (8 * a.toNat + j)] else [])
  | .w a, j => if a.toNat % 4 = 0 then some [.at (8 * a.toNat + j)] else none
  | .lo x, j => if j < 8 then x.bits j else some []
  | .sh .lsl n x, j => if n = 0 then none else if j < n.toNat then some [] else x.bits (j - n.toNat)
  | .sh .lsr n x, j => if n = 0 then none else if j + n.toNat < 32 then x.bits (j + n.toNat) else some []
  | .op .mov _ y, j => y.bits j
  | .op .eor x y, j => match x.bits j, y.bits j with
    | some l1, some l2 => some (l1 ++ l2)
    | _, _ => none
  | .op .orr x y, j => match x.bits j, y.bits j with
    | some [], some l2 => some l2
    | some l1, some [] => some l1
    | _, _ => none
  | .op .bic x y, j => match x.bits j, y.bits j with
    | some [.at i1], some [.at i2] => some [.andNot i1 i2]
    | _, _ => none
  | _, _ => none

theorem word_bit (s : State) {a : Nat} (ha : a % 4 = 0) (hlt : a < 2 ^ 32) {j : Nat} (hj : j < 32) :
    (s.word (BitVec.ofNat 32 a)).getLsbD j = bitAt s (8 * a + j) := by
  have h := Hamming.mem_of_word s (a / 4) (j / 8) (by omega) (by omega)
  rw [show 4 * (a / 4) = a by omega] at h
  unfold bitAt
  rw [show (8 * a + j) / 8 = a + j / 8 by omega, show (8 * a + j) % 8 = j % 8 by omega, h, BitVec.getLsbD_ofNat, Nat.testBit_div_two_pow, BitVec.getLsbD,
    show j % 8 + 8 * (j / 8) = j by omega, decide_eq_true (by omega : j % 8 < 8), Bool.true_and]

theorem E.bits_val (s : State) (x : E) : ∀ {j : Nat} {l : List B}, j < 32 → x.bits j = some l → (x.val s).getLsbD j = vals s l := by
  induction x with
  | c v =>
    intro j l hj h
    cases h
    show v.getLsbD j = _
    cases v.getLsbD j <;> rfl
  | r k => intro j l hj h; cases h
  | b a =>
    intro j l hj h
    cases h
    show (BitVec.setWidth 32 (s.mem a)).getLsbD j = _
    rw [BitVec.getLsbD_setWidth, decide_eq_true hj, Bool.true_and]
    split
    · rename_i h8
      rw [vals_cons, vals_nil, Bool.xor_false]
      show _ = bitAt s _
      unfold bitAt
      rw [show (8 * a.toNat + j) / 8 = a.toNat by omega, show (8 * a.toNat + j) % 8 = j by omega, BitVec.ofNat_toNat, BitVec.setWidth_eq]
    · exact BitVec.getLsbD_of_ge _ _ (by omega)
  | w a =>
    intro j l hj h
    unfold E.bits at h
    split at h
    swap
    · cases h
    rename_i ha
    cases h
    rw [vals_cons, vals_nil, Bool.xor_false]
    have := word_bit s ha a.isLt hj
    rw [BitVec.ofNat_toNat, BitVec.setWidth_eq] at this
    exact this
  | lo x ih =>
    intro j l hj h
    unfold E.bits at h
    show (BitVec.setWidth 32 (BitVec.ofNat 8 (x.val s).toNat)).getLsbD j = _
    rw [BitVec.getLsbD_setWidth, decide_eq_true hj, Bool.true_and, BitVec.getLsbD_ofNat]
    split at h
    · rename_i h8
      rw [decide_eq_true h8, Bool.true_and, ← ih hj h]
      rfl
    · rename_i h8
      cases h
      rw [decide_eq_false h8]
      rfl
  | sh k n x ih =>
    intro j l hj h
    cases k with
    | lsl =>
      unfold E.bits at h
      split at h
      · cases h
      rename_i hn
      have e : (E.sh .lsl n x).val s = x.val s <<< n.toNat := by
        show (Shift.const .lsl _ n false).1 = _
        unfold Shift.const
        rw [if_neg hn]
        rfl
      rw [e, BitVec.getLsbD_shiftLeft, decide_eq_true hj, Bool.true_and]
      split at h
      · rename_i hlt
        cases h
        rw [decide_eq_true hlt]
        rfl
      · rename_i hlt
        rw [decide_eq_false hlt, ih (by omega) h]
        rfl
    | lsr =>
      unfold E.bits at h
      split at h
      · cases h
      rename_i hn
      have e : (E.sh .lsr n x).val s = x.val s >>> n.toNat := by
        show (Shift.const .lsr _ n false).1 = _
        unfold Shift.const
        rw [if_neg hn]
        rfl
      rw [e, BitVec.getLsbD_ushiftRight, Nat.add_comm]
      split at h
      · rename_i hlt
        exact ih hlt h
      · rename_i hlt
        cases h
        exact BitVec.getLsbD_of_ge _ _ (by omega)
    | asr => cases h
    | ror => cases h
  | mul x y => intro j l hj h; cases h
  | op o x y ihx ihy =>
    intro j l hj h
    cases o with
    | mov => exact ihy hj h
    | eor =>
      unfold E.bits at h
      split at h
      · rename_i l1 l2 h1 h2
        cases h
        show (x.val s ^^^ y.val s).getLsbD j = _
        rw [BitVec.getLsbD_xor, ihx hj h1, ihy hj h2, vals_append]
      · cases h
    | orr =>
      unfold E.bits at h
      show (x.val s ||| y.val s).getLsbD j = _
      rw [BitVec.getLsbD_or]
      split at h
      · rename_i l2 h1 h2
        cases h
        rw [ihx hj h1, ihy hj h2]
        rfl
      · rename_i l1 _ h1 h2
        cases h
        rw [ihx hj h1, ihy hj h2, vals_nil, Bool.or_false]
      · cases h
    | bic =>
      unfold E.bits at h
      show (x.val s &&& ~~~ y.val s).getLsbD j = _
      rw [BitVec.getLsbD_and, BitVec.getLsbD_not, decide_eq_true hj, Bool.true_and]
      split at h
      · rename_i a b h1 h2
        cases h
        rw [ihx hj h1, ihy hj h2]
        simp only [vals_cons, vals_nil, Bool.xor_false]
        rfl
      · cases h
    | _ => cases h

/-- The word at an address, if its bytes were not stored. -/
def T.wordE (t : T) (a : BitVec 32) : Option E :=
  match look a t.words with
  | some x => some x
  | none => if t.free a then some (.w a) else none

theorem Agree.wordE {s0 s : State} {t : T} (h : Agree s0 t s) {a : BitVec 32} (ha : a.toNat % 4 = 0) {x : E} (hx : t.wordE a = some x) : s.word a = x.val s0 := by
  unfold T.wordE at hx
  split at hx
  · rename_i y hy
    cases hx
    exact h.word a _ hy
  · rename_i hy
    split at hx
    · rename_i hf
      cases hx
      exact h.free ha hy hf
    · cases hx

/-- The bits of `n` words from `a` on are given by `f`. -/
def T.wordsAre (t : T) (a n : Nat) (f : Nat → List B) : Bool :=
  (List.range n).all fun k => match t.wordE (BitVec.ofNat 32 (a + 4 * k)) with
    | some x => (List.range 32).all fun j => match x.bits j with
      | some l => l.isPerm (f (32 * k + j))
      | none => false
    | none => false

theorem Agree.bits {s0 s : State} {t : T} (h : Agree s0 t s) {a n : Nat} {f : Nat → List B} (hf : t.wordsAre a n f = true) (ha : a % 4 = 0) (hlt : a + 4 * n ≤ 2 ^ 32)
    {i : Nat} (hi : i < 32 * n) : bitAt s (8 * a + i) = vals s0 (f i) := by
  have hk := List.all_eq_true.1 hf (i / 32) (List.mem_range.2 (by omega))
  have e : (BitVec.ofNat 32 (a + 4 * (i / 32))).toNat = a + 4 * (i / 32) := by rw [BitVec.toNat_ofNat]; omega
  split at hk
  · rename_i x hx
    have hj := List.all_eq_true.1 hk (i % 32) (List.mem_range.2 (by omega))
    split at hj
    · rename_i l hl
      have hp := vals_perm s0 (List.isPerm_iff.1 hj)
      rw [show 32 * (i / 32) + i % 32 = i by omega] at hp
      rw [← hp, ← E.bits_val s0 x (by omega) hl, ← h.wordE (by rw [e]; omega) hx, word_bit s (by omega) (by omega) (by omega)]
      congr 1
      omega
    · cases hj
  · cases hk

/-- A word outside of what was stored. -/
theorem Agree.outsideWord {s0 s : State} {t : T} (h : Agree s0 t s) {rb rw : List (Nat × Nat)} (hw : t.within rb rw = true) {n : Nat} (hn : n < 2 ^ 32) (h4 : n % 4 = 0)
    (h1 : ∀ r ∈ rb, n + 3 < r.1 ∨ r.2 ≤ n) (h2 : ∀ r ∈ rw, n < r.1 ∨ r.2 ≤ n) : s.word (BitVec.ofNat 32 n) = s0.word (BitVec.ofNat 32 n) := by
  apply word_of_parts
  intro b hb
  have hb' := congrArg BitVec.toNat hb
  rw [align_toNat, align_toNat, BitVec.toNat_ofNat] at hb'
  have := b.isLt
  have := h.outside hw (n := b.toNat) b.isLt (fun r hr => by have := h1 r hr; omega) (fun r hr => by have := h2 r hr; omega)
  rw [BitVec.ofNat_toNat, BitVec.setWidth_eq] at this
  exact this

theorem Agree.outsideBit {s0 s : State} {t : T} (h : Agree s0 t s) {rb rw : List (Nat × Nat)} (hw : t.within rb rw = true) {i : Nat} (hn : i < 2 ^ 35)
    (h1 : ∀ r ∈ rb, i / 8 < r.1 ∨ r.2 ≤ i / 8) (h2 : ∀ r ∈ rw, 4 * (i / 32) < r.1 ∨ r.2 ≤ 4 * (i / 32)) : bitAt s i = bitAt s0 i := by
  unfold bitAt
  rw [h.outside hw (by omega) h1 (fun r hr => by rw [show i / 8 / 4 = i / 32 by omega]; exact h2 r hr)]

end TinyGarble.Proof.Hdl.A23.Sym.Flow
