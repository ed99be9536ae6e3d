import Mathlib.SetTheory.Cardinal.Finite
import Mathlib.Algebra.BigOperators.Ring.Finset
import Mathlib.Data.Finite.Sigma
import Mathlib.Algebra.Order.BigOperators.Group.Finset
import Verif.Proof.GateSim

/-! Counting: blocks, unions of events, and random XOR combinations of blocks. -/

namespace TinyGarble
open Spec

theorem bitvec_equiv_fin (n : Nat) : Nonempty (BitVec n ≃ Fin (2 ^ n)) :=
  ⟨⟨BitVec.toFin, BitVec.ofFin, fun _ => rfl, fun _ => rfl⟩⟩

instance bitvec_finite (n : Nat) : Finite (BitVec n) := Finite.of_equiv _ (bitvec_equiv_fin n).some.symm

theorem card_bitvec (n : Nat) : Nat.card (BitVec n) = 2 ^ n := by
  rw [Nat.card_congr (bitvec_equiv_fin n).some, Nat.card_eq_fintype_card, Fintype.card_fin]

/-- The offsets: blocks with last bit 1. -/
abbrev OddBlock : Type := {R : Block // getLSB R = true}

theorem getLSB_append (x : BitVec 127) : getLSB (x ++ 1#1 : BitVec 128) = true := by
  unfold getLSB
  rw [BitVec.getLsbD_append]
  simp

/-- A block with last bit 1 from 127 bits. -/
def toOdd (x : BitVec 127) : OddBlock := ⟨(x ++ 1#1 : BitVec 128), getLSB_append x⟩

theorem toOdd_injective : Function.Injective toOdd := by
  intro x y h
  have h : (x ++ 1#1 : BitVec 128) = (y ++ 1#1 : BitVec 128) := congrArg Subtype.val h
  apply BitVec.eq_of_getLsbD_eq
  intro i hi
  have := congrArg (fun b : BitVec 128 => b.getLsbD (i + 1)) h
  simp only [BitVec.getLsbD_append] at this
  simpa using this

/-- The union bound. -/
theorem union_bound {Ω ι : Type} [Finite Ω] [Fintype ι] {bad : Ω → Prop} {ev : ι → Ω → Prop}
    (h : ∀ ω, bad ω → ∃ i, ev i ω) : Nat.card {ω // bad ω} ≤ ∑ i, Nat.card {ω // ev i ω} := by
  classical
  rw [← Nat.card_sigma]
  refine Nat.card_le_card_of_injective
    (fun ω : {ω // bad ω} => (⟨(h ω.1 ω.2).choose, ω.1, (h ω.1 ω.2).choose_spec⟩ : Σ i, {ω // ev i ω})) ?_
  intro a b e
  have : ∀ p q : (Σ i, {ω // ev i ω}), p = q → p.2.1 = q.2.1 := by rintro p _ rfl; rfl
  exact Subtype.ext (this _ _ e)

theorem union_bound' {Ω ι : Type} [Finite Ω] [Fintype ι] {bad : Ω → Prop} {ev : ι → Ω → Prop}
    (h : ∀ ω, bad ω → ∃ i, ev i ω) {a b : Nat} (he : ∀ i, Nat.card {ω // ev i ω} * a ≤ b) :
    Nat.card {ω // bad ω} * a ≤ Fintype.card ι * b := by
  refine Nat.le_trans (Nat.mul_le_mul_right a (union_bound h)) ?_
  rw [Finset.sum_mul]
  refine Nat.le_trans (Finset.sum_le_sum fun i _ => he i) ?_
  rw [Finset.sum_const, Finset.card_univ]
  exact Nat.le_refl _

theorem card_mono {Ω : Type} [Finite Ω] {p q : Ω → Prop} (h : ∀ ω, p ω → q ω) :
    Nat.card {ω // p ω} ≤ Nat.card {ω // q ω} :=
  Nat.card_le_card_of_injective (fun ω => ⟨ω.1, h ω.1 ω.2⟩) fun a b e => by
    have : a.1 = b.1 := congrArg (fun x : {ω // q ω} => x.1) e
    exact Subtype.ext this

theorem card_none {Ω : Type} {p : Ω → Prop} (h : ∀ ω, ¬ p ω) : Nat.card {ω // p ω} = 0 := by
  have : IsEmpty {ω // p ω} := ⟨fun ω => h ω.1 ω.2⟩
  exact Nat.card_of_isEmpty

theorem card_or {Ω : Type} [Finite Ω] {r p q : Ω → Prop} (h : ∀ ω, r ω → p ω ∨ q ω) :
    Nat.card {ω // r ω} ≤ Nat.card {ω // p ω} + Nat.card {ω // q ω} := by
  have := union_bound (ι := Bool) (ev := fun b ω => if b then p ω else q ω) (bad := r)
    (fun ω hr => (h ω hr).elim (fun h => ⟨true, by simpa using h⟩) (fun h => ⟨false, by simpa using h⟩))
  simpa using this

theorem card_split {Ω : Type} [Finite Ω] (p q : Ω → Prop) :
    Nat.card {ω // p ω} = Nat.card {ω // p ω ∧ q ω} + Nat.card {ω // p ω ∧ ¬ q ω} := by
  classical
  rw [← Nat.card_sum]
  refine Nat.card_congr ⟨fun ω => if h : q ω.1 then .inl ⟨ω.1, ω.2, h⟩ else .inr ⟨ω.1, ω.2, h⟩,
    fun s => s.elim (fun ω => ⟨ω.1, ω.2.1⟩) (fun ω => ⟨ω.1, ω.2.1⟩), ?_, ?_⟩
  · intro ω; dsimp only; split <;> rfl
  · rintro (⟨ω, h1, h2⟩ | ⟨ω, h1, h2⟩)
    · exact dif_pos h2
    · exact dif_neg h2

/-! ### XOR combinations -/

/-- The XOR of the blocks `b i` for the elements `i < N` of the bit set `f`. -/
def lin : Nat → (Nat → Block) → Nat → Block
  | 0, _, _ => 0#128
  | N + 1, b, f => lin N b f ^^^ scale (f.testBit N) (b N)

theorem lin_additive (N : Nat) (b : Nat → Block) : Additive (lin N b) := by
  intro x y
  induction N with
  | zero => simp [lin]
  | succ N ih =>
    simp only [lin]
    rw [ih, Nat.testBit_xor, scale_xor]
    bxor

theorem lin_pow {N : Nat} (b : Nat → Block) {i : Nat} (hi : i < N) : lin N b (2 ^ i) = b i := by
  have low : ∀ M ≤ i, lin M b (2 ^ i) = 0#128 := by
    intro M
    induction M with
    | zero => intro _; rfl
    | succ M ih =>
      intro h
      simp only [lin]
      rw [ih (by omega), Nat.testBit_two_pow_of_ne (by omega)]
      simp
  induction N with
  | zero => omega
  | succ N ih =>
    simp only [lin]
    by_cases h : i = N
    · subst h; rw [low _ (Nat.le_refl _), Nat.testBit_two_pow_self]; simp
    · rw [ih (by omega), Nat.testBit_two_pow_of_ne (by omega)]; simp

theorem lin_congr {N : Nat} {b b' : Nat → Block} (h : ∀ i < N, b i = b' i) (f : Nat) : lin N b f = lin N b' f := by
  induction N with
  | zero => rfl
  | succ N ih =>
    simp only [lin]
    rw [ih (fun i hi => h i (by omega)), h N (by omega)]

/-- Values for the atoms below `N`, as a function on all numbers. -/
def total {N : Nat} (b : Fin N → Block) (i : Nat) : Block := if h : i < N then b ⟨i, h⟩ else 0#128

/-- Change the value of one atom. -/
def nudge {N : Nat} (b : Fin N → Block) (i : Nat) (d : Block) : Fin N → Block :=
  fun k => if k.1 = i then b k ^^^ d else b k

theorem nudge_nudge {N : Nat} (b : Fin N → Block) (i : Nat) (d : Block) : nudge (nudge b i d) i d = b := by
  funext k
  unfold nudge
  split
  · rw [BitVec.xor_assoc, BitVec.xor_self, BitVec.xor_zero]
  · rfl

theorem lin_nudge {N : Nat} (b : Fin N → Block) {i : Nat} (hi : i < N) (d : Block) (f : Nat) :
    lin N (total (nudge b i d)) f = lin N (total b) f ^^^ scale (f.testBit i) d := by
  have key : ∀ M ≤ N, lin M (total (nudge b i d)) f
      = lin M (total b) f ^^^ (if i < M then scale (f.testBit i) d else 0#128) := by
    intro M
    induction M with
    | zero => intro _; simp [lin]
    | succ M ih =>
      intro hM
      simp only [lin]
      rw [ih (by omega)]
      by_cases h : i = M
      · subst h
        have : total (nudge b i d) i = total b i ^^^ d := by
          unfold total nudge; rw [dif_pos hi, dif_pos hi]; simp
        rw [this, if_neg (by omega), if_pos (by omega)]
        cases f.testBit i <;> simp <;> bxor
      · have : total (nudge b i d) M = total b M := by
          unfold total nudge; rw [dif_pos (show M < N by omega), dif_pos (show M < N by omega)]
          rw [if_neg (fun e => h e.symm)]
        rw [this]
        by_cases h2 : i < M
        · rw [if_pos h2, if_pos (by omega)]; bxor
        · rw [if_neg h2, if_neg (by omega)]; simp
  have := key N (Nat.le_refl _)
  rwa [if_pos hi] at this

theorem exists_bit {N f f' : Nat} (hf : f < 2 ^ N) (hf' : f' < 2 ^ N) (h : f ≠ f') :
    ∃ i < N, (f ^^^ f').testBit i = true := by
  by_contra hc
  push Not at hc
  apply h
  apply Nat.eq_of_testBit_eq
  intro i
  by_cases hi : i < N
  · have := hc i hi
    rw [Nat.testBit_xor] at this
    cases h1 : f.testBit i <;> cases h2 : f'.testBit i <;> simp_all
  · rw [Nat.testBit_lt_two_pow (x := f), Nat.testBit_lt_two_pow (x := f')]
    · exact Nat.lt_of_lt_of_le hf' (Nat.pow_le_pow_right (by omega) (by omega))
    · exact Nat.lt_of_lt_of_le hf (Nat.pow_le_pow_right (by omega) (by omega))

/-- The random choices without the cipher: an odd offset and a value for each atom. -/
abbrev Draw (N : Nat) : Type := OddBlock × (Fin N → Block)

theorem nudge_count {N : Nat} {i : Nat} {m : Nat} (val : Draw N → BitVec m) (emb : BitVec m → Block)
    (h : ∀ ω : Draw N, ∀ d, val (ω.1, nudge ω.2 i (emb d)) = val ω ^^^ d) (e : BitVec m) :
    Nat.card {ω : Draw N // val ω = e} * 2 ^ m ≤ Nat.card (Draw N) := by
  rw [← card_bitvec m, ← Nat.card_prod]
  refine Nat.card_le_card_of_injective (fun p => (p.1.1.1, nudge p.1.1.2 i (emb p.2))) ?_
  rintro ⟨⟨⟨R, b⟩, h1⟩, d⟩ ⟨⟨⟨R', b'⟩, h2⟩, d'⟩ heq
  simp only [Prod.mk.injEq] at heq
  obtain ⟨rfl, hb⟩ := heq
  have hd : d = d' := by
    have a := h (R, b) d
    have a' := h (R, b') d'
    simp only at a a'
    rw [hb, a', h1, h2] at a
    have := congrArg (e ^^^ ·) a
    simp only [← BitVec.xor_assoc, BitVec.xor_self, BitVec.zero_xor] at this
    exact this.symm
  subst hd
  have := congrArg (fun b => nudge b i (emb d)) hb
  simp only [nudge_nudge] at this
  subst this
  rfl

/-- A combination with at least one atom has a given value with probability 2^-128. -/
theorem lin_count {N g i : Nat} (hi : i < N) (hg : g.testBit i = true) (cst : Block → Block) :
    Nat.card {ω : Draw N // lin N (total ω.2) g = cst ω.1.1} * 2 ^ 128 ≤ Nat.card (Draw N) := by
  have := nudge_count (N := N) (i := i) (m := 128) (fun ω => lin N (total ω.2) g ^^^ cst ω.1.1) id
    (by
      intro ω d
      simp only [id]
      rw [lin_nudge _ hi, hg]
      simp only [scale_true]; bxor) 0#128
  simp only [BitVec.xor_eq_zero_iff] at this
  exact this

/-- It has given lower 64 bits with probability 2^-64. -/
theorem lin_count_low {N g i : Nat} (hi : i < N) (hg : g.testBit i = true) (cst : Block → Block) :
    Nat.card {ω : Draw N // (lin N (total ω.2) g ^^^ cst ω.1.1).extractLsb' 0 64 = 0#64} * 2 ^ 64
      ≤ Nat.card (Draw N) := by
  refine nudge_count (N := N) (i := i) (m := 64)
    (fun ω => (lin N (total ω.2) g ^^^ cst ω.1.1).extractLsb' 0 64) (fun d => d.setWidth 128) ?_ 0#64
  intro ω d
  simp only
  rw [lin_nudge _ hi, hg]
  simp only [scale_true]
  apply BitVec.eq_of_getLsbD_eq
  intro k hk
  simp only [BitVec.getLsbD_extractLsb', BitVec.getLsbD_xor, BitVec.getLsbD_setWidth, hk, decide_true,
    Bool.true_and, Nat.zero_add]
  have : decide (k < 128) = true := by simp; omega
  rw [this, Bool.true_and]
  simp only [Bool.xor_assoc]
  congr 1
  exact Bool.xor_comm _ _

/-- The offset has a given value with probability at most 2^-127. -/
theorem offset_count (N : Nat) (e : Block) :
    Nat.card {ω : Draw N // ω.1.1 = e} * 2 ^ 127 ≤ Nat.card (Draw N) := by
  rw [← card_bitvec 127, ← Nat.card_prod]
  refine Nat.card_le_card_of_injective (fun p => (toOdd p.2, p.1.1.2)) ?_
  rintro ⟨⟨⟨R, b⟩, h1⟩, d⟩ ⟨⟨⟨R', b'⟩, h2⟩, d'⟩ heq
  simp only [Prod.mk.injEq] at heq
  obtain ⟨hd, rfl⟩ := heq
  have hd := toOdd_injective hd
  subst hd
  have : R = R' := Subtype.ext (h1.trans h2.symm)
  subst this
  rfl

end TinyGarble
