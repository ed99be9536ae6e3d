import Verif.Proof.Xor
import Verif.Spec.Gate

namespace TinyGarble
open Spec

theorem gateOperator_truth {t : Int} (ht : t ∈ gateTypes) (a b : Bool) :
    gateOperator t a b = truth t a b := by
  simp [gateTypes] at ht
  rcases ht with h | h | h | h | h | h | h | h | h | h | h <;> subst h <;>
    cases a <;> cases b <;> decide

/-- Algebraic core of half gates. -/
theorem halfGates_core (R A0 h0 h1 k0 k1 : Block) (x y pa pb : Bool) :
    let t0 := (h0 ^^^ h1) ^^^ scale pb R
    let G := h0 ^^^ scale pa t0
    let t1 := (k0 ^^^ k1) ^^^ A0
    let E := k0 ^^^ scale pb (t1 ^^^ A0)
    let A := A0 ^^^ scale x R
    let G' := (if x then h1 else h0) ^^^ scale (pa ^^ x) t0
    let E' := (if y then k1 else k0) ^^^ scale (pb ^^ y) (t1 ^^^ A)
    G' ^^^ E' = (G ^^^ E) ^^^ scale (x && y) R := by
  cases x <;> cases y <;> cases pa <;> cases pb <;> simp [scale] <;> bxor

theorem ite_scale (p : Bool) (a b : Block) :
    (if p then a ^^^ b else a) = a ^^^ scale p b := by cases p <;> simp

/-- The evaluator's half gates on the active labels give the garbler's label of the gate value. -/
theorem evalHalfGates_correct (enc : Block → Block) (R : Block) (hR : getLSB R = true)
    (cid gid : Nat) {t : Int} (ht : t ∈ tableTypes) (a0 b0 : Block) (x y : Bool) :
    let g := garbleHalfGates enc R cid gid t ⟨a0, a0 ^^^ R⟩ ⟨b0, b0 ^^^ R⟩
    evalHalfGates enc cid gid (a0 ^^^ scale x R) (b0 ^^^ scale y R) g.2.1 g.2.2
      = g.1.label0 ^^^ scale (truth t x y) R
    ∧ g.1.label1 = g.1.label0 ^^^ R := by
  have key : ∀ (A0 B0 : Block) (x y : Bool),
      let m0 := hashBlock enc A0 (tweak0 cid gid)
      let m1 := hashBlock enc (A0 ^^^ R) (tweak0 cid gid)
      let m2 := hashBlock enc B0 (tweak1 cid gid)
      let m3 := hashBlock enc (B0 ^^^ R) (tweak1 cid gid)
      let t0 := (m0 ^^^ m1) ^^^ scale (getLSB B0) R
      let t1 := (m2 ^^^ m3) ^^^ A0
      evalHalfGates enc cid gid (A0 ^^^ scale x R) (B0 ^^^ scale y R) t0 t1
        = ((m0 ^^^ scale (getLSB A0) t0) ^^^ (m2 ^^^ scale (getLSB B0) (t1 ^^^ A0)))
            ^^^ scale (x && y) R := by
    intro A0 B0 x y
    have := halfGates_core R A0 (hashBlock enc A0 (tweak0 cid gid))
      (hashBlock enc (A0 ^^^ R) (tweak0 cid gid)) (hashBlock enc B0 (tweak1 cid gid))
      (hashBlock enc (B0 ^^^ R) (tweak1 cid gid)) x y (getLSB A0) (getLSB B0)
    simp only at this ⊢
    rw [← this]
    have e1 : getLSB (A0 ^^^ scale x R) = (getLSB A0 ^^ x) := by
      rw [getLSB_xor]; cases x <;> simp [hR]; simp [getLSB]
    have e2 : getLSB (B0 ^^^ scale y R) = (getLSB B0 ^^ y) := by
      rw [getLSB_xor]; cases y <;> simp [hR]; simp [getLSB]
    have e3 : hashBlock enc (A0 ^^^ scale x R) (tweak0 cid gid) =
        if x then hashBlock enc (A0 ^^^ R) (tweak0 cid gid) else hashBlock enc A0 (tweak0 cid gid) := by
      cases x <;> simp
    have e4 : hashBlock enc (B0 ^^^ scale y R) (tweak1 cid gid) =
        if y then hashBlock enc (B0 ^^^ R) (tweak1 cid gid) else hashBlock enc B0 (tweak1 cid gid) := by
      cases y <;> simp
    unfold evalHalfGates
    simp only [e1, e2, e3, e4, xorBlock]
    rw [show ∀ (p : Bool) (a b c : Block), (if p then (a ^^^ b) ^^^ c else a) = a ^^^ scale p (b ^^^ c)
      from fun p a b c => by cases p <;> simp [BitVec.xor_assoc]]
    rw [ite_scale]
    exact BitVec.xor_comm _ _
  have hv : truth t x y = (((x ^^ (type2V t).1) && (y ^^ (type2V t).2.1)) ^^ (type2V t).2.2) := by
    simp [tableTypes] at ht
    rcases ht with h | h | h | h | h | h | h | h <;> subst h <;>
      cases x <;> cases y <;> decide
  have flip : ∀ (a : Block) (b v : Bool), a ^^^ scale b R = (a ^^^ scale v R) ^^^ scale (b ^^ v) R := by
    intro a b v; cases b <;> cases v <;> simp [BitVec.xor_assoc]
  have sel0 : ∀ (v : Bool) (a : Block), (if v then a ^^^ R else a) = a ^^^ scale v R := by
    intro v a; cases v <;> simp
  have sel1 : ∀ (v : Bool) (a : Block), (if v then a else a ^^^ R) = (a ^^^ scale v R) ^^^ R := by
    intro v a; cases v <;> simp [BitVec.xor_assoc]
  have e3 : ∀ (p : Bool) (a b c : Block), (if p then (a ^^^ b) ^^^ c else a) = a ^^^ scale p (b ^^^ c) :=
    fun p a b c => by cases p <;> simp [BitVec.xor_assoc]
  rw [hv, flip a0 x (type2V t).1, flip b0 y (type2V t).2.1]
  have hk := key (a0 ^^^ scale (type2V t).1 R) (b0 ^^^ scale (type2V t).2.1 R)
    (x ^^ (type2V t).1) (y ^^ (type2V t).2.1)
  simp only at hk
  simp only [garbleHalfGates, xorBlock, sel0, sel1, e3, ite_scale]
  generalize type2V t = v at hk ⊢
  obtain ⟨v0, v1, v2⟩ := v
  simp only at hk ⊢
  cases v2
  · simp only [Bool.false_eq_true, if_false, Bool.xor_false]
    exact ⟨hk, BitVec.xor_comm _ _⟩
  · simp only [if_true]
    refine ⟨?_, ?_⟩
    · rw [hk, scale_xor, scale_true]
      generalize scale ((x ^^ v0) && (y ^^ v1)) R = z
      bxor
    · bxor

theorem halfKnown_pub {t : Int} {k : Nat} {v b : Bool} (h : halfKnownValue t k v = .pub b) (z : Bool) :
    (if k = 0 then gateOperator t v z else gateOperator t z v) = b := by
  unfold halfKnownValue halfValues at h
  split at h
  · rename_i h1; subst h1
    simp only [if_true] at h ⊢
    revert h
    cases h0 : gateOperator t v false <;> cases h1 : gateOperator t v true <;> cases b <;> cases z <;>
      simp_all
  · rename_i h1
    simp only [if_neg h1] at h ⊢
    revert h
    cases h0 : gateOperator t false v <;> cases h1 : gateOperator t true v <;> cases b <;> cases z <;>
      simp_all

/-- A gate output that is computed publicly is right whatever the secret input is. -/
theorem knownValue_sound {v0 v1 : WVal} {t : Int} {b : Bool} (h : knownValue v0 v1 t = .pub b)
    {x y : Bool} (h0 : ∀ a, v0 = .pub a → a = x) (h1 : ∀ a, v1 = .pub a → a = y) :
    gateOperator t x y = b := by
  cases v0 with
  | pub a =>
    have := h0 a rfl; subst this
    cases v1 with
    | pub c => have := h1 c rfl; subst this; simpa [knownValue] using h
    | sec c => have := halfKnown_pub (k := 0) (by simpa [knownValue] using h) y; simpa using this
  | sec i =>
    cases v1 with
    | pub c =>
      have := h1 c rfl; subst this
      have := halfKnown_pub (k := 1) (by simpa [knownValue] using h) x; simpa using this
    | sec c => simp [knownValue] at h

end TinyGarble
