import Mathlib.Tactic.Ring
import Verif.Proof.Count
import Verif.Proof.Privacy
import Verif.Props.Gate

/-! How often the labels of the symbolic run collide, when every fresh label is an independent random
block. -/

namespace TinyGarble
open Spec

section
variable (P : Setting) (n : Nat)

/-- The symbolic state after cycle `k`. -/
abbrev Spec.Setting.sym (k : Nat) : SState := symRun P.c P.sfan P.pInit P.pInput k

/-- The number of fresh labels in cycles `0 … n`. -/
abbrev Spec.Setting.atoms : Nat := atomBase P.c (n + 1)

/-- The uses of the cipher: cycle, gate, half gate, value. -/
abbrev Use : Type := Fin (n + 1) × Fin P.c.gateSize × Bool × Bool

/-- The input of the gate. -/
def Use.sw (x : Use P n) : SWire :=
  if x.2.2.1 then symIn1 P.c (P.sym x.1).sw (P.c.gate x.2.1) else symIn0 P.c (P.sym x.1).sw (P.c.gate x.2.1)

variable {P n}

/-- The block the cipher is applied to. -/
def Use.point (gl : Nat → Block) (R : Block) (x : Use P n) : Block :=
  match x.sw with
  | .sec f j => gl f ^^^ scale (j ^^ x.2.2.2) R ^^^ Props.tweakOf x.1 x.2.1 x.2.2.1
  | _ => 0#128

/-- The label map. -/
abbrev Draw.gl (ω : Draw (P.atoms n)) : Nat → Block := lin (P.atoms n) (total ω.2)

/-- Two uses with the same block. -/
def Clash (x y : Use P n) (ω : Draw (P.atoms n)) : Prop :=
  (∃ f j, x.sw = .sec f j) ∧ (∃ f j, y.sw = .sec f j) ∧ x ≠ y ∧ x.point ω.gl ω.1.1 = y.point ω.gl ω.1.1

/-- The inputs of a gate have the same lower halves. -/
def Alike (z : Fin (n + 1) × Fin P.c.gateSize × Bool) (ω : Draw (P.atoms n)) : Prop :=
  ∃ f j f' j', symIn0 P.c (P.sym z.1).sw (P.c.gate z.2.1) = .sec f j
    ∧ symIn1 P.c (P.sym z.1).sw (P.c.gate z.2.1) = .sec f' j' ∧ f ≠ f'
    ∧ cmpBlock (gPair ω.gl ω.1.1 f j).label0 (labelOf (gPair ω.gl ω.1.1 f' j') z.2.2) = true

/-- No clash and nothing alike. -/
structure Lucky (ω : Draw (P.atoms n)) : Prop where
  uses : ∀ x y : Use P n, ¬ Clash x y ω
  gates : ∀ z, ¬ Alike z ω

theorem bound_in (wf : WF P.c) {k : Nat} (hk : k ≤ n) {i : Nat} (hi : i < P.c.gateSize) {f : Nat} {j : Bool} :
    (symIn0 P.c (P.sym k).sw (P.c.gate i) = .sec f j → f < 2 ^ P.atoms n)
    ∧ (symIn1 P.c (P.sym k).sw (P.c.gate i) = .sec f j → f < 2 ^ P.atoms n) := by
  have hws := wireSize_eq P.c
  have b := symRun_bound wf (sf := P.sfan) (fun g hg => fillFanout_counts wf P.fan0 hg) P.pInit P.pInput
    (show k < n + 1 by omega)
  constructor
  · intro e
    exact b _ _ _ (fetch_sec (wf.in0 i hi) (by omega) (by simp) e).2.2.2
  · intro e
    exact b _ _ _ (fetch_sec (wf.in1 i hi) (by omega) (bad1_ne_sec (P.c.gate i).type) e).2.2.2

theorem Use.bound (wf : WF P.c) (x : Use P n) {f : Nat} {j : Bool} (h : x.sw = .sec f j) : f < 2 ^ P.atoms n := by
  have hk : x.1.1 ≤ n := by have := x.1.2; omega
  unfold Use.sw at h
  split at h
  · exact (bound_in wf hk x.2.1.2).2 h
  · exact (bound_in wf hk x.2.1.2).1 h

theorem clash_count (wf : WF P.c) (hn : n < 2 ^ 64) (x y : Use P n) :
    Nat.card {ω // Clash x y ω} * 2 ^ 127 ≤ Nat.card (Draw (P.atoms n)) := by
  by_cases hx : ∃ f j, x.sw = .sec f j
  swap
  · rw [card_none (fun ω h => hx h.1)]; simp
  by_cases hy : ∃ f j, y.sw = .sec f j
  swap
  · rw [card_none (fun ω h => hy h.2.1)]; simp
  obtain ⟨f, j, ex⟩ := hx
  obtain ⟨f', j', ey⟩ := hy
  have eq : ∀ ω : Draw (P.atoms n), Clash x y ω →
      ω.gl (f ^^^ f') = scale ((j ^^ x.2.2.2) ^^ (j' ^^ y.2.2.2)) ω.1.1
        ^^^ (Props.tweakOf x.1 x.2.1 x.2.2.1 ^^^ Props.tweakOf y.1 y.2.1 y.2.2.1) := by
    intro ω h
    have e := h.2.2.2
    unfold Use.point at e
    rw [ex, ey] at e
    simp only at e
    rw [show ω.gl (f ^^^ f') = ω.gl f ^^^ ω.gl f' from lin_additive _ _ _ _, scale_xor]
    generalize ω.gl f = a at e ⊢
    generalize ω.gl f' = b at e ⊢
    generalize scale (j ^^ x.2.2.2) ω.1.1 = p at e ⊢
    generalize scale (j' ^^ y.2.2.2) ω.1.1 = q at e ⊢
    generalize Props.tweakOf x.1 x.2.1 x.2.2.1 = s at e ⊢
    generalize Props.tweakOf y.1 y.2.1 y.2.2.1 = t at e ⊢
    have : a = b ^^^ q ^^^ t ^^^ p ^^^ s := by rw [← e]; bxor
    rw [this]; bxor
  by_cases hf : f = f'
  · subst hf
    simp only [Nat.xor_self] at eq
    have hz : ∀ ω : Draw (P.atoms n), ω.gl 0 = 0#128 := by
      intro ω
      have := lin_additive (P.atoms n) (total ω.2) 0 0
      rw [Nat.xor_self, BitVec.xor_self] at this
      exact this
    by_cases hb : ((j ^^ x.2.2.2) ^^ (j' ^^ y.2.2.2)) = true
    · rw [hb] at eq
      refine Nat.le_trans (Nat.mul_le_mul_right _ (card_mono fun ω h => ?_))
        (offset_count (P.atoms n) (Props.tweakOf x.1 x.2.1 x.2.2.1 ^^^ Props.tweakOf y.1 y.2.1 y.2.2.1))
      have := eq ω h
      rw [hz, scale_true] at this
      exact BitVec.xor_eq_zero_iff.1 this.symm
    · rw [card_none]
      · simp
      · intro ω h
        have hb : ((j ^^ x.2.2.2) ^^ (j' ^^ y.2.2.2)) = false := by simpa using hb
        have := eq ω h
        rw [hz, hb, scale_false, BitVec.zero_xor] at this
        have tw := BitVec.xor_eq_zero_iff.1 this.symm
        have hsz := wf.size
        have h1 := x.1.2; have h2 := y.1.2; have h3 := x.2.1.2; have h4 := y.2.1.2
        obtain ⟨e1, e2, e3⟩ := Props.C38_tweaks_distinct (by omega) (by omega) (by omega) (by omega) tw
        have ej : x.sw = y.sw := by
          unfold Use.sw
          rw [e1, e2, e3]
        rw [ex, ey] at ej
        cases ej
        have ee : x.2.2.2 = y.2.2.2 := by
          revert hb; cases j <;> cases x.2.2.2 <;> cases y.2.2.2 <;> simp
        exact h.2.2.1 (Prod.ext (Fin.ext e1) (Prod.ext (Fin.ext e2) (Prod.ext e3 ee)))
  · obtain ⟨i, hi, hb⟩ := exists_bit (x.bound wf ex) (y.bound wf ey) hf
    have := lin_count hi hb (fun R => scale ((j ^^ x.2.2.2) ^^ (j' ^^ y.2.2.2)) R
        ^^^ (Props.tweakOf x.1 x.2.1 x.2.2.1 ^^^ Props.tweakOf y.1 y.2.1 y.2.2.1))
    refine Nat.le_trans (Nat.mul_le_mul (card_mono eq) (by decide)) this

theorem alike_count (wf : WF P.c) (z : Fin (n + 1) × Fin P.c.gateSize × Bool) :
    Nat.card {ω : Draw (P.atoms n) // Alike z ω} * 2 ^ 64 ≤ Nat.card (Draw (P.atoms n)) := by
  by_cases h : ∃ f j f' j', symIn0 P.c (P.sym z.1).sw (P.c.gate z.2.1) = .sec f j
    ∧ symIn1 P.c (P.sym z.1).sw (P.c.gate z.2.1) = .sec f' j' ∧ f ≠ f'
  swap
  · rw [card_none (fun ω h' => h (by
      obtain ⟨f, j, f', j', a, b, c, _⟩ := h'
      exact ⟨f, j, f', j', a, b, c⟩))]
    simp
  obtain ⟨f, j, f', j', ex, ey, hf⟩ := h
  have hk : z.1.1 ≤ n := by have := z.1.2; omega
  obtain ⟨i, hi, hb⟩ := exists_bit ((bound_in wf hk z.2.1.2).1 ex) ((bound_in wf hk z.2.1.2).2 ey) hf
  refine Nat.le_trans (Nat.mul_le_mul_right _ (card_mono fun ω h => ?_))
    (lin_count_low hi hb (fun R => scale j R ^^^ scale (j' ^^ z.2.2) R))
  obtain ⟨f1, j1, f1', j1', e1, e2, _, h⟩ := h
  rw [ex] at e1; rw [ey] at e2
  cases e1; cases e2
  rw [cmpBlock_iff, labelOf_gPair] at h
  unfold gPair at h
  simp only at h
  rw [lin_additive, scale_xor]
  have : ω.gl f ^^^ ω.gl f' ^^^ (scale j ω.1.1 ^^^ (scale j' ω.1.1 ^^^ scale z.2.2 ω.1.1))
      = ω.gl f ^^^ scale j ω.1.1 ^^^ (ω.gl f' ^^^ scale j' ω.1.1 ^^^ scale z.2.2 ω.1.1) := by bxor
  rw [this]
  exact h

theorem unlucky_arith {A B C u c1 c2 D m g : Nat} (hA : A = B * C) (hB : B = 2 * C) (h : u ≤ c1 + c2)
    (h1 : c1 * A ≤ (m * (g * (2 * 2))) * (m * (g * (2 * 2))) * D) (h2 : c2 * B ≤ m * (g * 2) * D) :
    u * A ≤ (16 * (m * g) ^ 2 + B * (m * g)) * D := by
  have e1 : c2 * A ≤ (m * (g * 2) * D) * C := by
    rw [hA, ← Nat.mul_assoc]; exact Nat.mul_le_mul_right _ h2
  have e2 : u * A ≤ c1 * A + c2 * A := by rw [← Nat.add_mul]; exact Nat.mul_le_mul_right _ h
  refine Nat.le_trans e2 (Nat.le_trans (Nat.add_le_add h1 e1) (Nat.le_of_eq ?_))
  rw [hB]; ring

/-- The unlucky draws. -/
theorem unlucky_count (wf : WF P.c) (hn : n < 2 ^ 64) :
    Nat.card {ω : Draw (P.atoms n) // ¬ Lucky ω} * 2 ^ 127
      ≤ (16 * ((n + 1) * P.c.gateSize) ^ 2 + 2 ^ 64 * ((n + 1) * P.c.gateSize)) * Nat.card (Draw (P.atoms n)) := by
  have h := card_or (r := fun ω : Draw (P.atoms n) => ¬ Lucky ω)
    (p := fun ω => ∃ q : Use P n × Use P n, Clash q.1 q.2 ω) (q := fun ω => ∃ z, Alike z ω) (by
      intro ω h
      by_contra hc
      push Not at hc
      exact h ⟨fun x y => hc.1 (x, y), hc.2⟩)
  have he : ∀ q : Use P n × Use P n, Nat.card {ω // Clash q.1 q.2 ω} * 2 ^ 127 ≤ Nat.card (Draw (P.atoms n)) :=
    fun q => clash_count wf hn q.1 q.2
  have he2 := alike_count (n := n) wf
  have hA : (2 : Nat) ^ 127 = 2 ^ 64 * 2 ^ 63 := by decide
  have hB : (2 : Nat) ^ 64 = 2 * 2 ^ 63 := by decide
  generalize (2 : Nat) ^ 127 = A at *
  generalize (2 : Nat) ^ 64 = B at *
  generalize (2 : Nat) ^ 63 = C at *
  have h1 := union_bound' (bad := fun ω : Draw (P.atoms n) => ∃ q : Use P n × Use P n, Clash q.1 q.2 ω)
    (ev := fun (q : Use P n × Use P n) ω => Clash q.1 q.2 ω) (fun ω h => h) he
  have h2 := union_bound' (bad := fun ω : Draw (P.atoms n) => ∃ z, Alike z ω)
    (ev := fun z ω => Alike z ω) (fun ω h => h) he2
  simp only [Fintype.card_prod, Fintype.card_fin, Fintype.card_bool] at h1 h2
  exact unlucky_arith hA hB h h1 h2

end

end TinyGarble
