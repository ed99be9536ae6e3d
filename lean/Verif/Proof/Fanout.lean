import Verif.Model.Cycle
import Verif.Spec.Circuit

/-! `FillFanout`, `ReduceFanout` and the invariant of the use counts. -/

namespace TinyGarble
open Spec

theorem upd_same {α : Type} (a : Nat → α) (i : Nat) (v : α) : upd a i v i = v := by simp [upd]
theorem upd_ne {α : Type} (a : Nat → α) {i j : Nat} (v : α) (h : j ≠ i) : upd a i v j = a j := by
  simp [upd, h]

/-- 1 if `w` is the output wire of gate `g`. -/
def hit (c : Circuit) (w : Int) (g : Nat) : Nat := if w = ((c.gateLo + g : Nat) : Int) then 1 else 0

/-- Uses of gate `g` by gate `j`. -/
def cnt (c : Circuit) (j g : Nat) : Nat := hit c (c.gate j).input0 g + hit c (c.gate j).input1 g

theorem incIfGate_apply (c : Circuit) (w : Int) (f : Nat → Nat) (g : Nat) :
    incIfGate c w f g = f g + hit c w g := by
  unfold incIfGate hit upd
  split
  · rename_i h
    show (if g = _ then _ else _) = _
    by_cases hg : g = (w - c.gateLo).toNat
    · rw [if_pos hg, ← hg, if_pos (by omega)]
    · rw [if_neg hg, if_neg (by omega)]; rfl
  · rename_i h; rw [if_neg (by omega)]; rfl

theorem forLoop_inc (c : Circuit) (h : Nat → Int) (n : Nat) (f : Nat → Nat) (g : Nat) :
    forLoop (fun i f => incIfGate c (h i) f) n f g = f g + countEq (c.gateLo + g : Nat) h n := by
  induction n with
  | zero => rfl
  | succ n ih => simp only [forLoop, incIfGate_apply, ih, countEq, hit]; omega

theorem sum_congr {n : Nat} {f g : Nat → Nat} (h : ∀ i < n, f i = g i) : totalFan n f = totalFan n g := by
  unfold totalFan
  induction n with
  | zero => rfl
  | succ n ih =>
    simp only [forLoop]
    rw [ih (fun i hi => h i (by omega)), h n (by omega)]

theorem sum_succ (n : Nat) (f : Nat → Nat) : totalFan (n + 1) f = totalFan n f + f n := rfl

theorem sum_mono {n : Nat} {f g : Nat → Nat} (h : ∀ i < n, f i ≤ g i) : totalFan n f ≤ totalFan n g := by
  induction n with
  | zero => exact Nat.le_refl _
  | succ n ih =>
    rw [sum_succ, sum_succ]
    have := ih (fun i hi => h i (by omega))
    have := h n (by omega)
    omega

theorem sum_zero {n : Nat} {f : Nat → Nat} (h : ∀ i < n, f i = 0) : totalFan n f = 0 := by
  induction n with
  | zero => rfl
  | succ n ih => rw [sum_succ, ih (fun i hi => h i (by omega)), h n (by omega)]

/-- Dropping the term `i` from a sum. -/
theorem sum_drop {n i : Nat} (hi : i < n) (f : Nat → Nat) :
    totalFan n (fun j => if j = i then 0 else f j) + f i = totalFan n f := by
  have := totalFan_upd hi f 0
  exact this

theorem sum_ge {n i : Nat} (hi : i < n) (f : Nat → Nat) : f i ≤ totalFan n f := by
  have := sum_drop hi f; omega

theorem sum_cnt (c : Circuit) (n g : Nat) :
    totalFan n (fun j => cnt c j g)
      = countEq (c.gateLo + g : Nat) (fun j => (c.gate j).input0) n
        + countEq (c.gateLo + g : Nat) (fun j => (c.gate j).input1) n := by
  induction n with
  | zero => rfl
  | succ n ih => rw [sum_succ, ih]; simp only [countEq, cnt, hit]; omega

/-- Gates read only wires before themselves. -/
def Forward (c : Circuit) : Prop := ∀ j < c.gateSize,
  (c.gate j).input0 < ((c.gateLo + j : Nat) : Int) ∧ (c.gate j).input1 < ((c.gateLo + j : Nat) : Int)

theorem WF.forward {c : Circuit} (wf : WF c) : Forward c := by
  intro j hj
  have h0 := wf.in0 j hj
  have h1 := wf.in1 j hj
  unfold Readable at h0 h1
  omega

theorem Forward.cnt_zero {c : Circuit} (wf : Forward c) {j g : Nat} (hj : j < c.gateSize) (h : j ≤ g) :
    cnt c j g = 0 := by
  have h1 := wf j hj
  unfold cnt hit
  rw [if_neg (by omega), if_neg (by omega)]

theorem WF.cnt_zero {c : Circuit} (wf : WF c) {j g : Nat} (hj : j < c.gateSize) (h : j ≤ g) :
    cnt c j g = 0 := (WF.forward wf).cnt_zero hj h

theorem fillFanout_loop {c : Circuit} (wf : Forward c) (f0 : Nat → Nat) {n : Nat} (hn : n ≤ c.gateSize) :
    let s := forLoop (fillFanoutGate c) n (f0, true)
    s.2 = true ∧ ∀ g < n, s.1 g = totalFan n (fun j => cnt c j g) := by
  induction n with
  | zero => exact ⟨rfl, fun g hg => absurd hg (Nat.not_lt_zero _)⟩
  | succ n ih =>
    obtain ⟨h1, h2⟩ := ih (by omega)
    simp only [forLoop]
    generalize forLoop (fillFanoutGate c) n (f0, true) = s at h1 h2
    have h0 := wf n (by omega)
    unfold fillFanoutGate
    rw [if_neg (by simp [h1]), if_neg (by omega), if_neg (by omega)]
    refine ⟨rfl, fun g hg => ?_⟩
    rw [sum_succ]
    simp only [incIfGate_apply]
    by_cases hgn : g = n
    · subst hgn
      rw [upd_same, sum_zero (fun j hj => Forward.cnt_zero wf (by omega) (by omega))]
      have := Forward.cnt_zero wf (j := g) (g := g) (by omega) (by omega)
      unfold cnt at this ⊢
      omega
    · rw [upd_ne _ _ hgn, h2 g (by omega)]
      unfold cnt; omega

/-- `FillFanout` counts the uses. -/
theorem fillFanout_counts' {c : Circuit} (wf : Forward c) (f0 : Nat → Nat) {g : Nat} (hg : g < c.gateSize) :
    (fillFanout c f0).1 g = totalFan c.gateSize (fun j => cnt c j g) + extUses c g := by
  have := fillFanout_loop wf f0 (Nat.le_refl c.gateSize)
  simp only at this
  unfold fillFanout
  simp only [this.1, Bool.true_eq_false, if_false]
  have key : ∀ f : Nat → Nat, (if 0 < c.terminateId then incIfGate c c.terminateId f else f) g
      = f g + (if 0 < c.terminateId ∧ c.terminateId = c.gateLo + g then 1 else 0) := by
    intro f
    by_cases h : 0 < c.terminateId
    · rw [if_pos h, incIfGate_apply]; unfold hit
      by_cases h' : c.terminateId = c.gateLo + g
      · rw [if_pos (by omega), if_pos ⟨h, h'⟩]
      · rw [if_neg (by omega), if_neg (by omega)]
    · rw [if_neg h, if_neg (by omega)]; rfl
  rw [key, forLoop_inc, forLoop_inc, this.2 g hg]
  unfold extUses; omega

theorem fillFanout_counts {c : Circuit} (wf : WF c) (f0 : Nat → Nat) {g : Nat} (hg : g < c.gateSize) :
    (fillFanout c f0).1 g = totalFan c.gateSize (fun j => cnt c j g) + extUses c g :=
  fillFanout_counts' (WF.forward wf) f0 hg

theorem fillFanout_loop_forward {c : Circuit} (f0 : Nat → Nat) {n : Nat}
    (h : (forLoop (fillFanoutGate c) n (f0, true)).2 = true) : ∀ j < n,
    (c.gate j).input0 < ((c.gateLo + j : Nat) : Int) ∧ (c.gate j).input1 < ((c.gateLo + j : Nat) : Int) := by
  induction n with
  | zero => intro j hj; omega
  | succ n ih =>
    simp only [forLoop] at h
    generalize hs : forLoop (fillFanoutGate c) n (f0, true) = s at h ih
    unfold fillFanoutGate at h
    split at h
    · rename_i h'; rw [h] at h'; exact absurd h' (by decide)
    · rename_i h'
      simp only at h
      split at h
      · exact absurd h Bool.false_ne_true
      · split at h
        · exact absurd h Bool.false_ne_true
        · intro j hj
          by_cases e : j = n
          · subst e; omega
          · exact ih (by simpa using h') j (by omega)

/-- When `FillFanout` succeeds. -/
theorem fillFanout_success (c : Circuit) (f0 : Nat → Nat) :
    (fillFanout c f0).2 = true ↔ Forward c ∧ ∀ g < c.gateSize, 0 < gateUses c g + extUses c g := by
  by_cases hF : Forward c
  · have hc := fun g hg => fillFanout_counts' hF f0 (g := g) hg
    have h1 := fillFanout_loop hF f0 (Nat.le_refl c.gateSize)
    simp only [hF, true_and]
    have e : (fillFanout c f0).2 = (List.range c.gateSize).all (fun i => decide (0 < (fillFanout c f0).1 i)) := by
      unfold fillFanout
      simp only [h1.1, Bool.true_eq_false, if_false]
    rw [e, List.all_eq_true]
    simp only [List.mem_range, decide_eq_true_eq]
    constructor
    · intro h g hg
      have := h g hg
      rw [hc g hg, sum_cnt] at this
      exact this
    · intro h g hg
      rw [hc g hg, sum_cnt]
      exact h g hg
  · simp only [hF, false_and, iff_false]
    have : (forLoop (fillFanoutGate c) c.gateSize (f0, true)).2 = false := by
      by_cases e : (forLoop (fillFanoutGate c) c.gateSize (f0, true)).2 = true
      · exact absurd (fillFanout_loop_forward f0 e) hF
      · simpa using e
    unfold fillFanout
    simp [this]

theorem reduceFanout_eq (c : Circuit) (f : Nat → Nat) (w : Int) :
    reduceFanout c f w =
      if 0 ≤ w - (c.gateLo : Int) ∧ w - (c.gateLo : Int) < (c.gateSize : Int)
        ∧ 0 < f (w - (c.gateLo : Int)).toNat then
        let gid := (w - (c.gateLo : Int)).toNat
        let f1 := upd f gid (f gid - 1)
        if f1 gid = 0 then
          reduceFanout c (reduceFanout c f1 (c.gate gid).input0) (c.gate gid).input1
        else f1
      else f := by
  unfold reduceFanout
  rw [reduceFanoutAux]
  split
  · simp only
    split <;> rfl
  · rfl

/-- Induction principle for `reduceFanout`. -/
theorem reduceFanout_induct (c : Circuit) (P : (Nat → Nat) → Int → (Nat → Nat) → Prop)
    (hno : ∀ f w, ¬ (0 ≤ w - (c.gateLo : Int) ∧ w - (c.gateLo : Int) < (c.gateSize : Int)
        ∧ 0 < f (w - (c.gateLo : Int)).toNat) → P f w f)
    (hdec : ∀ f w, ∀ g, w = ((c.gateLo + g : Nat) : Int) → g < c.gateSize → 1 < f g →
        P f w (upd f g (f g - 1)))
    (hrec : ∀ f w f2 f3, ∀ g, w = ((c.gateLo + g : Nat) : Int) → g < c.gateSize → f g = 1 →
        P (upd f g 0) (c.gate g).input0 f2 → P f2 (c.gate g).input1 f3 → P f w f3)
    (f : Nat → Nat) (w : Int) : P f w (reduceFanout c f w) := by
  have : ∀ n f w, totalFan c.gateSize f ≤ n → P f w (reduceFanout c f w) := by
    intro n
    induction n with
    | zero =>
      intro f w hn
      rw [reduceFanout_eq, if_neg]
      · apply hno
        rintro ⟨h1, h2, h3⟩
        have := sum_ge (n := c.gateSize) (i := (w - (c.gateLo : Int)).toNat) (by omega) f
        omega
      · rintro ⟨h1, h2, h3⟩
        have := sum_ge (n := c.gateSize) (i := (w - (c.gateLo : Int)).toNat) (by omega) f
        omega
    | succ n ih =>
      intro f w hn
      rw [reduceFanout_eq]
      split
      · rename_i h
        obtain ⟨h1, h2, h3⟩ := h
        simp only
        have hw : w = ((c.gateLo + (w - (c.gateLo : Int)).toNat : Nat) : Int) := by omega
        have hg : (w - (c.gateLo : Int)).toNat < c.gateSize := by omega
        generalize (w - (c.gateLo : Int)).toNat = g at *
        have hsum := totalFan_upd hg f (f g - 1)
        rw [upd_same]
        split
        · rename_i h0
          have h1' : f g = 1 := by omega
          rw [show f g - 1 = 0 by omega] at hsum ⊢
          have a := ih (upd f g 0) (c.gate g).input0 (by omega)
          have hle : totalFan c.gateSize (reduceFanout c (upd f g 0) (c.gate g).input0)
            ≤ totalFan c.gateSize (upd f g 0) := (reduceFanoutAux c (upd f g 0) (c.gate g).input0).2
          have b := ih (reduceFanout c (upd f g 0) (c.gate g).input0) (c.gate g).input1 (by omega)
          exact hrec f w _ _ g hw hg h1' a b
        · rename_i h0
          exact hdec f w g hw hg (by omega)
      · rename_i h; exact hno f w h
  exact this _ f w (Nat.le_refl _)

theorem reduceFanout_le (c : Circuit) (f : Nat → Nat) (w : Int) : ∀ g, reduceFanout c f w g ≤ f g := by
  apply reduceFanout_induct c (fun f _ f' => ∀ g, f' g ≤ f g)
  · intro f w _ g; exact Nat.le_refl _
  · intro f w g _ _ _ g'
    by_cases h : g' = g
    · subst h; rw [upd_same]; omega
    · rw [upd_ne _ _ h]; exact Nat.le_refl _
  · intro f w f2 f3 g _ _ _ a b g'
    have := a g'
    have := b g'
    by_cases h : g' = g
    · subst h; rw [upd_same] at *; omega
    · rw [upd_ne _ _ h] at *; omega

theorem reduceInputs_le (c : Circuit) (i : Nat) (v0 v1 : WVal) (f : Nat → Nat) :
    ∀ g, reduceInputs c i v0 v1 f g ≤ f g := by
  intro g
  unfold reduceInputs
  have h0 : upd f i 0 g ≤ f g := by
    by_cases h : g = i
    · subst h; rw [upd_same]; omega
    · rw [upd_ne _ _ h]; exact Nat.le_refl _
  have h1 : (if v0.isSecret then reduceFanout c (upd f i 0) (c.gate i).input0 else upd f i 0) g ≤ f g := by
    split
    · exact Nat.le_trans (reduceFanout_le _ _ _ _) h0
    · exact h0
  split
  · exact Nat.le_trans (reduceFanout_le _ _ _ _) h1
  · exact h1

/-! ### The invariant -/

/-- Gate `j` still needs its inputs: it is not known and has not been given up. Gates at and beyond
`n` have not had their count initialised yet. -/
def Live (sf : Nat → Nat) (n : Nat) (f : Nat → Nat) (K : Nat → Bool) (j : Nat) : Prop :=
  K j = false ∧ (n ≤ j ∨ 0 < f j ∨ sf j = 0)

open Classical in
/-- The number of uses of `g` by live gates. -/
noncomputable def liveUses (c : Circuit) (sf : Nat → Nat) (n : Nat) (f : Nat → Nat) (K : Nat → Bool)
    (g : Nat) : Nat :=
  totalFan c.gateSize (fun j => if Live sf n f K j then cnt c j g else 0)

/-- The counts of unknown gates cover the outside uses, the uses by live gates and the uses that are
about to be given up (`pend`). -/
structure FInv (c : Circuit) (sf : Nat → Nat) (n : Nat) (f : Nat → Nat) (K : Nat → Bool)
    (pend : Nat → Nat) : Prop where
  cover : ∀ g < n, K g = false → extUses c g + liveUses c sf n f K g + pend g ≤ f g
  known : ∀ g < n, K g = true → f g = 0
  stat : ∀ g < n, sf g = 0 → f g = 0

theorem liveUses_mono {c : Circuit} {sf : Nat → Nat} {n n' : Nat} {f f' : Nat → Nat} {K K' : Nat → Bool}
    (h : ∀ j < c.gateSize, Live sf n f K j → Live sf n' f' K' j) (g : Nat) :
    liveUses c sf n f K g ≤ liveUses c sf n' f' K' g := by
  apply sum_mono
  intro j hj
  by_cases hl : Live sf n f K j
  · rw [if_pos hl, if_pos (h j hj hl)]; exact Nat.le_refl _
  · rw [if_neg hl]; exact Nat.zero_le _

/-- When gate `i` stops being live its uses move out of the sum. -/
theorem liveUses_kill {c : Circuit} {sf : Nat → Nat} {n n' : Nat} {f f' : Nat → Nat} {K K' : Nat → Bool}
    {i : Nat} (hi : i < c.gateSize) (hlive : Live sf n f K i) (hdead : ¬ Live sf n' f' K' i)
    (h : ∀ j < c.gateSize, j ≠ i → Live sf n' f' K' j → Live sf n f K j) (g : Nat) :
    liveUses c sf n' f' K' g + cnt c i g ≤ liveUses c sf n f K g := by
  classical
  unfold liveUses
  have := sum_drop hi (fun j => if Live sf n f K j then cnt c j g else 0)
  simp only [if_pos hlive] at this
  rw [← this]
  apply Nat.add_le_add_right
  apply sum_mono
  intro j hj
  by_cases hji : j = i
  · subst hji; simp [hdead]
  · simp only [if_neg hji]
    by_cases hl : Live sf n' f' K' j
    · simp [if_pos hl, if_pos (h j hj hji hl)]
    · simp [if_neg hl]

theorem FInv.weaken {c : Circuit} {sf : Nat → Nat} {n : Nat} {f : Nat → Nat} {K : Nat → Bool}
    {p q : Nat → Nat} (h : FInv c sf n f K p) (hq : ∀ g < n, K g = false → q g ≤ p g) :
    FInv c sf n f K q :=
  ⟨fun g hg hk => by have := h.cover g hg hk; have := hq g hg hk; omega, h.known, h.stat⟩

theorem FInv.reduce {c : Circuit} {sf : Nat → Nat} {n : Nat} {K : Nat → Bool} {wf : WF c}
    (hn : n ≤ c.gateSize) (f : Nat → Nat) (w : Int) :
    ∀ pend, w < ((c.gateLo + n : Nat) : Int) →
    FInv c sf n f K (fun g => pend g + hit c w g) →
    FInv c sf n (reduceFanout c f w) K pend := by
  apply reduceFanout_induct c (fun f w f' => ∀ pend, w < ((c.gateLo + n : Nat) : Int) →
    FInv c sf n f K (fun g => pend g + hit c w g) → FInv c sf n f' K pend)
  · intro f w _ pend _ h
    exact h.weaken (fun g _ _ => by omega)
  · intro f w g hw hg hf pend hwn h
    have hgn : g < n := by omega
    have hK : K g = false := by
      cases hk : K g with
      | false => rfl
      | true => have := h.known g hgn hk; omega
    refine ⟨fun g' hg' hk' => ?_, fun g' hg' hk' => ?_, fun g' hg' hs' => ?_⟩
    · have h1 := h.cover g' hg' hk'
      have h2 := liveUses_mono (c := c) (sf := sf) (n := n) (n' := n) (f := upd f g (f g - 1)) (f' := f)
        (K := K) (K' := K) (fun j _ hl => ⟨hl.1, by
          rcases hl.2 with h | h | h
          · exact Or.inl h
          · right; left
            by_cases hj : j = g
            · subst hj; omega
            · rwa [upd_ne _ _ hj] at h
          · exact Or.inr (Or.inr h)⟩) g'
      by_cases hgg : g' = g
      · subst hgg
        rw [upd_same]
        have : hit c w g' = 1 := by unfold hit; rw [if_pos hw]
        simp only [this] at h1
        omega
      · rw [upd_ne _ _ hgg]; omega
    · by_cases hgg : g' = g
      · subst hgg; simp_all
      · rw [upd_ne _ _ hgg]; exact h.known g' hg' hk'
    · by_cases hgg : g' = g
      · subst hgg; have := h.stat g' hg' hs'; omega
      · rw [upd_ne _ _ hgg]; exact h.stat g' hg' hs'
  · intro f w f2 f3 g hw hg hf ih1 ih2 pend hwn h
    have hgn : g < n := by omega
    have hK : K g = false := by
      cases hk : K g with
      | false => rfl
      | true => have := h.known g hgn hk; omega
    have hs : sf g ≠ 0 := fun hs => by have := h.stat g hgn hs; omega
    have r0 := wf.in0 g hg
    have r1 := wf.in1 g hg
    unfold Readable at r0 r1
    apply ih2 pend (by omega)
    apply ih1 _ (by omega)
    have kill := liveUses_kill (c := c) (sf := sf) (n := n) (n' := n) (f := f) (f' := upd f g 0)
      (K := K) (K' := K) hg ⟨hK, Or.inr (Or.inl (by omega))⟩
      (fun hl => by
        rcases hl.2 with h | h | h
        · omega
        · rw [upd_same] at h; omega
        · exact hs h)
      (fun j _ hji hl => ⟨hl.1, by
        rcases hl.2 with h | h | h
        · exact Or.inl h
        · rw [upd_ne _ _ hji] at h; exact Or.inr (Or.inl h)
        · exact Or.inr (Or.inr h)⟩)
    refine ⟨fun g' hg' hk' => ?_, fun g' hg' hk' => ?_, fun g' hg' hs' => ?_⟩
    · have h1 := h.cover g' hg' hk'
      have h2 := kill g'
      unfold cnt at h2
      by_cases hgg : g' = g
      · subst hgg
        rw [upd_same]
        have : hit c w g' = 1 := by unfold hit; rw [if_pos hw]
        simp only [this] at h1
        omega
      · rw [upd_ne _ _ hgg]; omega
    · by_cases hgg : g' = g
      · subst hgg; exact upd_same _ _ _
      · rw [upd_ne _ _ hgg]; exact h.known g' hg' hk'
    · by_cases hgg : g' = g
      · subst hgg; exact upd_same _ _ _
      · rw [upd_ne _ _ hgg]; exact h.stat g' hg' hs'

/-- Gate `i` becomes known: the code sets its count to zero and gives up its secret inputs. -/
theorem FInv.becomeKnown {c : Circuit} (wf : WF c) {sf : Nat → Nat} {n : Nat} {f : Nat → Nat}
    {K : Nat → Bool} (hn : n ≤ c.gateSize) {i : Nat} (hi : i < n) (h : FInv c sf n f K (fun _ => 0))
    (hK : K i = false) (hlive : 0 < f i ∨ sf i = 0) {v0 v1 : WVal}
    (h0 : ∀ g, (c.gate i).input0 = ((c.gateLo + g : Nat) : Int) → v0.isSecret = false → K g = true)
    (h1 : ∀ g, (c.gate i).input1 = ((c.gateLo + g : Nat) : Int) → v1.isSecret = false → K g = true) :
    FInv c sf n (reduceInputs c i v0 v1 f) (upd K i true) (fun _ => 0) := by
  have r0 := wf.in0 i (by omega)
  have r1 := wf.in1 i (by omega)
  unfold Readable at r0 r1
  have hself0 : (c.gate i).input0 ≠ ((c.gateLo + i : Nat) : Int) := by omega
  have hself1 : (c.gate i).input1 ≠ ((c.gateLo + i : Nat) : Int) := by omega
  have kill := liveUses_kill (c := c) (sf := sf) (n := n) (n' := n) (f := f) (f' := upd f i 0)
    (K := K) (K' := upd K i true) (i := i) (by omega)
    ⟨hK, Or.inr hlive⟩
    (fun hl => by have := hl.1; rw [upd_same] at this; exact absurd this (by decide))
    (fun j _ hji hl => ⟨by have := hl.1; rwa [upd_ne _ _ hji] at this, by
      rcases hl.2 with h | h | h
      · exact Or.inl h
      · rw [upd_ne _ _ hji] at h; exact Or.inr (Or.inl h)
      · exact Or.inr (Or.inr h)⟩)
  have start : FInv c sf n (upd f i 0) (upd K i true)
      (fun g => hit c (c.gate i).input1 g + hit c (c.gate i).input0 g) := by
    refine ⟨fun g hg hk => ?_, fun g hg hk => ?_, fun g hg hs => ?_⟩
    · have hgi : g ≠ i := fun e => by subst e; rw [upd_same] at hk; exact absurd hk (by decide)
      rw [upd_ne _ _ hgi] at hk ⊢
      have a := h.cover g hg hk
      have b := kill g
      unfold cnt at b
      omega
    · by_cases hgi : g = i
      · subst hgi; exact upd_same _ _ _
      · rw [upd_ne _ _ hgi] at hk ⊢; exact h.known g hg hk
    · by_cases hgi : g = i
      · subst hgi; exact upd_same _ _ _
      · rw [upd_ne _ _ hgi]; exact h.stat g hg hs
  have step : ∀ (w : Int) (v : WVal) (f : Nat → Nat) (p : Nat → Nat), w < ((c.gateLo + n : Nat) : Int) →
      (∀ g, w = ((c.gateLo + g : Nat) : Int) → v.isSecret = false → upd K i true g = true) →
      FInv c sf n f (upd K i true) (fun g => p g + hit c w g) →
      FInv c sf n (if v.isSecret then reduceFanout c f w else f) (upd K i true) p := by
    intro w v f p hw hp hf
    split
    · exact FInv.reduce (wf := wf) hn f w p hw hf
    · rename_i hv
      exact hf.weaken (fun g _ _ => by omega)
  unfold reduceInputs
  simp only
  have up : ∀ g, K g = true → upd K i true g = true := fun g hg => by
    by_cases hgi : g = i
    · subst hgi; exact upd_same _ _ _
    · rwa [upd_ne _ _ hgi]
  apply step _ v1 _ (fun _ => 0) (by omega) (fun g e hv => up g (h1 g e hv))
  have := step (c.gate i).input0 v0 _ (fun g => hit c (c.gate i).input1 g) (by omega)
    (fun g e hv => up g (h0 g e hv)) start
  refine this.weaken (fun g _ _ => ?_)
  omega

/-- The secret gate inputs of a gate that is unknown and still used are themselves still used. -/
theorem FInv.input_live {c : Circuit} {sf : Nat → Nat} {n : Nat} {f : Nat → Nat}
    {K : Nat → Bool} (h : FInv c sf n f K (fun _ => 0)) {i g : Nat} (hi : i < c.gateSize)
    (hK : K i = false) (hf : 0 < f i) (hg : g < n) (hKg : K g = false)
    (hin : (c.gate i).input0 = ((c.gateLo + g : Nat) : Int)
      ∨ (c.gate i).input1 = ((c.gateLo + g : Nat) : Int)) : 0 < f g := by
  classical
  have h1 := h.cover g hg hKg
  have h2 := sum_ge hi (fun j => if Live sf n f K j then cnt c j g else 0)
  simp only [if_pos (show Live sf n f K i from ⟨hK, Or.inr (Or.inl hf)⟩)] at h2
  have h3 : 1 ≤ cnt c i g := by
    unfold cnt hit
    rcases hin with e | e <;> rw [if_pos e] <;> omega
  unfold liveUses at h1
  omega

/-- A gate with an outside use stays used as long as it is unknown. -/
theorem FInv.ext_live {c : Circuit} {sf : Nat → Nat} {n : Nat} {f : Nat → Nat}
    {K : Nat → Bool} (h : FInv c sf n f K (fun _ => 0)) {g : Nat} (hg : g < n) (hKg : K g = false)
    (he : 0 < extUses c g) : 0 < f g := by
  have := h.cover g hg hKg; omega

end TinyGarble
