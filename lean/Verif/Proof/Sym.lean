import Verif.Proof.Fanout
import Verif.Spec.Symbolic

/-! Invariants of the symbolic run. -/

namespace TinyGarble
open Spec

/-- The value a garbler stores for a symbolic wire. -/
def Spec.SWire.toW : SWire → WVal
  | .pub b => .pub b
  | _ => .sec false

/-- The value an evaluator stores for a symbolic wire. -/
def Spec.SWire.toE : SWire → WVal
  | .pub b => .pub b
  | .sec _ i => .sec i
  | .hid => .sec false

@[simp] theorem toW_isSecret (a : SWire) : a.toW.isSecret = !a.isPub := by cases a <;> rfl
@[simp] theorem toE_isSecret (a : SWire) : a.toE.isSecret = !a.isPub := by cases a <;> rfl

theorem symReduce_toW (c : Circuit) (i : Nat) (a b : SWire) (f : Nat → Nat) :
    reduceInputs c i a.toW b.toW f = symReduce c i a b f := by
  unfold reduceInputs symReduce
  cases a <;> cases b <;> rfl

theorem symReduce_toE (c : Circuit) (i : Nat) (a b : SWire) (f : Nat → Nat) :
    reduceInputs c i a.toE b.toE f = symReduce c i a b f := by
  unfold reduceInputs symReduce
  cases a <;> cases b <;> rfl

theorem symReduce_le (c : Circuit) (i : Nat) (a b : SWire) (f : Nat → Nat) (g : Nat) :
    symReduce c i a b f g ≤ f g := by
  rw [← symReduce_toW]; exact reduceInputs_le _ _ _ _ _ _

theorem setRange_in {α : Type} (a : Nat → α) {lo n w : Nat} (v : Nat → α) (h : lo ≤ w ∧ w < lo + n) :
    setRange a lo n v w = v (w - lo) := by simp [setRange, h]

theorem setRange_out {α : Type} (a : Nat → α) {lo n w : Nat} (v : Nat → α) (h : ¬ (lo ≤ w ∧ w < lo + n)) :
    setRange a lo n v w = a w := by simp only [setRange]; rw [if_neg h]

/-- Case analysis of `fetch` on a readable index. -/
theorem fetch_readable {α : Type} {c : Circuit} {hi : Nat} {w : Int} (h : Readable c hi w)
    (hhi : hi ≤ c.wireSize) (z o b : α) (arr : Nat → α) :
    (w < 0 ∧ fetch c.wireSize z o b arr w = if w = CONST_ZERO then z else if w = CONST_ONE then o else b)
    ∨ (0 ≤ w ∧ c.initSize ≤ w.toNat ∧ w.toNat < hi ∧ fetch c.wireSize z o b arr w = arr w.toNat) := by
  unfold Readable at h
  unfold fetch CONST_ZERO CONST_ONE
  rcases h with h | h
  · left
    refine ⟨h, ?_⟩
    split
    · rfl
    · split
      · rfl
      · rw [if_neg (by omega)]
  · right
    refine ⟨by omega, by omega, by omega, ?_⟩
    rw [if_neg (by omega), if_neg (by omega), if_pos (by omega)]

theorem wireSize_eq (c : Circuit) : c.wireSize = c.gateLo + c.gateSize := by
  unfold Circuit.wireSize Circuit.gateLo Circuit.dffLo Circuit.eInputLo Circuit.gInputLo Circuit.pInputLo
    Circuit.gInitHi Circuit.pInitHi Circuit.initSize Circuit.inputSize
  omega

theorem symGate_ne_hid {atom : Nat} {t : Int} (ht : t ∈ gateTypes) {a b : SWire} (ha : a ≠ .hid)
    (hb : b = .hid → t = 12) : symGate atom t a b ≠ .hid := by
  cases a with
  | hid => exact absurd rfl ha
  | pub x =>
    cases b with
    | pub y => simp [symGate]
    | sec s i => simp only [symGate, symUnary]; split <;> simp
    | hid =>
      have := hb rfl; subst this
      simp [symGate, symUnary, truth]
  | sec s i =>
    cases b with
    | pub y => simp only [symGate, symUnary]; split <;> simp
    | sec s' i' =>
      simp only [symGate, symUnary]
      split
      · simp
      · split
        · split <;> simp
        · split
          · simp
          · split <;> simp
    | hid => have := hb rfl; subst this; simp [symGate]

theorem symGate_bound {atom : Nat} {t : Int} {a b : SWire}
    (ha : ∀ s i, a = .sec s i → s < 2 ^ atom) (hb : ∀ s i, b = .sec s i → s < 2 ^ atom) :
    ∀ s i, symGate atom t a b = .sec s i → s < 2 ^ (atom + 1) := by
  intro s i h
  have h1 : (2:Nat) ^ atom < 2 ^ (atom + 1) := Nat.pow_lt_pow_right (by omega) (by omega)
  cases a with
  | hid =>
    cases b <;> simp [symGate, symUnary] at h
    split at h <;> simp at h
  | pub x =>
    cases b with
    | pub y => simp [symGate] at h
    | sec s' i' =>
      simp only [symGate, symUnary] at h
      split at h
      · simp at h
      · simp at h; have := hb s' i' rfl; omega
    | hid => simp only [symGate, symUnary] at h; split at h <;> simp at h
  | sec s' i' =>
    have h2 := ha s' i' rfl
    cases b with
    | pub y =>
      simp only [symGate, symUnary] at h
      split at h <;> simp at h
      omega
    | hid => simp only [symGate] at h; split at h <;> simp at h; omega
    | sec s'' i'' =>
      have h3 := hb s'' i'' rfl
      have h4 := Nat.xor_lt_two_pow h2 h3
      simp only [symGate, symUnary] at h
      split at h
      · simp at h; omega
      · split at h
        · split at h <;> simp at h
          omega
        · split at h
          · simp at h; omega
          · split at h
            · simp at h; omega
            · simp at h; omega

/-- Which gates are known. -/
def knownGates (c : Circuit) (n : Nat) (sw : Nat → SWire) : Nat → Bool :=
  fun g => decide (g < n) && (sw (c.gateLo + g)).isPub

theorem symIn_known {c : Circuit} {n i g : Nat} {sw : Nat → SWire} {w : Int} {bad : SWire}
    (hw : w = ((c.gateLo + g : Nat) : Int)) (hlt : Readable c (c.gateLo + i) w) (hi : i ≤ n)
    (hn : n ≤ c.gateSize)
    (h : (fetch c.wireSize (.pub false) (.pub true) bad sw w).isPub = true) :
    knownGates c n sw g = true := by
  have hws := wireSize_eq c
  rcases fetch_readable hlt (by omega) (.pub false) (.pub true) bad sw with ⟨h1, _⟩ | ⟨h1, h2, h3, h4⟩
  · omega
  · rw [h4] at h
    have : w.toNat = c.gateLo + g := by omega
    rw [this] at h
    simp [knownGates, h]; omega

/-- Invariant of the known-values loop. -/
theorem knownLoop_inv {c : Circuit} (wf : WF c) {sf : Nat → Nat}
    (hsf : ∀ g < c.gateSize, sf g = totalFan c.gateSize (fun j => cnt c j g) + extUses c g)
    (s0 : SState) {n : Nat} (hn : n ≤ c.gateSize) :
    let s := forLoop (symKnownStep c sf) n s0
    FInv c sf n s.fan (knownGates c n s.sw) (fun _ => 0)
    ∧ s.tabs = s0.tabs
    ∧ (∀ w, w < c.gateLo ∨ c.gateLo + n ≤ w → s.sw w = s0.sw w)
    ∧ (∀ g < n, ∀ f i, s.sw (c.gateLo + g) ≠ .sec f i) := by
  induction n with
  | zero =>
    refine ⟨⟨?_, ?_, ?_⟩, rfl, fun _ _ => rfl, ?_⟩ <;> intro g hg <;> exact absurd hg (Nat.not_lt_zero _)
  | succ n ih =>
    obtain ⟨h1, h2, h3, h4⟩ := ih (by omega)
    simp only [forLoop]
    generalize forLoop (symKnownStep c sf) n s0 = s at h1 h2 h3 h4
    have hsn := hsf n (by omega)
    -- initialise the count of gate `n`
    have init : FInv c sf (n + 1) (upd s.fan n (sf n)) (knownGates c n s.sw) (fun _ => 0) := by
      have mono : ∀ g, liveUses c sf (n + 1) (upd s.fan n (sf n)) (knownGates c n s.sw) g
          ≤ liveUses c sf n s.fan (knownGates c n s.sw) g := by
        apply liveUses_mono
        intro j hj hl
        refine ⟨hl.1, ?_⟩
        by_cases hjn : j = n
        · subst hjn; left; omega
        · rcases hl.2 with h | h | h
          · left; omega
          · rw [upd_ne _ _ hjn] at h; exact Or.inr (Or.inl h)
          · exact Or.inr (Or.inr h)
      refine ⟨fun g hg hk => ?_, fun g hg hk => ?_, fun g hg hs => ?_⟩
      · by_cases hgn : g = n
        · subst hgn
          rw [upd_same]
          have : liveUses c sf (g + 1) (upd s.fan g (sf g)) (knownGates c g s.sw) g
              ≤ totalFan c.gateSize (fun j => cnt c j g) := by
            apply sum_mono
            intro j hj; split <;> omega
          omega
        · rw [upd_ne _ _ hgn]
          have := h1.cover g (by omega) hk
          have := mono g
          omega
      · have hgn : g < n := by
          unfold knownGates at hk; simp at hk; exact hk.1
        rw [upd_ne _ _ (by omega)]
        exact h1.known g hgn hk
      · by_cases hgn : g = n
        · subst hgn; rw [upd_same, hs]
        · rw [upd_ne _ _ hgn]; exact h1.stat g (by omega) hs
    have hKn : knownGates c n s.sw n = false := by simp [knownGates]
    have hK : ∀ o, knownGates c (n + 1) (upd s.sw (c.gateLo + n) o)
        = if o.isPub then upd (knownGates c n s.sw) n true else knownGates c n s.sw := by
      intro o
      funext g
      unfold knownGates
      by_cases hgn : g = n
      · subst hgn
        rw [upd_same]
        cases o.isPub <;> simp [upd]
      · rw [upd_ne _ _ (by omega)]
        have : decide (g < n + 1) = decide (g < n) := by simp; omega
        rw [this]
        cases o.isPub <;> simp [upd, hgn]
    unfold symKnownStep
    simp only
    generalize ho : symKnown (c.gate n).type (symIn0 c s.sw (c.gate n)) (symIn1 c s.sw (c.gate n)) = o
    refine ⟨?_, h2, ?_, ?_⟩
    · rw [hK]
      by_cases hp : o.isPub = true
      · rw [if_pos hp, if_pos hp]
        rw [← symReduce_toW]
        apply FInv.becomeKnown wf (by omega) (by omega) init hKn
        · rw [upd_same]; omega
        · intro g e hv
          have hv' : (symIn0 c s.sw (c.gate n)).isPub = true := by simpa using hv
          exact symIn_known e (wf.in0 n (by omega)) (Nat.le_refl _) (by omega) hv'
        · intro g e hv
          have hv' : (symIn1 c s.sw (c.gate n)).isPub = true := by simpa using hv
          exact symIn_known e (wf.in1 n (by omega)) (Nat.le_refl _) (by omega) hv'
      · rw [if_neg hp, if_neg hp]; exact init
    · intro w hw
      rw [upd_ne _ _ (by omega)]
      exact h3 w (by omega)
    · intro g hg f i
      by_cases hgn : g = n
      · subst hgn
        rw [upd_same, ← ho]
        generalize symIn0 c s.sw (c.gate g) = a
        generalize symIn1 c s.sw (c.gate g) = b
        cases a <;> cases b <;> simp only [symKnown, symUnary] <;> (try split) <;> simp
      · rw [upd_ne _ _ (by omega)]; exact h4 g (by omega) f i

/-- Invariant of the secret-values loop after `n` gates of cycle `cid`. -/
structure SInv (c : Circuit) (sf : Nat → Nat) (cid n : Nat) (s : SState) : Prop where
  fin : FInv c sf c.gateSize s.fan (knownGates c c.gateSize s.sw) (fun _ => 0)
  comp : ∀ g < n, (s.sw (c.gateLo + g)).isPub = false → 0 < s.fan g → s.sw (c.gateLo + g) ≠ .hid
  nh : ∀ w, c.initSize ≤ w → w < c.gateLo → s.sw w ≠ .hid
  sorted : s.tabs.Pairwise (· < ·)
  tabLt : ∀ g ∈ s.tabs, g < n
  bound : ∀ w f i, s.sw w = .sec f i → f < 2 ^ (atomGate c cid n)

theorem SInv.in0 {c : Circuit} (wf : WF c) {sf : Nat → Nat} {cid n m : Nat} {s : SState}
    (h : SInv c sf cid n s) (hn : n < c.gateSize) (hm : m ≤ n) (hf : 0 < s.fan m)
    (hk : (s.sw (c.gateLo + m)).isPub = false) : symIn0 c s.sw (c.gate m) ≠ .hid := by
  have hws := wireSize_eq c
  unfold symIn0
  rcases fetch_readable (wf.in0 m (by omega)) (by omega) (SWire.pub false) (.pub true) (.pub false) s.sw
    with ⟨h1, e⟩ | ⟨h1, h2, h3, e⟩
  · rw [e]; split
    · simp
    · split <;> simp
  · rw [e]
    by_cases hg : (c.gate m).input0.toNat < c.gateLo
    · exact h.nh _ h2 hg
    · obtain ⟨g, hg'⟩ : ∃ g, (c.gate m).input0.toNat = c.gateLo + g :=
        ⟨_, (Nat.add_sub_cancel' (by omega)).symm⟩
      rw [hg']
      by_cases hp : (s.sw (c.gateLo + g)).isPub = true
      · intro e'; rw [e'] at hp; exact absurd hp (by decide)
      · have hp' : (s.sw (c.gateLo + g)).isPub = false := by simpa using hp
        apply h.comp g (by omega) hp'
        exact h.fin.input_live (i := m) (by omega)
          (by simp [knownGates, hk]) hf (by omega)
          (by simp [knownGates, hp'])
          (Or.inl (by omega))

theorem SInv.in1 {c : Circuit} (wf : WF c) {sf : Nat → Nat} {cid n m : Nat} {s : SState}
    (h : SInv c sf cid n s) (hn : n < c.gateSize) (hm : m ≤ n) (hf : 0 < s.fan m)
    (hk : (s.sw (c.gateLo + m)).isPub = false) :
    symIn1 c s.sw (c.gate m) = .hid → (c.gate m).type = 12 := by
  have hws := wireSize_eq c
  unfold symIn1
  rcases fetch_readable (wf.in1 m (by omega)) (by omega) (SWire.pub false) (.pub true)
    (if (c.gate m).type ≠ 12 then SWire.pub false else .hid) s.sw
    with ⟨h1, e⟩ | ⟨h1, h2, h3, e⟩
  · rw [e]; split
    · simp
    · split
      · simp
      · split
        · simp
        · rename_i h; intro _; simpa using h
  · rw [e]
    intro e'
    exfalso
    by_cases hg : (c.gate m).input1.toNat < c.gateLo
    · exact h.nh _ h2 hg e'
    · obtain ⟨g, hg'⟩ : ∃ g, (c.gate m).input1.toNat = c.gateLo + g :=
        ⟨_, (Nat.add_sub_cancel' (by omega)).symm⟩
      rw [hg'] at e'
      have hp' : (s.sw (c.gateLo + g)).isPub = false := by rw [e']; rfl
      exact h.comp g (by omega) hp'
        (h.fin.input_live (i := m) (by omega)
          (by simp [knownGates, hk]) hf (by omega)
          (by simp [knownGates, hp'])
          (Or.inr (by omega))) e'

theorem fetch_bound {c : Circuit} {sw : Nat → SWire} {B : Nat} (h : ∀ w f i, sw w = .sec f i → f < B)
    {bad : SWire} (hbad : ∀ f i, bad ≠ .sec f i) (w : Int) :
    ∀ f i, fetch c.wireSize (.pub false) (.pub true) bad sw w = .sec f i → f < B := by
  intro f i e
  unfold fetch at e
  split at e
  · simp at e
  · split at e
    · simp at e
    · split at e
      · exact h _ f i e
      · exact absurd e (hbad f i)

theorem symIn0_bound {c : Circuit} {sw : Nat → SWire} {B : Nat} (h : ∀ w f i, sw w = .sec f i → f < B)
    (g : Gate) : ∀ f i, symIn0 c sw g = .sec f i → f < B :=
  fetch_bound h (by simp) _

theorem symIn1_bound {c : Circuit} {sw : Nat → SWire} {B : Nat} (h : ∀ w f i, sw w = .sec f i → f < B)
    (g : Gate) : ∀ f i, symIn1 c sw g = .sec f i → f < B :=
  fetch_bound h (by intro f i; split <;> simp) _

theorem SInv.step {c : Circuit} (wf : WF c) {sf : Nat → Nat} {cid n : Nat} {s : SState}
    (h : SInv c sf cid n s) (hn : n < c.gateSize) : SInv c sf cid (n + 1) (symStep c cid n s) := by
  have pow : (2:Nat) ^ atomGate c cid n < 2 ^ atomGate c cid (n + 1) :=
    Nat.pow_lt_pow_right (by omega) (by unfold atomGate; omega)
  unfold symStep
  by_cases hp : 0 < s.fan n ∧ (s.sw (c.gateLo + n)).isPub = false
  · rw [if_pos hp]
    obtain ⟨hf, hk⟩ := hp
    have ha := h.in0 wf hn (Nat.le_refl _) hf hk
    have hb := h.in1 wf hn (Nat.le_refl _) hf hk
    have ba := symIn0_bound h.bound (c := c) (c.gate n)
    have bb := symIn1_bound h.bound (c := c) (c.gate n)
    have ka : ∀ g, (c.gate n).input0 = ((c.gateLo + g : Nat) : Int) →
        (symIn0 c s.sw (c.gate n)).toW.isSecret = false → knownGates c c.gateSize s.sw g = true :=
      fun g e hv => symIn_known e (wf.in0 n hn) (Nat.le_of_lt hn) (Nat.le_refl _)
        (by have : (symIn0 c s.sw (c.gate n)).isPub = true := by simpa using hv
            exact this)
    have kb : ∀ g, (c.gate n).input1 = ((c.gateLo + g : Nat) : Int) →
        (symIn1 c s.sw (c.gate n)).toW.isSecret = false → knownGates c c.gateSize s.sw g = true :=
      fun g e hv => symIn_known e (wf.in1 n hn) (Nat.le_of_lt hn) (Nat.le_refl _)
        (by have : (symIn1 c s.sw (c.gate n)).isPub = true := by simpa using hv
            exact this)
    have ho := symGate_ne_hid (atom := atomGate c cid n) (wf.type n hn) ha hb
    have bo := symGate_bound (t := (c.gate n).type) ba bb
    simp only
    generalize symIn0 c s.sw (c.gate n) = a at *
    generalize symIn1 c s.sw (c.gate n) = b at *
    generalize symGate (atomGate c cid n) (c.gate n).type a b = o at *
    have hKn : knownGates c c.gateSize s.sw n = false := by simp [knownGates, hk]
    have hK : knownGates c c.gateSize (upd s.sw (c.gateLo + n) o)
        = if o.isPub then upd (knownGates c c.gateSize s.sw) n true else knownGates c c.gateSize s.sw := by
      funext g
      unfold knownGates
      by_cases hgn : g = n
      · subst hgn
        rw [upd_same]
        cases o.isPub <;> simp [upd, hn, hk]
      · rw [upd_ne _ _ (by omega)]
        cases o.isPub <;> simp [upd, hgn]
    have fle : ∀ g, (if o.isPub then symReduce c n a b s.fan else s.fan) g ≤ s.fan g := by
      intro g; split
      · exact symReduce_le _ _ _ _ _ _
      · exact Nat.le_refl _
    refine ⟨?_, ?_, ?_, ?_, ?_, ?_⟩
    · show FInv c sf c.gateSize (if o.isPub then symReduce c n a b s.fan else s.fan)
        (knownGates c c.gateSize (upd s.sw (c.gateLo + n) o)) _
      rw [hK]
      by_cases hp : o.isPub = true
      · rw [if_pos hp, if_pos hp, ← symReduce_toW]
        exact FInv.becomeKnown wf (Nat.le_refl _) hn h.fin hKn (Or.inl hf) ka kb
      · rw [if_neg hp, if_neg hp]; exact h.fin
    · intro g hg hkg hfg
      simp only at hkg hfg ⊢
      by_cases hgn : g = n
      · subst hgn; rw [upd_same]; exact ho
      · rw [upd_ne _ _ (by omega)] at hkg ⊢
        have := fle g
        exact h.comp g (by omega) hkg (by omega)
    · intro w h1 h2
      simp only
      rw [upd_ne _ _ (by omega)]; exact h.nh w h1 h2
    · simp only
      split
      · rw [List.pairwise_append]
        refine ⟨h.sorted, List.pairwise_singleton _ _, ?_⟩
        intro x hx y hy
        simp at hy; subst hy
        exact h.tabLt x hx
      · simpa using h.sorted
    · intro g hg
      simp only [List.mem_append] at hg
      rcases hg with hg | hg
      · have := h.tabLt g hg; omega
      · split at hg
        · simp at hg; omega
        · simp at hg
    · intro w f i e
      simp only at e
      by_cases hw : w = c.gateLo + n
      · subst hw
        rw [upd_same] at e
        have := bo f i e
        rwa [show atomGate c cid n + 1 = atomGate c cid (n + 1) from by unfold atomGate; omega] at this
      · rw [upd_ne _ _ hw] at e
        have := h.bound w f i e
        omega
  · rw [if_neg hp]
    refine ⟨h.fin, ?_, h.nh, h.sorted, fun g hg => by have := h.tabLt g hg; omega,
      fun w f i e => by have := h.bound w f i e; omega⟩
    intro g hg hk hf
    by_cases hgn : g = n
    · subst hgn; exact absurd ⟨hf, hk⟩ hp
    · exact h.comp g (by omega) hk hf

/-- Facts about the symbolic state at the end of a cycle. -/
abbrev SEnd (c : Circuit) (sf : Nat → Nat) (cid : Nat) (s : SState) : Prop := SInv c sf cid c.gateSize s

theorem atomGate_end (c : Circuit) (cid : Nat) : atomGate c cid c.gateSize = atomBase c (cid + 1) := by
  unfold atomGate atomBase
  rw [Nat.succ_mul]; omega

theorem countEq_pos {w : Int} {f : Nat → Int} {n i : Nat} (hi : i < n) (h : f i = w) :
    0 < countEq w f n := by
  induction n with
  | zero => omega
  | succ n ih =>
    unfold countEq
    by_cases e : i = n
    · subst e; rw [if_pos h]; omega
    · have := ih (by omega); omega

/-- A wire used outside of gates is never left uncomputed. -/
theorem SInv.used_ne_hid {c : Circuit} {sf : Nat → Nat} {cid : Nat} {s : SState}
    (h : SEnd c sf cid s) {w : Nat} (h1 : c.initSize ≤ w) (h2 : w < c.wireSize)
    (hu : ∀ g, w = c.gateLo + g → 0 < extUses c g) : s.sw w ≠ .hid := by
  have hws := wireSize_eq c
  by_cases hg : w < c.gateLo
  · exact h.nh w h1 hg
  · obtain ⟨g, rfl⟩ : ∃ g, w = c.gateLo + g := ⟨_, (Nat.add_sub_cancel' (by omega)).symm⟩
    by_cases hp : (s.sw (c.gateLo + g)).isPub = true
    · intro e; rw [e] at hp; exact absurd hp (by decide)
    · have hp' : (s.sw (c.gateLo + g)).isPub = false := by simpa using hp
      apply h.comp g (by omega) hp'
      exact h.fin.ext_live (by omega) (by simp [knownGates, hp']) (hu g rfl)

theorem SInv.D_ne_hid {c : Circuit} (wf : WF c) {sf : Nat → Nat} {cid : Nat} {s : SState}
    (h : SEnd c sf cid s) {i : Nat} (hi : i < c.dffSize) :
    fetch c.wireSize (.pub false) (.pub true) (.pub false) s.sw (c.D i) ≠ .hid := by
  rcases fetch_readable (wf.D i hi) (Nat.le_refl _) (SWire.pub false) (.pub true) (.pub false) s.sw
    with ⟨h1, e⟩ | ⟨h1, h2, h3, e⟩
  · rw [e]; split
    · simp
    · split <;> simp
  · rw [e]
    apply h.used_ne_hid h2 h3
    intro g hg
    unfold extUses
    have := countEq_pos (w := ((c.gateLo + g : Nat) : Int)) (f := c.D) hi (by omega)
    omega

theorem SInv.out_ne_hid {c : Circuit} (wf : WF c) {sf : Nat → Nat} {cid : Nat} {s : SState}
    (h : SEnd c sf cid s) {i : Nat} (hi : i < c.outputSize) : s.sw (c.outputs i).toNat ≠ .hid := by
  have := wf.outputs i hi
  apply h.used_ne_hid (by omega) (by omega)
  intro g hg
  unfold extUses
  have := countEq_pos (w := ((c.gateLo + g : Nat) : Int)) (f := c.outputs) hi (by omega)
  omega

theorem SInv.term_ne_hid {c : Circuit} (wf : WF c) {sf : Nat → Nat} {cid : Nat} {s : SState}
    (h : SEnd c sf cid s) (ht : 0 < c.terminateId) : s.sw c.terminateId ≠ .hid := by
  have := wf.term
  apply h.used_ne_hid (by omega) (by omega)
  intro g hg
  unfold extUses
  rw [if_pos ⟨ht, hg⟩]; omega

/-- Invariant between cycles: `cid` is the next cycle. -/
structure SPre (c : Circuit) (cid : Nat) (sw : Nat → SWire) : Prop where
  D : 0 < cid → ∀ i < c.dffSize, fetch c.wireSize (.pub false) (.pub true) (.pub false) sw (c.D i) ≠ .hid
  bound : ∀ w f i, sw w = .sec f i → f < 2 ^ (atomBase c cid)

theorem layout (c : Circuit) : c.initSize = c.pInputLo ∧ c.gInputLo = c.pInputLo + c.pInput
    ∧ c.dffLo = c.gInputLo + c.secretInputSize ∧ c.gateLo = c.dffLo + c.dffSize
    ∧ c.pInputLo = c.pInit + c.secretInitSize := by
  unfold Circuit.gateLo Circuit.dffLo Circuit.eInputLo Circuit.gInputLo Circuit.pInputLo
    Circuit.gInitHi Circuit.pInitHi Circuit.initSize Circuit.secretInputSize Circuit.secretInitSize
  omega

theorem symInputsDff_bound {c : Circuit} {pInit pInput cid : Nat} {sw : Nat → SWire}
    (hb : ∀ w f i, sw w = .sec f i → f < 2 ^ (atomBase c cid)) :
    ∀ w f i, symInputs c pInput cid (symDff c pInit cid sw) w = .sec f i → f < 2 ^ (atomGate c cid 0) := by
  intro w f i e
  have h0 : (2:Nat) ^ atomBase c cid ≤ 2 ^ atomGate c cid 0 :=
    Nat.pow_le_pow_right (by omega) (by unfold atomGate; omega)
  unfold symInputs at e
  by_cases h1 : c.gInputLo ≤ w ∧ w < c.gInputLo + c.secretInputSize
  · rw [setRange_in _ _ h1] at e
    simp at e
    rw [← e.1]
    apply Nat.pow_lt_pow_right (by omega)
    unfold atomIn atomGate; omega
  · rw [setRange_out _ _ h1] at e
    by_cases h2 : c.pInputLo ≤ w ∧ w < c.pInputLo + c.pInput
    · rw [setRange_in _ _ h2] at e; simp at e
    · rw [setRange_out _ _ h2] at e
      unfold symDff at e
      by_cases h3 : c.dffLo ≤ w ∧ w < c.dffLo + c.dffSize
      · rw [setRange_in _ _ h3] at e
        split at e
        · unfold symDffInit at e
          simp only at e
          split at e
          · simp at e
          · split at e
            · simp at e
            · split at e
              · split at e
                · simp at e
                · simp at e
                  rw [← e.1]
                  apply Nat.lt_of_lt_of_le _ h0
                  apply Nat.pow_lt_pow_right (by omega)
                  unfold atomBase
                  have := layout c
                  omega
              · simp at e
        · have := fetch_bound hb (by simp) _ f i e; omega
      · rw [setRange_out _ _ h3] at e
        have := hb w f i e; omega

theorem symDffInit_ne_hid (c : Circuit) (pInit i : Nat) : symDffInit c pInit i ≠ .hid := by
  unfold symDffInit
  simp only
  split
  · simp
  · split
    · simp
    · split
      · split <;> simp
      · simp

theorem symInputsDff_nh {c : Circuit} {pInit pInput cid : Nat} {sw : Nat → SWire}
    (h : SPre c cid sw) : ∀ w, c.initSize ≤ w → w < c.gateLo →
    symInputs c pInput cid (symDff c pInit cid sw) w ≠ .hid := by
  intro w hw1 hw2
  have hl := layout c
  unfold symInputs
  by_cases h1 : c.gInputLo ≤ w ∧ w < c.gInputLo + c.secretInputSize
  · rw [setRange_in _ _ h1]; simp
  · rw [setRange_out _ _ h1]
    by_cases h2 : c.pInputLo ≤ w ∧ w < c.pInputLo + c.pInput
    · rw [setRange_in _ _ h2]; simp
    · rw [setRange_out _ _ h2]
      unfold symDff
      rw [setRange_in _ _ (by omega)]
      split
      · exact symDffInit_ne_hid _ _ _
      · exact h.D (by omega) _ (by omega)

theorem symPrep_inv {c : Circuit} (wf : WF c) {sf : Nat → Nat}
    (hsf : ∀ g < c.gateSize, sf g = totalFan c.gateSize (fun j => cnt c j g) + extUses c g)
    {pInit pInput cid : Nat} {s : SState} (h : SPre c cid s.sw) :
    SInv c sf cid 0 (symPrep c sf pInit pInput cid s) := by
  have hws := wireSize_eq c
  obtain ⟨h1, h2, h3, h4⟩ := knownLoop_inv wf hsf
    ⟨symInputs c pInput cid (symDff c pInit cid s.sw), s.fan, []⟩ (Nat.le_refl c.gateSize)
  unfold symPrep
  generalize forLoop (symKnownStep c sf) c.gateSize _ = s' at *
  refine ⟨h1, ?_, ?_, ?_, ?_, ?_⟩
  · intro g hg; exact absurd hg (Nat.not_lt_zero _)
  · intro w hw1 hw2
    rw [h3 w (Or.inl hw2)]
    exact symInputsDff_nh h w hw1 hw2
  · rw [h2]; exact List.Pairwise.nil
  · rw [h2]; intro g hg; simp at hg
  · intro w f i e
    by_cases hw : w < c.gateLo ∨ c.gateLo + c.gateSize ≤ w
    · rw [h3 w hw] at e
      exact symInputsDff_bound h.bound w f i e
    · obtain ⟨g, rfl⟩ : ∃ g, w = c.gateLo + g := ⟨_, (Nat.add_sub_cancel' (by omega)).symm⟩
      exact absurd e (h4 g (by omega) f i)

theorem symLoop_inv {c : Circuit} (wf : WF c) {sf : Nat → Nat} {cid : Nat} {s : SState}
    (h : SInv c sf cid 0 s) {n : Nat} (hn : n ≤ c.gateSize) :
    SInv c sf cid n (forLoop (symStep c cid) n s) := by
  induction n with
  | zero => exact h
  | succ n ih => exact (ih (by omega)).step wf (by omega)

theorem symCycle_inv {c : Circuit} (wf : WF c) {sf : Nat → Nat}
    (hsf : ∀ g < c.gateSize, sf g = totalFan c.gateSize (fun j => cnt c j g) + extUses c g)
    {pInit pInput cid : Nat} {s : SState} (h : SPre c cid s.sw) :
    SEnd c sf cid (symCycle c sf pInit pInput cid s) :=
  symLoop_inv wf (symPrep_inv wf hsf h) (Nat.le_refl _)

theorem SEnd.pre {c : Circuit} (wf : WF c) {sf : Nat → Nat} {cid : Nat} {s : SState}
    (h : SEnd c sf cid s) : SPre c (cid + 1) s.sw :=
  ⟨fun _ _ hi => SInv.D_ne_hid wf h hi, fun w f i e => by
    have := h.bound w f i e; rwa [atomGate_end] at this⟩

theorem spre_zero (c : Circuit) : SPre c 0 (fun _ => .hid) :=
  ⟨fun h => absurd h (Nat.lt_irrefl _), fun w f i e => by simp at e⟩

theorem symRun_inv {c : Circuit} (wf : WF c) {sf : Nat → Nat}
    (hsf : ∀ g < c.gateSize, sf g = totalFan c.gateSize (fun j => cnt c j g) + extUses c g)
    (pInit pInput cid : Nat) : SEnd c sf cid (symRun c sf pInit pInput cid) := by
  induction cid with
  | zero => exact symCycle_inv wf hsf (spre_zero c)
  | succ n ih => exact symCycle_inv wf hsf (SEnd.pre wf ih)

end TinyGarble
