import Verif.Proof.Run
import Verif.Proof.Garbler

/-! Only the tables that are sent matter for the wires that are still needed: a property of sets of fresh
labels that the inputs have, and that the tables that are sent pass on, holds for all wires that are
still needed. -/

namespace TinyGarble
open Spec

section
variable {c : Circuit} {sf : Nat → Nat} {Q : Nat → Prop}

theorem onSec_isPub {o : SWire} (h : o.isPub = true) (P : Nat → Bool → Prop) : OnSec o P := by
  revert h
  cases o with
  | pub b => intro _; trivial
  | _ => simp [SWire.isPub]

theorem symTable_true {t : Int} {a b : SWire} (h : symTable t a b = true) :
    ∃ f i f' i', a = .sec f i ∧ b = .sec f' i' ∧ f ≠ f' ∧ t ∈ tableTypes := by
  cases a <;> cases b <;> simp only [symTable, Bool.false_eq_true] at h
  rename_i f i f' i'
  simp only [Bool.and_eq_true, decide_eq_true_eq] at h
  exact ⟨f, i, f', i', rfl, rfl, h.1, h.2⟩

/-- One cycle. -/
theorem symLoop_clean (wf : WF c) {cid : Nat} (hx : ∀ f f', Q f → Q f' → Q (f ^^^ f')) {s0 : SState}
    (hinv : SInv c sf cid 0 s0)
    (base : ∀ w, c.initSize ≤ w → w < c.gateLo → OnSec (s0.sw w) fun f _ => Q f)
    (live : ∀ g ∈ (forLoop (symStep c cid) c.gateSize s0).tabs, 0 < (forLoop (symStep c cid) c.gateSize s0).fan g →
      ∀ f j f' j', symIn0 c (forLoop (symStep c cid) c.gateSize s0).sw (c.gate g) = .sec f j →
        symIn1 c (forLoop (symStep c cid) c.gateSize s0).sw (c.gate g) = .sec f' j' → Q f → Q f' →
        Q (2 ^ atomGate c cid g))
    {n : Nat} (hn : n ≤ c.gateSize) :
    ∀ w, c.initSize ≤ w → w < c.gateLo + n →
      (∀ g, w = c.gateLo + g → 0 < (forLoop (symStep c cid) c.gateSize s0).fan g) →
      OnSec ((forLoop (symStep c cid) n s0).sw w) fun f _ => Q f := by
  have hws := wireSize_eq c
  have invE := symLoop_inv wf hinv (n := c.gateSize) (Nat.le_refl _)
  induction n with
  | zero => exact fun w h1 h2 _ => base w h1 (by omega)
  | succ n ih =>
    have h := ih (by omega)
    have stS : ∀ m ≤ c.gateSize, ∀ w < c.gateLo + m, (forLoop (symStep c cid) c.gateSize s0).sw w
        = (forLoop (symStep c cid) m s0).sw w := fun m hm w hw =>
      forLoop_stable (symStep c cid) SState.sw c.gateLo (fun i s w => symStep_sw c cid i s) s0 hm hw
    have sI0 := symIn0_congr wf (show n < c.gateSize by omega) (stS n (by omega))
    have sI1 := symIn1_congr wf (show n < c.gateSize by omega) (stS n (by omega))
    have fle : (forLoop (symStep c cid) c.gateSize s0).fan n ≤ (forLoop (symStep c cid) n s0).fan n :=
      symLoop_fan_le c cid s0 (by omega) n
    have tabn := fun hm => live n (symLoop_tabs_mono c cid s0 (show n + 1 ≤ c.gateSize by omega) hm)
    rw [sI0, sI1] at tabn
    have stN := stS (n + 1) hn (c.gateLo + n) (by omega)
    have stS := stS n (by omega)
    clear ih live
    simp only [forLoop] at tabn stN ⊢
    generalize forLoop (symStep c cid) n s0 = s at *
    generalize forLoop (symStep c cid) c.gateSize s0 = sE at *
    intro w hw1 hw2 hlive
    rcases Decidable.em (w = c.gateLo + n) with e | e
    case inr => rw [symStep_sw c cid n s e]; exact h w hw1 (by omega) hlive
    subst e
    have hfn := hlive n rfl
    by_cases hpn : ((symStep c cid n s).sw (c.gateLo + n)).isPub = true
    · exact onSec_isPub hpn _
    rw [← stN] at hpn
    have goodIn : ∀ v, c.initSize ≤ v → v < c.gateLo + n →
        ((c.gate n).input0 = (v : Int) ∨ (c.gate n).input1 = (v : Int)) → OnSec (s.sw v) fun f _ => Q f := by
      intro v hv1 hv2 hin
      by_cases hpv : (s.sw v).isPub = true
      · exact onSec_isPub hpv _
      apply h v hv1 hv2
      intro g hg
      subst hg
      apply invE.fin.input_live (i := n) (by omega) (by simp [knownGates, hpn]) hfn (by omega) _ hin
      rw [knownGates, stS _ hv2]
      simp [hpv]
    have g0 : OnSec (symIn0 c s.sw (c.gate n)) fun f _ => Q f :=
      fetch_onSec (wf.in0 n (by omega)) (by omega) (by simp) (fun v hv1 hv2 hv3 => goodIn v hv1 hv2 (Or.inl hv3))
    have g1 : OnSec (symIn1 c s.sw (c.gate n)) fun f _ => Q f :=
      fetch_onSec (wf.in1 n (by omega)) (by omega) (bad1_ne_sec (c.gate n).type)
        (fun v hv1 hv2 hv3 => goodIn v hv1 hv2 (Or.inr hv3))
    unfold symStep at stN tabn ⊢
    by_cases hp : 0 < s.fan n ∧ (s.sw (c.gateLo + n)).isPub = false
    · simp only [Bool.not_eq_true', if_pos hp, upd_same] at stN tabn ⊢
      cases htab : symTable (c.gate n).type (symIn0 c s.sw (c.gate n)) (symIn1 c s.sw (c.gate n))
      · exact symGate_onSec hx (wf.type n (by omega)) g0 g1 htab
      · obtain ⟨f, i, f', i', q0, q1, hne, htt⟩ := symTable_true htab
        rw [htab] at tabn
        rw [q0] at g0; rw [q1] at g1
        simp only [onSec_sec] at g0 g1
        have ho := tabn (by simp) hfn f i f' i' q0 q1 g0 g1
        have hs : symGate (atomGate c cid n) (c.gate n).type (symIn0 c s.sw (c.gate n)) (symIn1 c s.sw (c.gate n))
            = .sec (2 ^ atomGate c cid n) false := by
          rw [q0, q1]
          have h6 : (c.gate n).type ≠ XORGATE := by rintro e; rw [e] at htt; revert htt; decide
          have h9 : (c.gate n).type ≠ XNORGATE := by rintro e; rw [e] at htt; revert htt; decide
          have h12 : (c.gate n).type ≠ NOTGATE := by rintro e; rw [e] at htt; revert htt; decide
          simp [symGate, hne, h6, h9, h12]
        rw [hs]; exact ho
    · simp only [Bool.not_eq_true', if_neg hp] at stN ⊢
      rw [stN] at hpn
      exact absurd ⟨by omega, by simpa using hpn⟩ hp

/-- All cycles. -/
theorem symRun_clean (wf : WF c) (hsf : ∀ g < c.gateSize, sf g = totalFan c.gateSize (fun j => cnt c j g) + extUses c g)
    (pInit pInput : Nat) (hx : ∀ f f', Q f → Q f' → Q (f ^^^ f')) {n : Nat}
    (init : ∀ k < c.secretInitSize, Q (2 ^ k)) (input : ∀ cid ≤ n, ∀ k < c.secretInputSize, Q (2 ^ atomIn c cid k))
    (live : ∀ cid ≤ n, ∀ g ∈ (symRun c sf pInit pInput cid).tabs, 0 < (symRun c sf pInit pInput cid).fan g →
      ∀ f j f' j', symIn0 c (symRun c sf pInit pInput cid).sw (c.gate g) = .sec f j →
        symIn1 c (symRun c sf pInit pInput cid).sw (c.gate g) = .sec f' j' → Q f → Q f' → Q (2 ^ atomGate c cid g)) :
    ∀ cid ≤ n, ∀ w, c.initSize ≤ w → w < c.wireSize →
      (∀ g, w = c.gateLo + g → 0 < (symRun c sf pInit pInput cid).fan g) →
      OnSec ((symRun c sf pInit pInput cid).sw w) fun f _ => Q f := by
  have hl := layout c
  have hws := wireSize_eq c
  have base : ∀ cid ≤ n, ∀ s : SState, SPre c cid s.sw →
      (0 < cid → ∀ i < c.dffSize, OnSec (fetch c.wireSize (.pub false) (.pub true) (.pub false) s.sw (c.D i)) fun f _ => Q f) →
      ∀ w, c.initSize ≤ w → w < c.gateLo → OnSec ((symPrep c sf pInit pInput cid s).sw w) fun f _ => Q f := by
    intro cid hc s hs hD w h1 h2
    obtain ⟨_, k2, k3, k4⟩ := knownLoop_inv wf hsf
      ⟨symInputs c pInput cid (symDff c pInit cid s.sw), s.fan, []⟩ (Nat.le_refl c.gateSize)
    have e := k3 w (Or.inl h2)
    unfold symPrep
    rw [e]
    show OnSec (symInputs c pInput cid (symDff c pInit cid s.sw) w) _
    rcases wire_cases c w with h' | ⟨i, hi, rfl⟩ | ⟨k, hk, rfl⟩ | ⟨k, hk, rfl⟩
    · omega
    · rw [prep_dff hi]
      split
      · rcases symDffInit_cases c pInit i with ⟨b, e⟩ | ⟨k, hk, e1, e2⟩
        · rw [e]; trivial
        · rw [e2]; exact init k hk
      · exact hD (by omega) i hi
    · rw [prep_pin hk]; trivial
    · rw [prep_sin hk]; exact input cid hc k hk
  intro cid
  induction cid with
  | zero =>
    intro hc w h1 h2 h3
    exact symLoop_clean wf hx (symPrep_inv wf hsf (spre_zero c))
      (base 0 hc _ (spre_zero c) (fun h => absurd h (by omega))) (live 0 hc) (Nat.le_refl _) w h1 (by omega) h3
  | succ cid ih =>
    intro hc w h1 h2 h3
    have ih := ih (by omega)
    have hend := symRun_inv wf hsf pInit pInput cid
    have hpre := SEnd.pre wf hend
    refine symLoop_clean wf hx (symPrep_inv wf hsf hpre)
      (base (cid + 1) hc _ hpre ?_) (live (cid + 1) hc) (Nat.le_refl _) w h1 (by omega) h3
    intro _ i hi
    apply fetch_onSec (wf.D i hi) (Nat.le_refl _) (by simp)
    intro v v1 v2 v3
    by_cases hp : ((symRun c sf pInit pInput cid).sw v).isPub = true
    · exact onSec_isPub hp _
    · apply ih v v1 v2
      intro g hg
      subst hg
      have hp' : ((symRun c sf pInit pInput cid).sw (c.gateLo + g)).isPub = false := by simpa using hp
      refine hend.fin.ext_live (by omega) (by simp [knownGates, hp']) ?_
      unfold extUses
      have := countEq_pos (w := ((c.gateLo + g : Nat) : Int)) (f := c.D) hi (by omega)
      omega

/-- The inputs of a gate that is still needed. -/
theorem clean_inputs (wf : WF c) {cid : Nat} {s : SState} (hend : SEnd c sf cid s)
    (h : ∀ w, c.initSize ≤ w → w < c.wireSize → (∀ g, w = c.gateLo + g → 0 < s.fan g) → OnSec (s.sw w) fun f _ => Q f)
    {g : Nat} (hg : g < c.gateSize) (hf : 0 < s.fan g) (hp : (s.sw (c.gateLo + g)).isPub = false) :
    OnSec (symIn0 c s.sw (c.gate g)) (fun f _ => Q f) ∧ OnSec (symIn1 c s.sw (c.gate g)) (fun f _ => Q f) := by
  have hws := wireSize_eq c
  have goodIn : ∀ v, c.initSize ≤ v → v < c.gateLo + g →
      ((c.gate g).input0 = (v : Int) ∨ (c.gate g).input1 = (v : Int)) → OnSec (s.sw v) fun f _ => Q f := by
    intro v hv1 hv2 hin
    by_cases hpv : (s.sw v).isPub = true
    · exact onSec_isPub hpv _
    apply h v hv1 (by omega)
    intro g' hg'
    subst hg'
    apply hend.fin.input_live (i := g) (by omega) (by simp [knownGates, hp]) hf (by omega) _ hin
    simp [knownGates, hpv]
  exact ⟨fetch_onSec (wf.in0 g (by omega)) (by omega) (by simp) (fun v hv1 hv2 hv3 => goodIn v hv1 hv2 (Or.inl hv3)),
    fetch_onSec (wf.in1 g (by omega)) (by omega) (bad1_ne_sec (c.gate g).type)
      (fun v hv1 hv2 hv3 => goodIn v hv1 hv2 (Or.inr hv3))⟩

end

end TinyGarble
