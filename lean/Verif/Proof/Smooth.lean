import Verif.Proof.Chance
import Verif.Proof.Virtual

/-! With smooth random choices there is no accident, even when some gates are superfluous. -/

namespace TinyGarble
open Spec Proof

/-- The rows the evaluator uses for gate `g` in cycle `k` when the table was not sent. -/
def rowsAt (c : Circuit) (s : Nat → SState) (rnd : Nat → Block) (p0 k g : Nat) : Block × Block :=
  (rnd (dropPos c s p0 k + 2 * dropped (s k) g), rnd (dropPos c s p0 k + 2 * dropped (s k) g + 1))

/-- `pv` gives the values of the fresh labels for the inputs `x`. -/
structure PMap (c : Circuit) (sf : Nat → Nat) (x : Inputs) (n : Nat) (pv : Nat → Bool) : Prop where
  add : AdditiveB pv
  init : ∀ k < c.secretInitSize, pv (2 ^ k) = secretInitBit c x k
  input : ∀ cid ≤ n, ∀ k < c.secretInputSize, pv (2 ^ atomIn c cid k) = secretInputBit c x cid k
  sim : ∀ k ≤ n, PSim c pv c.wireSize (symRun c sf x.pInit x.pInput k).sw (plainWires c x (fun _ => false) k)

theorem exists_pmap {c : Circuit} (wf : WF c) {sf : Nat → Nat}
    (hsf : ∀ g < c.gateSize, sf g = totalFan c.gateSize (fun j => cnt c j g) + extUses c g) (x : Inputs) (n : Nat) :
    ∃ pv, PMap c sf x n pv := by
  obtain ⟨pv, h1, h2, h3, h4⟩ := plainRun_map wf hsf x (fun _ => false) n
  exact ⟨pv, h1, h2, h3, h4⟩

theorem plainWires_gate {c : Circuit} (wf : WF c) (x : Inputs) (w0 : Nat → Bool) (k : Nat) {i : Nat} (hi : i < c.gateSize) :
    plainWires c x w0 k (c.gateLo + i) = truth (c.gate i).type
      (fetch c.wireSize false true false (plainWires c x w0 k) (c.gate i).input0)
      (fetch c.wireSize false true false (plainWires c x w0 k) (c.gate i).input1) := by
  cases k with
  | zero => exact (plainCycle_eqs wf x 0 w0).gate i hi
  | succ k => exact (plainCycle_eqs wf x (k + 1) (plainWires c x w0 k)).gate i hi

/-- There is no accident. -/
theorem noAccident_smooth {cap : Nat} {cr : Crypto} {c : Circuit} {A B : Args} {G : GEnv} {E : EEnv}
    (h : Setup cap cr c A B G E) {n : Nat} (nc : ¬ (settingOf c A G).Accident (coinsOf cr c A G n))
    {pv : Nat → Bool} (hpv : PMap c (settingOf c A G).sfan (inputsOf A B) n pv)
    (sm : Smooth (P := settingOf c A G) pv (rowsAt c (settingOf c A G).sym E.st0.ts.rnd E.st0.ts.rndPos)
      (coinsOf cr c A G n)) : (sessionOf cr c A B G E).NoAccident n := by
  have hws := wireSize_eq c
  have ok := session_ok h
  have wf := h.wf
  have hsf : ∀ g < c.gateSize, (settingOf c A G).sfan g = totalFan c.gateSize (fun j => cnt c j g) + extUses c g :=
    fun g hg => fillFanout_counts h.wf G.fan0 hg
  have ncS := session_noCollision (B := B) (E := E) h nc
  obtain ⟨gl', L', GS⟩ := garbleRun_map h.wf ok.odd hsf (enc := cr.enc (keyOf G.rnd))
    (gin := (sessionOf cr c A B G E).gin)
    (pInit := A.pInit) (pInput := A.pInput) (fun _ => ⟨rfl, rfl⟩)
    (fun k hk => ok.labels.init 0 k hk) (fun cid k hk => ok.labels.input cid k hk) A.useLow h.gFresh n ncS
  have F' := fun k hk => (GS k hk).facts h.wf (ncS k hk)
  obtain ⟨d, Lk, V⟩ := sm
  have hR : offsetOf G.rnd = d.1.1 := V.R
  have hRS : (sessionOf cr c A B G E).R = d.1.1 := V.R
  rw [hRS] at L' GS F'
  have tabF : ∀ k ≤ n, ∀ g ∈ ((settingOf c A G).sym k).tabs, ∃ T ∈ (garbleRun A.useLow c (cr.enc (keyOf G.rnd)) d.1.1
      (settingOf c A G).sfan (sessionOf cr c A B G E).gin G.st0 k).2, T.gid.toNat = g
      ∧ ∃ f j f' j', TableFacts c (cr.enc (keyOf G.rnd)) d.1.1 k gl' ((settingOf c A G).sym k)
        (garbleRun A.useLow c (cr.enc (keyOf G.rnd)) d.1.1 (settingOf c A G).sfan (sessionOf cr c A B G E).gin G.st0 k).1
        T f j f' j' := by
    intro k hk g hg
    have hg' := hg
    rw [show ((settingOf c A G).sym k).tabs = _ from (GS k hk).gids.symm] at hg'
    obtain ⟨T, hT, e⟩ := List.mem_map.1 hg'
    obtain ⟨f, j, f', j', t⟩ := (GS k hk).table wf hT
    exact ⟨T, hT, e, f, j, f', j', t⟩
  have dadd : Additive d.gl := lin_additive _ _
  -- the garbler's labels that matter
  have clean := symRun_clean (Q := fun f => gl' f = d.gl f) wf hsf A.pInit A.pInput
    (fun f f' a b => by
      show gl' (f ^^^ f') = d.gl (f ^^^ f')
      rw [L'.add, dadd, a, b]) (n := n)
    (fun k hk => by
      have e1 := L'.init k hk
      have e2 := V.init k hk
      have e3 : ((sessionOf cr c A B G E).gin 0).initLabels k = initPairs c A G k := rfl
      rw [e3] at e1
      have e2 : (initPairs c A G k).label0 = d.gl (2 ^ k) := e2
      rw [e1] at e2
      simpa [gPair] using e2)
    (fun cid hc k hk => by
      have e1 := L'.input cid hc k hk
      have e2 := V.input cid (by omega) k hk
      have e3 : ((sessionOf cr c A B G E).gin cid).inputLabels k = inputPairs c A G cid k := rfl
      rw [e3] at e1
      have e2 : (inputPairs c A G cid k).label0 = d.gl (2 ^ atomIn c cid k) := e2
      rw [e1] at e2
      simpa [gPair] using e2)
    (fun k hk g hm hf f j f' j' e e' a b => by
      obtain ⟨T, hT, rfl, f1, j1, f1', j1', t⟩ := tabF k hk g hm
      have e1 := (F' k hk).tab _ hm f j f' j' e e' t.type
      have e2 := V.slot k hk _ hm f j f' j' e e'
      unfold outLabel at e2
      rw [if_pos hf] at e2
      have e2 : (garbleHalfGates (cr.enc (keyOf G.rnd)) (offsetOf G.rnd) k T.gid.toNat (c.gate T.gid.toNat).type
        (gPair d.gl (offsetOf G.rnd) f j) (gPair d.gl (offsetOf G.rnd) f' j')).1.label0 = _ := e2
      rw [hR] at e2
      rw [← e1, ← e2]
      unfold gPair
      rw [a, b])
  let el : Nat → Block := fun f => d.gl f ^^^ scale (pv f) d.1.1
  have hel : Additive el := by
    intro f f'
    show d.gl (f ^^^ f') ^^^ scale (pv (f ^^^ f')) d.1.1 = d.gl f ^^^ scale (pv f) d.1.1 ^^^ (d.gl f' ^^^ scale (pv f') d.1.1)
    rw [dadd, hpv.add, scale_xor]; bxor
  have good : ∀ f, Good d.1.1 d.gl el pv f := fun f => rfl
  have ncE : ∀ k ≤ n, ∀ i < c.gateSize, ∀ f j f' j', symIn0 c ((settingOf c A G).sym k).sw (c.gate i) = .sec f j →
      symIn1 c ((settingOf c A G).sym k).sw (c.gate i) = .sec f' j' → f ≠ f' → cmpBlock (el f) (el f') = false := by
    intro k hk i hi f j f' j' e e' hne
    have a := fun b => Lk.gates (⟨k, by omega⟩, ⟨i, hi⟩, b)
    refine cmp_of_good (j := j) (j' := j') (good f) (good f') ⟨?_, ?_⟩
    · by_contra hc
      exact a false ⟨f, j, f', j', e, e', hne, by simpa [labelOf] using hc⟩
    · by_contra hc
      exact a true ⟨f, j, f', j', e, e', hne, by simpa [labelOf] using hc⟩
  have hsent : ∀ k, (sessionOf cr c A B G E).sent k = selectTables
      (garbleRun A.useLow c (cr.enc (keyOf G.rnd)) d.1.1 (settingOf c A G).sfan (sessionOf cr c A B G E).gin G.st0 k).1.fan
      (garbleRun A.useLow c (cr.enc (keyOf G.rnd)) d.1.1 (settingOf c A G).sfan (sessionOf cr c A B G E).gin G.st0 k).2 := by
    intro k
    rw [← hR]; rfl
  have check := evalRun_check wf hsf (enc := cr.enc (keyOf G.rnd)) (ein := (sessionOf cr c A B G E).ein)
    (pInit := A.pInit) (pInput := A.pInput) (fun cid => ok.labels.ePub cid) ok.eFresh (n := n) hel
    (fun k hk => by
      have e2 := V.init k hk
      have e2 : (initPairs c A G k).label0 = d.gl (2 ^ k) := e2
      rw [ok.labels.eInit 0 k hk, ite_xor (ok.labels.init 0 k hk), hRS]
      show (initPairs c A G k).label0 ^^^ scale (secretInitBit c (inputsOf A B) k) d.1.1 = d.gl (2 ^ k) ^^^ scale (pv (2 ^ k)) d.1.1
      rw [e2, hpv.init k hk])
    (fun cid hc k hk => by
      have e2 := V.input cid (by omega) k hk
      have e2 : (inputPairs c A G cid k).label0 = d.gl (2 ^ atomIn c cid k) := e2
      rw [ok.labels.eInput cid k hk, ite_xor (ok.labels.input cid k hk), hRS]
      show (inputPairs c A G cid k).label0 ^^^ scale (secretInputBit c (inputsOf A B) cid k) d.1.1
        = d.gl (2 ^ atomIn c cid k) ^^^ scale (pv (2 ^ atomIn c cid k)) d.1.1
      rw [e2, hpv.input cid hc k hk])
    (sent := (sessionOf cr c A B G E).sent)
    (fun k hk => by
      rw [hsent]
      exact selectTables_gids (GS k hk).gids (symRun_inv wf hsf A.pInit A.pInput k).tabLt (GS k hk).fan)
    (fun k hk => by
      refine ⟨ncE k hk, ?_, ?_⟩
      · intro T hT f j f' j' e e'
        rw [hsent] at hT
        obtain ⟨hT, hlive⟩ := List.mem_filter.1 hT
        obtain ⟨f1, j1, f1', j1', t⟩ := (GS k hk).table wf hT
        have s0 := t.sym0
        have s1 := t.sym1
        rw [e] at s0; rw [e'] at s1
        cases s0; cases s1
        have hf : 0 < (symRun c (settingOf c A G).sfan A.pInit A.pInput k).fan T.gid.toNat := by
          rw [← (GS k hk).fan _ t.lt]; simpa using hlive
        obtain ⟨c0, c1⟩ := clean_inputs (Q := fun f => gl' f = d.gl f) wf (symRun_inv wf hsf A.pInit A.pInput k)
          (clean k hk) t.lt hf (by rw [t.out]; rfl)
        rw [e] at c0; rw [e'] at c1
        simp only [onSec_sec] at c0 c1
        have co := clean k hk (c.gateLo + T.gid.toNat) (by have := layout c; omega) (by have := t.lt; omega)
          (fun g hg => by
            have : g = T.gid.toNat := by omega
            subst this; exact hf)
        rw [t.out] at co
        simp only [onSec_sec] at co
        have hP := hpv.sim k hk
        have o2 := hP.sec (c.gateLo + T.gid.toNat) (by have := layout c; omega) (by have := t.lt; omega)
        have t' := t.out
        rw [show (symRun c (settingOf c A G).sfan (inputsOf A B).pInit (inputsOf A B).pInput k).sw (c.gateLo + T.gid.toNat)
          = .sec (2 ^ atomGate c k T.gid.toNat) false from t'] at o2
        simp only [onSec_sec] at o2
        have x0 := (symIn0_plain hP (g := c.gate T.gid.toNat)
          (by have := wf.in0 _ t.lt; have := t.lt; unfold Readable at *; omega) (Nat.le_refl _)).2 f j e
        have x1 := (symIn1_plain hP (g := c.gate T.gid.toNat)
          (by have := wf.in1 _ t.lt; have := t.lt; unfold Readable at *; omega) (Nat.le_refl _)).2 f' j' e'
        rw [plainWires_gate wf _ _ _ t.lt, x0, x1] at o2
        have hpa : pv (2 ^ atomGate c k T.gid.toNat) = truth (c.gate T.gid.toNat).type (pv f ^^ j) (pv f' ^^ j') := by
          rw [o2]; simp
        have cor := (evalHalfGates_correct (cr.enc (keyOf G.rnd)) d.1.1 d.1.2 k T.gid.toNat t.type
          (gl' f ^^^ scale j d.1.1) (gl' f' ^^^ scale j' d.1.1) (pv f ^^ j) (pv f' ^^ j')).1
        have rows := t.rows
        have r0 := congrArg Prod.fst rows
        have r1 := congrArg Prod.snd rows
        simp only at r0 r1
        have e0 : el f = gl' f ^^^ scale j d.1.1 ^^^ scale (pv f ^^ j) d.1.1 := by
          show d.gl f ^^^ scale (pv f) d.1.1 = _
          rw [c0, scale_xor]; bxor
        have e1 : el f' = gl' f' ^^^ scale j' d.1.1 ^^^ scale (pv f' ^^ j') d.1.1 := by
          show d.gl f' ^^^ scale (pv f') d.1.1 = _
          rw [c1, scale_xor]; bxor
        have lab := t.label
        rw [r0, r1, e0, e1]
        unfold gPair at lab ⊢
        rw [cor, ← lab]
        show _ = d.gl (2 ^ atomGate c k T.gid.toNat) ^^^ scale (pv (2 ^ atomGate c k T.gid.toNat)) d.1.1
        rw [co, hpa]
      · intro g hm hf f j f' j' e e'
        have s := V.slot k hk g hm f j f' j' e e'
        unfold outLabel at s
        rw [if_neg (by show ¬ 0 < (symRun c (settingOf c A G).sfan A.pInit A.pInput k).fan g; omega)] at s
        have s : evalHalfGates (cr.enc (keyOf G.rnd)) k g (d.gl f ^^^ scale (pv f) (offsetOf G.rnd))
          (d.gl f' ^^^ scale (pv f') (offsetOf G.rnd))
          (E.st0.ts.rnd (dropPos c (settingOf c A G).sym E.st0.ts.rndPos k + 2 * dropped ((settingOf c A G).sym k) g))
          (E.st0.ts.rnd (dropPos c (settingOf c A G).sym E.st0.ts.rndPos k + 2 * dropped ((settingOf c A G).sym k) g + 1))
          ^^^ scale (pv (2 ^ atomGate c k g)) (offsetOf G.rnd) = d.gl (2 ^ atomGate c k g) := s
        rw [hR] at s
        show _ = d.gl (2 ^ atomGate c k g) ^^^ scale (pv (2 ^ atomGate c k g)) d.1.1
        rw [← s, BitVec.xor_assoc, BitVec.xor_self, BitVec.xor_zero]
        rfl)
  intro k hk
  refine ⟨ncS k hk, ?_⟩
  obtain ⟨junk, _, C⟩ := check k hk
  intro i hi f j f' j' e e' hne
  obtain ⟨q1, q2, q3, q4⟩ := fetch_sec (wf.in0 i hi) (show c.gateLo + i ≤ c.wireSize by have : i < c.gateSize := hi; omega) (by simp) e
  obtain ⟨q1', q2', q3', q4'⟩ := fetch_sec (wf.in1 i hi) (show c.gateLo + i ≤ c.wireSize by have : i < c.gateSize := hi; omega)
    (bad1_ne_sec (c.gate i).type) e'
  have a1 := C.lab _ (show (c.gate i).input0.toNat < c.wireSize by have : i < c.gateSize := hi; omega)
  have a2 := C.lab _ (show (c.gate i).input1.toNat < c.wireSize by have : i < c.gateSize := hi; omega)
  rw [show (symRun c (settingOf c A G).sfan A.pInit A.pInput k).sw (c.gate i).input0.toNat = .sec f j from q4] at a1
  rw [show (symRun c (settingOf c A G).sfan A.pInit A.pInput k).sw (c.gate i).input1.toNat = .sec f' j' from q4'] at a2
  simp only [onSec_sec] at a1 a2
  show cmpBlock ((sessionOf cr c A B G E).e k |>.wires (c.gate i).input0.toNat)
    ((sessionOf cr c A B G E).e k |>.wires (c.gate i).input1.toNat) = false
  have b1 : ((sessionOf cr c A B G E).e k).wires (c.gate i).input0.toNat = el f := a1
  have b2 : ((sessionOf cr c A B G E).e k).wires (c.gate i).input1.toNat = el f' := a2
  rw [b1, b2]
  exact ncE k hk i hi f j f' j' e e' hne

end TinyGarble
