import Verif.Proof.Quiet
import Verif.Proof.Protocol

/-!
# Executions with an evaluator built without logging

In high-memory mode the proofs are those of `Verif.Proof.Protocol`, without the test of the number of tables.
-/

namespace TinyGarble.Proof
open TinyGarble Spec

theorem path_fail {cap n : Nat} {α β : Type} {x : Config α β} (hx : x.B = .fail) {a : α} {b : β} : ¬ Path cap n x (finished a b) := by
  induction n generalizing x with
  | zero => intro h; cases h; cases hx
  | succ n ih =>
    intro h
    cases h with
    | head s h =>
      refine ih ?_ h
      cases s with
      | sendA _ => exact hx
      | recvA => exact hx
      | sendB _ => cases hx
      | recvB => cases hx

/-- A program that refines another one can take its place in every execution that finishes. -/
theorem Refines.path {cap : Nat} {α β : Type} {P Q : Proc β} (h : Refines P Q) {n : Nat} {A : Proc α} {ab ba : List Byte} {a : α} {b : β}
    (hp : Path cap n ⟨A, ab, ba, P⟩ (finished a b)) : Path cap n ⟨A, ab, ba, Q⟩ (finished a b) := by
  induction h generalizing n A ab ba with
  | refl p => exact hp
  | fail q => exact absurd hp (path_fail rfl)
  | bind p h ih =>
    induction n generalizing p A ab ba with
    | zero =>
      cases p with
      | ret c => exact ih c hp
      | fail => exact absurd hp (path_fail rfl)
      | undef => cases hp
      | send c k => cases hp
      | recv k => cases hp
    | succ n ihn =>
      cases p with
      | ret c => exact ih c hp
      | fail => exact absurd hp (path_fail rfl)
      | undef => exact hp
      | send c k =>
        simp only [Proc.bind] at hp ⊢
        cases hp with
        | head s hp =>
          cases s with
          | sendA hq => exact .head (.sendA hq) (ihn (.send c k) hp)
          | recvA => exact .head .recvA (ihn (.send c k) hp)
          | sendB hq => exact .head (.sendB hq) (ihn k hp)
      | recv k =>
        simp only [Proc.bind] at hp ⊢
        cases hp with
        | head s hp =>
          cases s with
          | sendA hq => exact .head (.sendA hq) (ihn (.recv k) hp)
          | recvA => exact .head .recvA (ihn (.recv k) hp)
          | recvB => exact .head .recvB (ihn (k _) hp)

theorem Refines.runs {cap : Nat} {α β : Type} {P Q : Proc β} (h : Refines P Q) {A : Proc α} {a : α} {b : β} (hr : Runs cap A P a b) :
    Runs cap A Q a b := hr.elim fun n hp => ⟨n, h.path hp⟩

variable {cap : Nat} {cr : Crypto} {c : Circuit} {A B : Args} {G : GEnv} {E : EEnv}

theorem into_cycleHighQuiet (h : Setup cap cr c A B G E) (hlow : A.useLow = false)
    {cid : Nat} (hc : cid < A.cycles) (na : (sessionOf cr c A B G E).NoAccident cid)
    {init input : Nat → Block} (hi : ∀ k < c.secretInitSize, init k = chosen (initPairs c A G k) (secretInitBit c (inputsOf A B) k))
    (hi' : ∀ cid < A.cycles, ∀ k < c.secretInputSize, input (cid * c.secretInputSize + k)
          = chosen (inputLabelsHigh c G.rnd (cid * c.secretInputSize + k)) (secretInputBit c (inputsOf A B) cid k))
    (n : Nat) (gs : Nat → BlockPair × WVal) (es : Nat → Block × WVal) :
      RunsInto cap (garbleLoopHigh cr c A G (n + 1) cid (beforeG (sessionOf cr c A B G E) cid) gs)
        (evalLoopHighQuiet cr c B E (keyOf G.rnd) init input (n + 1) cid (beforeE (sessionOf cr c A B G E) cid) es)
        ((garbleStop c A.period cid ((sessionOf cr c A B G E).g cid)).bind fun stop =>
          if stop then .ret (recordOutputs c cid ((sessionOf cr c A B G E).g cid).wires ((sessionOf cr c A B G E).g cid).val gs, cid + 1)
          else garbleLoopHigh cr c A G n (cid + 1) ((sessionOf cr c A B G E).g cid) (recordOutputs c cid ((sessionOf cr c A B G E).g cid).wires ((sessionOf cr c A B G E).g cid).val gs))
        ((evalStop c A.period cid ((sessionOf cr c A B G E).e cid)).bind fun stop =>
          if stop then .ret (recordOutputs c cid ((sessionOf cr c A B G E).e cid).wires ((sessionOf cr c A B G E).e cid).val es, cid + 1)
          else evalLoopHighQuiet cr c B E (keyOf G.rnd) init input n (cid + 1) ((sessionOf cr c A B G E).e cid).clear
            (recordOutputs c cid ((sessionOf cr c A B G E).e cid).wires ((sessionOf cr c A B G E).e cid).val es)) := by
  have ok := session_ok h
  have hip : inputPairs c A G cid = fun k => inputLabelsHigh c G.rnd (cid * c.secretInputSize + k) := by
    unfold inputPairs; rw [hlow]; rfl
  have hin : initPairs c A G = initLabelsHigh G.rnd := by unfold initPairs; rw [hlow]; rfl
  rw [garbleLoopHigh.eq_2, evalLoopHighQuiet.eq_2]
  rw [← h.paired.period]
  have hg : garbleCycle false c (cr.enc (keyOf G.rnd)) (offsetOf G.rnd) (fillFanout c G.fan0).1 cid
      ⟨A.pInit, A.pInput, initLabelsHigh G.rnd, fun k => inputLabelsHigh c G.rnd (cid * c.secretInputSize + k)⟩
      (beforeG (sessionOf cr c A B G E) cid)
    = garbleRun (sessionOf cr c A B G E).lowMem c (sessionOf cr c A B G E).enc (sessionOf cr c A B G E).R
        (sessionOf cr c A B G E).sfan (sessionOf cr c A B G E).gin G.st0 cid := by
    have := garbleRun_before (sessionOf cr c A B G E) cid
    refine Eq.trans ?_ this.symm
    show _ = garbleCycle A.useLow c (cr.enc (keyOf G.rnd)) (offsetOf G.rnd) (fillFanout c G.fan0).1 cid
      ⟨A.pInit, A.pInput, initPairs c A G, inputPairs c A G cid⟩ (beforeG (sessionOf cr c A B G E) cid)
    rw [hlow, hip, hin]
  simp only [hg]
  have hsent : selectTables (garbleRun (sessionOf cr c A B G E).lowMem c (sessionOf cr c A B G E).enc (sessionOf cr c A B G E).R
        (sessionOf cr c A B G E).sfan (sessionOf cr c A B G E).gin G.st0 cid).1.fan
        (garbleRun (sessionOf cr c A B G E).lowMem c (sessionOf cr c A B G E).enc (sessionOf cr c A B G E).R
        (sessionOf cr c A B G E).sfan (sessionOf cr c A B G E).gin G.st0 cid).2 = (sessionOf cr c A B G E).sent cid := rfl
  rw [hsent]
  have hgst : (garbleRun (sessionOf cr c A B G E).lowMem c (sessionOf cr c A B G E).enc (sessionOf cr c A B G E).R
        (sessionOf cr c A B G E).sfan (sessionOf cr c A B G E).gin G.st0 cid).1 = (sessionOf cr c A B G E).g cid := rfl
  rw [hgst]
  have htab := (dual_tables (c := c) (tabs := (sessionOf cr c A B G E).sent cid) (G.pad cid)
    (sent_length (S := sessionOf cr c A B G E) cid) h.sizes.tables).runs h.conn.space
  have he : evalCycle c (cr.enc (keyOf G.rnd)) (fillFanout c E.fan0).1 cid
      ⟨B.pInit, B.pInput, init, fun k => input (cid * c.secretInputSize + k)⟩
      ((beforeE (sessionOf cr c A B G E) cid).receive ((sessionOf cr c A B G E).sent cid)) = (sessionOf cr c A B G E).e cid := by
    rw [e_before]
    refine evalCycle_congr (x := ⟨B.pInit, B.pInput, init, fun k => input (cid * c.secretInputSize + k)⟩)
      (x' := (sessionOf cr c A B G E).ein cid) (sfan_agree h) cid rfl rfl hi ?_ _
    intro k hk
    show input _ = chosen (inputPairs c A G cid k) (secretInputBit c (inputsOf A B) cid k)
    rw [hip]
    exact hi' cid (by omega) k hk
  refine htab.into ?_
  simp only [he]
  exact .refl

theorem runs_loopHighQuiet (h : Setup cap cr c A B G E) (hlow : A.useLow = false) {v : Nat → Nat → Bool}
    (hv : Solves c (inputsOf A B) v)
    (hl : (sessionOf cr c A B G E).Lucky A.period A.cycles v) (hp : (sessionOf cr c A B G E).PublicStop A.period A.cycles v)
    {init input : Nat → Block} (hi : ∀ k < c.secretInitSize, init k = chosen (initPairs c A G k) (secretInitBit c (inputsOf A B) k))
    (hi' : ∀ cid < A.cycles, ∀ k < c.secretInputSize, input (cid * c.secretInputSize + k)
          = chosen (inputLabelsHigh c G.rnd (cid * c.secretInputSize + k)) (secretInputBit c (inputsOf A B) cid k))
    (n : Nat) : ∀ cid, cid + n = A.cycles → (∀ j < cid, ¬ StopAt c A.period v j) → ∀ gs es,
      Recorded c (fun k => ((sessionOf cr c A B G E).g k).wires) (fun k => ((sessionOf cr c A B G E).g k).val) cid gs →
      Recorded c (fun k => ((sessionOf cr c A B G E).e k).wires) (fun k => ((sessionOf cr c A B G E).e k).val) cid es →
      ∃ gs' es',
        Recorded c (fun k => ((sessionOf cr c A B G E).g k).wires) (fun k => ((sessionOf cr c A B G E).g k).val)
          (loopCount (stopB c A.period v) n cid) gs' ∧
        Recorded c (fun k => ((sessionOf cr c A B G E).e k).wires) (fun k => ((sessionOf cr c A B G E).e k).val)
          (loopCount (stopB c A.period v) n cid) es' ∧
        Runs cap (garbleLoopHigh cr c A G n cid (beforeG (sessionOf cr c A B G E) cid) gs)
          (evalLoopHighQuiet cr c B E (keyOf G.rnd) init input n cid (beforeE (sessionOf cr c A B G E) cid) es)
          (gs', loopCount (stopB c A.period v) n cid) (es', loopCount (stopB c A.period v) n cid) := by
  induction n with
  | zero => intro cid _ _ gs es h1 h2; exact ⟨gs, es, h1, h2, .ret⟩
  | succ n ih =>
    intro cid hc hb gs es h1 h2
    have ok := session_ok h
    have na : (sessionOf cr c A B G E).NoAccident cid := hl cid (by omega) hb
    have hinto := into_cycleHighQuiet h hlow (by omega) na hi hi' n gs es
    have hstop := runs_stop (cap := cap) ok (T := A.period) na hv
      (fun hT _ hmod => hp hT cid (by omega) hb hmod)
    have r1 := recorded_succ h1
    have r2 := recorded_succ h2
    by_cases hs : stopB c A.period v cid = true
    · refine ⟨recordOutputs c cid ((sessionOf cr c A B G E).g cid).wires ((sessionOf cr c A B G E).g cid).val gs,
        recordOutputs c cid ((sessionOf cr c A B G E).e cid).wires ((sessionOf cr c A B G E).e cid).val es, ?_, ?_,
        hinto.runs (hstop.bind ?_)⟩
      · unfold loopCount; rw [if_pos hs]; exact r1
      · unfold loopCount; rw [if_pos hs]; exact r2
      · show Runs cap (if stopB c A.period v cid = true then _ else _) (if stopB c A.period v cid = true then _ else _) _ _
        unfold loopCount
        simp only [if_pos hs]
        exact .ret
    · obtain ⟨gs', es', q1, q2, q3⟩ := ih (cid + 1) (by omega) (not_stop_succ hb hs) _ _ r1 r2
      refine ⟨gs', es', ?_, ?_, hinto.runs (hstop.bind ?_)⟩
      · unfold loopCount; rw [if_neg hs]; exact q1
      · unfold loopCount; rw [if_neg hs]; exact q2
      · show Runs cap (if stopB c A.period v cid = true then _ else _) (if stopB c A.period v cid = true then _ else _) _ _
        unfold loopCount
        simp only [if_neg hs]
        exact q3

theorem runs_highQuiet (h : Setup cap cr c A B G E) (hlow : A.useLow = false) {v : Nat → Nat → Bool}
    (hv : Solves c (inputsOf A B) v)
    (hl : (sessionOf cr c A B G E).Lucky A.period A.cycles v) (hp : (sessionOf cr c A B G E).PublicStop A.period A.cycles v) :
    Runs cap (garbleHigh cr c A G) (evalHighQuiet cr c B E (keyOf G.rnd))
      (forLoop (updG (sessionOf cr c A B G E) A.mask v (fun k => k * c.outputSize)) (loopCount (stopB c A.period v) A.cycles 0) 0,
        loopCount (stopB c A.period v) A.cycles 0)
      (forLoop (updE (sessionOf cr c A B G E) A.mask v (fun k => k * c.outputSize)) (loopCount (stopB c A.period v) A.cycles 0) 0,
        loopCount (stopB c A.period v) A.cycles 0) := by
  have ok := session_ok h
  have hin : initPairs c A G = initLabelsHigh G.rnd := by unfold initPairs; rw [hlow]; rfl
  obtain ⟨mem, ht, hm1, hm2⟩ := runs_transferHigh (transferOK h 0) h.paired.disableOT h.paired.cycles cr
    (initLabelsHigh G.rnd) (inputLabelsHigh c G.rnd) E.init0 E.input0 h.sizes.otAll h.sizes.bnInit h.sizes.bnInput
    (G.ext 0) (E.rk 0)
  unfold garbleHigh evalHighQuiet evalOutputsHigh
  rw [refs_ok h.wf, ← h.paired.cycles]
  refine ht.bind ?_
  simp only [if_neg (show ¬ (true = false) by decide)]
  obtain ⟨gs, es, r1, r2, hr⟩ := runs_loopHighQuiet h hlow hv hl hp (init := mem.1) (input := mem.2)
    (by rw [hin]; exact hm1) hm2 A.cycles 0 (by omega) (by intro j hj; omega)
    (fun _ => (zeroPair, .sec false)) E.out0 (by intro j hj; omega) (by intro j hj; omega)
  refine hr.bind ?_
  simp only []
  have hx := executed_count c A.period v A.cycles
  generalize loopCount (stopB c A.period v) A.cycles 0 = m at hx r1 r2
  have hf := runs_for (cap := cap)
    (f := fun cid out => garbleOutputs A.mask (fun i => (gs (cid * c.outputSize + i)).1)
      (fun i => (gs (cid * c.outputSize + i)).2) (cid * c.outputSize) c.outputSize out)
    (g := fun cid out => evalOutputs B.mask (fun i => (es (cid * c.outputSize + i)).1)
      (fun i => (es (cid * c.outputSize + i)).2) (cid * c.outputSize) c.outputSize out)
    (S := fun k => forLoop (updG (sessionOf cr c A B G E) A.mask v (fun k => k * c.outputSize)) k 0)
    (T := fun k => forLoop (updE (sessionOf cr c A B G E) A.mask v (fun k => k * c.outputSize)) k 0) m (by
      intro k hk
      have na : (sessionOf cr c A B G E).NoAccident k := hl k (by have := hx.le; omega) (by
        intro j hj; exact hx.before j (by omega))
      have := runs_outputs (R := (sessionOf cr c A B G E).R) ok.odd A.mask
        (gl := fun i => (gs (k * c.outputSize + i)).1) (gv := fun i => (gs (k * c.outputSize + i)).2)
        (el := fun i => (es (k * c.outputSize + i)).1) (ev := fun i => (es (k * c.outputSize + i)).2)
        (x := fun i => v k (c.outputs i).toNat)
        (n := c.outputSize) (by
          intro i hi
          rw [r1 k hk i hi, r2 k hk i hi]
          exact Props.C01_outputs_represent ok na hv (i := i) hi) (k * c.outputSize)
          (forLoop (updG (sessionOf cr c A B G E) A.mask v (fun k => k * c.outputSize)) k 0)
          (forLoop (updE (sessionOf cr c A B G E) A.mask v (fun k => k * c.outputSize)) k 0) h.conn.space
      simp only [forLoop]
      rw [← h.paired.mask]
      have e1 : ∀ (w : Nat → Bool → Bool → Option Bool) (out : Nat),
          applyUpd (k * c.outputSize) c.outputSize (fun i => w i (gs (k * c.outputSize + i)).2.isSecret (v k (c.outputs i).toNat)) out
          = applyUpd (k * c.outputSize) c.outputSize (fun i => w i (((sessionOf cr c A B G E).g k).val (c.outputs i).toNat).isSecret
              (v k (c.outputs i).toNat)) out := by
        intro w out
        unfold applyUpd
        apply forLoop_congr
        intro i hi s
        simp only [r1 k hk i hi]
      rw [e1 (gUpd A.mask), e1 (eUpd A.mask)] at this
      exact this)
  exact hf.bind .ret

/-- The execution of the protocol with the evaluator built without logging ends with the same results. -/
theorem runs_quiet (h : Setup cap cr c A B G E) {v : Nat → Nat → Bool} (hv : Solves c (inputsOf A B) v)
    (hl : (sessionOf cr c A B G E).Lucky A.period A.cycles v) (hp : (sessionOf cr c A B G E).PublicStop A.period A.cycles v) :
    Runs cap (garbleBN cr c A G) (evaluateQuiet cr c B E)
      (forLoop (updG (sessionOf cr c A B G E) A.mask v (offsetsOf c A)) (loopCount (stopB c A.period v) A.cycles 0) 0,
        loopCount (stopB c A.period v) A.cycles 0)
      (forLoop (updE (sessionOf cr c A B G E) A.mask v (offsetsOf c A)) (loopCount (stopB c A.period v) A.cycles 0) 0,
        loopCount (stopB c A.period v) A.cycles 0) := by
  have hu : B.useLow = A.useLow := by unfold Args.useLow; rw [h.paired.lowMem, h.paired.cycles]
  cases hlow : A.useLow with
  | true => exact (refines_evaluate cr c B E (hu.trans hlow)).runs (runs_protocol h hv hl hp)
  | false =>
    have hcy := h.cycles
    have n1 : ¬ A.cycles = 0 := by omega
    have n2 : ¬ (A.period ≠ 0 ∧ c.terminateId = 0) := by
      intro hh; have := h.term hh.1; omega
    have n3 : ¬ B.cycles = 0 := by rw [← h.paired.cycles]; exact n1
    have n4 : ¬ (B.period ≠ 0 ∧ c.terminateId = 0) := by rw [← h.paired.period]; exact n2
    unfold garbleBN evaluateQuiet
    rw [if_neg n1, if_neg n2, if_neg n3, if_neg n4, hu]
    have hk := (dual_data (l := blockBytes (keyOf G.rnd)) (n := 16) (blockBytes_length _) (by decide)).runs h.conn.space
    refine hk.bind ?_
    rw [bytesBlock_blockBytes]
    unfold offsetsOf
    simp only [hlow]
    exact runs_highQuiet h hlow hv hl hp

end TinyGarble.Proof
