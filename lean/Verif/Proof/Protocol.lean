import Verif.Proof.Transfer
import Verif.Props.Run

/-!
# Executions of the whole protocol
-/

namespace TinyGarble.Proof
open TinyGarble Spec

theorem knownPass_congr {c : Circuit} {sf sf' : Nat → Nat} (h : ∀ g < c.gateSize, sf g = sf' g)
    (s : (Nat → WVal) × (Nat → Nat)) : knownPass c sf s = knownPass c sf' s := by
  unfold knownPass
  apply forLoop_congr
  intro i hi s
  unfold knownStep
  rw [h i hi]

theorem symRun_congr {c : Circuit} {sf sf' : Nat → Nat} (h : ∀ g < c.gateSize, sf g = sf' g) (pInit pInput k : Nat) :
    symRun c sf pInit pInput k = symRun c sf' pInit pInput k := by
  have hc : ∀ cid s, symCycle c sf pInit pInput cid s = symCycle c sf' pInit pInput cid s := by
    intro cid s
    unfold symCycle symPrep
    rw [forLoop_congr (f := symKnownStep c sf) (g := symKnownStep c sf')]
    intro i hi s
    unfold symKnownStep
    rw [h i hi]
  induction k with
  | zero => exact hc 0 _
  | succ k ih => simp only [symRun]; rw [ih, hc]

/-- What is secret depends on the circuit and the public inputs only. -/
theorem secret_congr {S S' : Session} (ok : S.OK) (ok' : S'.OK) (hc : S.c = S'.c) (h1 : S.x.pInit = S'.x.pInit)
    (h2 : S.x.pInput = S'.x.pInput) {k : Nat} (na : S.NoAccident k) (na' : S'.NoAccident k) {w : Nat} (hw : w < S.c.wireSize) :
    ((S.g k).val w).isSecret = ((S'.g k).val w).isSecret := by
  obtain ⟨_, _, _, _, h⟩ := Props.session_post ok na (fun _ => false)
  obtain ⟨_, _, _, _, h'⟩ := Props.session_post ok' na' (fun _ => false)
  rw [h.g.val w hw, h'.g.val w (by rw [← hc]; exact hw)]
  have : symRun S.c S.sfan S.x.pInit S.x.pInput k = symRun S'.c S'.sfan S'.x.pInit S'.x.pInput k := by
    rw [← h1, ← h2, ← hc]
    apply symRun_congr
    intro g hg
    show (fillFanout S.c S.fan0).1 g = (fillFanout S'.c S'.fan0).1 g
    rw [fillFanout_counts ok.wf _ hg, fillFanout_counts ok'.wf _ (by rw [← hc]; exact hg), hc]
  rw [this]

theorem setRange_congr {α : Type} {a : Nat → α} {lo n : Nat} {f g : Nat → α} (h : ∀ i < n, f i = g i) :
    setRange a lo n f = setRange a lo n g := by
  funext w
  unfold setRange
  by_cases hw : lo ≤ w ∧ w < lo + n
  · rw [if_pos hw, if_pos hw, h _ (by omega)]
  · rw [if_neg hw, if_neg hw]

/-- A cycle of the evaluator depends on the labels of existing inputs only. -/
theorem evalCycle_congr {c : Circuit} {enc : Block → Block} {sf sf' : Nat → Nat} (h : ∀ g < c.gateSize, sf g = sf' g)
    (cid : Nat) {x x' : ECycleIn} (h1 : x.pInit = x'.pInit) (h2 : x.pInput = x'.pInput)
    (h3 : ∀ k < c.secretInitSize, x.initLabels k = x'.initLabels k)
    (h4 : ∀ k < c.secretInputSize, x.inputLabels k = x'.inputLabels k) (st : EState) :
    evalCycle c enc sf cid x st = evalCycle c enc sf' cid x' st := by
  have e1 : evalDff c x.pInit x.initLabels cid st = evalDff c x'.pInit x'.initLabels cid st := by
    unfold evalDff
    by_cases h0 : cid = 0
    · simp only [if_pos h0, h1]
      congr 1
      apply setRange_congr
      intro i _
      unfold dffInitLabel
      simp only []
      by_cases hc : 0 ≤ c.I i ∧ c.I i < (c.initSize : Int) ∧ ¬ c.I i < (c.pInitHi : Int)
      · rw [if_pos hc, if_pos hc]
        apply h3
        unfold Circuit.secretInitSize
        have : c.initSize = c.pInit + c.gInit + c.eInit := rfl
        have : c.pInitHi = c.pInit := rfl
        omega
      · rw [if_neg hc, if_neg hc]
    · simp only [if_neg h0]
  have e2 : ∀ s, evalInputs c x.pInput x.inputLabels cid s = evalInputs c x'.pInput x'.inputLabels cid s := by
    intro s
    unfold evalInputs
    rw [h2, setRange_congr h4]
  unfold evalCycle evalPrep
  simp only [e1, e2, knownPass_congr h]

/-! ## Pure loops -/

/-- Number of cycles executed when `n` remain and the next is `cid`. -/
def loopCount (stop : Nat → Bool) : Nat → Nat → Nat
  | 0, cid => cid
  | n + 1, cid => if stop cid then cid + 1 else loopCount stop n (cid + 1)

/-- Output number accordingly. -/
def loopOut (stop : Nat → Bool) (u : Nat → Nat → Nat) : Nat → Nat → Nat → Nat
  | 0, _, out => out
  | n + 1, cid, out => if stop cid then u cid out else loopOut stop u n (cid + 1) (u cid out)

def stopB (c : Circuit) (T : Nat) (v : Nat → Nat → Bool) (k : Nat) : Bool :=
  decide (T ≠ 0 ∧ 0 < c.terminateId ∧ k % T = 0 ∧ v k c.terminateId = true)

theorem stopB_iff (c : Circuit) (T : Nat) (v : Nat → Nat → Bool) (k : Nat) : stopB c T v k = true ↔ StopAt c T v k := by
  unfold stopB StopAt; simp

theorem loopCount_bounds (stop : Nat → Bool) (n cid : Nat) : cid ≤ loopCount stop n cid ∧ loopCount stop n cid ≤ cid + n := by
  induction n generalizing cid with
  | zero => simp [loopCount]
  | succ n ih =>
    unfold loopCount
    split
    · omega
    · have := ih (cid + 1); omega

theorem loopCount_pos (stop : Nat → Bool) (n cid : Nat) (h : 0 < n) : cid < loopCount stop n cid := by
  cases n with
  | zero => omega
  | succ n =>
    unfold loopCount
    split
    · omega
    · have := (loopCount_bounds stop n (cid + 1)).1; omega

theorem loopCount_last (stop : Nat → Bool) (n cid : Nat) (h : loopCount stop n cid < cid + n) :
    ∃ k, loopCount stop n cid = k + 1 ∧ stop k = true := by
  induction n generalizing cid with
  | zero => simp [loopCount] at h
  | succ n ih =>
    unfold loopCount at h ⊢
    by_cases hs : stop cid = true
    · rw [if_pos hs]; exact ⟨cid, rfl, hs⟩
    · rw [if_neg hs] at h ⊢
      exact ih _ (by omega)

theorem loopCount_before (stop : Nat → Bool) (n cid k : Nat) (h1 : cid ≤ k) (h2 : k + 1 < loopCount stop n cid) :
    stop k = false := by
  induction n generalizing cid with
  | zero => simp [loopCount] at h2; omega
  | succ n ih =>
    unfold loopCount at h2
    by_cases hs : stop cid = true
    · rw [if_pos hs] at h2; omega
    · rw [if_neg hs] at h2
      by_cases hk : k = cid
      · subst hk; simpa using hs
      · exact ih _ (by omega) h2

theorem executed_count (c : Circuit) (T : Nat) (v : Nat → Nat → Bool) (n : Nat) :
    Executed c T v n (loopCount (stopB c T v) n 0) where
  le := by have := (loopCount_bounds (stopB c T v) n 0).2; omega
  last := by
    intro h
    obtain ⟨k, h1, h2⟩ := loopCount_last (stopB c T v) n 0 (by omega)
    exact ⟨k, h1, (stopB_iff c T v k).mp h2⟩
  before := by
    intro k hk hs
    have := loopCount_before (stopB c T v) n 0 k (Nat.zero_le _) hk
    rw [(stopB_iff c T v k).mpr hs] at this
    cases this

theorem executed_unique {c : Circuit} {T : Nat} {v : Nat → Nat → Bool} {n m m' : Nat}
    (h : Executed c T v n m) (h' : Executed c T v n m') : m = m' := by
  have key : ∀ a b, Executed c T v n a → Executed c T v n b → ¬ a < b := by
    intro a b ha hb hlt
    obtain ⟨k, hk, hs⟩ := ha.last (Nat.lt_of_lt_of_le hlt hb.le)
    exact hb.before k (by omega) hs
  have := key m m' h h'
  have := key m' m h' h
  omega

theorem loopOut_eq (stop : Nat → Bool) (u : Nat → Nat → Nat) (n : Nat) : ∀ cid, cid + n ≥ cid → ∀ out,
    loopOut stop u n cid (forLoop u cid out) = forLoop u (loopCount stop n cid) out := by
  induction n with
  | zero => intro cid _ out; rfl
  | succ n ih =>
    intro cid _ out
    unfold loopOut loopCount
    by_cases hs : stop cid = true
    · rw [if_pos hs, if_pos hs]; rfl
    · rw [if_neg hs, if_neg hs]
      exact ih (cid + 1) (by omega) out

/-! ## Session of a protocol execution -/

section
variable {cap : Nat} {cr : Crypto} {c : Circuit} {A B : Args} {G : GEnv} {E : EEnv}

theorem getLSB_offset (rnd : Nat → Block) : getLSB (offsetOf rnd) = true := by
  unfold getLSB offsetOf
  simp

theorem mkPair_ok (R b : Block) : (mkPair R b).label1 = (mkPair R b).label0 ^^^ R := by
  unfold mkPair xorBlock
  exact BitVec.xor_comm _ _

theorem initPairs_ok (c : Circuit) (A : Args) (G : GEnv) (k : Nat) :
    (initPairs c A G k).label1 = (initPairs c A G k).label0 ^^^ offsetOf G.rnd := by
  unfold initPairs
  cases A.useLow <;> exact mkPair_ok _ _

theorem inputPairs_ok (c : Circuit) (A : Args) (G : GEnv) (cid k : Nat) :
    (inputPairs c A G cid k).label1 = (inputPairs c A G cid k).label0 ^^^ offsetOf G.rnd := by
  unfold inputPairs
  cases A.useLow <;> exact mkPair_ok _ _

theorem session_ok (h : Setup cap cr c A B G E) : (sessionOf cr c A B G E).OK where
  wf := h.wf
  odd := getLSB_offset G.rnd
  labels :=
    { gPub := fun _ => ⟨rfl, rfl⟩
      ePub := fun _ => ⟨h.paired.pInit.symm, h.paired.pInput.symm⟩
      init := fun _ k _ => initPairs_ok c A G k
      input := fun cid k _ => inputPairs_ok c A G cid k
      eInit := fun _ _ _ => rfl
      eInput := fun _ _ _ => rfl }
  gFresh := h.gFresh
  eFresh := h.eFresh

/-- The garbler before cycle `cid`. -/
def beforeG (S : Session) : Nat → GState
  | 0 => S.gst0
  | k + 1 => S.g k

/-- The evaluator before cycle `cid`. -/
def beforeE (S : Session) : Nat → EState
  | 0 => S.est0
  | k + 1 => (S.e k).clear

theorem garbleRun_before (S : Session) (cid : Nat) :
    garbleRun S.lowMem S.c S.enc S.R S.sfan S.gin S.gst0 cid
      = garbleCycle S.lowMem S.c S.enc S.R S.sfan cid (S.gin cid) (beforeG S cid) := by
  cases cid <;> rfl

theorem e_before (S : Session) (cid : Nat) :
    S.e cid = evalCycle S.c S.enc S.sfan cid (S.ein cid) ((beforeE S cid).receive (S.sent cid)) := by
  cases cid <;> rfl

theorem sent_length {S : Session} (cid : Nat) : (S.sent cid).length ≤ numOfNonXor S.c := by
  show (selectTables _ (garbleRun S.lowMem S.c S.enc S.R S.sfan S.gin S.gst0 cid).2).length ≤ _
  rw [garbleRun_before]
  exact Nat.le_trans (List.length_filter_le _ _) (garbleCycle_tabs ..)

theorem refs_ok (wf : WF c) : refsInRange c = true := by
  unfold refsInRange
  rw [Bool.and_eq_true, Bool.and_eq_true, List.all_eq_true, List.all_eq_true]
  refine ⟨⟨?_, ?_⟩, ?_⟩
  · intro i hi
    have := wf.outputs i (List.mem_range.mp hi)
    simp; omega
  · intro i hi
    rcases wf.D i (List.mem_range.mp hi) with h | h <;> simp <;> omega
  · rcases wf.term with h | h <;> simp <;> omega

theorem runs_stop {S : Session} (ok : S.OK) {T cid : Nat} (na : S.NoAccident cid)
    {v : Nat → Nat → Bool} (hv : Solves S.c S.x v) (hp : T ≠ 0 → 0 < S.c.terminateId → cid % T = 0 →
      ((S.g cid).val S.c.terminateId).isSecret = false) :
    Runs cap (garbleStop S.c T cid (S.g cid)) (evalStop S.c T cid (S.e cid)) (stopB S.c T v cid) (stopB S.c T v cid) := by
  unfold garbleStop evalStop
  by_cases h : T ≠ 0 ∧ 0 < S.c.terminateId ∧ cid % T = 0
  · rw [if_pos h, if_pos h]
    have hr := Props.C13_terminate_represents ok na hv h.2.1
    have hs := hp h.1 h.2.1 h.2.2
    unfold Represents at hr
    cases hg : (S.g cid).val S.c.terminateId with
    | sec i => rw [hg] at hs; cases hs
    | pub a =>
      simp only [hg] at hr
      cases he : (S.e cid).val S.c.terminateId with
      | sec i => rw [he] at hr; exact hr.elim
      | pub b =>
        rw [he] at hr
        obtain ⟨h1, h2⟩ := hr
        have : stopB S.c T v cid = v cid S.c.terminateId := by
          unfold stopB; simp [h]
        rw [this]
        subst h1
        rw [h2]
        exact .ret
  · rw [if_neg h, if_neg h]
    have : stopB S.c T v cid = false := by
      unfold stopB
      simp only [decide_eq_false_iff_not]
      intro h'; exact h ⟨h'.1, h'.2.1, h'.2.2.1⟩
    rw [this]
    exact .ret

/-- What cycle `cid` does to the garbler's output number. -/
def updG (S : Session) (mask : Nat) (v : Nat → Nat → Bool) (off : Nat → Nat) (cid : Nat) : Nat → Nat :=
  applyUpd (off cid) S.c.outputSize fun i =>
    gUpd mask i ((S.g cid).val (S.c.outputs i).toNat).isSecret (v cid (S.c.outputs i).toNat)

/-- What cycle `cid` does to the evaluator's output number. -/
def updE (S : Session) (mask : Nat) (v : Nat → Nat → Bool) (off : Nat → Nat) (cid : Nat) : Nat → Nat :=
  applyUpd (off cid) S.c.outputSize fun i =>
    eUpd mask i ((S.g cid).val (S.c.outputs i).toNat).isSecret (v cid (S.c.outputs i).toNat)

theorem not_stop_succ {T cid : Nat} {v : Nat → Nat → Bool} (hb : ∀ j < cid, ¬ StopAt c T v j)
    (hs : ¬ stopB c T v cid = true) : ∀ j < cid + 1, ¬ StopAt c T v j := by
  intro j hj
  by_cases h : j = cid
  · subst h; rwa [stopB_iff] at hs
  · exact hb j (by omega)

theorem transferOK (h : Setup cap cr c A B G E) (i : Nat) : TransferOK cap A.disableOT (G.ot i) (E.ext i) where
  space := h.conn.space
  otCap := h.conn.otCap
  base := fun hd => h.conn.base hd i
  extBase := fun hd => h.conn.extBase hd i
  extT := fun hd => h.conn.extT hd i

theorem sfan_agree (h : Setup cap cr c A B G E) :
    ∀ g < c.gateSize, (fillFanout c E.fan0).1 g = (sessionOf cr c A B G E).sfan g := by
  intro g hg
  show _ = (fillFanout c G.fan0).1 g
  rw [fillFanout_counts h.wf _ hg, fillFanout_counts h.wf _ hg]

/-- One cycle of both parties in low-memory mode, up to the terminate signal. -/
theorem into_cycleLow (h : Setup cap cr c A B G E) (hlow : A.useLow = true) {v : Nat → Nat → Bool}
    (hv : Solves c (inputsOf A B) v) {cid : Nat} (na : (sessionOf cr c A B G E).NoAccident cid)
    {init : Nat → Block} (hi : ∀ k < c.secretInitSize, init k = chosen (initPairs c A G k) (secretInitBit c (inputsOf A B) k))
    (n : Nat) (input : Nat → Block) (go eo : Nat) : ∃ mem,
      RunsInto cap (garbleLoopLow cr c A G (n + 1) cid (beforeG (sessionOf cr c A B G E) cid) go)
        (evalLoopLow cr c B E (keyOf G.rnd) init (n + 1) cid (beforeE (sessionOf cr c A B G E) cid) input eo)
        ((garbleStop c A.period cid ((sessionOf cr c A B G E).g cid)).bind fun stop =>
          if stop then .ret (updG (sessionOf cr c A B G E) A.mask v (outputOffset c A.mode) cid go, cid + 1)
          else garbleLoopLow cr c A G n (cid + 1) ((sessionOf cr c A B G E).g cid)
            (updG (sessionOf cr c A B G E) A.mask v (outputOffset c A.mode) cid go))
        ((evalStop c A.period cid ((sessionOf cr c A B G E).e cid)).bind fun stop =>
          if stop then .ret (updE (sessionOf cr c A B G E) A.mask v (outputOffset c A.mode) cid eo, cid + 1)
          else evalLoopLow cr c B E (keyOf G.rnd) init n (cid + 1) ((sessionOf cr c A B G E).e cid).clear mem
            (updE (sessionOf cr c A B G E) A.mask v (outputOffset c A.mode) cid eo)) := by
  have ok := session_ok h
  have hip : inputPairs c A G cid = inputLabelsLow c G.rnd cid := by unfold inputPairs; rw [hlow]; rfl
  have hin : initPairs c A G = initLabelsLow c G.rnd := by unfold initPairs; rw [hlow]; rfl
  obtain ⟨mem, ht, hm⟩ := runs_transferLow (transferOK h (cid + 1)) cr (gSize := c.gInput) (eSize := c.eInput) cid A.input
    (eNum := B.input) (inputLabelsLow c G.rnd cid) input h.sizes.otInput h.sizes.bnInput (G.ext (cid + 1)) (E.rk (cid + 1))
  refine ⟨mem, ?_⟩
  rw [garbleLoopLow.eq_2, evalLoopLow.eq_2]
  rw [← h.paired.disableOT, ← h.paired.mask, ← h.paired.mode, ← h.paired.period]
  refine ht.into ?_
  -- the garbler's cycle
  have hg : garbleCycle true c (cr.enc (keyOf G.rnd)) (offsetOf G.rnd) (fillFanout c G.fan0).1 cid
      ⟨A.pInit, A.pInput, initLabelsLow c G.rnd, inputLabelsLow c G.rnd cid⟩ (beforeG (sessionOf cr c A B G E) cid)
    = garbleRun (sessionOf cr c A B G E).lowMem c (sessionOf cr c A B G E).enc (sessionOf cr c A B G E).R
        (sessionOf cr c A B G E).sfan (sessionOf cr c A B G E).gin G.st0 cid := by
    have := garbleRun_before (sessionOf cr c A B G E) cid
    refine Eq.trans ?_ this.symm
    show _ = garbleCycle A.useLow c (cr.enc (keyOf G.rnd)) (offsetOf G.rnd) (fillFanout c G.fan0).1 cid
      ⟨A.pInit, A.pInput, initPairs c A G, inputPairs c A G cid⟩ (beforeG (sessionOf cr c A B G E) cid)
    rw [hlow, hip, hin]
  simp only [hg]
  have hsent : selectTables (garbleRun (sessionOf cr c A B G E).lowMem c (sessionOf cr c A B G E).enc (sessionOf cr c A B G E).R
        (sessionOf cr c A B G E).sfan (sessionOf cr c A B G E).gin G.st0 cid).1.fan
        (garbleRun (sessionOf cr c A B G E).lowMem c (sessionOf cr c A B G E).enc (sessionOf cr c A B G E).R
        (sessionOf cr c A B G E).sfan (sessionOf cr c A B G E).gin G.st0 cid).2 = (sessionOf cr c A B G E).sent cid := rfl
  rw [hsent]
  have hgst : (garbleRun (sessionOf cr c A B G E).lowMem c (sessionOf cr c A B G E).enc (sessionOf cr c A B G E).R
        (sessionOf cr c A B G E).sfan (sessionOf cr c A B G E).gin G.st0 cid).1 = (sessionOf cr c A B G E).g cid := rfl
  rw [hgst]
  have htab := (dual_tables (c := c) (tabs := (sessionOf cr c A B G E).sent cid) (G.pad cid)
    (sent_length (S := sessionOf cr c A B G E) cid) h.sizes.tables).runs h.conn.space
  refine htab.into ?_
  have he : evalCycle c (cr.enc (keyOf G.rnd)) (fillFanout c E.fan0).1 cid ⟨B.pInit, B.pInput, init, mem⟩
      ((beforeE (sessionOf cr c A B G E) cid).receive ((sessionOf cr c A B G E).sent cid)) = (sessionOf cr c A B G E).e cid := by
    rw [e_before]
    refine evalCycle_congr (x := ⟨B.pInit, B.pInput, init, mem⟩) (x' := (sessionOf cr c A B G E).ein cid)
      (sfan_agree h) cid rfl rfl hi ?_ _
    intro k hk
    show mem k = chosen (inputPairs c A G cid k) (secretInputBit c (inputsOf A B) cid k)
    rw [hip]
    exact hm k hk
  simp only [he]
  have hind := Props.C07_sent_eq_consumed ok na
  rw [if_neg (by rw [hind]; exact fun h => h rfl)]
  have hout := runs_outputs (R := (sessionOf cr c A B G E).R) ok.odd A.mask
    (fun i hi => Props.C01_outputs_represent ok na hv (i := i) hi) (outputOffset c A.mode cid) go eo h.conn.space
  refine hout.into ?_
  exact .refl

theorem runs_loopLow (h : Setup cap cr c A B G E) (hlow : A.useLow = true) {v : Nat → Nat → Bool}
    (hv : Solves c (inputsOf A B) v)
    (hl : (sessionOf cr c A B G E).Lucky A.period A.cycles v) (hp : (sessionOf cr c A B G E).PublicStop A.period A.cycles v)
    {init : Nat → Block} (hi : ∀ k < c.secretInitSize, init k = chosen (initPairs c A G k) (secretInitBit c (inputsOf A B) k))
    (n : Nat) : ∀ cid, cid + n = A.cycles → (∀ j < cid, ¬ StopAt c A.period v j) → ∀ (input : Nat → Block) (go eo : Nat),
      Runs cap (garbleLoopLow cr c A G n cid (beforeG (sessionOf cr c A B G E) cid) go)
        (evalLoopLow cr c B E (keyOf G.rnd) init n cid (beforeE (sessionOf cr c A B G E) cid) input eo)
        (loopOut (stopB c A.period v) (updG (sessionOf cr c A B G E) A.mask v (outputOffset c A.mode)) n cid go,
          loopCount (stopB c A.period v) n cid)
        (loopOut (stopB c A.period v) (updE (sessionOf cr c A B G E) A.mask v (outputOffset c A.mode)) n cid eo,
          loopCount (stopB c A.period v) n cid) := by
  induction n with
  | zero => intro cid _ _ input go eo; exact .ret
  | succ n ih =>
    intro cid hc hb input go eo
    have ok := session_ok h
    have na : (sessionOf cr c A B G E).NoAccident cid := hl cid (by omega) hb
    obtain ⟨mem, hinto⟩ := into_cycleLow h hlow hv na hi n input go eo
    refine hinto.runs ?_
    have hstop := runs_stop (cap := cap) ok (T := A.period) na hv
      (fun hT _ hmod => hp hT cid (by omega) hb hmod)
    refine hstop.bind ?_
    show Runs cap (if stopB c A.period v cid = true then _ else _) (if stopB c A.period v cid = true then _ else _) _ _
    unfold loopOut loopCount
    by_cases hs : stopB c A.period v cid = true
    · simp only [if_pos hs]
      exact .ret
    · simp only [if_neg hs]
      exact ih (cid + 1) (by omega) (not_stop_succ hb hs) mem _ _

theorem runs_low (h : Setup cap cr c A B G E) (hlow : A.useLow = true) {v : Nat → Nat → Bool}
    (hv : Solves c (inputsOf A B) v)
    (hl : (sessionOf cr c A B G E).Lucky A.period A.cycles v) (hp : (sessionOf cr c A B G E).PublicStop A.period A.cycles v) :
    Runs cap (garbleLow cr c A G) (evalLow cr c B E (keyOf G.rnd))
      (forLoop (updG (sessionOf cr c A B G E) A.mask v (outputOffset c A.mode)) (loopCount (stopB c A.period v) A.cycles 0) 0,
        loopCount (stopB c A.period v) A.cycles 0)
      (forLoop (updE (sessionOf cr c A B G E) A.mask v (outputOffset c A.mode)) (loopCount (stopB c A.period v) A.cycles 0) 0,
        loopCount (stopB c A.period v) A.cycles 0) := by
  unfold garbleLow evalLow
  rw [← h.paired.disableOT, ← h.paired.cycles, refs_ok h.wf]
  have hin : initPairs c A G = initLabelsLow c G.rnd := by unfold initPairs; rw [hlow]; rfl
  obtain ⟨mem, ht, hm⟩ := runs_transferLow (transferOK h 0) cr (gSize := c.gInit) (eSize := c.eInit) 0 A.init
    (eNum := B.init) (initLabelsLow c G.rnd) E.init0 h.sizes.otInit h.sizes.bnInit (G.ext 0) (E.rk 0)
  refine ht.bind ?_
  simp only [if_neg (show ¬ (true = false) by decide)]
  have := runs_loopLow h hlow hv hl hp (init := mem) (by
    intro k hk
    rw [hin, hm k hk]
    unfold secretInitBit inputsOf
    simp) A.cycles 0 (by omega) (by intro j hj; omega) E.input0 0 0
  have e1 := loopOut_eq (stopB c A.period v) (updG (sessionOf cr c A B G E) A.mask v (outputOffset c A.mode)) A.cycles 0 (by omega) 0
  have e2 := loopOut_eq (stopB c A.period v) (updE (sessionOf cr c A B G E) A.mask v (outputOffset c A.mode)) A.cycles 0 (by omega) 0
  simp only [forLoop] at e1 e2
  rw [e1, e2] at this
  exact this

/-- The outputs of the first `cid` cycles are recorded. -/
def Recorded {α : Type} (c : Circuit) (wires : Nat → Nat → α) (val : Nat → Nat → WVal) (cid : Nat) (saved : Nat → α × WVal) : Prop :=
  ∀ j < cid, ∀ i < c.outputSize, saved (j * c.outputSize + i) = (wires j (c.outputs i).toNat, val j (c.outputs i).toNat)

theorem recorded_succ {α : Type} {c : Circuit} {wires : Nat → Nat → α} {val : Nat → Nat → WVal} {cid : Nat}
    {saved : Nat → α × WVal} (h : Recorded c wires val cid saved) :
    Recorded c wires val (cid + 1) (recordOutputs c cid (wires cid) (val cid) saved) := by
  intro j hj i hi
  unfold recordOutputs setRange
  by_cases hjc : j = cid
  · subst hjc
    rw [if_pos (by omega), Nat.add_sub_cancel_left]
  · have : (j + 1) * c.outputSize ≤ cid * c.outputSize := Nat.mul_le_mul_right _ (by omega)
    rw [Nat.add_mul] at this
    rw [if_neg (by omega)]
    exact h j (by omega) i hi

/-- One cycle of both parties in high-memory mode, up to the terminate signal. -/
theorem into_cycleHigh (h : Setup cap cr c A B G E) (hlow : A.useLow = false)
    {cid : Nat} (hc : cid < A.cycles) (na : (sessionOf cr c A B G E).NoAccident cid)
    {init input : Nat → Block} (hi : ∀ k < c.secretInitSize, init k = chosen (initPairs c A G k) (secretInitBit c (inputsOf A B) k))
    (hi' : ∀ cid < A.cycles, ∀ k < c.secretInputSize, input (cid * c.secretInputSize + k)
          = chosen (inputLabelsHigh c G.rnd (cid * c.secretInputSize + k)) (secretInputBit c (inputsOf A B) cid k))
    (n : Nat) (gs : Nat → BlockPair × WVal) (es : Nat → Block × WVal) :
      RunsInto cap (garbleLoopHigh cr c A G (n + 1) cid (beforeG (sessionOf cr c A B G E) cid) gs)
        (evalLoopHigh cr c B E (keyOf G.rnd) init input (n + 1) cid (beforeE (sessionOf cr c A B G E) cid) es)
        ((garbleStop c A.period cid ((sessionOf cr c A B G E).g cid)).bind fun stop =>
          if stop then .ret (recordOutputs c cid ((sessionOf cr c A B G E).g cid).wires ((sessionOf cr c A B G E).g cid).val gs, cid + 1)
          else garbleLoopHigh cr c A G n (cid + 1) ((sessionOf cr c A B G E).g cid) (recordOutputs c cid ((sessionOf cr c A B G E).g cid).wires ((sessionOf cr c A B G E).g cid).val gs))
        ((evalStop c A.period cid ((sessionOf cr c A B G E).e cid)).bind fun stop =>
          if stop then .ret (recordOutputs c cid ((sessionOf cr c A B G E).e cid).wires ((sessionOf cr c A B G E).e cid).val es, cid + 1)
          else evalLoopHigh cr c B E (keyOf G.rnd) init input n (cid + 1) ((sessionOf cr c A B G E).e cid).clear
            (recordOutputs c cid ((sessionOf cr c A B G E).e cid).wires ((sessionOf cr c A B G E).e cid).val es)) := by
  have ok := session_ok h
  have hip : inputPairs c A G cid = fun k => inputLabelsHigh c G.rnd (cid * c.secretInputSize + k) := by
    unfold inputPairs; rw [hlow]; rfl
  have hin : initPairs c A G = initLabelsHigh G.rnd := by unfold initPairs; rw [hlow]; rfl
  rw [garbleLoopHigh.eq_2, evalLoopHigh.eq_2]
  rw [← h.paired.period]
  have hg : garbleCycle false c (cr.enc (keyOf G.rnd)) (offsetOf G.rnd) (fillFanout c G.fan0).1 cid
      ⟨A.pInit, A.pInput, initLabelsHigh G.rnd, fun k => inputLabelsHigh c G.rnd (cid * c.secretInputSize + k)⟩
      (beforeG (sessionOf cr c A B G E) cid)
    = garbleRun (sessionOf cr c A B G E).lowMem c (sessionOf cr c A B G E).enc (sessionOf cr c A B G E).R
        (sessionOf cr c A B G E).sfan (sessionOf cr c A B G E).gin G.st0 cid := by
    have := garbleRun_before (sessionOf cr c A B G E) cid
    refine Eq.trans ?_ this.symm
    show _ = garbleCycle A.useLow c (cr.enc (keyOf G.rnd)) (offsetOf G.rnd) (fillFanout c G.fan0).1 cid
      ⟨A.pInit, A.pInput, initPairs c A G, inputPairs c A G cid⟩ (beforeG (sessionOf cr c A B G E) cid)
    rw [hlow, hip, hin]
  simp only [hg]
  have hsent : selectTables (garbleRun (sessionOf cr c A B G E).lowMem c (sessionOf cr c A B G E).enc (sessionOf cr c A B G E).R
        (sessionOf cr c A B G E).sfan (sessionOf cr c A B G E).gin G.st0 cid).1.fan
        (garbleRun (sessionOf cr c A B G E).lowMem c (sessionOf cr c A B G E).enc (sessionOf cr c A B G E).R
        (sessionOf cr c A B G E).sfan (sessionOf cr c A B G E).gin G.st0 cid).2 = (sessionOf cr c A B G E).sent cid := rfl
  rw [hsent]
  have hgst : (garbleRun (sessionOf cr c A B G E).lowMem c (sessionOf cr c A B G E).enc (sessionOf cr c A B G E).R
        (sessionOf cr c A B G E).sfan (sessionOf cr c A B G E).gin G.st0 cid).1 = (sessionOf cr c A B G E).g cid := rfl
  rw [hgst]
  have htab := (dual_tables (c := c) (tabs := (sessionOf cr c A B G E).sent cid) (G.pad cid)
    (sent_length (S := sessionOf cr c A B G E) cid) h.sizes.tables).runs h.conn.space
  have he : evalCycle c (cr.enc (keyOf G.rnd)) (fillFanout c E.fan0).1 cid
      ⟨B.pInit, B.pInput, init, fun k => input (cid * c.secretInputSize + k)⟩
      ((beforeE (sessionOf cr c A B G E) cid).receive ((sessionOf cr c A B G E).sent cid)) = (sessionOf cr c A B G E).e cid := by
    rw [e_before]
    refine evalCycle_congr (x := ⟨B.pInit, B.pInput, init, fun k => input (cid * c.secretInputSize + k)⟩)
      (x' := (sessionOf cr c A B G E).ein cid) (sfan_agree h) cid rfl rfl hi ?_ _
    intro k hk
    show input _ = chosen (inputPairs c A G cid k) (secretInputBit c (inputsOf A B) cid k)
    rw [hip]
    exact hi' cid (by omega) k hk
  have hind := Props.C07_sent_eq_consumed ok na
  refine htab.into ?_
  simp only [he]
  rw [if_neg (by rw [hind]; exact fun h => h rfl)]
  exact .refl

theorem runs_loopHigh (h : Setup cap cr c A B G E) (hlow : A.useLow = false) {v : Nat → Nat → Bool}
    (hv : Solves c (inputsOf A B) v)
    (hl : (sessionOf cr c A B G E).Lucky A.period A.cycles v) (hp : (sessionOf cr c A B G E).PublicStop A.period A.cycles v)
    {init input : Nat → Block} (hi : ∀ k < c.secretInitSize, init k = chosen (initPairs c A G k) (secretInitBit c (inputsOf A B) k))
    (hi' : ∀ cid < A.cycles, ∀ k < c.secretInputSize, input (cid * c.secretInputSize + k)
          = chosen (inputLabelsHigh c G.rnd (cid * c.secretInputSize + k)) (secretInputBit c (inputsOf A B) cid k))
    (n : Nat) : ∀ cid, cid + n = A.cycles → (∀ j < cid, ¬ StopAt c A.period v j) → ∀ gs es,
      Recorded c (fun k => ((sessionOf cr c A B G E).g k).wires) (fun k => ((sessionOf cr c A B G E).g k).val) cid gs →
      Recorded c (fun k => ((sessionOf cr c A B G E).e k).wires) (fun k => ((sessionOf cr c A B G E).e k).val) cid es →
      ∃ gs' es',
        Recorded c (fun k => ((sessionOf cr c A B G E).g k).wires) (fun k => ((sessionOf cr c A B G E).g k).val)
          (loopCount (stopB c A.period v) n cid) gs' ∧
        Recorded c (fun k => ((sessionOf cr c A B G E).e k).wires) (fun k => ((sessionOf cr c A B G E).e k).val)
          (loopCount (stopB c A.period v) n cid) es' ∧
        Runs cap (garbleLoopHigh cr c A G n cid (beforeG (sessionOf cr c A B G E) cid) gs)
          (evalLoopHigh cr c B E (keyOf G.rnd) init input n cid (beforeE (sessionOf cr c A B G E) cid) es)
          (gs', loopCount (stopB c A.period v) n cid) (es', loopCount (stopB c A.period v) n cid) := by
  induction n with
  | zero => intro cid _ _ gs es h1 h2; exact ⟨gs, es, h1, h2, .ret⟩
  | succ n ih =>
    intro cid hc hb gs es h1 h2
    have ok := session_ok h
    have na : (sessionOf cr c A B G E).NoAccident cid := hl cid (by omega) hb
    have hinto := into_cycleHigh h hlow (by omega) na hi hi' n gs es
    have hstop := runs_stop (cap := cap) ok (T := A.period) na hv
      (fun hT _ hmod => hp hT cid (by omega) hb hmod)
    have r1 := recorded_succ h1
    have r2 := recorded_succ h2
    by_cases hs : stopB c A.period v cid = true
    · refine ⟨recordOutputs c cid ((sessionOf cr c A B G E).g cid).wires ((sessionOf cr c A B G E).g cid).val gs,
        recordOutputs c cid ((sessionOf cr c A B G E).e cid).wires ((sessionOf cr c A B G E).e cid).val es, ?_, ?_,
        hinto.runs (hstop.bind ?_)⟩
      · unfold loopCount; rw [if_pos hs]; exact r1
      · unfold loopCount; rw [if_pos hs]; exact r2
      · show Runs cap (if stopB c A.period v cid = true then _ else _) (if stopB c A.period v cid = true then _ else _) _ _
        unfold loopCount
        simp only [if_pos hs]
        exact .ret
    · obtain ⟨gs', es', q1, q2, q3⟩ := ih (cid + 1) (by omega) (not_stop_succ hb hs) _ _ r1 r2
      refine ⟨gs', es', ?_, ?_, hinto.runs (hstop.bind ?_)⟩
      · unfold loopCount; rw [if_neg hs]; exact q1
      · unfold loopCount; rw [if_neg hs]; exact q2
      · show Runs cap (if stopB c A.period v cid = true then _ else _) (if stopB c A.period v cid = true then _ else _) _ _
        unfold loopCount
        simp only [if_neg hs]
        exact q3

theorem runs_high (h : Setup cap cr c A B G E) (hlow : A.useLow = false) {v : Nat → Nat → Bool}
    (hv : Solves c (inputsOf A B) v)
    (hl : (sessionOf cr c A B G E).Lucky A.period A.cycles v) (hp : (sessionOf cr c A B G E).PublicStop A.period A.cycles v) :
    Runs cap (garbleHigh cr c A G) (evalHigh cr c B E (keyOf G.rnd))
      (forLoop (updG (sessionOf cr c A B G E) A.mask v (fun k => k * c.outputSize)) (loopCount (stopB c A.period v) A.cycles 0) 0,
        loopCount (stopB c A.period v) A.cycles 0)
      (forLoop (updE (sessionOf cr c A B G E) A.mask v (fun k => k * c.outputSize)) (loopCount (stopB c A.period v) A.cycles 0) 0,
        loopCount (stopB c A.period v) A.cycles 0) := by
  have ok := session_ok h
  have hin : initPairs c A G = initLabelsHigh G.rnd := by unfold initPairs; rw [hlow]; rfl
  obtain ⟨mem, ht, hm1, hm2⟩ := runs_transferHigh (transferOK h 0) h.paired.disableOT h.paired.cycles cr
    (initLabelsHigh G.rnd) (inputLabelsHigh c G.rnd) E.init0 E.input0 h.sizes.otAll h.sizes.bnInit h.sizes.bnInput
    (G.ext 0) (E.rk 0)
  unfold garbleHigh evalHigh
  rw [refs_ok h.wf, ← h.paired.cycles]
  refine ht.bind ?_
  simp only [if_neg (show ¬ (true = false) by decide)]
  obtain ⟨gs, es, r1, r2, hr⟩ := runs_loopHigh h hlow hv hl hp (init := mem.1) (input := mem.2)
    (by rw [hin]; exact hm1) hm2 A.cycles 0 (by omega) (by intro j hj; omega)
    (fun _ => (zeroPair, .sec false)) E.out0 (by intro j hj; omega) (by intro j hj; omega)
  refine hr.bind ?_
  simp only []
  have hx := executed_count c A.period v A.cycles
  generalize loopCount (stopB c A.period v) A.cycles 0 = m at hx r1 r2
  have hf := runs_for (cap := cap)
    (f := fun cid out => garbleOutputs A.mask (fun i => (gs (cid * c.outputSize + i)).1)
      (fun i => (gs (cid * c.outputSize + i)).2) (cid * c.outputSize) c.outputSize out)
    (g := fun cid out => evalOutputs B.mask (fun i => (es (cid * c.outputSize + i)).1)
      (fun i => (es (cid * c.outputSize + i)).2) (cid * c.outputSize) c.outputSize out)
    (S := fun k => forLoop (updG (sessionOf cr c A B G E) A.mask v (fun k => k * c.outputSize)) k 0)
    (T := fun k => forLoop (updE (sessionOf cr c A B G E) A.mask v (fun k => k * c.outputSize)) k 0) m (by
      intro k hk
      have na : (sessionOf cr c A B G E).NoAccident k := hl k (by have := hx.le; omega) (by
        intro j hj; exact hx.before j (by omega))
      have := runs_outputs (R := (sessionOf cr c A B G E).R) ok.odd A.mask
        (gl := fun i => (gs (k * c.outputSize + i)).1) (gv := fun i => (gs (k * c.outputSize + i)).2)
        (el := fun i => (es (k * c.outputSize + i)).1) (ev := fun i => (es (k * c.outputSize + i)).2)
        (x := fun i => v k (c.outputs i).toNat)
        (n := c.outputSize) (by
          intro i hi
          rw [r1 k hk i hi, r2 k hk i hi]
          exact Props.C01_outputs_represent ok na hv (i := i) hi) (k * c.outputSize)
          (forLoop (updG (sessionOf cr c A B G E) A.mask v (fun k => k * c.outputSize)) k 0)
          (forLoop (updE (sessionOf cr c A B G E) A.mask v (fun k => k * c.outputSize)) k 0) h.conn.space
      simp only [forLoop]
      rw [← h.paired.mask]
      have e1 : ∀ (w : Nat → Bool → Bool → Option Bool) (out : Nat),
          applyUpd (k * c.outputSize) c.outputSize (fun i => w i (gs (k * c.outputSize + i)).2.isSecret (v k (c.outputs i).toNat)) out
          = applyUpd (k * c.outputSize) c.outputSize (fun i => w i (((sessionOf cr c A B G E).g k).val (c.outputs i).toNat).isSecret
              (v k (c.outputs i).toNat)) out := by
        intro w out
        unfold applyUpd
        apply forLoop_congr
        intro i hi s
        simp only [r1 k hk i hi]
      rw [e1 (gUpd A.mask), e1 (eUpd A.mask)] at this
      exact this)
  exact hf.bind .ret

/-- Where the outputs of a cycle go. -/
def offsetsOf (c : Circuit) (A : Args) : Nat → Nat :=
  if A.useLow then outputOffset c A.mode else fun k => k * c.outputSize

theorem runs_protocol (h : Setup cap cr c A B G E) {v : Nat → Nat → Bool} (hv : Solves c (inputsOf A B) v)
    (hl : (sessionOf cr c A B G E).Lucky A.period A.cycles v) (hp : (sessionOf cr c A B G E).PublicStop A.period A.cycles v) :
    Runs cap (garbleBN cr c A G) (evaluateBN cr c B E)
      (forLoop (updG (sessionOf cr c A B G E) A.mask v (offsetsOf c A)) (loopCount (stopB c A.period v) A.cycles 0) 0,
        loopCount (stopB c A.period v) A.cycles 0)
      (forLoop (updE (sessionOf cr c A B G E) A.mask v (offsetsOf c A)) (loopCount (stopB c A.period v) A.cycles 0) 0,
        loopCount (stopB c A.period v) A.cycles 0) := by
  have hcy := h.cycles
  have n1 : ¬ A.cycles = 0 := by omega
  have n2 : ¬ (A.period ≠ 0 ∧ c.terminateId = 0) := by
    intro hh; have := h.term hh.1; omega
  have n3 : ¬ B.cycles = 0 := by rw [← h.paired.cycles]; exact n1
  have n4 : ¬ (B.period ≠ 0 ∧ c.terminateId = 0) := by rw [← h.paired.period]; exact n2
  have hu : B.useLow = A.useLow := by unfold Args.useLow; rw [h.paired.lowMem, h.paired.cycles]
  unfold garbleBN evaluateBN
  rw [if_neg n1, if_neg n2, if_neg n3, if_neg n4, hu]
  have hk := (dual_data (l := blockBytes (keyOf G.rnd)) (n := 16) (blockBytes_length _) (by decide)).runs h.conn.space
  refine hk.bind ?_
  rw [bytesBlock_blockBytes]
  unfold offsetsOf
  cases hlow : A.useLow with
  | true => exact runs_low h hlow hv hl hp
  | false => exact runs_high h hlow hv hl hp

/-! ## Secret terminate signal -/

theorem recv2 {α : Type} (k : List Byte → Proc α) : ∃ f, (recvData 2).bind k = .recv f := ⟨_, rfl⟩

theorem stuck_into {α β γ δ : Type} {A : Proc α} {B : Proc β} {a b} (h : Runs cap A B a b)
    {f : α → Proc γ} {g : β → Proc δ} (h' : ∃ f' g', RunsInto cap (f a) (g b) (.recv f') (.recv g')) :
    ∃ f' g', RunsInto cap (A.bind f) (B.bind g) (.recv f') (.recv g') := by
  obtain ⟨f', g', h'⟩ := h'
  exact ⟨f', g', h.into h'⟩

theorem stuck_bind {α β γ δ : Type} {A : Proc α} {B : Proc β} (h : ∃ f' g', RunsInto cap A B (.recv f') (.recv g'))
    (f : α → Proc γ) (g : β → Proc δ) : ∃ f' g', RunsInto cap (A.bind f) (B.bind g) (.recv f') (.recv g') := by
  obtain ⟨f', g', h'⟩ := h
  exact ⟨_, _, h'.bind f g⟩

theorem into_stop_secret {S : Session} (ok : S.OK) (hc : 0 < cap) {T cid : Nat} (na : S.NoAccident cid) (hT : T ≠ 0)
    (ht : 0 < S.c.terminateId) (hm : cid % T = 0) (hs : ((S.g cid).val S.c.terminateId).isSecret = true)
    {α β : Type} (f : Bool → Proc α) (g : Bool → Proc β) :
    ∃ f' g', RunsInto cap ((garbleStop S.c T cid (S.g cid)).bind f) ((evalStop S.c T cid (S.e cid)).bind g)
      (.recv f') (.recv g') := by
  obtain ⟨x, hv⟩ : ∃ v, Solves S.c S.x v := ⟨_, plainWires_solves ok.wf S.x fun _ => false⟩
  have hr := Props.C13_terminate_represents ok na hv ht
  unfold garbleStop evalStop
  rw [if_pos ⟨hT, ht, hm⟩, if_pos ⟨hT, ht, hm⟩]
  unfold Represents at hr
  cases hg : (S.g cid).val S.c.terminateId with
  | pub b => rw [hg] at hs; cases hs
  | sec i =>
    simp only [hg] at hr
    cases he : (S.e cid).val S.c.terminateId with
    | pub b => rw [he] at hr; exact hr.elim
    | sec j =>
      unfold garbleTerminate evalTerminate
      simp only []
      simp only [bind_assoc]
      have hd := (dual_data (l := shortBytes (getLSB ((S.g cid).wires S.c.terminateId).label0)) (n := 2)
        (shortBytes_length _) (by decide)).runs hc
      refine stuck_into hd ?_
      obtain ⟨f', hf⟩ := recv2 fun a => (Proc.ret (shortIs a (getLSB ((S.g cid).wires S.c.terminateId).label0))).bind f
      obtain ⟨g', hg'⟩ := recv2 fun a => (Proc.ret (decide (leValue a
        = leValue (shortBytes (getLSB ((S.g cid).wires S.c.terminateId).label0))))).bind g
      rw [hf, hg']
      exact ⟨_, _, .refl⟩

theorem NoAccident.mono {S : Session} {j k : Nat} (h : S.NoAccident k) (hj : j ≤ k) : S.NoAccident j :=
  fun i hi => h i (by omega)

theorem deadlock_loopLow (h : Setup cap cr c A B G E) (hlow : A.useLow = true) {v : Nat → Nat → Bool}
    (hv : Solves c (inputsOf A B) v) {k : Nat} (hk : (sessionOf cr c A B G E).SecretLook A.period A.cycles v k)
    {init : Nat → Block} (hi : ∀ k < c.secretInitSize, init k = chosen (initPairs c A G k) (secretInitBit c (inputsOf A B) k))
    (n : Nat) : ∀ cid, cid + n = A.cycles → cid ≤ k → ∀ (input : Nat → Block) (go eo : Nat), ∃ f g,
      RunsInto cap (garbleLoopLow cr c A G n cid (beforeG (sessionOf cr c A B G E) cid) go)
        (evalLoopLow cr c B E (keyOf G.rnd) init n cid (beforeE (sessionOf cr c A B G E) cid) input eo)
        (.recv f) (.recv g) := by
  have ok := session_ok h
  induction n with
  | zero => intro cid h1 h2; have := hk.lt; omega
  | succ n ih =>
    intro cid hc hcl input go eo
    obtain ⟨mem, hinto⟩ := into_cycleLow h hlow hv (NoAccident.mono hk.lucky hcl) hi n input go eo
    by_cases he : cid = k
    · subst he
      obtain ⟨f, g, hs⟩ := into_stop_secret ok h.conn.space (T := A.period) hk.lucky hk.period (h.term hk.period) hk.look hk.secret
        (fun stop => if stop then .ret (updG (sessionOf cr c A B G E) A.mask v (outputOffset c A.mode) cid go, cid + 1)
          else garbleLoopLow cr c A G n (cid + 1) ((sessionOf cr c A B G E).g cid)
            (updG (sessionOf cr c A B G E) A.mask v (outputOffset c A.mode) cid go))
        (fun stop => if stop then .ret (updE (sessionOf cr c A B G E) A.mask v (outputOffset c A.mode) cid eo, cid + 1)
          else evalLoopLow cr c B E (keyOf G.rnd) init n (cid + 1) ((sessionOf cr c A B G E).e cid).clear mem
            (updE (sessionOf cr c A B G E) A.mask v (outputOffset c A.mode) cid eo))
      exact ⟨f, g, hinto.trans hs⟩
    · have hb := hk.before cid (by omega)
      have hstop := runs_stop (cap := cap) ok (T := A.period) (NoAccident.mono hk.lucky hcl) hv (fun _ _ hm => hb.2 hm)
      have hns : stopB c A.period v cid = false := by
        cases hh : stopB c A.period v cid with
        | false => rfl
        | true => exact absurd ((stopB_iff c A.period v cid).mp hh) hb.1
      change Runs cap _ _ (stopB c A.period v cid) (stopB c A.period v cid) at hstop
      rw [hns] at hstop
      obtain ⟨f, g, hrec⟩ := ih (cid + 1) (by omega) (by omega) mem
        (updG (sessionOf cr c A B G E) A.mask v (outputOffset c A.mode) cid go)
        (updE (sessionOf cr c A B G E) A.mask v (outputOffset c A.mode) cid eo)
      exact ⟨f, g, hinto.trans (hstop.into hrec)⟩

theorem deadlock_loopHigh (h : Setup cap cr c A B G E) (hlow : A.useLow = false) {v : Nat → Nat → Bool}
    (hv : Solves c (inputsOf A B) v) {k : Nat} (hk : (sessionOf cr c A B G E).SecretLook A.period A.cycles v k)
    {init input : Nat → Block} (hi : ∀ k < c.secretInitSize, init k = chosen (initPairs c A G k) (secretInitBit c (inputsOf A B) k))
    (hi' : ∀ cid < A.cycles, ∀ k < c.secretInputSize, input (cid * c.secretInputSize + k)
          = chosen (inputLabelsHigh c G.rnd (cid * c.secretInputSize + k)) (secretInputBit c (inputsOf A B) cid k))
    (n : Nat) : ∀ cid, cid + n = A.cycles → cid ≤ k → ∀ gs es, ∃ f g,
      RunsInto cap (garbleLoopHigh cr c A G n cid (beforeG (sessionOf cr c A B G E) cid) gs)
        (evalLoopHigh cr c B E (keyOf G.rnd) init input n cid (beforeE (sessionOf cr c A B G E) cid) es)
        (.recv f) (.recv g) := by
  have ok := session_ok h
  induction n with
  | zero => intro cid h1 h2; have := hk.lt; omega
  | succ n ih =>
    intro cid hc hcl gs es
    have hinto := into_cycleHigh h hlow (by omega) (NoAccident.mono hk.lucky hcl) hi hi' n gs es
    by_cases he : cid = k
    · subst he
      obtain ⟨f, g, hs⟩ := into_stop_secret ok h.conn.space (T := A.period) hk.lucky hk.period (h.term hk.period) hk.look hk.secret
        (fun stop => if stop then .ret (recordOutputs c cid ((sessionOf cr c A B G E).g cid).wires
            ((sessionOf cr c A B G E).g cid).val gs, cid + 1)
          else garbleLoopHigh cr c A G n (cid + 1) ((sessionOf cr c A B G E).g cid)
            (recordOutputs c cid ((sessionOf cr c A B G E).g cid).wires ((sessionOf cr c A B G E).g cid).val gs))
        (fun stop => if stop then .ret (recordOutputs c cid ((sessionOf cr c A B G E).e cid).wires
            ((sessionOf cr c A B G E).e cid).val es, cid + 1)
          else evalLoopHigh cr c B E (keyOf G.rnd) init input n (cid + 1) ((sessionOf cr c A B G E).e cid).clear
            (recordOutputs c cid ((sessionOf cr c A B G E).e cid).wires ((sessionOf cr c A B G E).e cid).val es))
      exact ⟨f, g, hinto.trans hs⟩
    · have hb := hk.before cid (by omega)
      have hstop := runs_stop (cap := cap) ok (T := A.period) (NoAccident.mono hk.lucky hcl) hv (fun _ _ hm => hb.2 hm)
      have hns : stopB c A.period v cid = false := by
        cases hh : stopB c A.period v cid with
        | false => rfl
        | true => exact absurd ((stopB_iff c A.period v cid).mp hh) hb.1
      change Runs cap _ _ (stopB c A.period v cid) (stopB c A.period v cid) at hstop
      rw [hns] at hstop
      obtain ⟨f, g, hrec⟩ := ih (cid + 1) (by omega) (by omega) _ _
      exact ⟨f, g, hinto.trans (hstop.into hrec)⟩

theorem deadlock_protocol (h : Setup cap cr c A B G E) {v : Nat → Nat → Bool} (hv : Solves c (inputsOf A B) v) {k : Nat}
    (hk : (sessionOf cr c A B G E).SecretLook A.period A.cycles v k) :
    AlwaysDeadlocks cap (garbleBN cr c A G) (evaluateBN cr c B E) := by
  have hcy := h.cycles
  have n1 : ¬ A.cycles = 0 := by omega
  have n2 : ¬ (A.period ≠ 0 ∧ c.terminateId = 0) := by
    intro hh; have := h.term hh.1; omega
  have n3 : ¬ B.cycles = 0 := by rw [← h.paired.cycles]; exact n1
  have n4 : ¬ (B.period ≠ 0 ∧ c.terminateId = 0) := by rw [← h.paired.period]; exact n2
  have hu : B.useLow = A.useLow := by unfold Args.useLow; rw [h.paired.lowMem, h.paired.cycles]
  suffices hh : ∃ f g, RunsInto cap (garbleBN cr c A G) (evaluateBN cr c B E) (.recv f) (.recv g) by
    obtain ⟨f, g, hh⟩ := hh; exact hh.deadlocks
  unfold garbleBN evaluateBN
  rw [if_neg n1, if_neg n2, if_neg n3, if_neg n4, hu]
  have hkey := (dual_data (l := blockBytes (keyOf G.rnd)) (n := 16) (blockBytes_length _) (by decide)).runs h.conn.space
  suffices hh : ∃ f g, RunsInto cap (if A.useLow = true then garbleLow cr c A G else garbleHigh cr c A G)
      (if A.useLow = true then evalLow cr c B E (bytesBlock (blockBytes (keyOf G.rnd)))
        else evalHigh cr c B E (bytesBlock (blockBytes (keyOf G.rnd)))) (.recv f) (.recv g) by
    obtain ⟨f, g, hh⟩ := hh; exact ⟨f, g, hkey.into hh⟩
  rw [bytesBlock_blockBytes]
  cases hlow : A.useLow with
  | true =>
    simp only [if_true]
    unfold garbleLow evalLow
    rw [← h.paired.disableOT, ← h.paired.cycles, refs_ok h.wf]
    have hin : initPairs c A G = initLabelsLow c G.rnd := by unfold initPairs; rw [hlow]; rfl
    obtain ⟨mem, ht, hm⟩ := runs_transferLow (transferOK h 0) cr (gSize := c.gInit) (eSize := c.eInit) 0 A.init
      (eNum := B.init) (initLabelsLow c G.rnd) E.init0 h.sizes.otInit h.sizes.bnInit (G.ext 0) (E.rk 0)
    obtain ⟨f, g, hd⟩ := deadlock_loopLow h hlow hv hk (init := mem) (by
      intro k hk
      rw [hin, hm k hk]
      unfold secretInitBit inputsOf
      simp) A.cycles 0 (by omega) (by omega) E.input0 0 0
    refine ⟨f, g, ht.into ?_⟩
    simp only [if_neg (show ¬ (true = false) by decide)]
    exact hd
  | false =>
    simp only [Bool.false_eq_true, if_false]
    unfold garbleHigh evalHigh
    rw [refs_ok h.wf, ← h.paired.cycles]
    have hin : initPairs c A G = initLabelsHigh G.rnd := by unfold initPairs; rw [hlow]; rfl
    obtain ⟨mem, ht, hm1, hm2⟩ := runs_transferHigh (transferOK h 0) h.paired.disableOT h.paired.cycles cr
      (initLabelsHigh G.rnd) (inputLabelsHigh c G.rnd) E.init0 E.input0 h.sizes.otAll h.sizes.bnInit h.sizes.bnInput
      (G.ext 0) (E.rk 0)
    obtain ⟨f, g, hd⟩ := deadlock_loopHigh h hlow hv hk (init := mem.1) (input := mem.2)
      (by rw [hin]; exact hm1) hm2 A.cycles 0 (by omega) (by omega)
      (fun _ => (zeroPair, .sec false)) E.out0
    refine stuck_into ht ?_
    simp only [if_neg (show ¬ (true = false) by decide)]
    exact stuck_bind ⟨f, g, hd⟩ _ _

end

end TinyGarble.Proof
