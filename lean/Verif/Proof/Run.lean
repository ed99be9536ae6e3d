import Verif.Proof.RunSim

/-! Simulation of several clock cycles: the induction. -/

namespace TinyGarble
open Spec

/-- Relation between cycles; `cid` is the next one. -/
structure Pre (c : Circuit) (R : Block) (cid : Nat) (gl el : Nat → Block) (pv : Nat → Bool) (s : SState)
    (gst : GState) (est : EState) (x : Nat → Bool) : Prop where
  ga : Additive gl
  ea : Additive el
  spre : SPre c cid s.sw
  zero : cid = 0 → ∀ w, s.sw w = .hid
  sin : ∀ k < c.secretInputSize, s.sw (c.gInputLo + k) = .hid ∨ ∃ f, s.sw (c.gInputLo + k) = .sec f false
  gval : ∀ w < c.wireSize, gst.val w = (s.sw w).toW
  glab : ∀ w < c.wireSize, OnSec (s.sw w) fun f i => gst.wires w = gPair gl R f i
  evl : ∀ w < c.wireSize, est.val w = (s.sw w).toE
  elb : ∀ w < c.wireSize, OnSec (s.sw w) fun f _ => est.wires w = el f
  pl : PSim c pv c.wireSize s.sw x
  D : ∀ i < c.dffSize, OnSec (fetch c.wireSize (.pub false) (.pub true) (.pub false) s.sw (c.D i))
    fun f _ => Good R gl el pv f
  buf : ∀ i, c.gateSize ≤ (est.ts.tables i).gid.toNat

/-- Relation at the end of cycle `cid`. -/
structure Post (c : Circuit) (enc : Block → Block) (R : Block) (sf : Nat → Nat) (cid : Nat)
    (gl el : Nat → Block) (pv : Nat → Bool) (s : SState) (gst : GState) (tabs : List Table) (buf : Nat → Table)
    (est : EState) (x : Nat → Bool) : Prop where
  send : SEnd c sf cid s
  sin : ∀ k < c.secretInputSize, ∃ f, s.sw (c.gInputLo + k) = .sec f false
  g : GSim c enc R cid c.gateSize gl s gst tabs
  p : PSim c pv c.wireSize s.sw x
  e : ESim c R c.gateSize gl el pv s.fan (receiveTables (selectTables gst.fan tabs) buf) s est

theorem Post.good {c : Circuit} {enc : Block → Block} {R : Block} {sf : Nat → Nat} {cid : Nat}
    {gl el : Nat → Block} {pv : Nat → Bool} {s : SState} {gst : GState} {tabs : List Table} {buf : Nat → Table}
    {est : EState} {x : Nat → Bool} (h : Post c enc R sf cid gl el pv s gst tabs buf est x) {w : Nat}
    (h1 : c.initSize ≤ w) (h2 : w < c.wireSize)
    (hu : ∀ g, w = c.gateLo + g → 0 < extUses c g) : OnSec (s.sw w) fun f _ => Good R gl el pv f := by
  have hws := wireSize_eq c
  by_cases hp : (s.sw w).isPub = true
  · revert hp
    cases s.sw w with
    | pub b => intro _; trivial
    | _ => simp [SWire.isPub]
  · have hp' : (s.sw w).isPub = false := by simpa using hp
    apply h.e.good w h1 (by omega)
    intro g hg
    subst hg
    exact h.send.fin.ext_live (by omega) (by simp [knownGates, hp']) (hu g rfl)

theorem clearTables_gid {c : Circuit} (wf : WF c) {T : List Table} {buf : Nat → Table}
    (h : ∀ i, c.gateSize ≤ (buf i).gid.toNat) :
    ∀ i, c.gateSize ≤ (clearTables T.length (receiveTables T buf) i).gid.toNat := by
  intro i
  unfold clearTables
  have := wf.size
  split
  · simp only [BitVec.toNat_allOnes]; omega
  · unfold receiveTables
    rw [dif_neg (by omega)]
    exact h i

theorem Post.ind_eq {c : Circuit} {enc : Block → Block} {R : Block} {sf : Nat → Nat} {cid : Nat}
    {gl el : Nat → Block} {pv : Nat → Bool} {s : SState} {gst : GState} {tabs : List Table} {buf : Nat → Table}
    {est : EState} {x : Nat → Bool} (h : Post c enc R sf cid gl el pv s gst tabs buf est x) :
    est.ts.ind = (selectTables gst.fan tabs).length := by
  have := congrArg List.length (selectTables_gids h.g.gids h.send.tabLt h.g.fan)
  rw [List.length_map] at this
  rw [h.e.ind, this]

theorem Post.pre {c : Circuit} (wf : WF c) {enc : Block → Block} {R : Block} {sf : Nat → Nat} {cid : Nat}
    {gl el : Nat → Block} {pv : Nat → Bool} {s : SState} {gst : GState} {tabs : List Table} {buf : Nat → Table}
    {est : EState} {x : Nat → Bool} (h : Post c enc R sf cid gl el pv s gst tabs buf est x)
    (hbuf : ∀ i, c.gateSize ≤ (buf i).gid.toNat) : Pre c R (cid + 1) gl el pv s gst est.clear x where
  ga := h.g.add
  ea := h.e.add
  spre := SEnd.pre wf h.send
  zero := by omega
  sin := fun k hk => Or.inr (h.sin k hk)
  gval := h.g.val
  glab := h.g.lab
  evl := h.e.val
  elb := h.e.lab
  pl := h.p
  D := by
    intro i hi
    apply fetch_onSec (wf.D i hi) (Nat.le_refl _) (by simp)
    intro v h1 h2 h3
    apply h.good h1 h2
    intro g hg
    unfold extUses
    have := countEq_pos (w := ((c.gateLo + g : Nat) : Int)) (f := c.D) hi (by omega)
    omega
  buf := by
    intro i
    show c.gateSize ≤ (clearTables est.ts.ind est.ts.tables i).gid.toNat
    rw [h.e.tab, h.ind_eq]
    exact clearTables_gid wf hbuf i

theorem ite_xor {b : Bool} {l0 l1 R : Block} (h : l1 = l0 ^^^ R) :
    (if b = true then l1 else l0) = l0 ^^^ scale b R := by
  cases b <;> simp [h]

/-- One cycle. -/
theorem cycle_step {c : Circuit} (wf : WF c) {enc : Block → Block} {R : Block} (hR : getLSB R = true)
    {sf : Nat → Nat} (hsf : ∀ g < c.gateSize, sf g = totalFan c.gateSize (fun j => cnt c j g) + extUses c g)
    {inp : Inputs} {gin : Nat → GCycleIn} {ein : Nat → ECycleIn} (hL : LabelsOK c inp R gin ein) (mark : Bool)
    {cid : Nat} {gl el : Nat → Block} {pv : Nat → Bool} {s : SState} {gst : GState} {est : EState} {x : Nat → Bool}
    (h : Pre c R cid gl el pv s gst est x)
    (ncG : NoCollisionG c (symCycle c sf inp.pInit inp.pInput cid s).sw
      (garbleCycle mark c enc R sf cid (gin cid) gst).1.wires)
    (ncE : NoCollisionE c (symCycle c sf inp.pInit inp.pInput cid s).sw
      (evalCycle c enc sf cid (ein cid) (est.receive
        (selectTables (garbleCycle mark c enc R sf cid (gin cid) gst).1.fan
          (garbleCycle mark c enc R sf cid (gin cid) gst).2))).wires
      ∨ AllNeeded c (symCycle c sf inp.pInit inp.pInput cid s)) :
    ∃ gl' el' pv', Post c enc R sf cid gl' el' pv' (symCycle c sf inp.pInit inp.pInput cid s)
      (garbleCycle mark c enc R sf cid (gin cid) gst).1 (garbleCycle mark c enc R sf cid (gin cid) gst).2
      est.ts.tables
      (evalCycle c enc sf cid (ein cid) (est.receive
        (selectTables (garbleCycle mark c enc R sf cid (gin cid) gst).1.fan
          (garbleCycle mark c enc R sf cid (gin cid) gst).2)))
      (plainCycle c inp cid x) := by
  have hl := layout c
  have hws := wireSize_eq c
  have hx := plainCycle_eqs wf inp cid x
  obtain ⟨gl1, gA, gOld, gInit, gIn⟩ := exists_inputs_map c cid h.ga
    (fun k => ((gin cid).initLabels k).label0) (fun k => ((gin cid).inputLabels k).label0)
  obtain ⟨el1, eA, eOld, eInit, eIn⟩ := exists_inputs_map c cid h.ea
    (fun k => (ein cid).initLabels k) (fun k => (ein cid).inputLabels k)
  obtain ⟨pv1, pA, pOld, pInit, pIn⟩ := exists_inputs_mapB c cid h.pl.add
    (secretInitBit c inp) (secretInputBit c inp cid)
  have inv := symPrep_inv wf hsf (pInit := inp.pInit) (pInput := inp.pInput) h.spre
  obtain ⟨_, k2, k3, k4⟩ := knownLoop_inv wf hsf
    ⟨symInputs c inp.pInput cid (symDff c inp.pInit cid s.sw), s.fan, []⟩ (Nat.le_refl c.gateSize)
  -- labels below the gates
  have lG := prep_lab wf (pInit := inp.pInit) (pInput := inp.pInput) h.zero (fun f i => gPair gl R f i)
    (fun f i => gPair gl1 R f i) gst.wires gst.latch (gin cid).initLabels (gin cid).inputLabels h.spre.bound
    (fun h0 f hf i => by unfold gPair; rw [gOld h0 f hf]) h.glab
    (fun h0 k hk => by
      have e := gInit h0 k hk
      have := hL.init cid k hk
      unfold gPair; rw [e]; simp only [scale_false, BitVec.xor_zero]; rw [← this])
    (fun k hk => by
      have e := gIn k hk
      have := hL.input cid k hk
      unfold gPair; rw [e]; simp only [scale_false, BitVec.xor_zero]; rw [← this])
  have lE := prep_lab wf (pInit := inp.pInit) (pInput := inp.pInput) h.zero (fun f _ => el f)
    (fun f _ => el1 f) est.wires est.latch (ein cid).initLabels (ein cid).inputLabels h.spre.bound
    (fun h0 f hf i => eOld h0 f hf) h.elb
    (fun h0 k hk => (eInit h0 k hk).symm) (fun k hk => (eIn k hk).symm)
  have vG := prep_val (pInit := inp.pInit) (pInput := inp.pInput) (cid := cid) mark SWire.toW (fun _ => rfl)
    (fun _ => rfl) rfl h.sin (latchVal := gst.latchVal) h.gval
  have vE := prep_val (pInit := inp.pInit) (pInput := inp.pInput) (cid := cid) false SWire.toE (fun _ => rfl)
    (fun _ => rfl) rfl h.sin (latchVal := est.latchVal) h.evl
  have pP := prep_plain wf hx h.pl pA h.spre.bound pOld pInit pIn
  have gPub := hL.gPub cid
  have ePub := hL.ePub cid
  -- good forms below the gates
  have good1 : ∀ w, c.initSize ≤ w → w < c.gateLo →
      OnSec (symInputs c inp.pInput cid (symDff c inp.pInit cid s.sw) w) fun f _ => Good R gl1 el1 pv1 f := by
    intro w h1 h2
    rcases wire_cases c w with h' | ⟨i, hi, rfl⟩ | ⟨k, hk, rfl⟩ | ⟨k, hk, rfl⟩
    · omega
    · rw [prep_dff hi]
      split
      · rename_i h0
        rcases symDffInit_cases c inp.pInit i with ⟨b, e⟩ | ⟨k, hk, e1, e2⟩
        · rw [e]; trivial
        · rw [e2]
          simp only [onSec_sec]
          unfold Good
          rw [eInit h0 k hk, gInit h0 k hk, pInit h0 k hk, hL.eInit cid k hk]
          exact ite_xor (hL.init cid k hk)
      · rename_i h0
        have := h.D i hi
        have hbd := fetch_bound (c := c) h.spre.bound (bad := .pub false) (by simp) (c.D i)
        revert this hbd
        generalize fetch c.wireSize (SWire.pub false) (.pub true) (.pub false) s.sw (c.D i) = o
        intro this hbd
        cases o with
        | sec f j =>
          have hf := hbd f j rfl
          have h0' : 0 < cid := by omega
          simp only [onSec_sec] at this ⊢
          unfold Good at *
          rw [eOld h0' f hf, gOld h0' f hf, pOld h0' f hf]
          exact this
        | _ => trivial
    · rw [prep_pin hk]; trivial
    · rw [prep_sin hk]
      simp only [onSec_sec]
      unfold Good
      rw [eIn k hk, gIn k hk, pIn k hk, hL.eInput cid k hk]
      exact ite_xor (hL.input cid k hk)
  -- the garbler
  have gsimPrep : GSim c enc R cid 0 gl1 (symPrep c sf inp.pInit inp.pInput cid s)
      (garblePrep mark c sf cid (gin cid) gst) [] := by
    have hv : ∀ w < c.wireSize, (garbleInputs mark c (gin cid).pInput (gin cid).inputLabels cid
        (garbleDff c (gin cid).pInit (gin cid).initLabels cid gst)).val w
        = (symInputs c inp.pInput cid (symDff c inp.pInit cid s.sw) w).toW := by
      intro w hw
      rw [← vG w hw, gPub.1, gPub.2]
      unfold garbleInputs garbleDff
      by_cases h0 : cid = 0
      · simp only [if_pos h0]
      · simp only [if_neg h0]
    have hk := knownLoop_sim wf sf SWire.toW (Or.inl rfl)
      (s0 := ⟨symInputs c inp.pInput cid (symDff c inp.pInit cid s.sw), s.fan, []⟩)
      (fan0 := (garbleInputs mark c (gin cid).pInput (gin cid).inputLabels cid
        (garbleDff c (gin cid).pInit (gin cid).initLabels cid gst)).fan) hv (Nat.le_refl _)
    refine ⟨gA, hk.1, ?_, hk.2, ?_, by simp⟩
    · intro w hw
      by_cases hg : w < c.gateLo
      · have e := k3 w (Or.inl hg)
        unfold symPrep
        rw [e]
        have := lG w hw
        have eW : (garblePrep mark c sf cid (gin cid) gst).wires = setRange (if cid = 0 then
            setRange gst.wires c.dffLo c.dffSize
              (fun i => dffInitLabel c (gin cid).initLabels i (gst.wires (c.dffLo + i)))
            else setRange gst.wires c.dffLo c.dffSize
              (setRange gst.latch 0 c.dffSize (fun i => dffLatchLabel c gst.wires i (gst.latch i))))
            c.gInputLo c.secretInputSize (gin cid).inputLabels := by
          unfold garblePrep garbleInputs garbleDff
          by_cases h0 : cid = 0
          · simp only [if_pos h0]
          · simp only [if_neg h0]
        rw [eW]
        exact this
      · obtain ⟨g, rfl⟩ : ∃ g, w = c.gateLo + g := ⟨_, (Nat.add_sub_cancel' (by omega)).symm⟩
        exact onSec_of_ne (k4 g (by omega)) _
    · unfold symPrep
      rw [k2]; rfl
  have ePrepSim : ∀ (T : List Table) (gl' : Nat → Block) (pv' : Nat → Bool) (ffan : Nat → Nat),
      (∀ f < 2 ^ atomGate c cid 0, gl' f = gl1 f) → (∀ f < 2 ^ atomGate c cid 0, pv' f = pv1 f) →
      ESim c R 0 gl' el1 pv' ffan (receiveTables T est.ts.tables) (symPrep c sf inp.pInit inp.pInput cid s)
        (evalPrep c sf cid (ein cid) (est.receive T)) := by
    intro T gl' pv' ffan hgl hpv
    have hv : ∀ w < c.wireSize, (evalInputs c (ein cid).pInput (ein cid).inputLabels cid
        (evalDff c (ein cid).pInit (ein cid).initLabels cid (est.receive T))).val w
        = (symInputs c inp.pInput cid (symDff c inp.pInit cid s.sw) w).toE := by
      intro w hw
      rw [← vE w hw, ePub.1, ePub.2]
      unfold evalInputs evalDff EState.receive
      by_cases h0 : cid = 0
      · simp [if_pos h0]
      · simp [if_neg h0]
    have hk := knownLoop_sim wf sf SWire.toE (Or.inr rfl)
      (s0 := ⟨symInputs c inp.pInput cid (symDff c inp.pInit cid s.sw), s.fan, []⟩)
      (fan0 := (evalInputs c (ein cid).pInput (ein cid).inputLabels cid
        (evalDff c (ein cid).pInit (ein cid).initLabels cid (est.receive T))).fan) hv (Nat.le_refl _)
    have hts : (evalPrep c sf cid (ein cid) (est.receive T)).ts
        = { est.ts with tables := receiveTables T est.ts.tables, ind := 0 } := by
      unfold evalPrep evalInputs evalDff EState.receive
      by_cases h0 : cid = 0
      · simp only [if_pos h0]
      · simp only [if_neg h0]
    refine ⟨eA, hk.1, ?_, hk.2, ?_, ?_, ?_⟩
    · intro w hw
      by_cases hg : w < c.gateLo
      · have e := k3 w (Or.inl hg)
        unfold symPrep
        rw [e]
        have := lE w hw
        have eW : (evalPrep c sf cid (ein cid) (est.receive T)).wires = setRange (if cid = 0 then
            setRange est.wires c.dffLo c.dffSize
              (fun i => dffInitLabel c (ein cid).initLabels i (est.wires (c.dffLo + i)))
            else setRange est.wires c.dffLo c.dffSize
              (setRange est.latch 0 c.dffSize (fun i => dffLatchLabel c est.wires i (est.latch i))))
            c.gInputLo c.secretInputSize (ein cid).inputLabels := by
          unfold evalPrep evalInputs evalDff EState.receive
          by_cases h0 : cid = 0
          · simp only [if_pos h0]
          · simp only [if_neg h0]
        rw [eW]
        exact this
      · obtain ⟨g, rfl⟩ : ∃ g, w = c.gateLo + g := ⟨_, (Nat.add_sub_cancel' (by omega)).symm⟩
        exact onSec_of_ne (k4 g (by omega)) _
    · rw [hts]
    · rw [hts]
      unfold symPrep
      rw [k2]; rfl
    · intro w h1 h2 _
      have e : (symPrep c sf inp.pInit inp.pInput cid s).sw w
          = symInputs c inp.pInput cid (symDff c inp.pInit cid s.sw) w := k3 w (Or.inl (by omega))
      have hb := inv.bound w
      rw [e] at hb ⊢
      have := good1 w h1 (by omega)
      revert this hb
      cases symInputs c inp.pInput cid (symDff c inp.pInit cid s.sw) w with
      | sec f i =>
        intro hb this
        simp only [onSec_sec] at *
        unfold Good at *
        rw [hgl f (hb f i rfl), hpv f (hb f i rfl)]; exact this
      | _ => intro _ _; trivial
  have pPrep : PSim c pv1 c.wireSize (symPrep c sf inp.pInit inp.pInput cid s).sw (plainCycle c inp cid x) := by
    have := knownLoop_plain wf sf hx.gate
      (s0 := ⟨symInputs c inp.pInput cid (symDff c inp.pInit cid s.sw), s.fan, []⟩) pP (Nat.le_refl _)
    rw [← hws] at this
    exact this
  obtain ⟨gl2, gE1, gE2⟩ := garbleLoop_sim wf hR inv gsimPrep ncG (Nat.le_refl _)
  obtain ⟨pv2, pE1, pE2⟩ := plainLoop_sim wf hx.gate inv pPrep (Nat.le_refl _)
  obtain ⟨el2, eE1, eE2⟩ := evalLoop_sim wf hR hx.gate inv k4 (junk := est.ts.tables) gE2 pE2
    (ePrepSim _ gl2 pv2 _ gE1 pE1) (fun i _ => h.buf i) (ncE.imp id fun a => ⟨a, ncG⟩) (Nat.le_refl _)
  refine ⟨gl2, el2, pv2, symLoop_inv wf inv (Nat.le_refl _), ?_, gE2, pE2, eE2⟩
  intro k hk
  refine ⟨2 ^ atomIn c cid k, ?_⟩
  have st := forLoop_stable (symStep c cid) SState.sw c.gateLo (fun i s w => symStep_sw c cid i s)
    (symPrep c sf inp.pInit inp.pInput cid s) (Nat.zero_le c.gateSize) (w := c.gInputLo + k) (by omega)
  have e := k3 (c.gInputLo + k) (Or.inl (by omega))
  unfold symCycle
  rw [st]
  simp only [forLoop]
  unfold symPrep
  rw [e]
  exact prep_sin hk

theorem pre_zero {c : Circuit} (R : Block) {gst : GState} {est : EState} {x : Nat → Bool}
    (hg : GFresh gst) (he : EFresh c est) :
    Pre c R 0 (fun _ => 0#128) (fun _ => 0#128) (fun _ => false) ⟨fun _ => .hid, fun _ => 0, []⟩ gst est x where
  ga := Additive.zero
  ea := Additive.zero
  spre := spre_zero c
  zero := fun _ _ => rfl
  sin := fun _ _ => Or.inl rfl
  gval := fun w _ => hg w
  glab := fun _ _ => trivial
  evl := fun w _ => he.1 w
  elb := fun _ _ => trivial
  pl := ⟨AdditiveB.zero, fun _ _ _ => trivial, fun _ _ _ => trivial⟩
  D := by
    intro i hi
    unfold fetch
    split
    · trivial
    · split
      · trivial
      · split <;> trivial
  buf := he.2

/-- All cycles. -/
theorem run_post {c : Circuit} (wf : WF c) {enc : Block → Block} {R : Block} (hR : getLSB R = true)
    {sf : Nat → Nat} (hsf : ∀ g < c.gateSize, sf g = totalFan c.gateSize (fun j => cnt c j g) + extUses c g)
    {inp : Inputs} {gin : Nat → GCycleIn} {ein : Nat → ECycleIn} (hL : LabelsOK c inp R gin ein) (mark : Bool)
    {gst0 : GState} {est0 : EState} (x0 : Nat → Bool) (hg : GFresh gst0) (he : EFresh c est0) (cid : Nat)
    (ncG : ∀ k ≤ cid, NoCollisionG c (symRun c sf inp.pInit inp.pInput k).sw
      (garbleRun mark c enc R sf gin gst0 k).1.wires)
    (ncE : ∀ k ≤ cid, NoCollisionE c (symRun c sf inp.pInit inp.pInput k).sw
      (evalRun c enc sf ein (sentTables mark c enc R sf gin gst0) est0 k).wires
      ∨ AllNeeded c (symRun c sf inp.pInit inp.pInput k)) :
    ∃ gl el pv buf, (∀ i, c.gateSize ≤ (buf i).gid.toNat) ∧
      Post c enc R sf cid gl el pv (symRun c sf inp.pInit inp.pInput cid)
        (garbleRun mark c enc R sf gin gst0 cid).1 (garbleRun mark c enc R sf gin gst0 cid).2 buf
        (evalRun c enc sf ein (sentTables mark c enc R sf gin gst0) est0 cid) (plainWires c inp x0 cid) := by
  induction cid with
  | zero =>
    obtain ⟨gl, el, pv, h⟩ := cycle_step wf hR hsf hL mark (pre_zero R (x := x0) hg he)
      (ncG 0 (Nat.le_refl _)) (ncE 0 (Nat.le_refl _))
    exact ⟨gl, el, pv, _, he.2, h⟩
  | succ n ih =>
    obtain ⟨gl, el, pv, buf, hb, h⟩ := ih (fun k hk => ncG k (by omega)) (fun k hk => ncE k (by omega))
    have hp := h.pre wf hb
    obtain ⟨gl', el', pv', h'⟩ := cycle_step wf hR hsf hL mark hp
      (ncG (n + 1) (Nat.le_refl _)) (ncE (n + 1) (Nat.le_refl _))
    exact ⟨gl', el', pv', _, hp.buf, h'⟩

/-- At the end of a cycle, a wire that is used outside represents its plain value. -/
theorem Post.represents {c : Circuit} {enc : Block → Block} {R : Block} {sf : Nat → Nat} {cid : Nat}
    {gl el : Nat → Block} {pv : Nat → Bool} {s : SState} {gst : GState} {tabs : List Table} {buf : Nat → Table}
    {est : EState} {x : Nat → Bool} (h : Post c enc R sf cid gl el pv s gst tabs buf est x) {w : Nat}
    (h1 : c.initSize ≤ w) (h2 : w < c.wireSize)
    (hu : ∀ g, w = c.gateLo + g → 0 < extUses c g) :
    Represents R (gst.wires w) (gst.val w) (est.wires w) (est.val w) (x w) := by
  have hne := SInv.used_ne_hid h.send h1 h2 hu
  have hg := h.good h1 h2 hu
  have e1 := h.g.val w h2
  have e2 := h.g.lab w h2
  have e3 := h.e.val w h2
  have e4 := h.e.lab w h2
  have e5 := h.p.pub w h1 h2
  have e6 := h.p.sec w h1 h2
  revert hne hg e1 e2 e3 e4 e5 e6
  cases s.sw w with
  | hid => intro hne; exact absurd rfl hne
  | pub b =>
    intro _ _ e1 _ e3 _ e5 _
    rw [e1, e3]
    simp only [onPub_pub] at e5
    exact ⟨e5.symm, e5.symm⟩
  | sec f i =>
    intro _ hg e1 e2 e3 e4 _ e6
    rw [e1, e3]
    simp only [onSec_sec] at *
    refine ⟨by rw [e2]; simp only [gPair], ?_⟩
    rw [e4, e2, e6]
    unfold Good at hg
    rw [hg]
    unfold gPair
    cases pv f <;> cases i <;> simp [BitVec.xor_assoc]

end TinyGarble
