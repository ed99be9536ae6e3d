import Verif.Proof.RunSim

/-! The garbler alone, over several clock cycles: one map from sets of fresh labels to blocks that
describes all labels of all cycles. -/

namespace TinyGarble
open Spec

/-- Relation between cycles, garbler only; `cid` is the next one. -/
structure GPre (c : Circuit) (R : Block) (cid : Nat) (gl : Nat → Block) (s : SState) (gst : GState) : Prop where
  spre : SPre c cid s.sw
  zero : cid = 0 → ∀ w, s.sw w = .hid
  sin : ∀ k < c.secretInputSize, s.sw (c.gInputLo + k) = .hid ∨ ∃ f, s.sw (c.gInputLo + k) = .sec f false
  gval : ∀ w < c.wireSize, gst.val w = (s.sw w).toW
  glab : ∀ w < c.wireSize, OnSec (s.sw w) fun f i => gst.wires w = gPair gl R f i

theorem gpre_zero {c : Circuit} (R : Block) (gl : Nat → Block) {gst : GState} (hg : GFresh gst) :
    GPre c R 0 gl ⟨fun _ => .hid, fun _ => 0, []⟩ gst where
  spre := spre_zero c
  zero := fun _ _ => rfl
  sin := fun _ _ => Or.inl rfl
  gval := fun w _ => hg w
  glab := fun _ _ => trivial

/-- Before the secret-values loop. -/
theorem garblePrep_sim {c : Circuit} (wf : WF c) {enc : Block → Block} {R : Block}
    {sf : Nat → Nat} (hsf : ∀ g < c.gateSize, sf g = totalFan c.gateSize (fun j => cnt c j g) + extUses c g)
    {pInit pInput : Nat} {gi : GCycleIn} (hpi : gi.pInit = pInit) (hpx : gi.pInput = pInput) (mark : Bool)
    {cid : Nat} {gl gl1 : Nat → Block} {s : SState} {gst : GState} (h : GPre c R cid gl s gst)
    (gA : Additive gl1) (gOld : 0 < cid → ∀ f < 2 ^ atomBase c cid, gl1 f = gl f)
    (gInit : cid = 0 → ∀ k < c.secretInitSize, gi.initLabels k = gPair gl1 R (2 ^ k) false)
    (gIn : ∀ k < c.secretInputSize, gi.inputLabels k = gPair gl1 R (2 ^ atomIn c cid k) false) :
    GSim c enc R cid 0 gl1 (symPrep c sf pInit pInput cid s) (garblePrep mark c sf cid gi gst) [] := by
  have hl := layout c
  have hws := wireSize_eq c
  obtain ⟨_, k2, k3, k4⟩ := knownLoop_inv wf hsf
    ⟨symInputs c pInput cid (symDff c pInit cid s.sw), s.fan, []⟩ (Nat.le_refl c.gateSize)
  have lG := prep_lab wf (pInit := pInit) (pInput := pInput) h.zero (fun f i => gPair gl R f i)
    (fun f i => gPair gl1 R f i) gst.wires gst.latch gi.initLabels gi.inputLabels h.spre.bound
    (fun h0 f hf i => by unfold gPair; rw [gOld h0 f hf]) h.glab gInit gIn
  have vG := prep_val (pInit := pInit) (pInput := pInput) (cid := cid) mark SWire.toW (fun _ => rfl)
    (fun _ => rfl) rfl h.sin (latchVal := gst.latchVal) h.gval
  have hv : ∀ w < c.wireSize, (garbleInputs mark c gi.pInput gi.inputLabels cid
      (garbleDff c gi.pInit gi.initLabels cid gst)).val w
      = (symInputs c pInput cid (symDff c pInit cid s.sw) w).toW := by
    intro w hw
    rw [← vG w hw, hpi, hpx]
    unfold garbleInputs garbleDff
    by_cases h0 : cid = 0
    · simp only [if_pos h0]
    · simp only [if_neg h0]
  have hk := knownLoop_sim wf sf SWire.toW (Or.inl rfl)
    (s0 := ⟨symInputs c pInput cid (symDff c pInit cid s.sw), s.fan, []⟩)
    (fan0 := (garbleInputs mark c gi.pInput gi.inputLabels cid
      (garbleDff c gi.pInit gi.initLabels cid gst)).fan) hv (Nat.le_refl _)
  refine ⟨gA, hk.1, ?_, hk.2, ?_, by simp⟩
  · intro w hw
    by_cases hg : w < c.gateLo
    · have e := k3 w (Or.inl hg)
      unfold symPrep
      rw [e]
      have := lG w hw
      have eW : (garblePrep mark c sf cid gi gst).wires = setRange (if cid = 0 then
          setRange gst.wires c.dffLo c.dffSize
            (fun i => dffInitLabel c gi.initLabels i (gst.wires (c.dffLo + i)))
          else setRange gst.wires c.dffLo c.dffSize
            (setRange gst.latch 0 c.dffSize (fun i => dffLatchLabel c gst.wires i (gst.latch i))))
          c.gInputLo c.secretInputSize gi.inputLabels := by
        unfold garblePrep garbleInputs garbleDff
        by_cases h0 : cid = 0
        · simp only [if_pos h0]
        · simp only [if_neg h0]
      rw [eW]
      exact this
    · obtain ⟨g, rfl⟩ : ∃ g, w = c.gateLo + g := ⟨_, (Nat.add_sub_cancel' (by omega)).symm⟩
      exact onSec_of_ne (k4 g (by omega)) _
  · unfold symPrep
    rw [k2]; rfl

theorem symCycle_sin {c : Circuit} (wf : WF c) {sf : Nat → Nat}
    (hsf : ∀ g < c.gateSize, sf g = totalFan c.gateSize (fun j => cnt c j g) + extUses c g)
    (pInit pInput cid : Nat) (s : SState) {k : Nat} (hk : k < c.secretInputSize) :
    (symCycle c sf pInit pInput cid s).sw (c.gInputLo + k) = .sec (2 ^ atomIn c cid k) false := by
  have hl := layout c
  obtain ⟨_, _, k3, _⟩ := knownLoop_inv wf hsf
    ⟨symInputs c pInput cid (symDff c pInit cid s.sw), s.fan, []⟩ (Nat.le_refl c.gateSize)
  have st := forLoop_stable (symStep c cid) SState.sw c.gateLo (fun i s w => symStep_sw c cid i s)
    (symPrep c sf pInit pInput cid s) (Nat.zero_le c.gateSize) (w := c.gInputLo + k) (by omega)
  have e := k3 (c.gInputLo + k) (Or.inl (by omega))
  unfold symCycle
  rw [st]
  simp only [forLoop]
  unfold symPrep
  rw [e]
  exact prep_sin hk

theorem symRun_sin {c : Circuit} (wf : WF c) {sf : Nat → Nat}
    (hsf : ∀ g < c.gateSize, sf g = totalFan c.gateSize (fun j => cnt c j g) + extUses c g)
    (pInit pInput cid : Nat) {k : Nat} (hk : k < c.secretInputSize) :
    (symRun c sf pInit pInput cid).sw (c.gInputLo + k) = .sec (2 ^ atomIn c cid k) false := by
  cases cid <;> exact symCycle_sin wf hsf _ _ _ _ hk

theorem GSim.gpre {c : Circuit} (wf : WF c) {enc : Block → Block} {R : Block} {sf : Nat → Nat}
    (hsf : ∀ g < c.gateSize, sf g = totalFan c.gateSize (fun j => cnt c j g) + extUses c g)
    {pInit pInput cid : Nat} {gl : Nat → Block} {gst : GState} {tabs : List Table}
    (h : GSim c enc R cid c.gateSize gl (symRun c sf pInit pInput cid) gst tabs) :
    GPre c R (cid + 1) gl (symRun c sf pInit pInput cid) gst where
  spre := SEnd.pre wf (symRun_inv wf hsf pInit pInput cid)
  zero := by omega
  sin := fun k hk => Or.inr ⟨_, symRun_sin wf hsf pInit pInput cid hk⟩
  gval := h.val
  glab := h.lab

/-- The map matters only where it is used. -/
theorem GSim.congr {c : Circuit} {enc : Block → Block} {R : Block} {cid n : Nat} {gl gl2 : Nat → Block}
    {s : SState} {st : GState} {tabs : List Table} (h : GSim c enc R cid n gl s st tabs) (h2 : Additive gl2)
    {B : Nat} (hb : ∀ w f i, s.sw w = .sec f i → f < B) (e : ∀ f < B, gl2 f = gl f) :
    GSim c enc R cid n gl2 s st tabs := by
  refine ⟨h2, h.val, ?_, h.fan, h.gids, h.rows⟩
  intro w hw
  have := h.lab w hw
  have hb := hb w
  revert this hb
  cases s.sw w with
  | sec f i =>
    intro this hb
    simp only [onSec_sec] at *
    rw [this]; unfold gPair
    rw [e f (hb f i rfl)]
  | _ => intro _ _; trivial

theorem atomBase_mono (c : Circuit) {k n : Nat} (h : k ≤ n) : atomBase c k ≤ atomBase c n := by
  unfold atomBase
  have := Nat.mul_le_mul_right (c.secretInputSize + c.gateSize) h
  omega

theorem symRun_bound {c : Circuit} (wf : WF c) {sf : Nat → Nat}
    (hsf : ∀ g < c.gateSize, sf g = totalFan c.gateSize (fun j => cnt c j g) + extUses c g)
    (pInit pInput : Nat) {k n : Nat} (hk : k < n) :
    ∀ w f i, (symRun c sf pInit pInput k).sw w = .sec f i → f < 2 ^ atomBase c n := by
  intro w f i e
  have := (SEnd.pre wf (symRun_inv wf hsf pInit pInput k)).bound w f i e
  exact Nat.lt_of_lt_of_le this (Nat.pow_le_pow_right (by omega) (atomBase_mono c (by omega)))

/-- The labels a garbler starts with are given by `gl`. -/
structure GLabels (c : Circuit) (R : Block) (gin : Nat → GCycleIn) (gl : Nat → Block) (n : Nat) : Prop where
  add : Additive gl
  init : ∀ k < c.secretInitSize, (gin 0).initLabels k = gPair gl R (2 ^ k) false
  input : ∀ cid ≤ n, ∀ k < c.secretInputSize, (gin cid).inputLabels k = gPair gl R (2 ^ atomIn c cid k) false

/-- There is one map that describes all labels of cycles `0 … n`. -/
theorem garbleRun_map {c : Circuit} (wf : WF c) {enc : Block → Block} {R : Block} (hR : getLSB R = true)
    {sf : Nat → Nat} (hsf : ∀ g < c.gateSize, sf g = totalFan c.gateSize (fun j => cnt c j g) + extUses c g)
    {pInit pInput : Nat} {gin : Nat → GCycleIn} (hp : ∀ cid, (gin cid).pInit = pInit ∧ (gin cid).pInput = pInput)
    (hinit : ∀ k < c.secretInitSize, ((gin 0).initLabels k).label1 = ((gin 0).initLabels k).label0 ^^^ R)
    (hinput : ∀ cid, ∀ k < c.secretInputSize,
      ((gin cid).inputLabels k).label1 = ((gin cid).inputLabels k).label0 ^^^ R) (mark : Bool)
    {gst0 : GState} (hg : GFresh gst0) (n : Nat)
    (nc : ∀ k ≤ n, NoCollisionG c (symRun c sf pInit pInput k).sw (garbleRun mark c enc R sf gin gst0 k).1.wires) :
    ∃ gl, GLabels c R gin gl n ∧ ∀ k ≤ n, GSim c enc R k c.gateSize gl (symRun c sf pInit pInput k)
      (garbleRun mark c enc R sf gin gst0 k).1 (garbleRun mark c enc R sf gin gst0 k).2 := by
  have toPair : ∀ (gl : Nat → Block) (f : Nat) (p : BlockPair), gl f = p.label0 → p.label1 = p.label0 ^^^ R →
      p = gPair gl R f false := by
    intro gl f p e1 e2
    unfold gPair
    rw [e1]; simp only [scale_false, BitVec.xor_zero]; rw [← e2]
  induction n with
  | zero =>
    obtain ⟨gl1, gA, gOld, gInit, gIn⟩ := exists_inputs_map c 0 Additive.zero
      (fun k => ((gin 0).initLabels k).label0) (fun k => ((gin 0).inputLabels k).label0)
    have P := garblePrep_sim wf (enc := enc) hsf (hp 0).1 (hp 0).2 mark (gpre_zero R (fun _ => 0#128) hg) gA gOld
      (fun h0 k hk => toPair _ _ _ (gInit h0 k hk) (hinit k hk))
      (fun k hk => toPair _ _ _ (gIn k hk) (hinput 0 k hk))
    obtain ⟨gl2, gE1, gE2⟩ := garbleLoop_sim wf hR
      (symPrep_inv wf hsf (pInit := pInit) (pInput := pInput) (spre_zero c)) P (nc 0 (Nat.le_refl _)) (Nat.le_refl _)
    refine ⟨gl2, ⟨gE2.add, ?_, ?_⟩, ?_⟩
    · intro k hk
      refine toPair _ _ _ ?_ (hinit k hk)
      rw [gE1 _ (Nat.pow_lt_pow_right (by omega) (by unfold atomGate atomBase; omega)), gInit rfl k hk]
    · intro cid hc k hk
      obtain rfl : cid = 0 := by omega
      refine toPair _ _ _ ?_ (hinput 0 k hk)
      rw [gE1 _ (Nat.pow_lt_pow_right (by omega) (by unfold atomGate atomIn; omega)), gIn k hk]
    · intro k hk
      obtain rfl : k = 0 := by omega
      exact gE2
  | succ n ih =>
    obtain ⟨gl, L, G⟩ := ih (fun k hk => nc k (by omega))
    obtain ⟨gl1, gA, gOld, _, gIn⟩ := exists_inputs_map c (n + 1) L.add
      (fun k => ((gin (n + 1)).initLabels k).label0) (fun k => ((gin (n + 1)).inputLabels k).label0)
    have hpre := (G n (Nat.le_refl _)).gpre wf hsf
    have P := garblePrep_sim wf (enc := enc) hsf (hp (n + 1)).1 (hp (n + 1)).2 mark hpre gA gOld
      (fun h0 => absurd h0 (by omega))
      (fun k hk => toPair _ _ _ (gIn k hk) (hinput (n + 1) k hk))
    obtain ⟨gl2, gE1, gE2⟩ := garbleLoop_sim wf hR
      (symPrep_inv wf hsf (pInit := pInit) (pInput := pInput) hpre.spre) P (nc (n + 1) (Nat.le_refl _)) (Nat.le_refl _)
    have old : ∀ f < 2 ^ atomBase c (n + 1), gl2 f = gl f := by
      intro f hf
      rw [gE1 _ (Nat.lt_of_lt_of_le hf (Nat.pow_le_pow_right (by omega) (by unfold atomGate; omega))),
        gOld (by omega) f hf]
    have lt1 : ∀ cid ≤ n, ∀ k < c.secretInputSize, atomIn c cid k < atomBase c (n + 1) := by
      intro cid hc k hk
      have := atomBase_mono c (show cid + 1 ≤ n + 1 by omega)
      have e := atomGate_end c cid
      unfold atomGate at e
      unfold atomIn; omega
    have congrP : ∀ f < 2 ^ atomBase c (n + 1), gPair gl2 R f false = gPair gl R f false := by
      intro f hf; unfold gPair; rw [old f hf]
    refine ⟨gl2, ⟨gE2.add, ?_, ?_⟩, ?_⟩
    · intro k hk
      rw [congrP _ (Nat.pow_lt_pow_right (by omega) (by unfold atomBase; omega))]
      exact L.init k hk
    · intro cid hc k hk
      by_cases e : cid = n + 1
      · subst e
        refine toPair _ _ _ ?_ (hinput _ k hk)
        rw [gE1 _ (Nat.pow_lt_pow_right (by omega) (by unfold atomGate atomIn; omega)), gIn k hk]
      · rw [congrP _ (Nat.pow_lt_pow_right (by omega) (lt1 cid (by omega) k hk))]
        exact L.input cid (by omega) k hk
    · intro k hk
      by_cases e : k = n + 1
      · subst e; exact gE2
      · exact (G k (by omega)).congr gE2.add (symRun_bound wf hsf pInit pInput (by omega)) old

theorem symStep_tabs_mono (c : Circuit) (cid i : Nat) (s : SState) {g : Nat} (h : g ∈ s.tabs) :
    g ∈ (symStep c cid i s).tabs := by
  unfold symStep
  split
  · exact List.mem_append_left _ h
  · exact h

theorem symLoop_tabs_mono (c : Circuit) (cid : Nat) (s0 : SState) {m n : Nat} (h : m ≤ n) {g : Nat}
    (hg : g ∈ (forLoop (symStep c cid) m s0).tabs) : g ∈ (forLoop (symStep c cid) n s0).tabs := by
  induction n with
  | zero => have : m = 0 := by omega
            subst this; exact hg
  | succ n ih =>
    by_cases e : m = n + 1
    · subst e; exact hg
    · exact symStep_tabs_mono c cid n _ (ih (by omega))

/-- What a map has to satisfy at the gates of one cycle. -/
structure GateFacts (c : Circuit) (enc : Block → Block) (R : Block) (cid : Nat) (gl : Nat → Block) (s : SState) :
    Prop where
  nc : ∀ i < c.gateSize, ∀ f j f' j', symIn0 c s.sw (c.gate i) = .sec f j → symIn1 c s.sw (c.gate i) = .sec f' j' →
    f ≠ f' → cmpBlock (gPair gl R f j).label0 (gPair gl R f' j').label0 = false
      ∧ cmpBlock (gPair gl R f j).label0 (gPair gl R f' j').label1 = false
  tab : ∀ i ∈ s.tabs, ∀ f j f' j', symIn0 c s.sw (c.gate i) = .sec f j → symIn1 c s.sw (c.gate i) = .sec f' j' →
    (c.gate i).type ∈ tableTypes →
    (garbleHalfGates enc R cid i (c.gate i).type (gPair gl R f j) (gPair gl R f' j')).1.label0
      = gl (2 ^ atomGate c cid i)

/-- One cycle with a given map. -/
theorem garbleLoop_check {c : Circuit} (wf : WF c) {enc : Block → Block} {R : Block} (hR : getLSB R = true)
    {sf : Nat → Nat} {cid : Nat} {gl : Nat → Block} {s0 : SState} {st0 : GState}
    (hinv : SInv c sf cid 0 s0) (h0 : GSim c enc R cid 0 gl s0 st0 [])
    (F : GateFacts c enc R cid gl (forLoop (symStep c cid) c.gateSize s0))
    {n : Nat} (hn : n ≤ c.gateSize) :
    GSim c enc R cid n gl (forLoop (symStep c cid) n s0)
      (forLoop (garbleStep c enc R cid) n (st0, [])).1 (forLoop (garbleStep c enc R cid) n (st0, [])).2 := by
  have hws := wireSize_eq c
  induction n with
  | zero => exact h0
  | succ n ih =>
    have h := ih (by omega)
    have inv := symLoop_inv wf hinv (n := n) (by omega)
    have stS : ∀ w < c.gateLo + n, (forLoop (symStep c cid) c.gateSize s0).sw w
        = (forLoop (symStep c cid) n s0).sw w := fun w hw =>
      forLoop_stable (symStep c cid) SState.sw c.gateLo (fun i s w => symStep_sw c cid i s) s0 (by omega) hw
    have ncn := F.nc n (by omega)
    have tabn := fun hm => F.tab n (symLoop_tabs_mono c cid s0 (show n + 1 ≤ c.gateSize by omega) hm)
    rw [symIn0_congr wf (by omega) stS, symIn1_congr wf (by omega) stS] at ncn tabn
    simp only [forLoop] at tabn ⊢
    generalize forLoop (symStep c cid) n s0 = s at *
    generalize forLoop (garbleStep c enc R cid) n (st0, []) = gs at *
    obtain ⟨st, tabs⟩ := gs
    simp only at *
    obtain ⟨gl2, k1, k2, k3⟩ := garbleStep_sim wf hR (by omega) inv h (fun f i f' i' e e' hne => by
      have := ncn f i f' i' e e' hne
      obtain ⟨_, q, e3⟩ := inLabel_readable (wf.in0 n (by omega)) (by omega) (by simp) e zeroPair st.wires
      obtain ⟨_, q', e3'⟩ := inLabel_readable (wf.in1 n (by omega)) (by omega)
        (bad1_ne_sec (c.gate n).type) e' zeroPair st.wires
      have l := h.lab _ (show (c.gate n).input0.toNat < c.wireSize by omega)
      have l' := h.lab _ (show (c.gate n).input1.toNat < c.wireSize by omega)
      rw [q] at l; rw [q'] at l'
      simp only [onSec_sec] at l l'
      rw [l, l']; exact this)
    rcases k2 with rfl | hm
    · exact k3
    · -- the gate has a table
      have hm' := hm
      rw [← k3.gids] at hm'
      obtain ⟨T, hT, hTg⟩ := List.mem_map.1 hm'
      obtain ⟨g, hg, hgid, -, -, r3, r4, r5, f, i, f', i', e, e'⟩ := k3.rows T hT
      have hsz := wf.size
      obtain rfl : g = n := by
        rw [hgid, BitVec.toNat_ofNat, Nat.mod_eq_of_lt (by omega)] at hTg
        exact hTg
      have stS' : ∀ w < c.gateLo + g, (symStep c cid g s).sw w = s.sw w := fun w hw =>
        symStep_sw c cid g s (by omega)
      have z := tabn hm
      have ie : symIn0 c s.sw (c.gate g) = .sec f i := by
        rw [← symIn0_congr wf (by omega) stS']; exact e
      have ie' : symIn1 c s.sw (c.gate g) = .sec f' i' := by
        rw [← symIn1_congr wf (by omega) stS']; exact e'
      have z := z f i f' i' ie ie' r5
      obtain ⟨p1, p2, p3⟩ := inLabel_readable (wf.in0 g (by omega)) (by omega) (by simp) e zeroPair
        (garbleStep c enc R cid g (st, tabs)).1.wires
      obtain ⟨p1', p2', p3'⟩ := inLabel_readable (wf.in1 g (by omega)) (by omega)
        (bad1_ne_sec (c.gate g).type) e' zeroPair (garbleStep c enc R cid g (st, tabs)).1.wires
      have l := k3.lab _ (show (c.gate g).input0.toNat < c.wireSize by omega)
      have l' := k3.lab _ (show (c.gate g).input1.toNat < c.wireSize by omega)
      have lo := k3.lab _ (show c.gateLo + g < c.wireSize by omega)
      rw [p2] at l; rw [p2'] at l'; rw [r4] at lo
      simp only [onSec_sec] at l l' lo
      have bf : f < 2 ^ atomGate c cid g := symIn0_bound inv.bound (c := c) (c.gate g) f i ie
      have bf' : f' < 2 ^ atomGate c cid g := symIn1_bound inv.bound (c := c) (c.gate g) f' i' ie'
      have cP : ∀ f < 2 ^ atomGate c cid g, ∀ i, gPair gl2 R f i = gPair gl R f i := by
        intro f hf i; unfold gPair; rw [k1 f hf]
      rw [p1, p1', l, l', cP f bf, cP f' bf'] at r3
      have new : gl2 (2 ^ atomGate c cid g) = gl (2 ^ atomGate c cid g) := by
        rw [← z, ← r3, lo]
        simp [gPair]
      refine ⟨h.add, k3.val, ?_, k3.fan, k3.gids, k3.rows⟩
      intro w hw
      by_cases ew : w = c.gateLo + g
      · subst ew
        rw [r4]
        simp only [onSec_sec]
        rw [lo]; unfold gPair; rw [new]
      · have hb := inv.bound w
        have := k3.lab w hw
        rw [symStep_sw c cid g s ew] at this ⊢
        revert hb this
        cases s.sw w with
        | sec f i =>
          intro hb this
          simp only [onSec_sec] at *
          rw [this, cP f (hb f i rfl)]
        | _ => intro _ _; trivial

/-- All cycles with a given map. -/
theorem garbleRun_check {c : Circuit} (wf : WF c) {enc : Block → Block} {R : Block} (hR : getLSB R = true)
    {sf : Nat → Nat} (hsf : ∀ g < c.gateSize, sf g = totalFan c.gateSize (fun j => cnt c j g) + extUses c g)
    {pInit pInput : Nat} {gin : Nat → GCycleIn} (hp : ∀ cid, (gin cid).pInit = pInit ∧ (gin cid).pInput = pInput)
    (mark : Bool) {gst0 : GState} (hg : GFresh gst0) {n : Nat} {gl : Nat → Block} (L : GLabels c R gin gl n)
    (F : ∀ k ≤ n, GateFacts c enc R k gl (symRun c sf pInit pInput k)) :
    ∀ k ≤ n, GSim c enc R k c.gateSize gl (symRun c sf pInit pInput k)
      (garbleRun mark c enc R sf gin gst0 k).1 (garbleRun mark c enc R sf gin gst0 k).2 := by
  intro k
  induction k with
  | zero =>
    intro _
    have P := garblePrep_sim wf (enc := enc) hsf (hp 0).1 (hp 0).2 mark (gpre_zero R gl hg) L.add
      (fun _ _ _ => rfl) (fun _ => L.init) (L.input 0 (by omega))
    exact garbleLoop_check wf hR (symPrep_inv wf hsf (spre_zero c)) P (F 0 (by omega)) (Nat.le_refl _)
  | succ k ih =>
    intro hk
    have hpre := (ih (by omega)).gpre wf hsf
    have P := garblePrep_sim wf (enc := enc) hsf (hp (k + 1)).1 (hp (k + 1)).2 mark hpre L.add
      (fun _ _ _ => rfl) (fun h0 => absurd h0 (by omega)) (L.input (k + 1) hk)
    exact garbleLoop_check wf hR (symPrep_inv wf hsf hpre.spre) P (F (k + 1) hk) (Nat.le_refl _)

/-! ### Plain values -/

theorem PSim.congr {c : Circuit} {pv pv2 : Nat → Bool} {hi : Nat} {sw : Nat → SWire} {x : Nat → Bool}
    (h : PSim c pv hi sw x) (h2 : AdditiveB pv2) {B : Nat} (hb : ∀ w f i, sw w = .sec f i → f < B)
    (e : ∀ f < B, pv2 f = pv f) : PSim c pv2 hi sw x := by
  refine ⟨h2, h.pub, ?_⟩
  intro w h1 h2
  have := h.sec w h1 h2
  have hb := hb w
  revert this hb
  cases sw w with
  | sec f i =>
    intro this hb
    simp only [onSec_sec] at *
    rw [this, e f (hb f i rfl)]
  | _ => intro _ _; trivial

/-- There is one map that describes the values of all wires in cycles `0 … n`. -/
theorem plainRun_map {c : Circuit} (wf : WF c) {sf : Nat → Nat}
    (hsf : ∀ g < c.gateSize, sf g = totalFan c.gateSize (fun j => cnt c j g) + extUses c g)
    (inp : Inputs) (x0 : Nat → Bool) (n : Nat) :
    ∃ pv, AdditiveB pv ∧ (∀ k < c.secretInitSize, pv (2 ^ k) = secretInitBit c inp k)
      ∧ (∀ cid ≤ n, ∀ k < c.secretInputSize, pv (2 ^ atomIn c cid k) = secretInputBit c inp cid k)
      ∧ ∀ k ≤ n, PSim c pv c.wireSize (symRun c sf inp.pInit inp.pInput k).sw (plainWires c inp x0 k) := by
  have hws := wireSize_eq c
  have one : ∀ (cid : Nat) (s : SState) (pv : Nat → Bool) (x : Nat → Bool), SPre c cid s.sw →
      PSim c pv c.wireSize s.sw x →
      ∃ pv', AdditiveB pv' ∧ (0 < cid → ∀ f < 2 ^ atomBase c cid, pv' f = pv f)
        ∧ (cid = 0 → ∀ k < c.secretInitSize, pv' (2 ^ k) = secretInitBit c inp k)
        ∧ (∀ k < c.secretInputSize, pv' (2 ^ atomIn c cid k) = secretInputBit c inp cid k)
        ∧ PSim c pv' c.wireSize (symCycle c sf inp.pInit inp.pInput cid s).sw (plainCycle c inp cid x) := by
    intro cid s pv x hs hx0
    have hx := plainCycle_eqs wf inp cid x
    obtain ⟨pv1, pA, pOld, pInit, pIn⟩ := exists_inputs_mapB c cid hx0.add
      (secretInitBit c inp) (secretInputBit c inp cid)
    have pP := prep_plain wf hx hx0 pA hs.bound pOld pInit pIn
    have pPrep : PSim c pv1 c.wireSize (symPrep c sf inp.pInit inp.pInput cid s).sw (plainCycle c inp cid x) := by
      have := knownLoop_plain wf sf hx.gate
        (s0 := ⟨symInputs c inp.pInput cid (symDff c inp.pInit cid s.sw), s.fan, []⟩) pP (Nat.le_refl _)
      rw [← hws] at this
      exact this
    obtain ⟨pv2, pE1, pE2⟩ := plainLoop_sim wf hx.gate
      (symPrep_inv wf hsf (pInit := inp.pInit) (pInput := inp.pInput) hs) pPrep (Nat.le_refl _)
    refine ⟨pv2, pE2.add, ?_, ?_, ?_, pE2⟩
    · intro h0 f hf
      rw [pE1 _ (Nat.lt_of_lt_of_le hf (Nat.pow_le_pow_right (by omega) (by unfold atomGate; omega))), pOld h0 f hf]
    · intro h0 k hk
      rw [pE1 _ (Nat.pow_lt_pow_right (by omega) (by unfold atomGate atomBase; omega)), pInit h0 k hk]
    · intro k hk
      rw [pE1 _ (Nat.pow_lt_pow_right (by omega) (by unfold atomGate atomIn; omega)), pIn k hk]
  induction n with
  | zero =>
    obtain ⟨pv, q1, _, q3, q4, q5⟩ := one 0 ⟨fun _ => .hid, fun _ => 0, []⟩ (fun _ => false) x0 (spre_zero c)
      ⟨AdditiveB.zero, fun _ _ _ => trivial, fun _ _ _ => trivial⟩
    refine ⟨pv, q1, q3 rfl, ?_, ?_⟩
    · intro cid hc k hk
      obtain rfl : cid = 0 := by omega
      exact q4 k hk
    · intro k hk
      obtain rfl : k = 0 := by omega
      exact q5
  | succ n ih =>
    obtain ⟨pv, p1, p2, p3, p4⟩ := ih
    obtain ⟨pv', q1, q2, _, q4, q5⟩ := one (n + 1) _ pv _
      (SEnd.pre wf (symRun_inv wf hsf inp.pInit inp.pInput n)) (p4 n (Nat.le_refl _))
    have old := q2 (by omega)
    refine ⟨pv', q1, ?_, ?_, ?_⟩
    · intro k hk
      rw [old _ (Nat.pow_lt_pow_right (by omega) (by unfold atomBase; omega))]
      exact p2 k hk
    · intro cid hc k hk
      by_cases e : cid = n + 1
      · subst e; exact q4 k hk
      · have := atomBase_mono c (show cid + 1 ≤ n + 1 by omega)
        have e := atomGate_end c cid
        unfold atomGate at e
        rw [old _ (Nat.pow_lt_pow_right (by omega) (by unfold atomIn; omega))]
        exact p3 cid (by omega) k hk
    · intro k hk
      by_cases e : k = n + 1
      · subst e; exact q5
      · exact (p4 k (by omega)).congr q1 (symRun_bound wf hsf _ _ (by omega)) old

end TinyGarble
