import Verif.Proof.CycleSim

/-! Simulation of one clock cycle: the plaintext evaluator and the evaluator of garbled tables. -/

namespace TinyGarble
open Spec

/-! ### The plaintext evaluator -/

/-- The equations that hold at the end of a cycle of the plaintext evaluator. -/
structure PlainEqs (c : Circuit) (inp : Inputs) (cid : Nat) (xprev x : Nat → Bool) : Prop where
  dff : ∀ i < c.dffSize, x (c.dffLo + i) =
    if cid = 0 then plainDffInit c inp i else fetch c.wireSize false true false xprev (c.D i)
  input : ∀ i < c.inputSize, x (c.pInputLo + i) = plainInput c inp cid i
  gate : ∀ i < c.gateSize, x (c.gateLo + i) = truth (c.gate i).type
    (fetch c.wireSize false true false x (c.gate i).input0)
    (fetch c.wireSize false true false x (c.gate i).input1)

theorem plainGate_ne (c : Circuit) (i : Nat) (s : Nat → Bool) {w : Nat} (h : w ≠ c.gateLo + i) :
    plainGate c i s w = s w := upd_ne _ _ h

theorem plainCycle_eqs {c : Circuit} (wf : WF c) (inp : Inputs) (cid : Nat) (xprev : Nat → Bool) :
    PlainEqs c inp cid xprev (plainCycle c inp cid xprev) := by
  have hws := wireSize_eq c
  have hl := layout c
  have hin : c.inputSize = c.pInput + c.secretInputSize := by
    unfold Circuit.inputSize Circuit.secretInputSize; omega
  unfold plainCycle
  simp only
  have low : ∀ w < c.gateLo, ∀ s, forLoop (plainGate c) c.gateSize s w = s w := fun w hw s =>
    forLoop_stable (plainGate c) id c.gateLo (fun i s w => plainGate_ne c i s) s (Nat.zero_le c.gateSize)
      (by omega)
  refine ⟨?_, ?_, ?_⟩
  · intro i hi
    rw [low _ (by omega), setRange_out _ _ (by omega)]
    unfold plainDff
    rw [setRange_in _ _ (by omega), show c.dffLo + i - c.dffLo = i by omega]
  · intro i hi
    rw [low _ (by omega), setRange_in _ _ (by omega), show c.pInputLo + i - c.pInputLo = i by omega]
  · intro i hi
    generalize setRange (plainDff c inp cid xprev) c.pInputLo c.inputSize (plainInput c inp cid) = s0
    have st : ∀ m ≤ c.gateSize, ∀ w < c.gateLo + m,
        forLoop (plainGate c) c.gateSize s0 w = forLoop (plainGate c) m s0 w := fun m hm w hw =>
      forLoop_stable (plainGate c) id c.gateLo (fun i s w => plainGate_ne c i s) s0 hm hw
    rw [st (i + 1) (by omega) _ (by omega)]
    rw [fetch_congr (wf.in0 i hi) (by omega) (st i (by omega)),
      fetch_congr (wf.in1 i hi) (by omega) (st i (by omega))]
    simp only [forLoop]
    generalize forLoop (plainGate c) i s0 = s
    unfold plainGate
    simp only [upd_same]
    by_cases hn : (c.gate i).type = 12
    · rw [hn]; simp only [NOTGATE, ne_eq, not_true_eq_false, if_false]
      rw [gateOperator_truth (by decide), truth_not, truth_not]
    · rw [if_pos (by exact hn), gateOperator_truth (wf.type i hi)]

/-- Relation of plain wire values and symbolic wires. -/
structure PSim (c : Circuit) (pv : Nat → Bool) (hi : Nat) (sw : Nat → SWire) (x : Nat → Bool) : Prop where
  add : AdditiveB pv
  pub : ∀ w, c.initSize ≤ w → w < hi → OnPub (sw w) fun b => x w = b
  sec : ∀ w, c.initSize ≤ w → w < hi → OnSec (sw w) fun f i => x w = (pv f ^^ i)

theorem fetch_plain {c : Circuit} {pv : Nat → Bool} {hi : Nat} {sw : Nat → SWire} {x : Nat → Bool}
    (h : PSim c pv hi sw x) {w : Int} (hr : Readable c hi w) (hhi : hi ≤ c.wireSize) {bad : SWire}
    (hbad : OnPub bad fun b => b = false) (hbad' : ∀ f i, bad ≠ .sec f i) :
    (∀ v, fetch c.wireSize (.pub false) (.pub true) bad sw w = .pub v →
      fetch c.wireSize false true false x w = v) ∧
    (∀ f i, fetch c.wireSize (.pub false) (.pub true) bad sw w = .sec f i →
      fetch c.wireSize false true false x w = (pv f ^^ i)) := by
  rcases fetch_readable hr hhi (SWire.pub false) (.pub true) bad sw with ⟨h1, e⟩ | ⟨h1, h2, h3, e⟩
  · rcases fetch_readable hr hhi false true false x with ⟨_, e'⟩ | ⟨h1', _⟩
    · rw [e, e']
      split
      · exact ⟨fun v hv => by simpa using hv, fun f i hv => by simp at hv⟩
      · split
        · exact ⟨fun v hv => by simpa using hv, fun f i hv => by simp at hv⟩
        · exact ⟨fun v hv => by rw [hv] at hbad; exact hbad.symm, fun f i hv => absurd hv (hbad' f i)⟩
    · omega
  · rcases fetch_readable hr hhi false true false x with ⟨h1', _⟩ | ⟨_, _, _, e'⟩
    · omega
    · rw [e, e']
      have a1 := h.pub _ h2 h3
      have a2 := h.sec _ h2 h3
      exact ⟨fun v hv => by rw [hv] at a1; exact a1, fun f i hv => by rw [hv] at a2; exact a2⟩

theorem symIn0_plain {c : Circuit} {pv : Nat → Bool} {hi : Nat} {sw : Nat → SWire} {x : Nat → Bool}
    (h : PSim c pv hi sw x) {g : Gate} (hr : Readable c hi g.input0) (hhi : hi ≤ c.wireSize) :
    (∀ v, symIn0 c sw g = .pub v → fetch c.wireSize false true false x g.input0 = v) ∧
    (∀ f i, symIn0 c sw g = .sec f i → fetch c.wireSize false true false x g.input0 = (pv f ^^ i)) := by
  unfold symIn0
  exact fetch_plain h hr hhi (by simp) (by simp)

theorem onSec_of_ne {o : SWire} (h : ∀ f i, o ≠ .sec f i) (P : Nat → Bool → Prop) : OnSec o P := by
  cases o with
  | sec f i => exact absurd rfl (h f i)
  | _ => trivial

theorem bad1_pub (t : Int) : OnPub (if t ≠ 12 then SWire.pub false else .hid) fun b => b = false := by
  split <;> simp

theorem symIn1_plain {c : Circuit} {pv : Nat → Bool} {hi : Nat} {sw : Nat → SWire} {x : Nat → Bool}
    (h : PSim c pv hi sw x) {g : Gate} (hr : Readable c hi g.input1) (hhi : hi ≤ c.wireSize) :
    (∀ v, symIn1 c sw g = .pub v → fetch c.wireSize false true false x g.input1 = v) ∧
    (∀ f i, symIn1 c sw g = .sec f i → fetch c.wireSize false true false x g.input1 = (pv f ^^ i)) := by
  unfold symIn1
  exact fetch_plain h hr hhi (bad1_pub g.type) (bad1_ne_sec g.type)

theorem symKnown_plain {t : Int} {a b : SWire} {x y : Bool}
    (p0 : ∀ v, a = .pub v → x = v) (p1 : ∀ v, b = .pub v → y = v) :
    OnPub (symKnown t a b) (fun v => truth t x y = v) ∧ ∀ f i, symKnown t a b ≠ .sec f i := by
  have un : ∀ (f0 f1 z : Bool), OnPub (symUnary f0 f1 .hid) (fun v => (if z then f1 else f0) = v)
      ∧ ∀ f i, symUnary f0 f1 .hid ≠ .sec f i := by
    intro f0 f1 z
    cases f0 <;> cases f1 <;> cases z <;> simp [symUnary]
  have tx : ∀ v z, (if z then truth t v true else truth t v false) = truth t v z := by
    intro v z; cases z <;> rfl
  have ty : ∀ v z, (if z then truth t true v else truth t false v) = truth t z v := by
    intro v z; cases z <;> rfl
  cases a with
  | pub v =>
    have := p0 v rfl; subst this
    cases b with
    | pub v => have := p1 v rfl; subst this; simp [symKnown]
    | _ => have := un (truth t x false) (truth t x true) y
           rw [tx] at this; exact this
  | _ =>
    cases b with
    | pub v => have := p1 v rfl; subst this
               have := un (truth t false y) (truth t true y) x
               rw [ty] at this; exact this
    | _ => simp [symKnown]

theorem knownLoop_plain {c : Circuit} (wf : WF c) (sf : Nat → Nat) {pv : Nat → Bool} {x : Nat → Bool}
    (hx : ∀ i < c.gateSize, x (c.gateLo + i) = truth (c.gate i).type
      (fetch c.wireSize false true false x (c.gate i).input0)
      (fetch c.wireSize false true false x (c.gate i).input1))
    {s0 : SState} (h0 : PSim c pv c.gateLo s0.sw x) {n : Nat} (hn : n ≤ c.gateSize) :
    PSim c pv (c.gateLo + n) (forLoop (symKnownStep c sf) n s0).sw x := by
  have hws := wireSize_eq c
  induction n with
  | zero => exact h0
  | succ n ih =>
    have h := ih (by omega)
    simp only [forLoop]
    generalize forLoop (symKnownStep c sf) n s0 = s at h
    have f0 := symIn0_plain h (wf.in0 n (by omega)) (by omega)
    have f1 := symIn1_plain h (wf.in1 n (by omega)) (by omega)
    have key := symKnown_plain (t := (c.gate n).type) f0.1 f1.1
    rw [← hx n (by omega)] at key
    refine ⟨h.add, ?_, ?_⟩
    · intro w hw1 hw2
      show OnPub (upd s.sw (c.gateLo + n) _ w) _
      by_cases e : w = c.gateLo + n
      · subst e; rw [upd_same]; exact key.1
      · rw [upd_ne _ _ e]; exact h.pub w hw1 (by omega)
    · intro w hw1 hw2
      show OnSec (upd s.sw (c.gateLo + n) _ w) _
      by_cases e : w = c.gateLo + n
      · subst e; rw [upd_same]
        exact onSec_of_ne key.2 _
      · rw [upd_ne _ _ e]; exact h.sec w hw1 (by omega)

theorem plainLoop_sim {c : Circuit} (wf : WF c) {sf : Nat → Nat} {cid : Nat} {pv0 : Nat → Bool} {x : Nat → Bool}
    (hx : ∀ i < c.gateSize, x (c.gateLo + i) = truth (c.gate i).type
      (fetch c.wireSize false true false x (c.gate i).input0)
      (fetch c.wireSize false true false x (c.gate i).input1))
    {s0 : SState} (hinv : SInv c sf cid 0 s0) (h0 : PSim c pv0 c.wireSize s0.sw x) {n : Nat}
    (hn : n ≤ c.gateSize) :
    ∃ pv, (∀ f < 2 ^ atomGate c cid 0, pv f = pv0 f) ∧
      PSim c pv c.wireSize (forLoop (symStep c cid) n s0).sw x := by
  have hws := wireSize_eq c
  induction n with
  | zero => exact ⟨pv0, fun _ _ => rfl, h0⟩
  | succ n ih =>
    obtain ⟨pv, hpv0, h⟩ := ih (by omega)
    have inv := symLoop_inv wf hinv (n := n) (by omega)
    simp only [forLoop]
    generalize forLoop (symStep c cid) n s0 = s at h inv
    unfold symStep
    simp only
    by_cases hp : 0 < s.fan n ∧ (s.sw (c.gateLo + n)).isPub = false
    · rw [if_pos hp]
      simp only
      have hr0 : Readable c c.wireSize (c.gate n).input0 := by
        have := wf.in0 n (by omega); unfold Readable at *; omega
      have hr1 : Readable c c.wireSize (c.gate n).input1 := by
        have := wf.in1 n (by omega); unfold Readable at *; omega
      have f0 := symIn0_plain h hr0 (by omega)
      have f1 := symIn1_plain h hr1 (by omega)
      have hb := inv.in1 wf (by omega) (Nat.le_refl _) hp.1 hp.2
      have key := symGate_plain (atom := atomGate c cid n) (wf.type n (by omega)) h.add hb f0.1 f1.1 f0.2 f1.2
      rw [← hx n (by omega)] at key
      have ba := symIn0_bound inv.bound (c := c) (c.gate n)
      have bb := symIn1_bound inv.bound (c := c) (c.gate n)
      have hpub : ∀ w, c.initSize ≤ w → w < c.wireSize → OnPub (upd s.sw (c.gateLo + n)
          (symGate (atomGate c cid n) (c.gate n).type (symIn0 c s.sw (c.gate n)) (symIn1 c s.sw (c.gate n))) w)
          fun b => x w = b := by
        intro w hw1 hw2
        by_cases e : w = c.gateLo + n
        · subst e; rw [upd_same]; exact key.1
        · rw [upd_ne _ _ e]; exact h.pub w hw1 hw2
      cases htab : symTable (c.gate n).type (symIn0 c s.sw (c.gate n)) (symIn1 c s.sw (c.gate n))
      · refine ⟨pv, hpv0, h.add, hpub, ?_⟩
        intro w hw1 hw2
        by_cases e : w = c.gateLo + n
        · subst e; rw [upd_same]; exact key.2 htab
        · rw [upd_ne _ _ e]; exact h.sec w hw1 hw2
      · have ho : symGate (atomGate c cid n) (c.gate n).type (symIn0 c s.sw (c.gate n)) (symIn1 c s.sw (c.gate n))
            = .sec (2 ^ atomGate c cid n) false := by
          revert htab
          generalize symIn0 c s.sw (c.gate n) = a
          generalize symIn1 c s.sw (c.gate n) = b
          cases a <;> cases b <;> simp only [symTable, Bool.false_eq_true, false_implies]
          intro htab
          simp only [Bool.and_eq_true, decide_eq_true_eq] at htab
          obtain ⟨t1, t2⟩ := htab
          have := wf.type n (by omega)
          simp only [tableTypes, List.mem_cons, List.not_mem_nil, or_false] at t2
          unfold symGate
          simp only
          rw [if_neg (by omega), if_neg t1, if_neg (by omega), if_neg (by omega)]
        rw [ho] at hpub ⊢
        refine ⟨extendB pv (atomGate c cid n) (x (c.gateLo + n)), ?_, h.add.extend _ _, hpub, ?_⟩
        · intro f hf
          rw [extendB_old _ _ (Nat.lt_of_lt_of_le hf (Nat.pow_le_pow_right (by omega) (by unfold atomGate; omega)))]
          exact hpv0 f hf
        · intro w hw1 hw2
          by_cases e : w = c.gateLo + n
          · subst e; rw [upd_same]; simp [extendB_new]
          · rw [upd_ne _ _ e]
            have := h.sec w hw1 hw2
            have hb := inv.bound w
            revert this hb
            cases s.sw w with
            | sec f i =>
              intro this hb
              simp only [onSec_sec] at this ⊢
              rw [this, extendB_old _ _ (hb f i rfl)]
            | _ => intro _ _; trivial
    · rw [if_neg hp]
      exact ⟨pv, hpv0, h⟩

/-! ### The evaluator -/

theorem symStep_fan_le (c : Circuit) (cid i : Nat) (s : SState) (g : Nat) :
    (symStep c cid i s).fan g ≤ s.fan g := by
  unfold symStep
  split
  · simp only
    split
    · exact symReduce_le _ _ _ _ _ _
    · exact Nat.le_refl _
  · exact Nat.le_refl _

theorem symLoop_fan_le (c : Circuit) (cid : Nat) (s0 : SState) {m n : Nat} (h : m ≤ n) (g : Nat) :
    (forLoop (symStep c cid) n s0).fan g ≤ (forLoop (symStep c cid) m s0).fan g := by
  induction n with
  | zero => have : m = 0 := by omega
            subst this; exact Nat.le_refl _
  | succ n ih =>
    by_cases e : m = n + 1
    · subst e; exact Nat.le_refl _
    · exact Nat.le_trans (symStep_fan_le c cid n _ g) (ih (by omega))

theorem symLoop_tabs (c : Circuit) (cid : Nat) (s0 : SState) {m n : Nat} (h : m ≤ n) :
    ∃ rest, (forLoop (symStep c cid) n s0).tabs = (forLoop (symStep c cid) m s0).tabs ++ rest
      ∧ ∀ g ∈ rest, m ≤ g := by
  induction n with
  | zero => have : m = 0 := by omega
            subst this; exact ⟨[], by simp, by simp⟩
  | succ n ih =>
    by_cases e : m = n + 1
    · subst e; exact ⟨[], by simp, by simp⟩
    · obtain ⟨rest, h1, h2⟩ := ih (by omega)
      simp only [forLoop]
      generalize forLoop (symStep c cid) n s0 = s at h1
      generalize (forLoop (symStep c cid) m s0).tabs = T at h1 ⊢
      unfold symStep
      split
      · simp only [h1]
        refine ⟨rest ++ (if symTable (c.gate n).type (symIn0 c s.sw (c.gate n)) (symIn1 c s.sw (c.gate n)) = true
          then [n] else []), by simp, ?_⟩
        intro g hg
        rcases List.mem_append.1 hg with hg | hg
        · exact h2 g hg
        · split at hg
          · simp at hg; omega
          · simp at hg
      · exact ⟨rest, h1, h2⟩

/-- A set of atoms on which the parties agree: the evaluator's label is the garbler's, shifted by the
offset if the value is 1. -/
def Good (R : Block) (gl el : Nat → Block) (pv : Nat → Bool) (f : Nat) : Prop :=
  el f = gl f ^^^ scale (pv f) R

theorem Good.xor {R : Block} {gl el : Nat → Block} {pv : Nat → Bool} (hg : Additive gl) (he : Additive el)
    (hp : AdditiveB pv) {f f' : Nat} (h : Good R gl el pv f) (h' : Good R gl el pv f') :
    Good R gl el pv (f ^^^ f') := by
  unfold Good at *
  rw [he, hg, hp, h, h', scale_xor]
  bxor

theorem symUnary_onSec {f0 f1 : Bool} {w : SWire} {P : Nat → Prop} (h : OnSec w fun f _ => P f) :
    OnSec (symUnary f0 f1 w) fun f _ => P f := by
  unfold symUnary
  split
  · trivial
  · cases w with
    | sec s i => exact h
    | _ => trivial

theorem symGate_onSec {atom : Nat} {t : Int} {a b : SWire} {P : Nat → Prop}
    (hx : ∀ f f', P f → P f' → P (f ^^^ f')) (ht : t ∈ gateTypes)
    (ha : OnSec a fun f _ => P f) (hb : OnSec b fun f _ => P f) (htab : symTable t a b = false) :
    OnSec (symGate atom t a b) fun f _ => P f := by
  cases a with
  | hid =>
    cases b with
    | pub y => exact symUnary_onSec ha
    | _ => simp [symGate]
  | pub x =>
    cases b with
    | pub y => simp [symGate]
    | sec s i => exact symUnary_onSec hb
    | hid => exact symUnary_onSec hb
  | sec s i =>
    cases b with
    | pub y => exact symUnary_onSec ha
    | hid => simp only [symGate]; split
             · exact ha
             · trivial
    | sec s' i' =>
      unfold symGate
      simp only
      split
      · exact ha
      · split
        · exact symUnary_onSec ha
        · split
          · exact hx _ _ ha hb
          · split
            · exact hx _ _ ha hb
            · exfalso
              simp only [symTable, Bool.and_eq_false_iff, decide_eq_false_iff_not, Decidable.not_not] at htab
              simp only [gateTypes, tableTypes, List.mem_cons, List.not_mem_nil, or_false] at ht htab
              rcases htab with h | h
              · contradiction
              · omega

/-- Relation of evaluator and symbolic state, after `n` gates. -/
structure ESim (c : Circuit) (R : Block) (n : Nat) (gl el : Nat → Block) (pv : Nat → Bool)
    (ffan : Nat → Nat) (buf : Nat → Table) (s : SState) (st : EState) : Prop where
  add : Additive el
  val : ∀ w < c.wireSize, st.val w = (s.sw w).toE
  lab : ∀ w < c.wireSize, OnSec (s.sw w) fun f _ => st.wires w = el f
  fan : ∀ g < c.gateSize, st.fan g = s.fan g
  tab : st.ts.tables = buf
  ind : st.ts.ind = (s.tabs.filter (fun g => decide (0 < ffan g))).length
  good : ∀ w, c.initSize ≤ w → w < c.gateLo + n → (∀ g, w = c.gateLo + g → 0 < ffan g) →
    OnSec (s.sw w) fun f _ => Good R gl el pv f

theorem selectTables_gids {c : Circuit} {fan fan' : Nat → Nat} {tabs : List Table} {l : List Nat}
    (h : tabs.map (fun T => T.gid.toNat) = l) (hl : ∀ g ∈ l, g < c.gateSize)
    (hf : ∀ g < c.gateSize, fan g = fan' g) :
    (selectTables fan tabs).map (fun T => T.gid.toNat) = l.filter (fun g => decide (0 < fan' g)) := by
  subst h
  unfold selectTables
  rw [List.filter_map]
  congr 1
  apply List.filter_congr
  intro T hT
  simp only [Function.comp]
  rw [hf _ (hl _ (List.mem_map_of_mem hT))]

/-- What the evaluator finds at its table index. -/
theorem buf_at {Tsel : List Table} {l0 l1 : List Nat} (h : Tsel.map (fun T => T.gid.toNat) = l0 ++ l1)
    (junk : Nat → Table) :
    (∀ g l, l1 = g :: l → ∃ T ∈ Tsel, receiveTables Tsel junk l0.length = T ∧ T.gid.toNat = g) ∧
    (l1 = [] → receiveTables Tsel junk l0.length = junk l0.length ∧ Tsel.length = l0.length) := by
  have hlen : Tsel.length = l0.length + l1.length := by
    have := congrArg List.length h; simpa using this
  constructor
  · intro g l e
    have hlt : l0.length < Tsel.length := by rw [hlen, e]; simp
    refine ⟨Tsel[l0.length], List.getElem_mem _, ?_, ?_⟩
    · unfold receiveTables; rw [dif_pos hlt]
    · have : (Tsel.map (fun T => T.gid.toNat))[l0.length]'(by simpa using hlt) = g := by
        simp only [h, e]
        rw [List.getElem_append_right (Nat.le_refl _)]
        simp
      simpa using this
  · intro e
    have : Tsel.length = l0.length := by rw [hlen, e]; simp
    refine ⟨?_, this⟩
    unfold receiveTables; rw [dif_neg (by omega)]

theorem fetch_onSec {c : Circuit} {hi : Nat} {w : Int} (h : Readable c hi w) (hhi : hi ≤ c.wireSize)
    {bad : SWire} (hbad : ∀ f i, bad ≠ .sec f i) {sw : Nat → SWire} {P : Nat → Bool → Prop}
    (hP : ∀ v, c.initSize ≤ v → v < hi → w = (v : Int) → OnSec (sw v) P) :
    OnSec (fetch c.wireSize (.pub false) (.pub true) bad sw w) P := by
  rcases fetch_readable h hhi (SWire.pub false) (.pub true) bad sw with ⟨h1, e⟩ | ⟨h1, h2, h3, e⟩
  · rw [e]
    split
    · trivial
    · split
      · trivial
      · cases bad with
        | sec f i => exact absurd rfl (hbad f i)
        | _ => trivial
  · rw [e]; exact hP _ h2 h3 (by omega)

/-- When all forms are good, accidents of the evaluator are accidents of the garbler. -/
theorem cmp_of_good {R : Block} {gl el : Nat → Block} {pv : Nat → Bool} {f f' : Nat} {j j' : Bool}
    (h : Good R gl el pv f) (h' : Good R gl el pv f')
    (nc : cmpBlock (gPair gl R f j).label0 (gPair gl R f' j').label0 = false
      ∧ cmpBlock (gPair gl R f j).label0 (gPair gl R f' j').label1 = false) : cmpBlock (el f) (el f') = false := by
  unfold Good at h h'
  rw [h, h']
  unfold gPair at nc
  simp only at nc
  generalize gl f = a at *
  generalize gl f' = b at *
  have key : ∀ p p', cmpBlock (a ^^^ scale p R) (b ^^^ scale p' R) = false := by
    intro p p'
    by_cases e : (p ^^ p') = (j ^^ j')
    · rw [← nc.1]
      apply cmpBlock_congr
      have : scale p R ^^^ scale p' R = scale j R ^^^ scale j' R := by rw [← scale_xor, ← scale_xor, e]
      calc a ^^^ scale p R ^^^ (b ^^^ scale p' R) = a ^^^ b ^^^ (scale p R ^^^ scale p' R) := by bxor
        _ = a ^^^ b ^^^ (scale j R ^^^ scale j' R) := by rw [this]
        _ = _ := by bxor
    · rw [← nc.2]
      apply cmpBlock_congr
      have : scale p R ^^^ scale p' R = scale j R ^^^ scale j' R ^^^ R := by
        revert e; cases p <;> cases p' <;> cases j <;> cases j' <;> simp
      calc a ^^^ scale p R ^^^ (b ^^^ scale p' R) = a ^^^ b ^^^ (scale p R ^^^ scale p' R) := by bxor
        _ = a ^^^ b ^^^ (scale j R ^^^ scale j' R ^^^ R) := by rw [this]
        _ = _ := by bxor
  exact key _ _

theorem evalLoop_sim {c : Circuit} (wf : WF c) {enc : Block → Block} {R : Block} (hR : getLSB R = true)
    {sf : Nat → Nat} {cid : Nat} {gl el0 : Nat → Block} {pv : Nat → Bool} {s0 : SState}
    {gE : GState} {tabsE : List Table} {st0 : EState} {x : Nat → Bool} {junk : Nat → Table}
    (hx : ∀ i < c.gateSize, x (c.gateLo + i) = truth (c.gate i).type
      (fetch c.wireSize false true false x (c.gate i).input0)
      (fetch c.wireSize false true false x (c.gate i).input1))
    (hinv : SInv c sf cid 0 s0)
    (hs0 : ∀ g < c.gateSize, ∀ f i, s0.sw (c.gateLo + g) ≠ .sec f i)
    (hG : GSim c enc R cid c.gateSize gl (forLoop (symStep c cid) c.gateSize s0) gE tabsE)
    (hP : PSim c pv c.wireSize (forLoop (symStep c cid) c.gateSize s0).sw x)
    (h0 : ESim c R 0 gl el0 pv (forLoop (symStep c cid) c.gateSize s0).fan
      (receiveTables (selectTables gE.fan tabsE) junk) s0 st0)
    (hjunk : ∀ i, (selectTables gE.fan tabsE).length ≤ i → c.gateSize ≤ (junk i).gid.toNat)
    (nc : NoCollisionE c (forLoop (symStep c cid) c.gateSize s0).sw
        (forLoop (evalStep c enc cid) c.gateSize st0).wires
      ∨ (AllNeeded c (forLoop (symStep c cid) c.gateSize s0)
        ∧ NoCollisionG c (forLoop (symStep c cid) c.gateSize s0).sw gE.wires))
    {n : Nat} (hn : n ≤ c.gateSize) :
    ∃ el, (∀ f < 2 ^ atomGate c cid 0, el f = el0 f) ∧
      ESim c R n gl el pv (forLoop (symStep c cid) c.gateSize s0).fan
        (receiveTables (selectTables gE.fan tabsE) junk)
        (forLoop (symStep c cid) n s0) (forLoop (evalStep c enc cid) n st0) := by
  have hws := wireSize_eq c
  have invE := symLoop_inv wf hinv (n := c.gateSize) (Nat.le_refl _)
  have hgids : (selectTables gE.fan tabsE).map (fun T => T.gid.toNat)
      = (forLoop (symStep c cid) c.gateSize s0).tabs.filter
        (fun g => decide (0 < (forLoop (symStep c cid) c.gateSize s0).fan g)) :=
    selectTables_gids hG.gids invE.tabLt hG.fan
  induction n with
  | zero => exact ⟨el0, fun _ _ => rfl, h0⟩
  | succ n ih =>
    obtain ⟨el, hel0, h⟩ := ih (by omega)
    have inv := symLoop_inv wf hinv (n := n) (by omega)
    have stS : ∀ m ≤ c.gateSize, ∀ w < c.gateLo + m, (forLoop (symStep c cid) c.gateSize s0).sw w
        = (forLoop (symStep c cid) m s0).sw w := fun m hm w hw =>
      forLoop_stable (symStep c cid) SState.sw c.gateLo (fun i s w => symStep_sw c cid i s) s0 hm hw
    have stW : ∀ w < c.gateLo + n, (forLoop (evalStep c enc cid) c.gateSize st0).wires w
        = (forLoop (evalStep c enc cid) n st0).wires w := fun w hw =>
      forLoop_stable (evalStep c enc cid) EState.wires c.gateLo
        (fun i s w => evalStep_wires c enc cid i s) st0 (by omega) hw
    have sI0 := symIn0_congr wf (show n < c.gateSize by omega) (stS n (by omega))
    have sI1 := symIn1_congr wf (show n < c.gateSize by omega) (stS n (by omega))
    have ncn : ∀ f i f' i', symIn0 c (forLoop (symStep c cid) n s0).sw (c.gate n) = .sec f i →
        symIn1 c (forLoop (symStep c cid) n s0).sw (c.gate n) = .sec f' i' → f ≠ f' →
        cmpBlock ((forLoop (evalStep c enc cid) n st0).wires (c.gate n).input0.toNat)
          ((forLoop (evalStep c enc cid) n st0).wires (c.gate n).input1.toNat) = false := by
      intro f i f' i' e e' hne
      obtain ⟨_, e2, e3⟩ := inLabel_readable (wf.in0 n (by omega)) (by omega) (by simp) e zeroBlock
        (forLoop (evalStep c enc cid) n st0).wires
      obtain ⟨_, e2', e3'⟩ := inLabel_readable (wf.in1 n (by omega)) (by omega)
        (bad1_ne_sec (c.gate n).type) e' zeroBlock (forLoop (evalStep c enc cid) n st0).wires
      rcases nc with nc | ⟨need, nc⟩
      · have := nc n (by omega) f i f' i' (sI0.trans e) (sI1.trans e') hne
        rwa [stW _ e3, stW _ e3'] at this
      · have ncg := nc n (by omega) f i f' i' (sI0.trans e) (sI1.trans e') hne
        have good : ∀ w < c.gateLo + n, c.initSize ≤ w → ∀ f i, (forLoop (symStep c cid) n s0).sw w = .sec f i →
            gE.wires w = gPair gl R f i ∧ (forLoop (evalStep c enc cid) n st0).wires w = el f
              ∧ Good R gl el pv f := by
          intro w hw hw0 f i ew
          have a1 := hG.lab w (by omega)
          rw [stS n (by omega) w hw, ew] at a1
          have a2 := h.lab w (by omega)
          rw [ew] at a2
          have a3 := h.good w hw0 hw (fun g hg => need g (by omega) f i (by
            rw [← hg, stS n (by omega) w hw]; exact ew))
          rw [ew] at a3
          exact ⟨a1, a2, a3⟩
        have i0 : c.initSize ≤ (c.gate n).input0.toNat := by
          rcases fetch_readable (wf.in0 n (by omega)) (by omega) (SWire.pub false) (.pub true) (.pub false)
            (forLoop (symStep c cid) n s0).sw with ⟨h1, q⟩ | ⟨_, h2, _, _⟩
          · unfold symIn0 at e
            rw [q] at e
            split at e
            · simp at e
            · split at e <;> simp at e
          · exact h2
        have i1 : c.initSize ≤ (c.gate n).input1.toNat := by
          unfold symIn1 at e'
          have hb := bad1_ne_sec (c.gate n).type
          revert e' hb
          generalize (if (c.gate n).type ≠ 12 then SWire.pub false else .hid) = bad
          intro e' hb
          rcases fetch_readable (wf.in1 n (by omega)) (by omega) (SWire.pub false) (.pub true) bad
            (forLoop (symStep c cid) n s0).sw with ⟨h1, q⟩ | ⟨_, h2, _, _⟩
          · rw [q] at e'
            split at e'
            · simp at e'
            · split at e'
              · simp at e'
              · exact absurd e' (hb _ _)
          · exact h2
        obtain ⟨a1, a2, a3⟩ := good _ e3 i0 f i e2
        obtain ⟨b1, b2, b3⟩ := good _ e3' i1 f' i' e2'
        rw [a1, b1] at ncg
        rw [a2, b2]
        exact cmp_of_good a3 b3 ncg
    have fle : (forLoop (symStep c cid) c.gateSize s0).fan n ≤ (forLoop (symStep c cid) n s0).fan n :=
      symLoop_fan_le c cid s0 (by omega) n
    obtain ⟨rest, hrest, hrest'⟩ := symLoop_tabs c cid s0 (show n + 1 ≤ c.gateSize from hn)
    have stN := stS (n + 1) hn (c.gateLo + n) (by omega)
    have stS := stS n (by omega)
    clear nc ih h0
    simp only [forLoop] at hrest stN ⊢
    generalize forLoop (symStep c cid) n s0 = s at *
    generalize forLoop (evalStep c enc cid) n st0 = st at *
    generalize forLoop (symStep c cid) c.gateSize s0 = sE at *
    have hv := h.val (c.gateLo + n) (by omega)
    have hf := h.fan n (by omega)
    unfold evalStep
    unfold symStep at hrest stN ⊢
    simp only [hv, hf, toE_isSecret, Bool.not_eq_true'] at hrest stN ⊢
    by_cases hp : 0 < s.fan n ∧ (s.sw (c.gateLo + n)).isPub = false
    · rw [if_pos hp] at hrest stN
      rw [if_pos hp, if_pos hp]
      simp only [upd_same] at stN hrest
      have ha := inv.in0 wf (by omega) (Nat.le_refl _) hp.1 hp.2
      have hb := inv.in1 wf (by omega) (Nat.le_refl _) hp.1 hp.2
      rw [inVal0_E h.val, inVal1_E h.val]
      have l0 : ∀ f i, symIn0 c s.sw (c.gate n) = .sec f i →
          inLabel c zeroBlock st.wires (c.gate n).input0 = st.wires (c.gate n).input0.toNat
          ∧ (c.gate n).input0.toNat < c.gateLo + n
          ∧ st.wires (c.gate n).input0.toNat = el f := by
        intro f i e
        obtain ⟨e1, e2, e3⟩ := inLabel_readable (wf.in0 n (by omega)) (by omega) (by simp) e zeroBlock st.wires
        have := h.lab _ (show (c.gate n).input0.toNat < c.wireSize by omega)
        rw [e2] at this
        exact ⟨e1, e3, this⟩
      have l1 : ∀ f i, symIn1 c s.sw (c.gate n) = .sec f i →
          inLabel c zeroBlock st.wires (c.gate n).input1 = st.wires (c.gate n).input1.toNat
          ∧ (c.gate n).input1.toNat < c.gateLo + n
          ∧ st.wires (c.gate n).input1.toNat = el f := by
        intro f i e
        obtain ⟨e1, e2, e3⟩ := inLabel_readable (wf.in1 n (by omega)) (by omega)
          (bad1_ne_sec (c.gate n).type) e zeroBlock st.wires
        have := h.lab _ (show (c.gate n).input1.toNat < c.wireSize by omega)
        rw [e2] at this
        exact ⟨e1, e3, this⟩
      have key := evalGate_sym (enc := enc) (cid := cid) (gid := n) (atom := atomGate c cid n)
        (wf.type n (by omega)) h.add ha hb (ts := st.ts)
        (l0 := inLabel c zeroBlock st.wires (c.gate n).input0)
        (l1 := inLabel c zeroBlock st.wires (c.gate n).input1)
        (fun f i e => by obtain ⟨e1, _, e3⟩ := l0 f i e; rw [e1, e3])
        (fun f i e => by obtain ⟨e1, _, e3⟩ := l1 f i e; rw [e1, e3])
        (fun f i f' i' e e' hne => by
          obtain ⟨e1, e2, _⟩ := l0 f i e
          obtain ⟨e1', e2', _⟩ := l1 f' i' e'
          rw [e1, e1']; exact ncn f i f' i' e e' hne)
      simp only at key
      obtain ⟨k1, k2, k3⟩ := key
      rw [k1]
      simp only [toE_isSecret]
      have hfan : ∀ g < c.gateSize,
          (if (!(symGate (atomGate c cid n) (c.gate n).type (symIn0 c s.sw (c.gate n)) (symIn1 c s.sw (c.gate n))).isPub) = true
            then st.fan
            else reduceInputs c n (symIn0 c s.sw (c.gate n)).toE (symIn1 c s.sw (c.gate n)).toE st.fan) g
          = (if (symGate (atomGate c cid n) (c.gate n).type (symIn0 c s.sw (c.gate n)) (symIn1 c s.sw (c.gate n))).isPub = true
            then symReduce c n (symIn0 c s.sw (c.gate n)) (symIn1 c s.sw (c.gate n)) s.fan else s.fan) g := by
        intro g hg
        rw [symReduce_toE]
        cases (symGate (atomGate c cid n) (c.gate n).type (symIn0 c s.sw (c.gate n)) (symIn1 c s.sw (c.gate n))).isPub
        · simp only [Bool.not_false, if_true, Bool.false_eq_true, if_false]
          exact h.fan g hg
        · simp only [Bool.not_true, if_true, Bool.false_eq_true, if_false]
          exact symReduce_congr wf (by omega) (Nat.le_refl _) h.fan g hg
      have hvalnew : ∀ w < c.wireSize, upd st.val (c.gateLo + n)
            (symGate (atomGate c cid n) (c.gate n).type (symIn0 c s.sw (c.gate n)) (symIn1 c s.sw (c.gate n))).toE w
          = (upd s.sw (c.gateLo + n)
            (symGate (atomGate c cid n) (c.gate n).type (symIn0 c s.sw (c.gate n)) (symIn1 c s.sw (c.gate n))) w).toE := by
        intro w hw
        by_cases e : w = c.gateLo + n
        · subst e; rw [upd_same, upd_same]
        · rw [upd_ne _ _ e, upd_ne _ _ e]; exact h.val w hw
      -- the inputs of a live secret gate are good
      have goodIn : 0 < sE.fan n → (sE.sw (c.gateLo + n)).isPub = false →
          ∀ v, c.initSize ≤ v → v < c.gateLo + n → ((c.gate n).input0 = (v : Int) ∨ (c.gate n).input1 = (v : Int)) →
            OnSec (s.sw v) fun f _ => Good R gl el pv f := by
        intro hfn hpn v hv1 hv2 hin
        by_cases hpv : (s.sw v).isPub = true
        · revert hpv
          cases s.sw v with
          | pub b => intro _; trivial
          | _ => simp [SWire.isPub]
        apply h.good v hv1 hv2
        intro g hg
        subst hg
        apply invE.fin.input_live (i := n) (by omega) (by simp [knownGates, hpn]) hfn (by omega) _ hin
        rw [knownGates, stS _ hv2]
        simp [hpv]
      have gIn0 : 0 < sE.fan n → (sE.sw (c.gateLo + n)).isPub = false →
          OnSec (symIn0 c s.sw (c.gate n)) fun f _ => Good R gl el pv f := fun a1 a2 =>
        fetch_onSec (wf.in0 n (by omega)) (by omega) (by simp)
          (fun v hv1 hv2 hv3 => goodIn a1 a2 v hv1 hv2 (Or.inl hv3))
      have gIn1 : 0 < sE.fan n → (sE.sw (c.gateLo + n)).isPub = false →
          OnSec (symIn1 c s.sw (c.gate n)) fun f _ => Good R gl el pv f := fun a1 a2 =>
        fetch_onSec (wf.in1 n (by omega)) (by omega) (bad1_ne_sec (c.gate n).type)
          (fun v hv1 hv2 hv3 => goodIn a1 a2 v hv1 hv2 (Or.inr hv3))
      cases htab : symTable (c.gate n).type (symIn0 c s.sw (c.gate n)) (symIn1 c s.sw (c.gate n))
      · obtain ⟨k4, k5⟩ := k2 htab
        refine ⟨el, hel0, h.add, hvalnew, ?_, hfan, ?_, ?_, ?_⟩
        · intro w hw
          simp only
          by_cases e : w = c.gateLo + n
          · subst e; rw [upd_same, upd_same]; exact k5
          · rw [upd_ne _ _ e, upd_ne _ _ e]; exact h.lab w hw
        · simp only [k4]; exact h.tab
        · simp only [k4]; simpa using h.ind
        · intro w hw1 hw2 hlive
          simp only
          by_cases e : w = c.gateLo + n
          · subst e; rw [upd_same]
            have hfn := hlive n rfl
            by_cases hpn : (sE.sw (c.gateLo + n)).isPub = true
            · rw [stN] at hpn
              revert hpn
              generalize symGate _ _ _ _ = o
              cases o with
              | pub b => intro _; trivial
              | _ => simp [SWire.isPub]
            · have hpn' : (sE.sw (c.gateLo + n)).isPub = false := by simpa using hpn
              exact symGate_onSec (fun f f' => Good.xor hG.add h.add hP.add) (wf.type n (by omega))
                (gIn0 hfn hpn') (gIn1 hfn hpn') htab
          · rw [upd_ne _ _ e]; exact h.good w hw1 (by omega) hlive
      · obtain ⟨ko, kt, km, kn⟩ := k3 htab
        rw [ko] at hvalnew hfan stN ⊢
        rw [htab] at hrest
        simp only [if_true] at hrest
        have hsplit : (selectTables gE.fan tabsE).map (fun T => T.gid.toNat)
            = s.tabs.filter (fun g => decide (0 < sE.fan g))
              ++ (n :: rest).filter (fun g => decide (0 < sE.fan g)) := by
          rw [hgids, hrest]; simp [List.filter_append]
        obtain ⟨b1, b2⟩ := buf_at hsplit junk
        rw [← h.ind] at b1 b2
        have hind : ∀ (q : Nat → Bool), ((s.tabs ++ [n]).filter q).length
            = (s.tabs.filter q).length + (if q n then 1 else 0) := by
          intro q; rw [List.filter_append, List.length_append]; cases hq : q n <;> simp [hq]
        by_cases hfn : 0 < sE.fan n
        · -- the table was sent
          obtain ⟨T, hT, hT1, hT2⟩ := b1 n _ (by rw [List.filter_cons_of_pos (by simpa using hfn)])
          have hbuf : st.ts.tables st.ts.ind = T := by rw [h.tab, hT1]
          rw [hbuf] at km
          obtain ⟨km1, km2⟩ := km hT2
          have hTE : T ∈ tabsE := (List.mem_filter.1 hT).1
          obtain ⟨g, hg, hgid, r0, r1, rw_, _, htt, f, i, f', i', q0, q1⟩ := hG.rows T hTE
          have hgn : g = n := by
            have h2 := wf.size
            rw [hgid, BitVec.toNat_ofNat, Nat.mod_eq_of_lt (by omega)] at hT2; omega
          subst hgn
          rw [sI0] at q0; rw [sI1] at q1
          refine ⟨extend el (atomGate c cid g) (evalHalfGates enc cid g
            (inLabel c zeroBlock st.wires (c.gate g).input0) (inLabel c zeroBlock st.wires (c.gate g).input1)
            T.row0 T.row1), ?_, h.add.extend _ _, hvalnew, ?_, hfan, ?_, ?_, ?_⟩
          · intro f hf
            rw [extend_old _ _ (Nat.lt_of_lt_of_le hf (Nat.pow_le_pow_right (by omega) (by unfold atomGate; omega)))]
            exact hel0 f hf
          · intro w hw
            simp only
            by_cases e : w = c.gateLo + g
            · subst e; rw [upd_same, upd_same, km2]; simp [extend_new]
            · rw [upd_ne _ _ e, upd_ne _ _ e]
              have := h.lab w hw
              have hb := inv.bound w
              revert this hb
              cases s.sw w with
              | sec f i =>
                intro this hb
                simp only [onSec_sec] at this ⊢
                rw [this, extend_old _ _ (hb f i rfl)]
              | _ => intro _ _; trivial
          · simp only [kt]; exact h.tab
          · simp only [km1]; simp [h.ind, hfn]
          · intro w hw1 hw2 hlive
            simp only
            by_cases e : w = c.gateLo + g
            · subst e; rw [upd_same]
              simp only [onSec_sec]
              unfold Good
              rw [extend_new]
              -- the garbler's side
              have hpn' : (sE.sw (c.gateLo + g)).isPub = false := by rw [stN]; rfl
              have G0 := gIn0 hfn hpn'
              have G1 := gIn1 hfn hpn'
              rw [q0] at G0; rw [q1] at G1
              simp only [onSec_sec] at G0 G1
              obtain ⟨a1, a2, a3⟩ := l0 f i q0
              obtain ⟨a1', a2', a3'⟩ := l1 f' i' q1
              have z0 : inLabel c zeroPair gE.wires (c.gate g).input0 = gPair gl R f i := by
                obtain ⟨e1, e2, e3⟩ := inLabel_readable (wf.in0 g (by omega)) (by omega) (by simp)
                  (sI0.trans q0) zeroPair gE.wires
                have := hG.lab _ (show (c.gate g).input0.toNat < c.wireSize by omega)
                rw [e2] at this
                rw [e1]; exact this
              have z1 : inLabel c zeroPair gE.wires (c.gate g).input1 = gPair gl R f' i' := by
                obtain ⟨e1, e2, e3⟩ := inLabel_readable (wf.in1 g (by omega)) (by omega)
                  (bad1_ne_sec (c.gate g).type) (sI1.trans q1) zeroPair gE.wires
                have := hG.lab _ (show (c.gate g).input1.toNat < c.wireSize by omega)
                rw [e2] at this
                rw [e1]; exact this
              rw [z0, z1] at r0 r1 rw_
              have o1 := hG.lab (c.gateLo + g) (by omega)
              have o2 := hP.sec (c.gateLo + g) (by have := layout c; omega) (by omega)
              rw [stN] at o1 o2
              simp only [onSec_sec] at o1 o2
              have x0 := (symIn0_plain hP (g := c.gate g)
                (by have := wf.in0 g (by omega); unfold Readable at *; omega) (Nat.le_refl _)).2 f i (sI0.trans q0)
              have x1 := (symIn1_plain hP (g := c.gate g)
                (by have := wf.in1 g (by omega); unfold Readable at *; omega) (Nat.le_refl _)).2 f' i' (sI1.trans q1)
              have cor := (evalHalfGates_correct enc R hR cid g htt (gl f ^^^ scale i R) (gl f' ^^^ scale i' R)
                (pv f ^^ i) (pv f' ^^ i')).1
              rw [a1, a1', a3, a3', r0, r1]
              unfold Good at G0 G1
              rw [G0, G1]
              have e0 : gl f ^^^ scale (pv f) R = gl f ^^^ scale i R ^^^ scale (pv f ^^ i) R := by
                rw [scale_xor]; bxor
              have e1 : gl f' ^^^ scale (pv f') R = gl f' ^^^ scale i' R ^^^ scale (pv f' ^^ i') R := by
                rw [scale_xor]; bxor
              rw [e0, e1]
              unfold gPair at rw_ ⊢
              rw [cor]
              rw [hx g (by omega), x0, x1] at o2
              have : pv (2 ^ atomGate c cid g) = truth (c.gate g).type (pv f ^^ i) (pv f' ^^ i') := by
                rw [o2]; simp
              rw [this]
              rw [rw_] at o1
              rw [o1]
              simp [gPair]
            · rw [upd_ne _ _ e]
              have := h.good w hw1 (by omega) hlive
              have hb := inv.bound w
              revert this hb
              cases s.sw w with
              | sec f i =>
                intro this hb
                simp only [onSec_sec] at this ⊢
                unfold Good at *
                rw [extend_old _ _ (hb f i rfl)]; exact this
              | _ => intro _ _; trivial
        · -- the table was not sent
          have hne : (st.ts.tables st.ts.ind).gid.toNat ≠ n := by
            rw [h.tab]
            rw [List.filter_cons_of_neg (by simpa using hfn)] at b1 b2
            cases hr : rest.filter (fun g => decide (0 < sE.fan g)) with
            | nil =>
              obtain ⟨b3, b4⟩ := b2 hr
              rw [b3]
              have := hjunk st.ts.ind (by omega)
              omega
            | cons g l =>
              obtain ⟨T, _, b3, b4⟩ := b1 g l hr
              rw [b3, b4]
              have hm : g ∈ rest := by
                have : g ∈ rest.filter (fun g => decide (0 < sE.fan g)) := by rw [hr]; simp
                exact (List.mem_filter.1 this).1
              have := hrest' g hm
              omega
          refine ⟨extend el (atomGate c cid n) (evalGate enc cid n (c.gate n).type
            (inLabel c zeroBlock st.wires (c.gate n).input0) (symIn0 c s.sw (c.gate n)).toE
            (inLabel c zeroBlock st.wires (c.gate n).input1) (symIn1 c s.sw (c.gate n)).toE st.ts).1,
            ?_, h.add.extend _ _, hvalnew, ?_, hfan, ?_, ?_, ?_⟩
          · intro f hf
            rw [extend_old _ _ (Nat.lt_of_lt_of_le hf (Nat.pow_le_pow_right (by omega) (by unfold atomGate; omega)))]
            exact hel0 f hf
          · intro w hw
            simp only
            by_cases e : w = c.gateLo + n
            · subst e; rw [upd_same, upd_same]; simp [extend_new]
            · rw [upd_ne _ _ e, upd_ne _ _ e]
              have := h.lab w hw
              have hb := inv.bound w
              revert this hb
              cases s.sw w with
              | sec f i =>
                intro this hb
                simp only [onSec_sec] at this ⊢
                rw [this, extend_old _ _ (hb f i rfl)]
              | _ => intro _ _; trivial
          · simp only [kt]; exact h.tab
          · simp only [kn hne, hind]; simp [h.ind, hfn]
          · intro w hw1 hw2 hlive
            simp only
            by_cases e : w = c.gateLo + n
            · exact absurd (hlive n e) hfn
            · rw [upd_ne _ _ e]
              have := h.good w hw1 (by omega) hlive
              have hb := inv.bound w
              revert this hb
              cases s.sw w with
              | sec f i =>
                intro this hb
                simp only [onSec_sec] at this ⊢
                unfold Good at *
                rw [extend_old _ _ (hb f i rfl)]; exact this
              | _ => intro _ _; trivial
    · rw [if_neg hp, if_neg hp]
      refine ⟨el, hel0, h.add, h.val, h.lab, h.fan, h.tab, h.ind, ?_⟩
      intro w hw1 hw2 hlive
      by_cases e : w = c.gateLo + n
      · subst e
        have := hlive n rfl
        by_cases hpn : (s.sw (c.gateLo + n)).isPub = true
        · revert hpn
          cases s.sw (c.gateLo + n) with
          | pub b => intro _; trivial
          | _ => simp [SWire.isPub]
        · exact absurd ⟨by omega, by simpa using hpn⟩ hp
      · exact h.good w hw1 (by omega) hlive

end TinyGarble
