import Verif.Proof.Clean

/-! The evaluator alone, over several clock cycles, with a given map from sets of fresh labels to the
evaluator's labels. -/

namespace TinyGarble
open Spec

/-- A gate that needs a table: rows from the buffer, or random rows. -/
theorem evalGate_table {enc : Block → Block} {cid gid : Nat} {t : Int} (ht : t ∈ tableTypes) {l0 l1 : Block}
    {i i' : Bool} {ts : TabState} (nc : cmpBlock l0 l1 = false) :
    evalGate enc cid gid t l0 (.sec i) l1 (.sec i') ts
      = if (ts.tables ts.ind).gid.toNat = gid then
          (evalHalfGates enc cid gid l0 l1 (ts.tables ts.ind).row0 (ts.tables ts.ind).row1, .sec false,
            { ts with ind := ts.ind + 1 })
        else (evalHalfGates enc cid gid l0 l1 (ts.rnd ts.rndPos) (ts.rnd (ts.rndPos + 1)), .sec false,
          { ts with rndPos := ts.rndPos + 2 }) := by
  have h6 : t ≠ XORGATE := by rintro rfl; revert ht; decide
  have h9 : t ≠ XNORGATE := by rintro rfl; revert ht; decide
  have h12 : t ≠ NOTGATE := by rintro rfl; revert ht; decide
  simp only [evalGate, nc, Bool.false_eq_true, false_and, and_false, if_false, h6, h9, h12]

/-- The number of superfluous gates with a table among the first `g` gates. -/
def dropped (s : SState) (g : Nat) : Nat := (s.tabs.filter fun h => decide (h < g) && !decide (0 < s.fan h)).length

/-- Relation of evaluator and symbolic state, after `n` gates; `sE` is the symbolic state at the end of the
cycle, `p0` the position of the random generator at the beginning. -/
structure EChk (c : Circuit) (n : Nat) (el : Nat → Block) (sE : SState) (buf : Nat → Table) (rnd : Nat → Block)
    (p0 : Nat) (s : SState) (st : EState) : Prop where
  val : ∀ w < c.wireSize, st.val w = (s.sw w).toE
  lab : ∀ w < c.wireSize, OnSec (s.sw w) fun f _ => st.wires w = el f
  fan : ∀ g < c.gateSize, st.fan g = s.fan g
  tab : st.ts.tables = buf
  ind : st.ts.ind = (s.tabs.filter (fun g => decide (0 < sE.fan g))).length
  rnd : st.ts.rnd = rnd
  pos : st.ts.rndPos = p0 + 2 * dropped sE n

/-- What the map has to satisfy at the gates of one cycle. -/
structure EFacts (c : Circuit) (enc : Block → Block) (cid : Nat) (el : Nat → Block) (sent : List Table)
    (rnd : Nat → Block) (p0 : Nat) (s : SState) : Prop where
  nc : ∀ i < c.gateSize, ∀ f j f' j', symIn0 c s.sw (c.gate i) = .sec f j → symIn1 c s.sw (c.gate i) = .sec f' j' →
    f ≠ f' → cmpBlock (el f) (el f') = false
  live : ∀ T ∈ sent, ∀ f j f' j', symIn0 c s.sw (c.gate T.gid.toNat) = .sec f j →
    symIn1 c s.sw (c.gate T.gid.toNat) = .sec f' j' →
    evalHalfGates enc cid T.gid.toNat (el f) (el f') T.row0 T.row1 = el (2 ^ atomGate c cid T.gid.toNat)
  dead : ∀ g ∈ s.tabs, s.fan g = 0 → ∀ f j f' j', symIn0 c s.sw (c.gate g) = .sec f j →
    symIn1 c s.sw (c.gate g) = .sec f' j' →
    evalHalfGates enc cid g (el f) (el f') (rnd (p0 + 2 * dropped s g)) (rnd (p0 + 2 * dropped s g + 1))
      = el (2 ^ atomGate c cid g)

theorem dropped_succ {s : SState} {n : Nat} (hs : s.tabs.Pairwise (· < ·)) :
    dropped s (n + 1) = dropped s n + (if n ∈ s.tabs ∧ s.fan n = 0 then 1 else 0) := by
  unfold dropped
  revert hs
  generalize s.tabs = l
  intro hs
  induction l with
  | nil => simp
  | cons a l ih =>
    rw [List.pairwise_cons] at hs
    have ih := ih hs.2
    have hno : a = n → n ∉ l := fun e hm => by have := hs.1 n hm; omega
    by_cases e : a = n
    · subst e
      have hl : ¬ (a ∈ l ∧ s.fan a = 0) := fun h => hno rfl h.1
      rw [if_neg hl] at ih
      rw [List.filter_cons, List.filter_cons]
      by_cases hf : s.fan a = 0
      · simp [hf] at ih ⊢
        exact ih
      · have : 0 < s.fan a := by omega
        simp [hf, this] at ih ⊢
        exact ih
    · have hm : (n ∈ a :: l ∧ s.fan n = 0) ↔ (n ∈ l ∧ s.fan n = 0) := by
        simp only [List.mem_cons]
        constructor
        · rintro ⟨h | h, h'⟩
          · exact absurd h.symm e
          · exact ⟨h, h'⟩
        · rintro ⟨h, h'⟩; exact ⟨.inr h, h'⟩
      have hd : decide (a < n + 1) = decide (a < n) := by
        rw [decide_eq_decide]; omega
      rw [List.filter_cons, List.filter_cons]
      simp only [hd]
      rw [show (if n ∈ a :: l ∧ s.fan n = 0 then 1 else 0) = (if n ∈ l ∧ s.fan n = 0 then 1 else 0) by
        simp only [hm]]
      split
      · simp only [List.length_cons, ih]; omega
      · exact ih

/-- One cycle with a given map. -/
theorem evalLoop_check {c : Circuit} (wf : WF c) {enc : Block → Block} {sf : Nat → Nat} {cid : Nat}
    {el : Nat → Block} (hel : Additive el) {s0 : SState} {st0 : EState} {sent : List Table} {junk : Nat → Table}
    {rnd : Nat → Block} {p0 : Nat} (hinv : SInv c sf cid 0 s0)
    (hgids : sent.map (fun T => T.gid.toNat) = (forLoop (symStep c cid) c.gateSize s0).sel)
    (hjunk : ∀ i, c.gateSize ≤ (junk i).gid.toNat)
    (F : EFacts c enc cid el sent rnd p0 (forLoop (symStep c cid) c.gateSize s0))
    (h0 : EChk c 0 el (forLoop (symStep c cid) c.gateSize s0) (receiveTables sent junk) rnd p0 s0 st0)
    {n : Nat} (hn : n ≤ c.gateSize) :
    EChk c n el (forLoop (symStep c cid) c.gateSize s0) (receiveTables sent junk) rnd p0
      (forLoop (symStep c cid) n s0) (forLoop (evalStep c enc cid) n st0) := by
  have hws := wireSize_eq c
  have invE := symLoop_inv wf hinv (n := c.gateSize) (Nat.le_refl _)
  induction n with
  | zero => exact h0
  | succ n ih =>
    have h := ih (by omega)
    have inv := symLoop_inv wf hinv (n := n) (by omega)
    have stS : ∀ w < c.gateLo + n, (forLoop (symStep c cid) c.gateSize s0).sw w
        = (forLoop (symStep c cid) n s0).sw w := fun w hw =>
      forLoop_stable (symStep c cid) SState.sw c.gateLo (fun i s w => symStep_sw c cid i s) s0 (by omega) hw
    have sI0 := symIn0_congr wf (show n < c.gateSize by omega) stS
    have sI1 := symIn1_congr wf (show n < c.gateSize by omega) stS
    obtain ⟨rest, hrest, hrest'⟩ := symLoop_tabs c cid s0 (show n + 1 ≤ c.gateSize from hn)
    have tl := inv.tabLt
    have dsucc := dropped_succ (n := n) invE.sorted
    clear ih h0
    simp only [forLoop] at hrest ⊢
    generalize forLoop (symStep c cid) n s0 = s at *
    generalize forLoop (evalStep c enc cid) n st0 = st at *
    generalize forLoop (symStep c cid) c.gateSize s0 = sE at *
    have ncn := F.nc n (by omega)
    rw [sI0, sI1] at ncn
    have hv := h.val (c.gateLo + n) (by omega)
    have hf := h.fan n (by omega)
    unfold evalStep
    unfold symStep at hrest ⊢
    simp only [hv, hf, toE_isSecret, Bool.not_eq_true'] at hrest ⊢
    have notab : ∀ l, sE.tabs = l ++ rest → n ∉ l → n ∉ sE.tabs := by
      intro l e hl hm
      rw [e] at hm
      rcases List.mem_append.1 hm with hm | hm
      · exact hl hm
      · have := hrest' n hm; omega
    have nt : n ∉ s.tabs := fun hm => by have := tl n hm; omega
    by_cases hp : 0 < s.fan n ∧ (s.sw (c.gateLo + n)).isPub = false
    · rw [if_pos hp] at hrest
      rw [if_pos hp, if_pos hp]
      simp only at hrest
      have ha := inv.in0 wf (by omega) (Nat.le_refl _) hp.1 hp.2
      have hb := inv.in1 wf (by omega) (Nat.le_refl _) hp.1 hp.2
      rw [inVal0_E h.val, inVal1_E h.val]
      have l0 : ∀ f i, symIn0 c s.sw (c.gate n) = .sec f i →
          inLabel c zeroBlock st.wires (c.gate n).input0 = el f := by
        intro f i e
        obtain ⟨e1, e2, e3⟩ := inLabel_readable (wf.in0 n (by omega)) (by omega) (by simp) e zeroBlock st.wires
        have := h.lab _ (show (c.gate n).input0.toNat < c.wireSize by omega)
        rw [e2] at this
        rw [e1]; exact this
      have l1 : ∀ f i, symIn1 c s.sw (c.gate n) = .sec f i →
          inLabel c zeroBlock st.wires (c.gate n).input1 = el f := by
        intro f i e
        obtain ⟨e1, e2, e3⟩ := inLabel_readable (wf.in1 n (by omega)) (by omega)
          (bad1_ne_sec (c.gate n).type) e zeroBlock st.wires
        have := h.lab _ (show (c.gate n).input1.toNat < c.wireSize by omega)
        rw [e2] at this
        rw [e1]; exact this
      have key := evalGate_sym (enc := enc) (cid := cid) (gid := n) (atom := atomGate c cid n)
        (wf.type n (by omega)) hel ha hb (ts := st.ts)
        (l0 := inLabel c zeroBlock st.wires (c.gate n).input0)
        (l1 := inLabel c zeroBlock st.wires (c.gate n).input1) l0 l1
        (fun f i f' i' e e' hne => by rw [l0 f i e, l1 f' i' e']; exact ncn f i f' i' e e' hne)
      simp only at key
      obtain ⟨k1, k2, k3⟩ := key
      rw [k1]
      simp only [toE_isSecret]
      have hfan : ∀ g < c.gateSize,
          (if (!(symGate (atomGate c cid n) (c.gate n).type (symIn0 c s.sw (c.gate n)) (symIn1 c s.sw (c.gate n))).isPub) = true
            then st.fan
            else reduceInputs c n (symIn0 c s.sw (c.gate n)).toE (symIn1 c s.sw (c.gate n)).toE st.fan) g
          = (if (symGate (atomGate c cid n) (c.gate n).type (symIn0 c s.sw (c.gate n)) (symIn1 c s.sw (c.gate n))).isPub = true
            then symReduce c n (symIn0 c s.sw (c.gate n)) (symIn1 c s.sw (c.gate n)) s.fan else s.fan) g := by
        intro g hg
        rw [symReduce_toE]
        cases (symGate (atomGate c cid n) (c.gate n).type (symIn0 c s.sw (c.gate n)) (symIn1 c s.sw (c.gate n))).isPub
        · simp only [Bool.not_false, if_true, Bool.false_eq_true, if_false]
          exact h.fan g hg
        · simp only [Bool.not_true, if_true, Bool.false_eq_true, if_false]
          exact symReduce_congr wf (by omega) (Nat.le_refl _) h.fan g hg
      have hvalnew : ∀ w < c.wireSize, upd st.val (c.gateLo + n)
            (symGate (atomGate c cid n) (c.gate n).type (symIn0 c s.sw (c.gate n)) (symIn1 c s.sw (c.gate n))).toE w
          = (upd s.sw (c.gateLo + n)
            (symGate (atomGate c cid n) (c.gate n).type (symIn0 c s.sw (c.gate n)) (symIn1 c s.sw (c.gate n))) w).toE := by
        intro w hw
        by_cases e : w = c.gateLo + n
        · subst e; rw [upd_same, upd_same]
        · rw [upd_ne _ _ e, upd_ne _ _ e]; exact h.val w hw
      have labnew : OnSec (symGate (atomGate c cid n) (c.gate n).type (symIn0 c s.sw (c.gate n)) (symIn1 c s.sw (c.gate n)))
            (fun f _ => (evalGate enc cid n (c.gate n).type (inLabel c zeroBlock st.wires (c.gate n).input0)
              (symIn0 c s.sw (c.gate n)).toE (inLabel c zeroBlock st.wires (c.gate n).input1)
              (symIn1 c s.sw (c.gate n)).toE st.ts).1 = el f) → ∀ w < c.wireSize,
          OnSec (upd s.sw (c.gateLo + n) (symGate (atomGate c cid n) (c.gate n).type (symIn0 c s.sw (c.gate n))
            (symIn1 c s.sw (c.gate n))) w) fun f _ =>
            upd st.wires (c.gateLo + n) (evalGate enc cid n (c.gate n).type (inLabel c zeroBlock st.wires (c.gate n).input0)
              (symIn0 c s.sw (c.gate n)).toE (inLabel c zeroBlock st.wires (c.gate n).input1)
              (symIn1 c s.sw (c.gate n)).toE st.ts).1 w = el f := by
        intro ho w hw
        by_cases e : w = c.gateLo + n
        · subst e; rw [upd_same, upd_same]; exact ho
        · rw [upd_ne _ _ e, upd_ne _ _ e]; exact h.lab w hw
      cases htab : symTable (c.gate n).type (symIn0 c s.sw (c.gate n)) (symIn1 c s.sw (c.gate n))
      · obtain ⟨k4, k5⟩ := k2 htab
        rw [htab] at hrest
        simp only [Bool.false_eq_true, if_false, List.append_nil] at hrest
        have hno := notab _ hrest nt
        rw [if_neg (fun x => hno x.1)] at dsucc
        refine ⟨hvalnew, labnew k5, hfan, ?_, ?_, ?_, ?_⟩
        · simp only [k4]; exact h.tab
        · simp only [k4]; simpa using h.ind
        · simp only [k4]; exact h.rnd
        · simp only [k4, dsucc]; exact h.pos
      · obtain ⟨ko, -, -, -⟩ := k3 htab
        obtain ⟨f, i, f', i', q0, q1, hne, htt⟩ := symTable_true htab
        have ncc := ncn f i f' i' q0 q1 hne
        rw [ko] at hvalnew hfan labnew ⊢
        simp only [onSec_sec] at labnew
        rw [htab] at hrest
        simp only [if_true] at hrest
        have hmem : n ∈ sE.tabs := by rw [hrest]; simp
        have hsplit : sent.map (fun T => T.gid.toNat)
            = s.tabs.filter (fun g => decide (0 < sE.fan g))
              ++ (n :: rest).filter (fun g => decide (0 < sE.fan g)) := by
          rw [hgids]; unfold SState.sel; rw [hrest]; simp [List.filter_append]
        obtain ⟨b1, b2⟩ := buf_at hsplit junk
        rw [← h.ind] at b1 b2
        have ev := evalGate_table (enc := enc) (cid := cid) (gid := n) htt (i := i) (i' := i') (ts := st.ts) ncc
        simp only [q0, q1, SWire.toE, l0 f i q0, l1 f' i' q1] at labnew hfan hvalnew ⊢
        by_cases hfn : 0 < sE.fan n
        · -- the table was sent
          obtain ⟨T, hT, hT1, hT2⟩ := b1 n _ (by rw [List.filter_cons_of_pos (by simpa using hfn)])
          have hbuf : st.ts.tables st.ts.ind = T := by rw [h.tab, hT1]
          rw [if_neg (fun x => by omega)] at dsucc
          rw [if_pos (by rw [hbuf, hT2]), hbuf] at ev
          rw [ev] at labnew ⊢
          have lv := F.live T hT f i f' i' (by rw [hT2, sI0, q0]) (by rw [hT2, sI1, q1])
          rw [hT2] at lv
          exact ⟨hvalnew, labnew lv, hfan, h.tab, by simp [h.ind, hfn, List.filter_append], h.rnd, by simp only [dsucc]; exact h.pos⟩
        · -- the table was not sent
          have hne : (st.ts.tables st.ts.ind).gid.toNat ≠ n := by
            rw [h.tab]
            rw [List.filter_cons_of_neg (by simpa using hfn)] at b1 b2
            cases hr : rest.filter (fun g => decide (0 < sE.fan g)) with
            | nil =>
              obtain ⟨b3, b4⟩ := b2 hr
              rw [b3]
              have := hjunk st.ts.ind
              omega
            | cons g l =>
              obtain ⟨T, _, b3, b4⟩ := b1 g l hr
              rw [b3, b4]
              have hm : g ∈ rest := by
                have : g ∈ rest.filter (fun g => decide (0 < sE.fan g)) := by rw [hr]; simp
                exact (List.mem_filter.1 this).1
              have := hrest' g hm
              omega
          have hf0 : sE.fan n = 0 := by omega
          rw [if_pos ⟨hmem, hf0⟩] at dsucc
          rw [if_neg hne] at ev
          rw [ev] at labnew ⊢
          have dd := F.dead n hmem hf0 f i f' i' (by rw [sI0, q0]) (by rw [sI1, q1])
          rw [← h.rnd, ← h.pos] at dd
          refine ⟨hvalnew, labnew dd, hfan, h.tab, by simp [h.ind, hfn, List.filter_append], h.rnd, ?_⟩
          simp only [dsucc, h.pos]; omega
    · rw [if_neg hp] at hrest
      rw [if_neg hp, if_neg hp]
      have hno := notab _ hrest nt
      rw [if_neg (fun x => hno x.1)] at dsucc
      exact ⟨h.val, h.lab, h.fan, h.tab, h.ind, h.rnd, by rw [dsucc]; exact h.pos⟩

/-- Relation between cycles, evaluator only; `cid` is the next one. -/
structure EPre (c : Circuit) (cid : Nat) (el : Nat → Block) (s : SState) (est : EState) : Prop where
  spre : SPre c cid s.sw
  zero : cid = 0 → ∀ w, s.sw w = .hid
  sin : ∀ k < c.secretInputSize, s.sw (c.gInputLo + k) = .hid ∨ ∃ f, s.sw (c.gInputLo + k) = .sec f false
  val : ∀ w < c.wireSize, est.val w = (s.sw w).toE
  lab : ∀ w < c.wireSize, OnSec (s.sw w) fun f _ => est.wires w = el f
  buf : ∀ i, c.gateSize ≤ (est.ts.tables i).gid.toNat

theorem dropped_zero (s : SState) : dropped s 0 = 0 := by simp [dropped]

/-- Before the secret-values loop. -/
theorem evalPrep_check {c : Circuit} (wf : WF c) {sf : Nat → Nat}
    (hsf : ∀ g < c.gateSize, sf g = totalFan c.gateSize (fun j => cnt c j g) + extUses c g)
    {pInit pInput : Nat} {ei : ECycleIn} (hpi : ei.pInit = pInit) (hpx : ei.pInput = pInput)
    {cid : Nat} {el : Nat → Block} {s : SState} {est : EState} (h : EPre c cid el s est)
    (eInit : cid = 0 → ∀ k < c.secretInitSize, ei.initLabels k = el (2 ^ k))
    (eIn : ∀ k < c.secretInputSize, ei.inputLabels k = el (2 ^ atomIn c cid k)) (sE : SState) (T : List Table) :
    EChk c 0 el sE (receiveTables T est.ts.tables) est.ts.rnd est.ts.rndPos (symPrep c sf pInit pInput cid s)
      (evalPrep c sf cid ei (est.receive T)) := by
  have hl := layout c
  have hws := wireSize_eq c
  obtain ⟨_, k2, k3, k4⟩ := knownLoop_inv wf hsf
    ⟨symInputs c pInput cid (symDff c pInit cid s.sw), s.fan, []⟩ (Nat.le_refl c.gateSize)
  have lE := prep_lab wf (pInit := pInit) (pInput := pInput) h.zero (fun f _ => el f)
    (fun f _ => el f) est.wires est.latch ei.initLabels ei.inputLabels h.spre.bound
    (fun h0 f hf i => rfl) h.lab eInit eIn
  have vE := prep_val (pInit := pInit) (pInput := pInput) (cid := cid) false SWire.toE (fun _ => rfl)
    (fun _ => rfl) rfl h.sin (latchVal := est.latchVal) h.val
  have hv : ∀ w < c.wireSize, (evalInputs c ei.pInput ei.inputLabels cid
      (evalDff c ei.pInit ei.initLabels cid (est.receive T))).val w
      = (symInputs c pInput cid (symDff c pInit cid s.sw) w).toE := by
    intro w hw
    rw [← vE w hw, hpi, hpx]
    unfold evalInputs evalDff EState.receive
    by_cases h0 : cid = 0
    · simp [if_pos h0]
    · simp [if_neg h0]
  have hk := knownLoop_sim wf sf SWire.toE (Or.inr rfl)
    (s0 := ⟨symInputs c pInput cid (symDff c pInit cid s.sw), s.fan, []⟩)
    (fan0 := (evalInputs c ei.pInput ei.inputLabels cid
      (evalDff c ei.pInit ei.initLabels cid (est.receive T))).fan) hv (Nat.le_refl _)
  have hts : (evalPrep c sf cid ei (est.receive T)).ts
      = { est.ts with tables := receiveTables T est.ts.tables, ind := 0 } := by
    unfold evalPrep evalInputs evalDff EState.receive
    by_cases h0 : cid = 0
    · simp only [if_pos h0]
    · simp only [if_neg h0]
  refine ⟨hk.1, ?_, hk.2, ?_, ?_, ?_, ?_⟩
  · intro w hw
    by_cases hg : w < c.gateLo
    · have e := k3 w (Or.inl hg)
      unfold symPrep
      rw [e]
      have := lE w hw
      have eW : (evalPrep c sf cid ei (est.receive T)).wires = setRange (if cid = 0 then
          setRange est.wires c.dffLo c.dffSize
            (fun i => dffInitLabel c ei.initLabels i (est.wires (c.dffLo + i)))
          else setRange est.wires c.dffLo c.dffSize
            (setRange est.latch 0 c.dffSize (fun i => dffLatchLabel c est.wires i (est.latch i))))
          c.gInputLo c.secretInputSize ei.inputLabels := by
        unfold evalPrep evalInputs evalDff EState.receive
        by_cases h0 : cid = 0
        · simp only [if_pos h0]
        · simp only [if_neg h0]
      rw [eW]
      exact this
    · obtain ⟨g, rfl⟩ : ∃ g, w = c.gateLo + g := ⟨_, (Nat.add_sub_cancel' (by omega)).symm⟩
      exact onSec_of_ne (k4 g (by omega)) _
  · rw [hts]
  · rw [hts]
    unfold symPrep
    rw [k2]; rfl
  · rw [hts]
  · rw [hts, dropped_zero]; rfl

/-- The position of the evaluator's random generator at the beginning of each cycle. -/
def dropPos (c : Circuit) (s : Nat → SState) (p0 : Nat) : Nat → Nat
  | 0 => p0
  | k + 1 => dropPos c s p0 k + 2 * dropped (s k) c.gateSize

/-- All cycles with a given map. -/
theorem evalRun_check {c : Circuit} (wf : WF c) {enc : Block → Block}
    {sf : Nat → Nat} (hsf : ∀ g < c.gateSize, sf g = totalFan c.gateSize (fun j => cnt c j g) + extUses c g)
    {pInit pInput : Nat} {ein : Nat → ECycleIn} (hp : ∀ cid, (ein cid).pInit = pInit ∧ (ein cid).pInput = pInput)
    {est0 : EState} (he : EFresh c est0) {n : Nat} {el : Nat → Block} (hel : Additive el)
    (hinit : ∀ k < c.secretInitSize, (ein 0).initLabels k = el (2 ^ k))
    (hinput : ∀ cid ≤ n, ∀ k < c.secretInputSize, (ein cid).inputLabels k = el (2 ^ atomIn c cid k))
    {sent : Nat → List Table}
    (hgids : ∀ k ≤ n, (sent k).map (fun T => T.gid.toNat) = (symRun c sf pInit pInput k).sel)
    (F : ∀ k ≤ n, EFacts c enc k el (sent k) est0.ts.rnd (dropPos c (symRun c sf pInit pInput) est0.ts.rndPos k)
      (symRun c sf pInit pInput k)) :
    ∀ k ≤ n, ∃ junk : Nat → Table, (∀ i, c.gateSize ≤ (junk i).gid.toNat) ∧
      EChk c c.gateSize el (symRun c sf pInit pInput k) (receiveTables (sent k) junk) est0.ts.rnd
        (dropPos c (symRun c sf pInit pInput) est0.ts.rndPos k) (symRun c sf pInit pInput k)
        (evalRun c enc sf ein sent est0 k) := by
  intro k
  induction k with
  | zero =>
    intro _
    have hpre : EPre c 0 el ⟨fun _ => .hid, fun _ => 0, []⟩ est0 :=
      ⟨spre_zero c, fun _ _ => rfl, fun _ _ => Or.inl rfl, fun w _ => he.1 w, fun _ _ => trivial, he.2⟩
    exact ⟨est0.ts.tables, he.2, evalLoop_check wf hel (symPrep_inv wf hsf hpre.spre) (hgids 0 (by omega)) he.2
      (F 0 (by omega))
      (evalPrep_check wf hsf (hp 0).1 (hp 0).2 hpre (fun _ => hinit) (hinput 0 (by omega)) _ _) (Nat.le_refl _)⟩
  | succ k ih =>
    intro hk
    obtain ⟨junk, hj, h⟩ := ih (by omega)
    have hbuf : ∀ i, c.gateSize ≤ ((evalRun c enc sf ein sent est0 k).clear.ts.tables i).gid.toNat := by
      intro i
      show c.gateSize ≤ (clearTables (evalRun c enc sf ein sent est0 k).ts.ind
        (evalRun c enc sf ein sent est0 k).ts.tables i).gid.toNat
      have hlen := congrArg List.length (hgids k (by omega))
      rw [List.length_map] at hlen
      rw [h.tab, h.ind]
      show c.gateSize ≤ (clearTables (symRun c sf pInit pInput k).sel.length _ i).gid.toNat
      rw [← hlen]
      exact clearTables_gid wf hj i
    have hpre : EPre c (k + 1) el (symRun c sf pInit pInput k) (evalRun c enc sf ein sent est0 k).clear :=
      ⟨SEnd.pre wf (symRun_inv wf hsf pInit pInput k), by omega,
        fun j hj => Or.inr ⟨_, symRun_sin wf hsf pInit pInput k hj⟩, h.val, h.lab, hbuf⟩
    have hr : (evalRun c enc sf ein sent est0 k).clear.ts.rnd = est0.ts.rnd := h.rnd
    have hpos : (evalRun c enc sf ein sent est0 k).clear.ts.rndPos
        = dropPos c (symRun c sf pInit pInput) est0.ts.rndPos (k + 1) := h.pos
    have P := evalPrep_check wf hsf (hp (k + 1)).1 (hp (k + 1)).2 hpre (fun h0 => absurd h0 (by omega))
      (hinput (k + 1) hk) (symRun c sf pInit pInput (k + 1)) (sent (k + 1))
    rw [hr, hpos] at P
    exact ⟨_, hbuf, evalLoop_check wf hel (symPrep_inv wf hsf hpre.spre) (hgids (k + 1) hk) hbuf (F (k + 1) hk) P
      (Nat.le_refl _)⟩

end TinyGarble
