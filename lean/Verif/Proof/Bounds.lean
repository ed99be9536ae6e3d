import Verif.Proof.Run

/-! Bounds on the table buffers, and facts about single steps. -/

namespace TinyGarble
open Spec

/-- Number of gates before `n` that are not XOR, XNOR or NOT. -/
def nonXorUpTo (c : Circuit) (n : Nat) : Nat :=
  forLoop (fun i n =>
    if (c.gate i).type ≠ XORGATE ∧ (c.gate i).type ≠ XNORGATE ∧ (c.gate i).type ≠ NOTGATE
    then n + 1 else n) n 0

theorem nonXorUpTo_succ (c : Circuit) (n : Nat) : nonXorUpTo c (n + 1) =
    if (c.gate n).type ≠ XORGATE ∧ (c.gate n).type ≠ XNORGATE ∧ (c.gate n).type ≠ NOTGATE
    then nonXorUpTo c n + 1 else nonXorUpTo c n := rfl

theorem nonXorUpTo_mono (c : Circuit) {m n : Nat} (h : m ≤ n) : nonXorUpTo c m ≤ nonXorUpTo c n := by
  induction n with
  | zero => rw [Nat.le_zero.mp h]; exact Nat.le_refl _
  | succ n ih =>
    by_cases e : m = n + 1
    · rw [e]; exact Nat.le_refl _
    · have := ih (by omega)
      rw [nonXorUpTo_succ]; split <;> omega

theorem garbleGate_table (enc : Block → Block) (R : Block) (cid gid : Nat) (t : Int)
    (l0 : BlockPair) (v0 : WVal) (l1 : BlockPair) (v1 : WVal) (h : (garbleGate enc R cid gid t l0 v0 l1 v1).2.2 ≠ none) :
    t ≠ XORGATE ∧ t ≠ XNORGATE ∧ t ≠ NOTGATE := by
  have key : t = XORGATE ∨ t = XNORGATE ∨ t = NOTGATE → (garbleGate enc R cid gid t l0 v0 l1 v1).2.2 = none := by
    intro ht
    cases v0 <;> cases v1 <;> try rfl
    unfold garbleGate
    simp only
    generalize cmpBlock l0.label0 l1.label0 = p
    generalize cmpBlock l0.label0 l1.label1 = q
    rcases ht with rfl | rfl | rfl <;> cases p <;> cases q <;>
      simp [XORGATE, XNORGATE, NOTGATE, ANDNGATE, NORNGATE, ORNGATE, NANDNGATE, ANDGATE, ORGATE, NANDGATE, NORGATE]
  refine ⟨?_, ?_, ?_⟩ <;> intro e <;> exact h (key (by simp [e]))

theorem garbleStep_tabs (c : Circuit) (enc : Block → Block) (R : Block) (cid i : Nat) (s : GState × List Table) :
    (garbleStep c enc R cid i s).2.length ≤ s.2.length + (nonXorUpTo c (i + 1) - nonXorUpTo c i) := by
  unfold garbleStep
  simp only
  split
  · simp only [List.length_append]
    rw [nonXorUpTo_succ]
    generalize hr : garbleGate enc R cid i (c.gate i).type _ _ _ _ = r
    have := garbleGate_table enc R cid i (c.gate i).type (inLabel c zeroPair s.1.wires (c.gate i).input0)
      (inVal0 c s.1.val (c.gate i)) (inLabel c zeroPair s.1.wires (c.gate i).input1) (inVal1 c s.1.val (c.gate i))
    rw [hr] at this
    cases hx : r.2.2 with
    | none => simp
    | some T => rw [if_pos (this (by simp [hx]))]; simp
  · omega

theorem garbleLoop_tabs (c : Circuit) (enc : Block → Block) (R : Block) (cid : Nat) (s : GState) (n : Nat) :
    (forLoop (garbleStep c enc R cid) n (s, [])).2.length ≤ nonXorUpTo c n := by
  induction n with
  | zero => exact Nat.le_refl 0
  | succ n ih =>
    have := garbleStep_tabs c enc R cid n (forLoop (garbleStep c enc R cid) n (s, []))
    have := nonXorUpTo_mono c (show n ≤ n + 1 by omega)
    simp only [forLoop]
    omega

theorem garbleCycle_tabs (mark : Bool) (c : Circuit) (enc : Block → Block) (R : Block) (sf : Nat → Nat) (cid : Nat)
    (x : GCycleIn) (st : GState) : (garbleCycle mark c enc R sf cid x st).2.length ≤ numOfNonXor c :=
  garbleLoop_tabs c enc R cid _ _

/-- One step of the evaluator on two buffers that agree up to `N`. -/
theorem evalGate_buf (enc : Block → Block) (cid gid : Nat) (t : Int) (l0 : Block) (v0 : WVal) (l1 : Block) (v1 : WVal)
    (ts : TabState) (buf : Nat → Table)
    (h : t ≠ XORGATE ∧ t ≠ XNORGATE ∧ t ≠ NOTGATE → ts.tables ts.ind = buf ts.ind) :
    evalGate enc cid gid t l0 v0 l1 v1 { ts with tables := buf } =
      ((evalGate enc cid gid t l0 v0 l1 v1 ts).1, (evalGate enc cid gid t l0 v0 l1 v1 ts).2.1,
        { (evalGate enc cid gid t l0 v0 l1 v1 ts).2.2 with tables := buf }) := by
  unfold evalGate
  simp only
  split
  · rfl
  · rfl
  · rfl
  · rename_i v0 v1
    by_cases c1 : t ≠ NOTGATE ∧ cmpBlock l0 l1 = true ∧ WVal.sec v0 = WVal.sec v1
    · simp only [if_pos c1]; repeat (first | rfl | split)
    · simp only [if_neg c1]
      by_cases c2 : t ≠ NOTGATE ∧ cmpBlock l0 l1 = true ∧ WVal.sec v0 ≠ WVal.sec v1
      · simp only [if_pos c2]; repeat (first | rfl | split)
      · simp only [if_neg c2]
        by_cases c3 : t = XORGATE
        · simp only [if_pos c3]
        · by_cases c4 : t = XNORGATE
          · simp only [if_neg c3, if_pos c4]
          · by_cases c5 : t = NOTGATE
            · simp only [if_neg c3, if_neg c4, if_pos c5]
            · simp only [if_neg c3, if_neg c4, if_neg c5]
              rw [h ⟨c3, c4, c5⟩]
              split <;> rfl

theorem evalGate_ind (enc : Block → Block) (cid gid : Nat) (t : Int) (l0 : Block) (v0 : WVal) (l1 : Block) (v1 : WVal)
    (ts : TabState) :
    (evalGate enc cid gid t l0 v0 l1 v1 ts).2.2.tables = ts.tables ∧
    ((evalGate enc cid gid t l0 v0 l1 v1 ts).2.2.ind = ts.ind ∨
      ((evalGate enc cid gid t l0 v0 l1 v1 ts).2.2.ind = ts.ind + 1 ∧ (ts.tables ts.ind).gid.toNat = gid ∧
        t ≠ XORGATE ∧ t ≠ XNORGATE ∧ t ≠ NOTGATE)) := by
  unfold evalGate
  simp only
  split
  · exact ⟨rfl, Or.inl rfl⟩
  · exact ⟨rfl, Or.inl rfl⟩
  · exact ⟨rfl, Or.inl rfl⟩
  · rename_i v0 v1
    by_cases c1 : t ≠ NOTGATE ∧ cmpBlock l0 l1 = true ∧ WVal.sec v0 = WVal.sec v1
    · simp only [if_pos c1]; repeat (first | exact ⟨rfl, Or.inl rfl⟩ | split)
    · simp only [if_neg c1]
      by_cases c2 : t ≠ NOTGATE ∧ cmpBlock l0 l1 = true ∧ WVal.sec v0 ≠ WVal.sec v1
      · simp only [if_pos c2]; repeat (first | exact ⟨rfl, Or.inl rfl⟩ | split)
      · simp only [if_neg c2]
        by_cases c3 : t = XORGATE
        · simp only [if_pos c3]; exact ⟨trivial, Or.inl trivial⟩
        · by_cases c4 : t = XNORGATE
          · simp only [if_neg c3, if_pos c4]; exact ⟨trivial, Or.inl trivial⟩
          · by_cases c5 : t = NOTGATE
            · simp only [if_neg c3, if_neg c4, if_pos c5]; exact ⟨trivial, Or.inl trivial⟩
            · simp only [if_neg c3, if_neg c4, if_neg c5]
              by_cases c6 : (ts.tables ts.ind).gid.toNat = gid
              · simp only [if_pos c6]
                exact ⟨trivial, Or.inr ⟨trivial, c6, c3, c4, c5⟩⟩
              · simp only [if_neg c6]
                exact ⟨trivial, Or.inl trivial⟩

theorem evalStep_ind (c : Circuit) (enc : Block → Block) (cid i : Nat) (st : EState) :
    (evalStep c enc cid i st).ts.tables = st.ts.tables ∧
    ((evalStep c enc cid i st).ts.ind = st.ts.ind ∨
      ((evalStep c enc cid i st).ts.ind = st.ts.ind + 1 ∧ (st.ts.tables st.ts.ind).gid.toNat = i ∧
        (c.gate i).type ≠ XORGATE ∧ (c.gate i).type ≠ XNORGATE ∧ (c.gate i).type ≠ NOTGATE)) := by
  unfold evalStep
  simp only
  split
  · exact evalGate_ind _ _ _ _ _ _ _ _ _
  · exact ⟨rfl, Or.inl rfl⟩

theorem evalLoop_ind (c : Circuit) (enc : Block → Block) (cid : Nat) (st : EState) (h0 : st.ts.ind = 0) (n : Nat) :
    (forLoop (evalStep c enc cid) n st).ts.tables = st.ts.tables ∧
    (forLoop (evalStep c enc cid) n st).ts.ind ≤ nonXorUpTo c n := by
  induction n with
  | zero => exact ⟨rfl, by simp only [forLoop, h0]; omega⟩
  | succ n ih =>
    simp only [forLoop]
    obtain ⟨h1, h2⟩ := evalStep_ind c enc cid n (forLoop (evalStep c enc cid) n st)
    refine ⟨h1.trans ih.1, ?_⟩
    rw [nonXorUpTo_succ]
    rcases h2 with h2 | ⟨h2, _, h3⟩
    · rw [h2]; split <;> omega
    · rw [h2, if_pos h3]; omega

/-- The same state with another table buffer. -/
def EState.withBuf (st : EState) (buf : Nat → Table) : EState := { st with ts := { st.ts with tables := buf } }

theorem evalLoop_buf (c : Circuit) (enc : Block → Block) (cid : Nat) (st : EState) (h0 : st.ts.ind = 0)
    (buf : Nat → Table) {N : Nat} (hb : ∀ i < N, st.ts.tables i = buf i) {n : Nat} (hN : nonXorUpTo c n ≤ N) :
    forLoop (evalStep c enc cid) n (st.withBuf buf) = (forLoop (evalStep c enc cid) n st).withBuf buf := by
  induction n with
  | zero => rfl
  | succ n ih =>
    have hm := nonXorUpTo_mono c (show n ≤ n + 1 by omega)
    simp only [forLoop]
    rw [ih (by omega)]
    obtain ⟨h1, h2⟩ := evalLoop_ind c enc cid st h0 n
    generalize forLoop (evalStep c enc cid) n st = s at *
    unfold evalStep EState.withBuf
    simp only
    split
    · rw [evalGate_buf]
      · intro ht
        rw [h1]
        apply hb
        rw [nonXorUpTo_succ, if_pos ht] at hN
        omega
    · rfl

/-! ### Low-memory and high-memory bodies agree -/

theorem garbleStep_val_low (c : Circuit) (enc : Block → Block) (R : Block) (cid i : Nat) (s : GState × List Table)
    {w : Nat} (h : w < c.gateLo) : (garbleStep c enc R cid i s).1.val w = s.1.val w := by
  unfold garbleStep
  simp only
  split
  · exact upd_ne _ _ (by omega)
  · rfl

theorem garbleLoop_val_low (c : Circuit) (enc : Block → Block) (R : Block) (cid n : Nat) (s : GState × List Table)
    {w : Nat} (h : w < c.gateLo) : (forLoop (garbleStep c enc R cid) n s).1.val w = s.1.val w := by
  induction n with
  | zero => rfl
  | succ n ih => simp only [forLoop]; rw [garbleStep_val_low _ _ _ _ _ _ h, ih]

theorem knownLoop_val_low (c : Circuit) (sf : Nat → Nat) (n : Nat) (s : (Nat → WVal) × (Nat → Nat))
    {w : Nat} (h : w < c.gateLo) : (forLoop (knownStep c sf) n s).1 w = s.1 w := by
  induction n with
  | zero => rfl
  | succ n ih =>
    simp only [forLoop]
    rw [← ih]
    generalize forLoop (knownStep c sf) n s = t
    unfold knownStep
    simp only
    split <;> exact upd_ne _ _ (by omega)

theorem garbleDff_val (c : Circuit) (p : Nat) (l : Nat → BlockPair) (cid : Nat) (st : GState) {w : Nat}
    (h : ¬ (c.dffLo ≤ w ∧ w < c.dffLo + c.dffSize)) : (garbleDff c p l cid st).val w = st.val w := by
  unfold garbleDff
  split <;> exact setRange_out _ _ h

/-- While the secret inputs are marked secret, marking them again changes nothing. -/
theorem garbleCycle_mark (c : Circuit) (enc : Block → Block) (R : Block) (sf : Nat → Nat) (cid : Nat)
    (x : GCycleIn) (st : GState) (h : ∀ k < c.secretInputSize, st.val (c.gInputLo + k) = .sec false) :
    garbleCycle true c enc R sf cid x st = garbleCycle false c enc R sf cid x st ∧
    ∀ k < c.secretInputSize, (garbleCycle false c enc R sf cid x st).1.val (c.gInputLo + k) = .sec false := by
  have hl := layout c
  have e : garbleInputs true c x.pInput x.inputLabels cid (garbleDff c x.pInit x.initLabels cid st)
      = garbleInputs false c x.pInput x.inputLabels cid (garbleDff c x.pInit x.initLabels cid st) := by
    unfold garbleInputs
    simp only [if_true, Bool.false_eq_true, if_false]
    congr 1
    funext w
    by_cases hw : c.gInputLo ≤ w ∧ w < c.gInputLo + c.secretInputSize
    · rw [setRange_in _ _ hw]
      unfold setPublicInputs
      rw [setRange_out _ _ (by omega), garbleDff_val _ _ _ _ _ (by omega)]
      have := h (w - c.gInputLo) (by omega)
      rw [show c.gInputLo + (w - c.gInputLo) = w by omega] at this
      exact this.symm
    · rw [setRange_out _ _ hw]
  refine ⟨?_, ?_⟩
  · unfold garbleCycle garblePrep
    simp only [e]
  · intro k hk
    unfold garbleCycle
    rw [garbleLoop_val_low _ _ _ _ _ _ (by omega)]
    unfold garblePrep knownPass
    simp only
    rw [knownLoop_val_low _ _ _ _ (by omega)]
    unfold garbleInputs
    simp only [Bool.false_eq_true, if_false]
    unfold setPublicInputs
    rw [setRange_out _ _ (by omega), garbleDff_val _ _ _ _ _ (by omega), h k hk]

theorem garbleRun_mark (c : Circuit) (enc : Block → Block) (R : Block) (sf : Nat → Nat) (gin : Nat → GCycleIn)
    (st0 : GState) (h : GFresh st0) (cid : Nat) :
    garbleRun true c enc R sf gin st0 cid = garbleRun false c enc R sf gin st0 cid ∧
    ∀ k < c.secretInputSize, (garbleRun false c enc R sf gin st0 cid).1.val (c.gInputLo + k) = .sec false := by
  induction cid with
  | zero => exact garbleCycle_mark c enc R sf 0 (gin 0) st0 (fun k _ => h _)
  | succ n ih =>
    have := garbleCycle_mark c enc R sf (n + 1) (gin (n + 1)) _ ih.2
    simp only [garbleRun]
    rw [ih.1]
    exact this

/-! ### Consequences of `Post` for all wires -/

/-- A gate wire that is not given up, or any other wire, represents its plain value. -/
theorem Post.represents_live {c : Circuit} {enc : Block → Block} {R : Block} {sf : Nat → Nat} {cid : Nat}
    {gl el : Nat → Block} {pv : Nat → Bool} {s : SState} {gst : GState} {tabs : List Table} {buf : Nat → Table}
    {est : EState} {x : Nat → Bool} (h : Post c enc R sf cid gl el pv s gst tabs buf est x) {w : Nat}
    (h1 : c.initSize ≤ w) (h2 : w < c.wireSize)
    (hu : ∀ g, w = c.gateLo + g → 0 < gst.fan g ∨ (gst.val w).isSecret = false) :
    Represents R (gst.wires w) (gst.val w) (est.wires w) (est.val w) (x w) := by
  have hws := wireSize_eq c
  have e1 := h.g.val w h2
  have e2 := h.g.lab w h2
  have e3 := h.e.val w h2
  have e4 := h.e.lab w h2
  have e5 := h.p.pub w h1 h2
  have e6 := h.p.sec w h1 h2
  by_cases hp : (s.sw w).isPub = true
  · revert hp e1 e3 e5
    cases s.sw w with
    | pub b =>
      intro e1 e3 e5 _
      rw [e1, e3]
      simp only [onPub_pub] at e5
      exact ⟨e5.symm, e5.symm⟩
    | _ => simp [SWire.isPub]
  · have hp' : (s.sw w).isPub = false := by simpa using hp
    have hsec : (gst.val w).isSecret = true := by
      rw [e1]; revert hp'; cases s.sw w <;> simp [SWire.isPub, SWire.toW, WVal.isSecret]
    have live : ∀ g, w = c.gateLo + g → 0 < s.fan g := by
      intro g hg
      rcases hu g hg with h' | h'
      · rw [← h.g.fan g (by omega)]; exact h'
      · rw [hsec] at h'; exact absurd h' (by decide)
    have hne : s.sw w ≠ .hid := by
      by_cases hg : w < c.gateLo
      · exact h.send.nh w h1 hg
      · obtain ⟨g, rfl⟩ : ∃ g, w = c.gateLo + g := ⟨_, (Nat.add_sub_cancel' (by omega)).symm⟩
        exact h.send.comp g (by omega) hp' (live g rfl)
    have hg := h.e.good w h1 (by omega) live
    revert hne hg e1 e2 e3 e4 e6 hp
    cases s.sw w with
    | hid => intros; contradiction
    | pub b => intros; rename_i hp _ _; exact absurd rfl hp
    | sec f i =>
      intro e1 e2 e3 e4 e6 _ _ hg
      rw [e1, e3]
      simp only [onSec_sec] at *
      refine ⟨by rw [e2]; simp only [gPair], ?_⟩
      rw [e4, e2, e6]
      unfold Good at hg
      rw [hg]
      unfold gPair
      cases pv f <;> cases i <;> simp [BitVec.xor_assoc]

/-- Gates that are given up. -/
theorem Post.skipped {c : Circuit} {enc : Block → Block} {R : Block} {sf : Nat → Nat} {cid : Nat}
    {gl el : Nat → Block} {pv : Nat → Bool} {s : SState} {gst : GState} {tabs : List Table} {buf : Nat → Table}
    {est : EState} {x : Nat → Bool} (h : Post c enc R sf cid gl el pv s gst tabs buf est x) {g : Nat}
    (hg : g < c.gateSize) (hz : gst.fan g = 0) (hs : (gst.val (c.gateLo + g)).isSecret = true) :
    extUses c g = 0 ∧ ∀ j < c.gateSize,
      ((c.gate j).input0 = ((c.gateLo + g : Nat) : Int) ∨ (c.gate j).input1 = ((c.gateLo + g : Nat) : Int)) →
      gst.fan j = 0 := by
  have hws := wireSize_eq c
  have hz' : s.fan g = 0 := by rw [← h.g.fan g hg]; exact hz
  have pubf : ∀ j < c.gateSize, (gst.val (c.gateLo + j)).isSecret = true → (s.sw (c.gateLo + j)).isPub = false := by
    intro j hj hh
    rw [h.g.val _ (by omega)] at hh
    revert hh
    cases s.sw (c.gateLo + j) <;> simp [SWire.isPub, SWire.toW, WVal.isSecret]
  have hk : knownGates c c.gateSize s.sw g = false := by simp [knownGates, pubf g hg hs]
  refine ⟨?_, ?_⟩
  · rcases Nat.eq_zero_or_pos (extUses c g) with e | e
    · exact e
    · have := h.send.fin.ext_live hg hk e; omega
  · intro j hj hin
    rcases Nat.eq_zero_or_pos (gst.fan j) with e | e
    · exact e
    · exfalso
      rw [h.g.fan j hj] at e
      by_cases hkj : knownGates c c.gateSize s.sw j = true
      · have := h.send.fin.known j hj hkj; omega
      · have := h.send.fin.input_live hj (by simpa using hkj) e hg hk hin
        omega

end TinyGarble
