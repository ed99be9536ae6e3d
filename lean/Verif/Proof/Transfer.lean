import Verif.Spec.Protocol
import Verif.Proof.OTExt
import Verif.Proof.Xor

/-!
# Transfer of labels, tables and outputs
-/

namespace TinyGarble.Proof
open TinyGarble Spec

theorem numBits_testBit {n i : Nat} (h : numBits n ≤ i) : n.testBit i = false := by
  apply Nat.testBit_lt_two_pow
  unfold numBits at h
  by_cases h0 : n = 0
  · subst h0; exact Nat.two_pow_pos _
  · rw [if_neg h0] at h
    exact Nat.lt_of_lt_of_le Nat.lt_log2_self (Nat.pow_le_pow_right (by decide) h)

theorem pick_eq (l : BlockPair) (n i : Nat) : pick l n i = chosen l (n.testBit i) := by
  unfold pick chosen
  by_cases h : n.testBit i = true
  · have : ¬ numBits n ≤ i := fun hh => by rw [numBits_testBit hh] at h; cases h
    simp [h, this]
  · simp at h; simp [h]

theorem dual_label (b : Block) : Dual (sendData (blockBytes b) 16) (recvData 16) () (blockBytes b) (blockBytes b) [] :=
  dual_data (blockBytes_length b) (by decide)

/-- Label memory after receiving. -/
theorem dual_labels (lab : Nat → BlockPair) (base n off size base' : Nat) (mem : Nat → Block) :
    Dual (sendLabels lab base n off size) (recvLabels base' size mem) ()
      (setRange mem base' size fun i => chosen (lab (base + i)) (n.testBit (off + i)))
      ((List.range size).flatMap fun i => blockBytes (chosen (lab (base + i)) (n.testBit (off + i)))) [] := by
  unfold sendLabels recvLabels
  have := dual_for (f := fun i (_ : Unit) => sendData (blockBytes (pick (lab (base + i)) n (off + i))) 16)
    (g := fun i mem => (recvData 16).bind fun l => .ret (upd mem (base' + i) (bytesBlock l)))
    (S := fun _ => ()) (T := fun k => setRange mem base' k fun i => chosen (lab (base + i)) (n.testBit (off + i)))
    (s := fun i => blockBytes (chosen (lab (base + i)) (n.testBit (off + i)))) (r := fun _ => []) size (by
      intro i _
      have := (dual_label (pick (lab (base + i)) n (off + i))).bind (f := .ret)
        (g := fun l => .ret (upd (setRange mem base' i fun i => chosen (lab (base + i)) (n.testBit (off + i)))
          (base' + i) (bytesBlock l))) .done
      rw [bind_ret, bytesBlock_blockBytes, pick_eq, List.append_nil] at this
      have e : upd (setRange mem base' i fun i => chosen (lab (base + i)) (n.testBit (off + i))) (base' + i)
          (chosen (lab (base + i)) (n.testBit (off + i)))
        = setRange mem base' (i + 1) fun i => chosen (lab (base + i)) (n.testBit (off + i)) := by
        funext w
        unfold upd setRange
        by_cases h : w = base' + i
        · subst h
          rw [if_pos rfl, if_pos (by omega), Nat.add_sub_cancel_left]
        · rw [if_neg h]
          by_cases h' : base' ≤ w ∧ w < base' + i
          · rw [if_pos h', if_pos (by omega)]
          · rw [if_neg h', if_neg (by omega)]
      rw [e, ← pick_eq] at this
      rw [← pick_eq]
      exact this)
  have e0 : (setRange mem base' 0 fun i => chosen (lab (base + i)) (n.testBit (off + i))) = mem := by
    funext w; unfold setRange; rw [if_neg (by omega)]
  rw [e0] at this
  have e1 : (List.range size).flatMap (fun _ => ([] : List Byte)) = [] := by simp
  rw [e1] at this
  exact this

/-! ## Tables -/

theorem tableMem_length (t : Table) (pad : Nat → Byte) : (tableMem t pad).length = 48 := by
  simp [tableMem, blockBytes_length, leBytes_length]

theorem tableOf_tableMem (t : Table) (pad : Nat → Byte) (l : List Byte) : tableOf (tableMem t pad ++ l) = t := by
  unfold tableOf tableMem
  have h1 := blockBytes_length t.row0
  have h2 := blockBytes_length t.row1
  have h3 := leBytes_length 4 t.gid.toNat
  simp only [List.append_assoc]
  rw [List.take_append_of_le_length (by omega), List.take_of_length_le (by omega), bytesBlock_blockBytes]
  rw [List.drop_append, List.drop_of_length_le (by omega), h1]
  simp only [List.nil_append, Nat.sub_self, List.drop_zero]
  rw [List.take_append_of_le_length (by omega), List.take_of_length_le (by omega), bytesBlock_blockBytes]
  rw [List.drop_append, List.drop_of_length_le (by omega), h1]
  simp only [List.nil_append]
  rw [List.drop_append, List.drop_of_length_le (by omega), h2]
  simp only [List.nil_append, show 32 - 16 - 16 = 0 by rfl, List.drop_zero]
  rw [List.take_append_of_le_length (by omega), List.take_of_length_le (by omega), leValue_leBytes,
    Nat.mod_eq_of_lt (by have := t.gid.isLt; omega)]
  simp

theorem tablesMem_cons (t : Table) (tabs : List Table) (pad : Nat → Nat → Byte) :
    tablesMem (t :: tabs) pad = tableMem t (pad 0) ++ tablesMem tabs (fun i => pad (i + 1)) := by
  unfold tablesMem
  rw [List.length_cons, List.range_succ_eq_map, List.flatMap_cons, List.flatMap_map]
  rfl

theorem tablesMem_length (tabs : List Table) (pad : Nat → Nat → Byte) :
    (tablesMem tabs pad).length = tabs.length * 48 := by
  induction tabs generalizing pad with
  | nil => rfl
  | cons t tabs ih => rw [tablesMem_cons, List.length_append, tableMem_length, ih, List.length_cons]; omega

theorem tablesOf_cons {l l' : List Byte} (h : l.length = 48) :
    tablesOf (l ++ l') = tableOf (l ++ l') :: tablesOf l' := by
  unfold tablesOf tableBytes
  have e : (l ++ l').length / 48 = l'.length / 48 + 1 := by rw [List.length_append]; omega
  rw [e, List.range_succ_eq_map, List.map_cons, List.map_map]
  congr 1
  apply List.map_congr_left
  intro i _
  show tableOf (List.drop ((i + 1) * 48) (l ++ l')) = _
  rw [List.drop_append, List.drop_of_length_le (by omega), List.nil_append, h]
  congr 2
  omega

theorem tablesOf_tablesMem (tabs : List Table) (pad : Nat → Nat → Byte) : tablesOf (tablesMem tabs pad) = tabs := by
  induction tabs generalizing pad with
  | nil => simp [tablesMem, tablesOf]
  | cons t tabs ih => rw [tablesMem_cons, tablesOf_cons (tableMem_length _ _), ih, tableOf_tableMem]

theorem dual_tables {c : Circuit} {tabs : List Table} (pad : Nat → Nat → Byte) (h : tabs.length ≤ numOfNonXor c)
    (hs : numOfNonXor c * 48 < 2 ^ 31) :
    Dual (sendTables tabs pad) (recvTables c) () (tabs.length, tabs)
      (leBytes 8 tabs.length ++ tablesMem tabs pad) [] := by
  unfold sendTables recvTables tableBytes
  have hv : leValue (leBytes 8 tabs.length) = tabs.length := by
    rw [leValue_leBytes, Nat.mod_eq_of_lt (by omega)]
  have h1 := dual_data (leBytes_length 8 tabs.length) (n := 8) (by decide)
  refine h1.bind ?_
  rw [hv, if_neg (by rw [toInt32_of_lt (by omega)]; omega)]
  have h2 := dual_data (l := tablesMem tabs pad) (n := tabs.length * 48) (tablesMem_length tabs pad) (by omega)
  have := h2.bind (f := .ret) (g := fun bytes => .ret (tabs.length, tablesOf bytes)) .done
  rw [bind_ret, tablesOf_tablesMem, List.append_nil] at this
  exact this

/-! ## Outputs -/

/-- Set some of the bits from `off` on. -/
def applyUpd (off n : Nat) (u : Nat → Option Bool) (out : Nat) : Nat :=
  forLoop (fun i out => match u i with | none => out | some b => bnSetBit out (off + i) b) n out

theorem applyUpd_testBit (off n : Nat) (u : Nat → Option Bool) (out j : Nat) :
    (applyUpd off n u out).testBit j
      = if off ≤ j ∧ j < off + n then (u (j - off)).getD (out.testBit j) else out.testBit j := by
  unfold applyUpd
  induction n with
  | zero => simp only [forLoop]; rw [if_neg (by omega)]
  | succ n ih =>
    simp only [forLoop]
    by_cases hj : j = off + n
    · subst hj
      rw [if_neg (by omega)] at ih
      rw [if_pos (by omega), Nat.add_sub_cancel_left]
      cases h : u n with
      | none => simpa using ih
      | some b => simp only [bnSetBit_testBit, if_pos, Option.getD_some]
    · have : ∀ x : Nat, (match u n with | none => x | some b => bnSetBit x (off + n) b).testBit j = x.testBit j := by
        intro x
        cases u n with
        | none => rfl
        | some b => simp only [bnSetBit_testBit, if_neg hj]
      rw [this, ih]
      by_cases h : off ≤ j ∧ j < off + n
      · rw [if_pos h, if_pos (by omega)]
      · rw [if_neg h, if_neg (by omega)]

/-- What the garbler does to its output bit for wire value `x`. -/
def gUpd (mask i : Nat) (secret x : Bool) : Option Bool :=
  if secret then some (mask.testBit i && x)
  else if x then (if mask.testBit i then some true else none) else some false

/-- What the evaluator does to its output bit for wire value `x`. -/
def eUpd (mask i : Nat) (secret x : Bool) : Option Bool :=
  if secret then some (!mask.testBit i && x)
  else if x then (if numBits mask ≤ i then some true else none) else some false

theorem shortIs_short (a b : Bool) : shortIs (shortBytes a) b = (a == b) := by
  cases a <;> cases b <;> decide

theorem shortBytes_length (b : Bool) : (shortBytes b).length = 2 := leBytes_length 2 _

theorem mask_cond (mask i : Nat) : (numBits mask ≤ i ∨ mask.testBit i = false) ↔ mask.testBit i = false := by
  constructor
  · rintro (h | h)
    · exact numBits_testBit h
    · exact h
  · exact Or.inr

theorem lsb_of_represents {R : Block} (hR : getLSB R = true) {gl : BlockPair} {el : Block} {x : Bool}
    (h1 : gl.label1 = gl.label0 ^^^ R) (h2 : el = if x then gl.label1 else gl.label0) :
    getLSB el = (getLSB gl.label0 != x) := by
  subst h2
  cases x
  · simp
  · simp only [if_true]
    rw [h1, getLSB_xor, hR]

theorem dual_outputStep {R : Block} (hR : getLSB R = true) (mask : Nat) {gl : Nat → BlockPair} {gv : Nat → WVal}
    {el : Nat → Block} {ev : Nat → WVal} {x : Nat → Bool} {i : Nat} (h : Represents R (gl i) (gv i) (el i) (ev i) (x i))
    (off go eo : Nat) :
    ∃ s r, Dual (garbleOutputStep mask gl gv off i go) (evalOutputStep mask el ev off i eo)
      (match gUpd mask i (gv i).isSecret (x i) with | none => go | some b => bnSetBit go (off + i) b)
      (match eUpd mask i (gv i).isSecret (x i) with | none => eo | some b => bnSetBit eo (off + i) b) s r := by
  unfold garbleOutputStep evalOutputStep gUpd eUpd
  unfold Represents at h
  cases hg : gv i with
  | pub a =>
    cases he : ev i with
    | sec j => rw [hg, he] at h; exact absurd h (by simp)
    | pub b =>
      rw [hg, he] at h
      obtain ⟨h1, h2⟩ : a = x i ∧ b = x i := by simpa using h
      subst h1; subst h2
      cases hx : x i with
      | false => exact ⟨_, _, .done⟩
      | true =>
        simp only [WVal.isSecret]
        have h1 : (i < numBits mask ∧ mask.testBit i = true) ↔ mask.testBit i = true := by
          constructor
          · exact And.right
          · intro h
            refine ⟨?_, h⟩
            rcases Nat.lt_or_ge i (numBits mask) with h' | h'
            · exact h'
            · rw [numBits_testBit h'] at h; cases h
        have h2 : (numBits mask ≤ i ∧ mask.testBit i = false) ↔ numBits mask ≤ i :=
          ⟨And.left, fun h => ⟨h, numBits_testBit h⟩⟩
        simp only [h1, h2]
        by_cases hm : mask.testBit i = true <;> by_cases hn : numBits mask ≤ i <;> simp only [hm, hn, if_true, if_false] <;>
          exact ⟨_, _, .done⟩
  | sec a =>
    cases he : ev i with
    | pub b => rw [hg, he] at h; exact absurd h (by simp)
    | sec b =>
      rw [hg, he] at h
      obtain ⟨h1, h2⟩ := h
      have hl := lsb_of_represents hR h1 h2
      simp only [WVal.isSecret, if_true, mask_cond]
      by_cases hm : mask.testBit i = false
      · simp only [if_pos hm, hm, Bool.false_and, Bool.not_false, Bool.true_and]
        have h1 := dual_data (shortBytes_length (getLSB (gl i).label0)) (by decide)
        refine ⟨_, _, h1.bind (s' := []) (r' := []) ?_⟩
        · simp only [shortIs_short, hl]
          have : (!(getLSB (gl i).label0 == (getLSB (gl i).label0 != x i))) = x i := by
            cases getLSB (gl i).label0 <;> cases x i <;> rfl
          rw [this]
          exact .done
      · simp only [if_neg hm]
        have hm' : mask.testBit i = true := by simpa using hm
        simp only [hm', Bool.true_and, Bool.not_true, Bool.false_and]
        have h1 := (dual_data (shortBytes_length (getLSB (el i))) (by decide)).symm
        refine ⟨_, _, h1.bind (s' := []) (r' := []) ?_⟩
        · simp only [shortIs_short, hl]
          have : (!((getLSB (gl i).label0 != x i) == getLSB (gl i).label0)) = x i := by
            cases getLSB (gl i).label0 <;> cases x i <;> rfl
          rw [this]
          exact .done

theorem runs_outputs {R : Block} (hR : getLSB R = true) (mask : Nat) {gl : Nat → BlockPair} {gv : Nat → WVal}
    {el : Nat → Block} {ev : Nat → WVal} {x : Nat → Bool} {n : Nat}
    (h : ∀ i < n, Represents R (gl i) (gv i) (el i) (ev i) (x i)) (off go eo : Nat) {cap : Nat} (hc : 0 < cap) :
    Runs cap (garbleOutputs mask gl gv off n go) (evalOutputs mask el ev off n eo)
      (applyUpd off n (fun i => gUpd mask i (gv i).isSecret (x i)) go)
      (applyUpd off n (fun i => eUpd mask i (gv i).isSecret (x i)) eo) := by
  unfold garbleOutputs evalOutputs
  have := runs_for (cap := cap) (f := garbleOutputStep mask gl gv off) (g := evalOutputStep mask el ev off)
    (S := fun k => applyUpd off k (fun i => gUpd mask i (gv i).isSecret (x i)) go)
    (T := fun k => applyUpd off k (fun i => eUpd mask i (gv i).isSecret (x i)) eo) n (by
      intro i hi
      obtain ⟨s, r, hd⟩ := dual_outputStep hR mask (h i hi) off
        (applyUpd off i (fun i => gUpd mask i (gv i).isSecret (x i)) go)
        (applyUpd off i (fun i => eUpd mask i (gv i).isSecret (x i)) eo)
      exact hd.runs hc)
  exact this

/-! ## Label transfers -/

theorem runs_anyOT {cap : Nat} (hcap : 16896 ≤ cap) (cr : Crypto) (m : Nat → Nat → Block) (sel : Nat → Bool) {len : Nat}
    (hl : len < 2 ^ 30) {co : OTSendCoins} (hco : CoinsOK co) (ce : ExtSendCoins) (rk : Nat → Nat) {er : ExtRecvCoins}
    (her : CoinsOK er.base) (hT : ∀ k, er.T k < 2 ^ 128) :
    ∃ r, Runs cap (garbleOT cr m len co ce) (evalOT cr sel len rk er) () r
      ∧ ∀ i < len, r i = m i (if sel i then 1 else 0) := by
  unfold garbleOT evalOT
  have hn : ¬ 2 ^ 32 ≤ len := by omega
  simp only [if_neg hn]
  by_cases h : 128 < len
  · rw [if_pos h, if_pos h]
    exact runs_extBlock her.valid her.N her.e her.x hl (fun i _ => hT i) (by omega)
  · rw [if_neg h, if_neg h]
    exact runs_otBlock hco.valid (by omega) hco.N hco.e hco.x sel rk (by omega) (by omega)

theorem get_chosen (p : BlockPair) (b : Bool) : p.get (if b then 1 else 0) = chosen p b := by
  cases b <;> rfl

/-- Conditions under which a label transfer works. -/
structure TransferOK (cap : Nat) (disableOT : Bool) (co : OTSendCoins) (er : ExtRecvCoins) : Prop where
  space : 0 < cap
  otCap : disableOT = false → 16896 ≤ cap
  base : disableOT = false → CoinsOK co
  extBase : disableOT = false → CoinsOK er.base
  extT : disableOT = false → ∀ k, er.T k < 2 ^ 128

theorem runs_transferLow {cap : Nat} {disableOT : Bool} {co : OTSendCoins} {er : ExtRecvCoins}
    (h : TransferOK cap disableOT co er) (cr : Crypto) {gSize eSize : Nat} (cid gNum : Nat) {eNum : Nat}
    (lab : Nat → BlockPair) (mem : Nat → Block) (he : eSize < 2 ^ 30) (hb : numBytes eNum < 2 ^ 31)
    (ce : ExtSendCoins) (rk : Nat → Nat) :
    ∃ mem', Runs cap (garbleTransferLow cr gSize eSize cid gNum lab disableOT co ce)
        (evalTransferLow cr gSize eSize cid eNum mem disableOT rk er) () mem'
      ∧ ∀ k < gSize + eSize, mem' k = chosen (lab k) (if k < gSize then gNum.testBit (cid * gSize + k)
          else eNum.testBit (cid * eSize + (k - gSize))) := by
  unfold garbleTransferLow evalTransferLow
  have h1 := (dual_labels lab 0 gNum (cid * gSize) gSize 0 mem).runs h.space
  have fin : ∀ mem' : Nat → Block,
      (∀ k, ¬ (gSize ≤ k ∧ k < gSize + eSize) → mem' k = setRange mem 0 gSize
        (fun i => chosen (lab (0 + i)) (gNum.testBit (cid * gSize + i))) k) →
      (∀ k, gSize ≤ k ∧ k < gSize + eSize → mem' k = chosen (lab k) (eNum.testBit (cid * eSize + (k - gSize)))) →
      ∀ k < gSize + eSize, mem' k = chosen (lab k) (if k < gSize then gNum.testBit (cid * gSize + k)
          else eNum.testBit (cid * eSize + (k - gSize))) := by
    intro mem' a b k hk
    by_cases hg : k < gSize
    · rw [if_pos hg, a k (by omega)]
      unfold setRange
      rw [if_pos (by omega)]; simp
    · rw [if_neg hg]; exact b k (by omega)
  cases hd : disableOT with
  | true =>
    have h2 := (dual_bn' hb).symm.runs h.space
    have h3 := (dual_labels lab gSize eNum (cid * eSize) eSize gSize (setRange mem 0 gSize
        (fun i => chosen (lab (0 + i)) (gNum.testBit (cid * gSize + i))))).runs h.space
    refine ⟨_, h1.bind (h2.bind h3), ?_⟩
    apply fin
    · intro k hk; rw [setRange, if_neg hk]
    · intro k hk; rw [setRange, if_pos hk, show gSize + (k - gSize) = k by omega]
  | false =>
    simp only [if_neg (show ¬ (false = true) by decide)]
    by_cases hz : eSize = 0
    · simp only [if_pos hz]
      refine ⟨_, h1.bind .ret, ?_⟩
      apply fin
      · intro k hk; rfl
      · intro k hk; omega
    · simp only [if_neg hz]
      obtain ⟨r, h2, h3⟩ := runs_anyOT (h.otCap hd) cr (fun i j => (lab (i + gSize)).get j)
        (fun i => eNum.testBit (cid * eSize + i)) he (h.base hd) ce rk (h.extBase hd) (h.extT hd)
      have h4 := h2.bind (f := .ret) (g := fun m => .ret (setRange (setRange mem 0 gSize
        (fun i => chosen (lab (0 + i)) (gNum.testBit (cid * gSize + i)))) gSize eSize m)) .ret
      rw [bind_ret] at h4
      refine ⟨_, h1.bind h4, ?_⟩
      apply fin
      · intro k hk; rw [setRange, if_neg hk]
      · intro k hk
        rw [setRange, if_pos hk, h3 _ (by omega), get_chosen, show k - gSize + gSize = k by omega]

/-- Loop over cycles that fills one stretch of each cycle's labels. -/
def fillCycles (sec off size : Nat) (f : Nat → Nat → Block) : Nat → (Nat → Block) → Nat → Block :=
  forLoop fun cid mem => setRange mem (cid * sec + off) size (f cid)

theorem fillCycles_get {sec off size : Nat} (h : off + size ≤ sec) (f : Nat → Nat → Block) (n : Nat) (mem : Nat → Block)
    {cid k : Nat} (hk : k < sec) :
    fillCycles sec off size f n mem (cid * sec + k)
      = if cid < n ∧ off ≤ k ∧ k < off + size then f cid (k - off) else mem (cid * sec + k) := by
  induction n with
  | zero => rw [if_neg (by omega)]; rfl
  | succ n ih =>
    show setRange (fillCycles sec off size f n mem) (n * sec + off) size (f n) _ = _
    unfold setRange
    by_cases hc : cid = n
    · subst hc
      by_cases hr : off ≤ k ∧ k < off + size
      · rw [if_pos (by omega), if_pos (by omega)]
        congr 1; omega
      · rw [if_neg (by omega), ih, if_neg (by omega), if_neg (by omega)]
    · have : ¬ (n * sec + off ≤ cid * sec + k ∧ cid * sec + k < n * sec + off + size) := by
        rcases Nat.lt_or_ge cid n with hlt | hge
        · have : (cid + 1) * sec ≤ n * sec := Nat.mul_le_mul_right _ hlt
          rw [Nat.succ_mul] at this; omega
        · have : (n + 1) * sec ≤ cid * sec := Nat.mul_le_mul_right _ (by omega)
          rw [Nat.succ_mul] at this; omega
      rw [if_neg this, ih]
      by_cases hr : cid < n ∧ off ≤ k ∧ k < off + size
      · rw [if_pos hr, if_pos (by omega)]
      · rw [if_neg hr, if_neg (by omega)]

theorem runs_cycleLabels {cap : Nat} (hc : 0 < cap) (lab : Nat → BlockPair) (num sec off size stride n : Nat) (mem : Nat → Block) :
    Runs cap (Proc.forP (fun cid _ => sendLabels lab (cid * sec + off) num (cid * stride) size) n ())
      (Proc.forP (fun cid mem => recvLabels (cid * sec + off) size mem) n mem) ()
      (fillCycles sec off size (fun cid i => chosen (lab (cid * sec + off + i)) (num.testBit (cid * stride + i))) n mem) := by
  exact runs_for (S := fun _ => ()) (T := fun k => fillCycles sec off size
    (fun cid i => chosen (lab (cid * sec + off + i)) (num.testBit (cid * stride + i))) k mem) n
    (fun i _ => (dual_labels lab (i * sec + off) num (i * stride) size (i * sec + off) _).runs hc)

theorem runs_transferHigh {cap : Nat} {co : OTSendCoins} {er : ExtRecvCoins} {c : Circuit} {A B : Args}
    (h : TransferOK cap A.disableOT co er) (hd : A.disableOT = B.disableOT) (hcy : A.cycles = B.cycles) (cr : Crypto)
    (initLab inputLab : Nat → BlockPair) (init0 input0 : Nat → Block)
    (he : c.eInit + A.cycles * c.eInput < 2 ^ 30) (hb : numBytes B.init < 2 ^ 31) (hb' : numBytes B.input < 2 ^ 31)
    (ce : ExtSendCoins) (rk : Nat → Nat) :
    ∃ mem, Runs cap (garbleTransferHigh cr c A initLab inputLab co ce) (evalTransferHigh cr c B init0 input0 rk er) () mem
      ∧ (∀ k < c.secretInitSize, mem.1 k = chosen (initLab k) (secretInitBit c (inputsOf A B) k))
      ∧ ∀ cid < A.cycles, ∀ k < c.secretInputSize, mem.2 (cid * c.secretInputSize + k)
          = chosen (inputLab (cid * c.secretInputSize + k)) (secretInputBit c (inputsOf A B) cid k) := by
  unfold garbleTransferHigh evalTransferHigh
  rw [← hd, ← hcy]
  have h1 := (dual_labels initLab 0 A.init 0 c.gInit 0 init0).runs h.space
  have h2 := runs_cycleLabels h.space inputLab A.input c.secretInputSize 0 c.gInput c.gInput A.cycles input0
  simp only [Nat.add_zero] at h2
  have hss : c.secretInputSize = c.gInput + c.eInput := rfl
  have hsi : c.secretInitSize = c.gInit + c.eInit := rfl
  -- closing lemma
  have finI : ∀ mem' : Nat → Block,
      (∀ k, ¬ (c.gInit ≤ k ∧ k < c.gInit + c.eInit) → mem' k = setRange init0 0 c.gInit
        (fun i => chosen (initLab (0 + i)) (A.init.testBit (0 + i))) k) →
      (∀ k, c.gInit ≤ k ∧ k < c.gInit + c.eInit → mem' k = chosen (initLab k) (B.init.testBit (k - c.gInit))) →
      ∀ k < c.secretInitSize, mem' k = chosen (initLab k) (secretInitBit c (inputsOf A B) k) := by
    intro mem' a b k hk
    unfold secretInitBit inputsOf
    by_cases hg : k < c.gInit
    · rw [if_pos hg, a k (by omega)]
      unfold setRange
      rw [if_pos (by omega)]; simp
    · rw [if_neg hg]; exact b k (by omega)
  have finP : ∀ mem' : Nat → Block, ∀ f : Nat → Nat → Block,
      mem' = fillCycles c.secretInputSize c.gInput c.eInput f A.cycles (fillCycles c.secretInputSize 0 c.gInput
        (fun cid i => chosen (inputLab (cid * c.secretInputSize + i)) (A.input.testBit (cid * c.gInput + i)))
        A.cycles input0) →
      (∀ cid < A.cycles, ∀ i < c.eInput, f cid i = chosen (inputLab (cid * c.secretInputSize + c.gInput + i))
        (B.input.testBit (cid * c.eInput + i))) →
      ∀ cid < A.cycles, ∀ k < c.secretInputSize, mem' (cid * c.secretInputSize + k)
          = chosen (inputLab (cid * c.secretInputSize + k)) (secretInputBit c (inputsOf A B) cid k) := by
    intro mem' f e hf cid hcid k hk
    subst e
    rw [fillCycles_get (by omega) _ _ _ hk]
    unfold secretInputBit inputsOf
    by_cases hg : k < c.gInput
    · rw [if_neg (by omega), fillCycles_get (by omega) _ _ _ hk, if_pos (by omega), if_pos hg]
      simp
    · rw [if_pos (by omega), if_neg hg, hf cid hcid _ (by omega)]
      congr 2; omega
  cases hdd : A.disableOT with
  | true =>
    have h3 := (dual_bn' hb).symm.runs h.space
    have h4 := (dual_labels initLab c.gInit B.init 0 c.eInit c.gInit (setRange init0 0 c.gInit
        (fun i => chosen (initLab (0 + i)) (A.init.testBit (0 + i))))).runs h.space
    have h5 := (dual_bn' hb').symm.runs h.space
    have h6 := runs_cycleLabels h.space inputLab B.input c.secretInputSize c.gInput c.eInput c.eInput A.cycles
      (fillCycles c.secretInputSize 0 c.gInput
        (fun cid i => chosen (inputLab (cid * c.secretInputSize + i)) (A.input.testBit (cid * c.gInput + i))) A.cycles input0)
    have h7 := h6.bind (f := .ret) (g := fun input => .ret (setRange (setRange init0 0 c.gInit
        (fun i => chosen (initLab (0 + i)) (A.init.testBit (0 + i)))) c.gInit c.eInit
        (fun i => chosen (initLab (c.gInit + i)) (B.init.testBit (0 + i))), input)) .ret
    rw [bind_ret] at h7
    refine ⟨_, h1.bind (h2.bind (h3.bind (h4.bind (h5.bind h7)))), ?_, ?_⟩
    · apply finI
      · intro k hk; simp only []; rw [setRange, if_neg hk]
      · intro k hk; simp only []; rw [setRange, if_pos hk, show c.gInit + (k - c.gInit) = k by omega, Nat.zero_add]
    · apply finP _ _ rfl
      intro cid _ i _; rfl
  | false =>
    simp only [if_neg (show ¬ (false = true) by decide)]
    obtain ⟨r, h3, h4⟩ := runs_anyOT (h.otCap hdd) cr (messageHigh c initLab inputLab)
      (selectHigh c B.init B.input) he (h.base hdd) ce rk (h.extBase hdd) (h.extT hdd)
    have h5 := h3.bind (f := .ret) (g := fun m => .ret (setRange (setRange init0 0 c.gInit
        (fun i => chosen (initLab (0 + i)) (A.init.testBit (0 + i)))) c.gInit c.eInit m,
      forLoop (fun cid mem => setRange mem (cid * c.secretInputSize + c.gInput) c.eInput
        (fun i => m (c.eInit + cid * c.eInput + i))) A.cycles (fillCycles c.secretInputSize 0 c.gInput
        (fun cid i => chosen (inputLab (cid * c.secretInputSize + i)) (A.input.testBit (cid * c.gInput + i))) A.cycles input0))) .ret
    rw [bind_ret] at h5
    refine ⟨_, h1.bind (h2.bind h5), ?_, ?_⟩
    · apply finI
      · intro k hk; simp only []; rw [setRange, if_neg hk]
      · intro k hk
        simp only []
        rw [setRange, if_pos hk, h4 _ (by omega)]
        unfold messageHigh selectHigh
        have hk' : k - c.gInit < c.eInit := by omega
        simp only [if_pos hk', get_chosen]
        rw [show k - c.gInit + c.gInit = k by omega]
    · apply finP _ (fun cid i => r (c.eInit + cid * c.eInput + i)) rfl
      intro cid hcid i hi
      have hlt : c.eInit + cid * c.eInput + i < c.eInit + A.cycles * c.eInput := by
        have : (cid + 1) * c.eInput ≤ A.cycles * c.eInput := Nat.mul_le_mul_right _ hcid
        rw [Nat.succ_mul] at this; omega
      rw [h4 _ hlt]
      unfold messageHigh selectHigh
      have e1 : c.eInit + cid * c.eInput + i - c.eInit = cid * c.eInput + i := by omega
      have e2 : (cid * c.eInput + i) / c.eInput = cid := by
        rw [Nat.mul_comm, Nat.mul_add_div (by omega), Nat.div_eq_of_lt hi]; rfl
      have e3 : (cid * c.eInput + i) % c.eInput = i := by
        rw [Nat.mul_comm, Nat.mul_add_mod, Nat.mod_eq_of_lt hi]
      have hk' : ¬ c.eInit + cid * c.eInput + i < c.eInit := by omega
      simp only [if_neg hk', e1, e2, e3, get_chosen]
      congr 2; omega

end TinyGarble.Proof
