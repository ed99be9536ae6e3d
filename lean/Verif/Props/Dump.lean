import Verif.Model.Dump
import Verif.Props.Run

/-!
# C97: the dumps of the two parties correspond

Both parties run the same session (`Verif.Spec.Run`); `gLines S key n` and `eLines S key n` are the
lines they write in `n` cycles, `file f` selects those of one file. The table files are equal; every
line of the evaluator's input file, and every line of its flip-flop file that belongs to a secret
initial value, is the garbler's line, offset by `R` (the first line of the garbler's key file) exactly
if the bit is 1; the same holds for secret outputs in high-memory mode. In low-memory mode the garbler
writes no outputs at all, and in the main program the two parties use the same names of files.
-/

namespace TinyGarble.Props
open TinyGarble Spec Dumps

/-- The garbler's lines. -/
def gLines (S : Session) (key : Block) (n : Nat) : List Line :=
  garbleLines S.lowMem S.c S.enc S.R key S.sfan S.gin S.gst0 n

/-- The evaluator's lines. -/
def eLines (S : Session) (key : Block) (n : Nat) : List Line :=
  evalLines S.c S.enc key S.sfan S.ein S.sent S.est0 n

/-- A label, or the one at distance `R` from it. -/
def shifted (R l : Block) (b : Bool) : Block := if b then l ^^^ R else l

theorem file_append (f : File) (a b : List Line) : file f (a ++ b) = file f a ++ file f b := by
  simp [file]

theorem file_flatMap {α : Type} (f : File) (l : List α) (g : α → List Line) :
    file f (l.flatMap g) = l.flatMap fun a => file f (g a) := by
  induction l with
  | nil => rfl
  | cons a l ih => rw [List.flatMap_cons, file_append, ih, List.flatMap_cons]

theorem file_map_same {α : Type} (f : File) (l : List α) (g : α → Block) :
    file f (l.map fun a => (f, g a)) = l.map g := by
  induction l with
  | nil => rfl
  | cons a l ih => simp [file] at ih ⊢; exact ih

theorem file_map_other {α : Type} {f f' : File} (h : f' ≠ f) (l : List α) (g : α → Block) :
    file f (l.map fun a => (f', g a)) = [] := by
  simp [file, List.filter_map, Function.comp_def, h]

theorem file_tables (f : File) (l : List Table) :
    file f (l.flatMap tableLines) = if f = .table then l.flatMap fun t => [t.row0, t.row1] else [] := by
  rw [file_flatMap]
  by_cases h : f = .table
  · subst h
    simp [file, tableLines]
  · rw [if_neg h, List.flatMap_eq_nil_iff]
    intro t _
    have : File.table ≠ f := fun e => h e.symm
    simp [file, tableLines, this]

/-! ## The evaluator's loop -/

theorem evalGateLines_eq (enc : Block → Block) (cid gid : Nat) (t : Int) (l0 : Block) (v0 : WVal) (l1 : Block)
    (v1 : WVal) (ts : TabState) : evalGateLines gid t l0 v0 l1 v1 ts =
      if (evalGate enc cid gid t l0 v0 l1 v1 ts).2.2.ind = ts.ind then [] else tableLines (ts.tables ts.ind) := by
  cases v0 <;> cases v1 <;> simp only [evalGateLines, evalGate, if_true]
  rename_i a b
  by_cases hn : t = NOTGATE
  · subst hn
    simp (config := { decide := true })
  · by_cases hc : cmpBlock l0 l1 = true
    · rw [if_pos (c := t ≠ NOTGATE ∧ cmpBlock l0 l1 = true) ⟨hn, hc⟩]
      by_cases hv : WVal.sec a = WVal.sec b
      · have e : (t ≠ NOTGATE ∧ cmpBlock l0 l1 = true ∧ WVal.sec a = WVal.sec b) := ⟨hn, hc, hv⟩
        simp only [if_pos e]
        rw [if_pos]
        repeat' split
        all_goals rfl
      · have e : ¬ (t ≠ NOTGATE ∧ cmpBlock l0 l1 = true ∧ WVal.sec a = WVal.sec b) := fun h => hv h.2.2
        have e' : (t ≠ NOTGATE ∧ cmpBlock l0 l1 = true ∧ WVal.sec a ≠ WVal.sec b) := ⟨hn, hc, hv⟩
        simp only [if_neg e, if_pos e']
        rw [if_pos]
        repeat' split
        all_goals rfl
    · have e0 : ¬ (t ≠ NOTGATE ∧ cmpBlock l0 l1 = true) := fun h => hc h.2
      have e : ¬ (t ≠ NOTGATE ∧ cmpBlock l0 l1 = true ∧ WVal.sec a = WVal.sec b) := fun h => hc h.2.1
      have e' : ¬ (t ≠ NOTGATE ∧ cmpBlock l0 l1 = true ∧ WVal.sec a ≠ WVal.sec b) := fun h => hc h.2.1
      simp only [if_neg e0, if_neg e, if_neg e']
      by_cases h1 : t = XORGATE
      · simp [h1]
      · by_cases h2 : t = XNORGATE
        · subst h2; simp (config := { decide := true })
        · have e3 : ¬ (t = XORGATE ∨ t = XNORGATE ∨ t = NOTGATE) := by simp [h1, h2, hn]
          simp only [if_neg e3, if_neg h1, if_neg h2, if_neg hn]
          by_cases hg : (ts.tables ts.ind).gid.toNat = gid
          · simp [hg]
          · simp [hg]

theorem evalLoopLines (c : Circuit) (enc : Block → Block) (cid : Nat) (st : EState) (h0 : st.ts.ind = 0) (n : Nat) :
    (forLoop (evalStepLines c enc cid) n (st, [])).1 = forLoop (evalStep c enc cid) n st
    ∧ (forLoop (evalStepLines c enc cid) n (st, [])).2 =
      ((List.range (forLoop (evalStep c enc cid) n st).ts.ind).map st.ts.tables).flatMap tableLines := by
  induction n with
  | zero => simp [forLoop, h0]
  | succ n ih =>
    simp only [forLoop]
    obtain ⟨ih1, ih2⟩ := ih
    have ht := (evalLoop_ind c enc cid st h0 n).1
    revert ht ih1 ih2
    generalize forLoop (evalStepLines c enc cid) n (st, []) = s
    generalize forLoop (evalStep c enc cid) n st = e
    intro ih1 ih2 ht
    refine ⟨by simp only [evalStepLines, ih1], ?_⟩
    simp only [evalStepLines, ih1, ih2]
    obtain ⟨_, h2⟩ := evalStep_ind c enc cid n e
    have key : (if 0 < e.fan n ∧ (e.val (c.gateLo + n)).isSecret = true then
        evalGateLines n (c.gate n).type (inLabel c zeroBlock e.wires (c.gate n).input0) (inVal0 c e.val (c.gate n))
          (inLabel c zeroBlock e.wires (c.gate n).input1) (inVal1 c e.val (c.gate n)) e.ts else [])
        = if (evalStep c enc cid n e).ts.ind = e.ts.ind then [] else tableLines (e.ts.tables e.ts.ind) := by
      unfold evalStep
      simp only
      by_cases h : 0 < e.fan n ∧ (e.val (c.gateLo + n)).isSecret = true
      · rw [if_pos h, if_pos h, evalGateLines_eq enc cid]
      · rw [if_neg h, if_neg h, if_pos rfl]
    rw [key]
    rcases h2 with h2 | ⟨h2, _⟩
    · rw [if_pos h2, h2, List.append_nil]
    · rw [if_neg (by omega), h2, List.range_succ, List.map_append, List.flatMap_append, ht]
      simp

/-- The state of the evaluator when the tables of a cycle have been received. -/
def eBefore (S : Session) : Nat → EState
  | 0 => S.est0.receive (S.sent 0)
  | k + 1 => (S.e k).clear.receive (S.sent (k + 1))

theorem e_eq (S : Session) (cid : Nat) : S.e cid = evalCycle S.c S.enc S.sfan cid (S.ein cid) (eBefore S cid) := by
  cases cid <;> rfl

/-- The state of the garbler before a cycle. -/
def gBefore (S : Session) : Nat → GState
  | 0 => S.gst0
  | k + 1 => S.g k

theorem gRun_eq (S : Session) (cid : Nat) : garbleRun S.lowMem S.c S.enc S.R S.sfan S.gin S.gst0 cid
    = garbleCycle S.lowMem S.c S.enc S.R S.sfan cid (S.gin cid) (gBefore S cid) := by
  cases cid <;> rfl

theorem gLines_eq (S : Session) (key : Block) (n : Nat) : gLines S key n = [(.rKey, S.R), (.rKey, key)] ++
    (List.range n).flatMap fun cid =>
      garbleCycleLines S.lowMem S.c S.enc S.R S.sfan cid (S.gin cid) (gBefore S cid) := by
  unfold gLines garbleLines
  congr 2

theorem eLines_eq (S : Session) (key : Block) (n : Nat) : eLines S key n = [(.rKey, key)] ++
    (List.range n).flatMap fun cid =>
      evalCycleLines S.c S.enc S.sfan cid (S.ein cid) (eBefore S cid) := by
  unfold eLines evalLines
  congr 2

theorem flatMap_range_congr {α : Type} {n : Nat} {f g : Nat → List α} (h : ∀ k < n, f k = g k) :
    (List.range n).flatMap f = (List.range n).flatMap g := by
  induction n with
  | zero => rfl
  | succ n ih =>
    rw [List.range_succ, List.flatMap_append, List.flatMap_append, ih (fun k hk => h k (by omega))]
    simp [h n (by omega)]

theorem length_rows {α : Type} (n m : Nat) (F : Nat → Nat → α) :
    ((List.range n).flatMap fun k => (List.range m).map (F k)).length = n * m := by
  induction n with
  | zero => simp
  | succ n ih => rw [List.range_succ, List.flatMap_append, List.length_append, ih, Nat.succ_mul]; simp

/-- The files of one cycle of the garbler. -/
theorem file_garbleCycle (S : Session) (cid : Nat) (f : File) :
    file f (garbleCycleLines S.lowMem S.c S.enc S.R S.sfan cid (S.gin cid) (gBefore S cid)) =
      match f with
      | .dff => if cid = 0 then (List.range S.c.dffSize).map fun i =>
          ((garbleDff S.c (S.gin cid).pInit (S.gin cid).initLabels cid (gBefore S cid)).wires (S.c.dffLo + i)).label0
        else []
      | .input => (List.range S.c.secretInputSize).map fun i => ((S.gin cid).inputLabels i).label0
      | .table => (S.sent cid).flatMap fun t => [t.row0, t.row1]
      | .output => if S.lowMem then [] else (List.range S.c.outputSize).map fun i =>
          ((S.g cid).wires (S.c.outputs i).toNat).label0
      | .rKey => [] := by
  have e1 : (garbleCycle S.lowMem S.c S.enc S.R S.sfan cid (S.gin cid) (gBefore S cid)).1 = S.g cid := by
    rw [← gRun_eq]; rfl
  have e2 : selectTables (garbleCycle S.lowMem S.c S.enc S.R S.sfan cid (S.gin cid) (gBefore S cid)).1.fan
      (garbleCycle S.lowMem S.c S.enc S.R S.sfan cid (S.gin cid) (gBefore S cid)).2 = S.sent cid := by
    rw [← gRun_eq]; rfl
  rw [e1] at e2
  unfold garbleCycleLines
  simp only [file_append, file_tables, e1, e2]
  have hnil : file f ([] : List Line) = [] := rfl
  cases f <;> by_cases hc : cid = 0 <;> cases S.lowMem <;>
    simp [hc, file_map_same, file_map_other, hnil]

/-- The files of one cycle of the evaluator. -/
theorem file_evalCycle {S : Session} (ok : S.OK) {cid : Nat} (na : S.NoAccident cid) (f : File) :
    file f (evalCycleLines S.c S.enc S.sfan cid (S.ein cid) (eBefore S cid)) =
      match f with
      | .dff => if cid = 0 then (List.range S.c.dffSize).map fun i =>
          (evalDff S.c (S.ein cid).pInit (S.ein cid).initLabels cid (eBefore S cid)).wires (S.c.dffLo + i)
        else []
      | .input => (List.range S.c.secretInputSize).map fun i => (S.ein cid).inputLabels i
      | .table => (S.sent cid).flatMap fun t => [t.row0, t.row1]
      | .output => (List.range S.c.outputSize).map fun i => (S.e cid).wires (S.c.outputs i).toNat
      | .rKey => [] := by
  have h0 : (evalPrep S.c S.sfan cid (S.ein cid) (eBefore S cid)).ts.ind = 0 := rfl
  obtain ⟨h1, h2⟩ := evalLoopLines S.c S.enc cid _ h0 S.c.gateSize
  have e1 : forLoop (evalStep S.c S.enc cid) S.c.gateSize (evalPrep S.c S.sfan cid (S.ein cid) (eBefore S cid))
      = S.e cid := (e_eq S cid).symm
  have e2 : (List.range (S.sent cid).length).map
      (evalPrep S.c S.sfan cid (S.ein cid) (eBefore S cid)).ts.tables = S.sent cid := by
    have ht : (evalPrep S.c S.sfan cid (S.ein cid) (eBefore S cid)).ts.tables = (eBefore S cid).ts.tables := by
      unfold evalPrep evalInputs evalDff
      by_cases h : cid = 0 <;> simp [h]
    rw [ht]
    apply List.ext_getElem (by simp)
    intro i hi1 hi2
    have hr : ∃ b, (eBefore S cid).ts.tables = receiveTables (S.sent cid) b := by
      cases cid
      · exact ⟨_, rfl⟩
      · exact ⟨_, rfl⟩
    obtain ⟨b, hb⟩ := hr
    simp [hb, receiveTables, hi2]
  rw [e1] at h1 h2
  rw [C07_sent_eq_consumed ok na, e2] at h2
  unfold evalCycleLines
  simp only [file_append, h1, h2, file_tables]
  have hnil : file f ([] : List Line) = [] := rfl
  cases f <;> by_cases hc : cid = 0 <;>
    simp [hc, file_map_same, file_map_other, hnil]

theorem NoAccident.mono {S : Session} {a b : Nat} (h : S.NoAccident b) (hab : a ≤ b) : S.NoAccident a :=
  fun k hk => h k (by omega)

/-! ## An example: the serial adder of `exCircuit` with the first carry from the garbler, high-memory mode -/

def carryCircuit : Circuit :=
  { exCircuit with
    gInit := 1
    gate := fun i => match i with
      | 0 => ⟨1, 2, 6⟩
      | 1 => ⟨4, 3, 6⟩
      | 2 => ⟨1, 2, 8⟩
      | 3 => ⟨4, 3, 8⟩
      | _ => ⟨6, 7, 14⟩
    outputs := fun _ => 5
    D := fun _ => 8
    I := fun _ => 0 }

/-- 5 + 7 with carry 1. -/
def carryX : Inputs := { exX with gInit := 1 }

def exCarry : Session :=
  { exS with
    c := carryCircuit
    x := carryX
    lowMem := false
    ein := fun cid => ⟨0, 0, fun _ => (exPair 77).label1, fun i =>
      if secretInputBit carryCircuit carryX cid i then (exPair (3 + 2 * cid + i)).label1
      else (exPair (3 + 2 * cid + i)).label0⟩ }

theorem exCarry_ok : exCarry.OK where
  wf :=
    { in0 := by
        intro i hi
        have : i < 5 := hi
        rcases i with _ | _ | _ | _ | _ | i <;> first | omega | (right; constructor <;> decide)
      in1 := by
        intro i hi
        have : i < 5 := hi
        rcases i with _ | _ | _ | _ | _ | i <;> first | omega | (right; constructor <;> decide)
      type := by
        intro i hi
        have : i < 5 := hi
        rcases i with _ | _ | _ | _ | _ | i <;> first | omega | decide
      D := fun _ _ => Or.inr (show (1 : Int) ≤ 8 ∧ (8 : Int) < 9 by decide)
      outputs := fun _ _ => show (1 : Int) ≤ 5 ∧ (5 : Int) < 9 by decide
      term := Or.inl rfl
      size := by decide }
  odd := by decide
  labels :=
    { gPub := fun _ => ⟨rfl, rfl⟩
      ePub := fun _ => ⟨rfl, rfl⟩
      init := fun _ _ _ => rfl
      input := fun _ _ _ => rfl
      eInit := by
        intro cid k hk
        have : k < 1 := hk
        obtain rfl : k = 0 := by omega
        rfl
      eInput := fun _ _ _ => rfl }
  gFresh := fun _ => rfl
  eFresh := ⟨fun _ => rfl, fun _ => by show 5 ≤ (BitVec.allOnes 32).toNat; decide⟩

theorem exCarry_noAccident : exCarry.NoAccident 2 := by
  intro k hk
  have : k = 0 ∨ k = 1 ∨ k = 2 := by omega
  rcases this with rfl | rfl | rfl <;>
    exact ⟨checkG_sound (by decide +kernel), checkE_sound (by decide +kernel)⟩

/-! ## C97 -/

/-- C97, tables: both parties write the same lines, and therefore the same text, and these are the
rows of the tables sent. -/
theorem C97_tables {S : Session} (ok : S.OK) {cid : Nat} (na : S.NoAccident cid) (key : Block) :
    file .table (eLines S key (cid + 1)) = file .table (gLines S key (cid + 1))
    ∧ text (file .table (eLines S key (cid + 1))) = text (file .table (gLines S key (cid + 1)))
    ∧ file .table (gLines S key (cid + 1))
      = (List.range (cid + 1)).flatMap fun k => (S.sent k).flatMap fun t => [t.row0, t.row1] := by
  have hg : file .table (gLines S key (cid + 1))
      = (List.range (cid + 1)).flatMap fun k => (S.sent k).flatMap fun t => [t.row0, t.row1] := by
    rw [gLines_eq, file_append, file_flatMap]
    simp only [file_garbleCycle]
    rfl
  have he : file .table (eLines S key (cid + 1))
      = (List.range (cid + 1)).flatMap fun k => (S.sent k).flatMap fun t => [t.row0, t.row1] := by
    rw [eLines_eq, file_append, file_flatMap]
    rw [flatMap_range_congr (fun k hk => file_evalCycle ok (NoAccident.mono na (by omega : k ≤ cid)) .table)]
    rfl
  exact ⟨he.trans hg.symm, by rw [he, hg], hg⟩

example : exS.OK ∧ exS.NoAccident 2 ∧ (file .table (gLines exS 9#128 3)).length = 14 :=
  ⟨exS_ok, exS_noAccident, by decide +kernel⟩
example : exCarry.OK ∧ exCarry.NoAccident 2 ∧ (file .table (gLines exCarry 9#128 3)).length = 18 :=
  ⟨exCarry_ok, exCarry_noAccident, by decide +kernel⟩

/-- C97, inputs: the evaluator's file is the garbler's with the lines of the bits that are 1 shifted
by the offset. -/
theorem C97_inputs {S : Session} (ok : S.OK) {cid : Nat} (na : S.NoAccident cid) (key : Block) :
    file .input (eLines S key (cid + 1)) = List.zipWith (shifted S.R) (file .input (gLines S key (cid + 1)))
      ((List.range (cid + 1)).flatMap fun k => (List.range S.c.secretInputSize).map (secretInputBit S.c S.x k))
    ∧ (file .input (eLines S key (cid + 1))).length = (file .input (gLines S key (cid + 1))).length := by
  have hg : file .input (gLines S key (cid + 1)) = (List.range (cid + 1)).flatMap fun k =>
      (List.range S.c.secretInputSize).map fun i => ((S.gin k).inputLabels i).label0 := by
    rw [gLines_eq, file_append, file_flatMap]
    simp only [file_garbleCycle]
    rfl
  have he : file .input (eLines S key (cid + 1)) = (List.range (cid + 1)).flatMap fun k =>
      (List.range S.c.secretInputSize).map fun i => (S.ein k).inputLabels i := by
    rw [eLines_eq, file_append, file_flatMap]
    rw [flatMap_range_congr (fun k hk => file_evalCycle ok (NoAccident.mono na (by omega : k ≤ cid)) .input)]
    rfl
  rw [hg, he]
  have hz : ∀ n : Nat, ((List.range n).flatMap fun k =>
      (List.range S.c.secretInputSize).map fun i => (S.ein k).inputLabels i)
      = List.zipWith (shifted S.R) ((List.range n).flatMap fun k =>
          (List.range S.c.secretInputSize).map fun i => ((S.gin k).inputLabels i).label0)
        ((List.range n).flatMap fun k => (List.range S.c.secretInputSize).map (secretInputBit S.c S.x k)) := by
    intro n
    induction n with
    | zero => rfl
    | succ n ih =>
      rw [List.range_succ]
      simp only [List.flatMap_append, List.flatMap_cons, List.flatMap_nil, List.append_nil]
      rw [List.zipWith_append (by simp [List.length_flatMap]), ← ih]
      congr 1
      apply List.ext_getElem (by simp)
      intro i h1 h2
      have hi : i < S.c.secretInputSize := by simpa using h1
      simp only [List.getElem_map, List.getElem_range, List.getElem_zipWith]
      rw [ok.labels.eInput n i hi, ok.labels.input n i hi]
      rfl
  exact ⟨hz _, (length_rows _ _ _).trans (length_rows _ _ _).symm⟩

example : exCarry.OK ∧ exCarry.NoAccident 2
    ∧ ((List.range 3).flatMap fun k => (List.range exCarry.c.secretInputSize).map (secretInputBit exCarry.c exCarry.x k))
      = [true, true, false, true, true, true] :=
  ⟨exCarry_ok, exCarry_noAccident, by decide +kernel⟩

/-- C97, flip-flops: the two files have one line for each flip-flop, written in cycle 0 only; for a
flip-flop that starts with secret bit `k` the evaluator's line is the garbler's, shifted if the bit is
1. (The other lines show memory that nobody has written to yet.) -/
theorem C97_flipflops {S : Session} (ok : S.OK) {cid : Nat} (na : S.NoAccident cid) (key : Block) :
    (file .dff (gLines S key (cid + 1))).length = S.c.dffSize
    ∧ (file .dff (eLines S key (cid + 1))).length = S.c.dffSize
    ∧ ∀ i < S.c.dffSize, ∀ k < S.c.secretInitSize, S.c.I i = ((S.c.pInit + k : Nat) : Int) →
      ∃ l, (file .dff (gLines S key (cid + 1)))[i]? = some l
        ∧ (file .dff (eLines S key (cid + 1)))[i]? = some (shifted S.R l (secretInitBit S.c S.x k)) := by
  have hd : ∀ (n : Nat) (L : List Block), ((List.range (n + 1)).flatMap fun k => if k = 0 then L else []) = L := by
    intro n L
    induction n with
    | zero => simp
    | succ n ih => rw [List.range_succ, List.flatMap_append, ih]; simp
  have hg : file .dff (gLines S key (cid + 1)) = (List.range S.c.dffSize).map fun i =>
      ((garbleDff S.c (S.gin 0).pInit (S.gin 0).initLabels 0 S.gst0).wires (S.c.dffLo + i)).label0 := by
    rw [gLines_eq, file_append, file_flatMap]
    simp only [file_garbleCycle]
    rw [← hd cid (List.map _ (List.range S.c.dffSize))]
    show [] ++ _ = _
    rw [List.nil_append]
    apply flatMap_range_congr
    intro k _
    by_cases h : k = 0
    · subst h; rfl
    · rw [if_neg h, if_neg h]
  have he : file .dff (eLines S key (cid + 1)) = (List.range S.c.dffSize).map fun i =>
      (evalDff S.c (S.ein 0).pInit (S.ein 0).initLabels 0 (S.est0.receive (S.sent 0))).wires (S.c.dffLo + i) := by
    rw [eLines_eq, file_append, file_flatMap]
    rw [flatMap_range_congr (fun k hk => file_evalCycle ok (NoAccident.mono na (by omega : k ≤ cid)) .dff)]
    rw [← hd cid (List.map _ (List.range S.c.dffSize))]
    show [] ++ _ = _
    rw [List.nil_append]
    apply flatMap_range_congr
    intro k _
    by_cases h : k = 0
    · subst h; rfl
    · simp only [if_neg h]
  refine ⟨by rw [hg]; simp, by rw [he]; simp, ?_⟩
  intro i hi k hk hI
  refine ⟨((S.gin 0).initLabels k).label0, ?_, ?_⟩
  · rw [hg]
    simp only [List.getElem?_map, List.getElem?_range hi, Option.map_some, garbleDff, if_true]
    rw [setRange_in _ _ (by omega), Nat.add_sub_cancel_left]
    unfold dffInitLabel
    simp only
    rw [if_pos, hI]
    · have : (((S.c.pInit + k : Nat) : Int) - (S.c.pInitHi : Int)).toNat = k := by unfold Circuit.pInitHi; omega
      rw [this]
    · rw [hI]; unfold Circuit.secretInitSize at hk; simp only [Circuit.initSize, Circuit.pInitHi]; omega
  · rw [he]
    simp only [List.getElem?_map, List.getElem?_range hi, Option.map_some, evalDff, if_true]
    rw [setRange_in _ _ (by omega), Nat.add_sub_cancel_left]
    unfold dffInitLabel
    simp only
    rw [if_pos, hI]
    · have : (((S.c.pInit + k : Nat) : Int) - (S.c.pInitHi : Int)).toNat = k := by unfold Circuit.pInitHi; omega
      rw [this, ok.labels.eInit 0 k hk, ok.labels.init 0 k hk]
      rfl
    · rw [hI]; unfold Circuit.secretInitSize at hk; simp only [Circuit.initSize, Circuit.pInitHi]; omega

example : exCarry.OK ∧ exCarry.NoAccident 2 ∧ 0 < exCarry.c.dffSize ∧ 0 < exCarry.c.secretInitSize
    ∧ exCarry.c.I 0 = ((exCarry.c.pInit + 0 : Nat) : Int) :=
  ⟨exCarry_ok, exCarry_noAccident, by decide, by decide, by decide⟩

/-- C97, outputs, in high-memory mode: both files have a line for each output of each cycle; for an
output that is not public the evaluator's line is the garbler's, shifted if the output's value is 1. -/
theorem C97_outputs_partial {S : Session} (ok : S.OK) (hm : S.lowMem = false) {cid : Nat} (na : S.NoAccident cid)
    (key : Block) {v : Nat → Nat → Bool} (hv : Solves S.c S.x v) :
    (file .output (gLines S key (cid + 1))).length = (cid + 1) * S.c.outputSize
    ∧ (file .output (eLines S key (cid + 1))).length = (cid + 1) * S.c.outputSize
    ∧ ∀ k ≤ cid, ∀ i < S.c.outputSize, ((S.g k).val (S.c.outputs i).toNat).isSecret = true →
      ∃ l, (file .output (gLines S key (cid + 1)))[k * S.c.outputSize + i]? = some l
        ∧ (file .output (eLines S key (cid + 1)))[k * S.c.outputSize + i]?
          = some (shifted S.R l (v k (S.c.outputs i).toNat)) := by
  have hg : file .output (gLines S key (cid + 1)) = (List.range (cid + 1)).flatMap fun k =>
      (List.range S.c.outputSize).map fun i => ((S.g k).wires (S.c.outputs i).toNat).label0 := by
    rw [gLines_eq, file_append, file_flatMap]
    simp only [file_garbleCycle]
    simp only [hm]
    rfl
  have he : file .output (eLines S key (cid + 1)) = (List.range (cid + 1)).flatMap fun k =>
      (List.range S.c.outputSize).map fun i => (S.e k).wires (S.c.outputs i).toNat := by
    rw [eLines_eq, file_append, file_flatMap]
    rw [flatMap_range_congr (fun k hk => file_evalCycle ok (NoAccident.mono na (by omega : k ≤ cid)) .output)]
    rfl
  have hat : ∀ (F : Nat → Nat → Block) (n k i : Nat), k < n → i < S.c.outputSize →
      ((List.range n).flatMap fun k => (List.range S.c.outputSize).map (F k))[k * S.c.outputSize + i]?
        = some (F k i) := by
    intro F n k i hk hi
    induction n with
    | zero => omega
    | succ n ih =>
      have hl : ((List.range n).flatMap fun k => (List.range S.c.outputSize).map (F k)).length
          = n * S.c.outputSize := length_rows _ _ _
      rw [List.range_succ, List.flatMap_append]
      by_cases h : k < n
      · have : (k + 1) * S.c.outputSize ≤ n * S.c.outputSize := Nat.mul_le_mul_right _ h
        rw [Nat.succ_mul] at this
        rw [List.getElem?_append_left (by omega), ih h]
      · have : k = n := by omega
        subst this
        rw [List.getElem?_append_right (by omega), hl]
        simp [List.getElem?_range hi]
  refine ⟨by rw [hg]; exact length_rows _ _ _, by rw [he]; exact length_rows _ _ _, ?_⟩
  intro k hk i hi hs
  refine ⟨((S.g k).wires (S.c.outputs i).toNat).label0, ?_, ?_⟩
  · rw [hg]; exact hat (fun k i => ((S.g k).wires (S.c.outputs i).toNat).label0) _ k i (by omega) hi
  · rw [he, hat (fun k i => (S.e k).wires (S.c.outputs i).toNat) _ k i (by omega) hi]
    have hr := C01_outputs_represent ok (NoAccident.mono na hk) hv hi
    simp only at hr
    unfold Represents at hr
    revert hr hs
    cases (S.g k).val (S.c.outputs i).toNat with
    | pub b => simp [WVal.isSecret]
    | sec a => cases (S.e k).val (S.c.outputs i).toNat with
      | pub b => simp
      | sec b => intro _ h; rw [h.2, h.1]; rfl

example : exCarry.OK ∧ exCarry.lowMem = false ∧ exCarry.NoAccident 2
    ∧ Solves exCarry.c exCarry.x (plainWires exCarry.c exCarry.x fun _ => false)
    ∧ ((exCarry.g 1).val (exCarry.c.outputs 0).toNat).isSecret = true
    ∧ plainWires exCarry.c exCarry.x (fun _ => false) 0 5 = true
    ∧ plainWires exCarry.c exCarry.x (fun _ => false) 1 5 = false :=
  ⟨exCarry_ok, rfl, exCarry_noAccident, plainWires_solves exCarry_ok.wf _ _, by decide +kernel, by decide +kernel,
    by decide +kernel⟩

/-- C97, keys: the garbler's file has the offset and the key, the evaluator's has the key. -/
theorem C97_keys {S : Session} (ok : S.OK) {cid : Nat} (na : S.NoAccident cid) (key : Block) :
    file .rKey (gLines S key (cid + 1)) = [S.R, key] ∧ file .rKey (eLines S key (cid + 1)) = [key] := by
  constructor
  · rw [gLines_eq, file_append, file_flatMap]
    simp only [file_garbleCycle]
    simp [file]
  · rw [eLines_eq, file_append, file_flatMap]
    rw [flatMap_range_congr (fun k hk => file_evalCycle ok (NoAccident.mono na (by omega : k ≤ cid)) .rKey)]
    simp [file]

/-- The claim about outputs fails in low-memory mode: whatever the circuit, the garbler writes no
line, the evaluator one for each output of each cycle. -/
theorem C97_false_outputs {S : Session} (ok : S.OK) (hm : S.lowMem = true) {cid : Nat} (na : S.NoAccident cid)
    (key : Block) : file .output (gLines S key (cid + 1)) = []
      ∧ (file .output (eLines S key (cid + 1))).length = (cid + 1) * S.c.outputSize := by
  constructor
  · rw [gLines_eq, file_append, file_flatMap]
    simp only [file_garbleCycle]
    simp [file, hm]
  · rw [eLines_eq, file_append, file_flatMap]
    rw [flatMap_range_congr (fun k hk => file_evalCycle ok (NoAccident.mono na (by omega : k ≤ cid)) .output)]
    exact length_rows _ _ _

example : exS.OK ∧ exS.lowMem = true ∧ exS.NoAccident 2 ∧ 0 < exS.c.outputSize :=
  ⟨exS_ok, rfl, exS_noAccident, by decide⟩

/-! ## The names of the files -/

/-- C97, names: after `LogInitial`, as the test programs use it, no file of Alice has the name of a
file of Bob, and the five files of one party have five names. -/
theorem C97_names_partial (dir : List Char) (bob : Bool) (f f' : File) :
    path (logInitialPrefix ⟨some dir, true, bob⟩) f ≠ path (logInitialPrefix ⟨some dir, false, true⟩) f'
    ∧ (f ≠ f' → path (logInitialPrefix ⟨some dir, true, bob⟩) f ≠ path (logInitialPrefix ⟨some dir, true, bob⟩) f'
      ∧ path (logInitialPrefix ⟨some dir, false, true⟩) f ≠ path (logInitialPrefix ⟨some dir, false, true⟩) f') := by
  have e1 : path (logInitialPrefix ⟨some dir, true, bob⟩) = fun f => some (dir ++ ("alice-".toList ++ f.name ++ ".hex".toList)) := by
    funext f
    simp [path, logInitialPrefix]
  have e2 : path (logInitialPrefix ⟨some dir, false, true⟩) = fun f => some (dir ++ ("bob-".toList ++ f.name ++ ".hex".toList)) := by
    funext f
    simp [path, logInitialPrefix]
  rw [e1, e2]
  simp only [ne_eq, Option.some.injEq, List.append_cancel_left_eq]
  cases f <;> cases f' <;> decide

/-- In the main program the claim about names fails: whatever the directory, Alice's files have the
names of Bob's. -/
theorem C97_false_names (dir : List Char) (f : File) :
    path (mainPrefix ⟨some dir, true, false⟩) f = path (mainPrefix ⟨some dir, false, true⟩) f := rfl

example : path (mainPrefix ⟨some "/tmp/".toList, true, false⟩) .table = some "/tmp/table.hex".toList
    ∧ path (logInitialPrefix ⟨some "/tmp/".toList, true, false⟩) .table = some "/tmp/alice-table.hex".toList
    ∧ path (logInitialPrefix ⟨some "/tmp/".toList, false, true⟩) .table = some "/tmp/bob-table.hex".toList := by decide

end TinyGarble.Props
