import Verif.Proof.Scd
import Verif.Props.SortNet

/-! # C27: circuit files -/

namespace TinyGarble.Props
open TinyGarble.Spec TinyGarble.Proof

/-- C27, for circuits whose numbers fit the types (in particular at most 2^31 gates, see `C27_large_index`). Whatever the memory held before, `ReadSCD` of the file that `WriteSCD` writes gives the sizes, the gates in the
order of the schedule, the outputs, the terminate signal and the connections of the flip-flops of the circuit written. -/
theorem C27_roundtrip_partial {c : ReadCircuit} (h : Writable c) :
    ∃ file, writeScd c = some file ∧ ∀ junk, SameCircuit (readScd file junk) (scheduled c) := by
  -- the gates in the order of the schedule
  have hs : ∀ i (hi : i < c.gates.length), ∃ (j : Nat) (hj : j < c.gates.length),
      c.schedule[i]? = some (j : Int) ∧ scheduledGate c i = some c.gates[j] := by
    intro i hi
    have hi' : i < c.schedule.length := by rw [h.length]; exact hi
    obtain ⟨a, b⟩ := h.schedule _ (List.getElem_mem hi')
    have hb := h.gateSize
    refine ⟨c.schedule[i].toNat, by omega, ?_, ?_⟩
    · rw [List.getElem?_eq_getElem hi', Int.toNat_of_nonneg a]
    · unfold scheduledGate
      rw [List.getElem?_eq_getElem hi']
      have e1 : (c.schedule[i] % 2 ^ 64).toNat = c.schedule[i].toNat := by omega
      simp only [Option.bind_eq_bind, Option.bind_some, e1]
      rw [toInt32_small (by omega), getI_nat, List.getElem?_eq_getElem]
  let gs : List ReadGate := (List.range c.gates.length).map fun i => (scheduledGate c i).getD ⟨0, 0, 0, 0⟩
  have hgs : (List.range c.gates.length).mapM (scheduledGate c) = some gs := by
    refine mapM_eq _ _ _ fun i hi => ?_
    obtain ⟨j, hj, _, e⟩ := hs i (List.mem_range.mp hi)
    rw [e]; rfl
  have gslen : gs.length = c.gates.length := by simp [gs]
  have gsmem : ∀ g ∈ gs, g ∈ c.gates := by
    intro g hg
    obtain ⟨i, hi, rfl⟩ := List.mem_map.mp hg
    obtain ⟨j, hj, _, e⟩ := hs i (List.mem_range.mp hi)
    rw [e]; exact List.getElem_mem hj
  have gsgate : ∀ i < c.gates.length, ∃ g, gs[i]? = some g ∧ (scheduled c).gate i = ⟨g.input0, g.input1, g.type⟩ := by
    intro i hi
    obtain ⟨j, hj, e1, e2⟩ := hs i hi
    refine ⟨c.gates[j], ?_, ?_⟩
    · simp only [gs, List.getElem?_map, List.getElem?_range hi, Option.map_some, e2, Option.getD_some]
    · unfold scheduled asCircuit
      simp only [e1, Int.toNat_natCast, List.getElem?_eq_getElem hj]
  clear_value gs
  have hwr : writeScd c = some (scdHeader c ++ scdLine (gs.map fun g => printInt g.input0)
      ++ scdLine (gs.map fun g => printInt g.input1)
      ++ scdLine (gs.map fun g => printInt g.type) ++ scdLine (c.outputs.map printU64)
      ++ scdLine (c.dffs.map fun g => printInt g.input0) ++ scdLine (c.dffs.map fun g => printInt g.input1)) := by
    unfold writeScd
    rw [hgs]
    rfl
  refine ⟨_, hwr, fun junk => ?_⟩
  -- the lines after the first
  let body : List Char := scdLine ((gs.map fun g => g.input0).map printInt) ++ (scdLine ((gs.map fun g => g.input1).map printInt)
    ++ (scdLine ((gs.map fun g => g.type).map printInt) ++ (scdLine (c.outputs.map printU64)
    ++ (scdLine ((c.dffs.map fun g => g.input0).map printInt) ++ (scdLine ((c.dffs.map fun g => g.input1).map printInt) ++ [])))))
  have ht : printU64 c.terminateId = printNat c.terminateId.toNat := by
    unfold printU64
    obtain ⟨t1, t2⟩ := h.terminateId
    have e : (c.terminateId % 2 ^ 64) = c.terminateId := Int.emod_eq_of_lt t1 t2
    rw [e]
  have hfile : scdHeader c ++ scdLine (gs.map fun g => printInt g.input0) ++ scdLine (gs.map fun g => printInt g.input1)
      ++ scdLine (gs.map fun g => printInt g.type) ++ scdLine (c.outputs.map printU64)
      ++ scdLine (c.dffs.map fun g => printInt g.input0) ++ scdLine (c.dffs.map fun g => printInt g.input1)
      = [] ++ printNat c.pInit ++ ' ' :: ([] ++ printNat c.gInit ++ ' ' :: ([] ++ printNat c.eInit ++ ' ' ::
        ([] ++ printNat c.pInput ++ ' ' :: ([] ++ printNat c.gInput ++ ' ' :: ([] ++ printNat c.eInput ++ ' ' ::
        ([] ++ printNat c.dffs.length ++ ' ' :: ([] ++ printNat c.outputs.length ++ ' ' ::
        ([] ++ printNat c.terminateId.toNat ++ ' ' :: ([] ++ printNat c.gates.length ++ '\n' :: body))))))))) := by
    have eb : body = scdLine (gs.map fun g => printInt g.input0) ++ (scdLine (gs.map fun g => printInt g.input1)
        ++ (scdLine (gs.map fun g => printInt g.type) ++ (scdLine (c.outputs.map printU64)
        ++ (scdLine (c.dffs.map fun g => printInt g.input0) ++ scdLine (c.dffs.map fun g => printInt g.input1))))) := by
      simp only [body, List.map_map, Function.comp_def, List.append_nil]
    rw [eb]
    unfold scdHeader
    rw [ht]
    simp only [List.append_assoc, List.cons_append, List.nil_append]
  have sp : ∀ ch ∈ [' '], isWhite ch = true := by simp; decide
  have nl : ∀ ch ∈ ['\n'], isWhite ch = true := by simp; decide
  have hU : ∀ (old n : Nat) (rest : List Char), n < 2 ^ 64 →
      readU64 old ⟨' ' :: ([] ++ printNat n ++ ' ' :: rest), true⟩ = (n, ⟨' ' :: rest, true⟩) := by
    intro old n rest hn
    exact readU64_print old n [' '] rest ' ' sp (by decide) hn
  have hI : ∀ vs : List Int, (∀ v ∈ vs, -2 ^ 63 ≤ v ∧ v < 2 ^ 63) → ∀ v ∈ vs, ∀ (old : Int) (pre rest : List Char),
      (∀ ch ∈ pre, isWhite ch = true) → readI64 old ⟨pre ++ printInt v ++ ' ' :: rest, true⟩ = (v, ⟨' ' :: rest, true⟩) := by
    intro vs hvs v hv old pre rest hp
    have := hvs v hv
    exact readNumber_int _ _ old v pre rest ' ' hp (by decide) (by omega) (by omega)
  have g0 : ∀ v ∈ gs.map fun g => g.input0, -2 ^ 63 ≤ v ∧ v < 2 ^ 63 := by
    intro v hv
    obtain ⟨g, hg, rfl⟩ := List.mem_map.mp hv
    have := h.gates g (gsmem g hg); omega
  have g1 : ∀ v ∈ gs.map fun g => g.input1, -2 ^ 63 ≤ v ∧ v < 2 ^ 63 := by
    intro v hv
    obtain ⟨g, hg, rfl⟩ := List.mem_map.mp hv
    have := h.gates g (gsmem g hg); omega
  have g2 : ∀ v ∈ gs.map fun g => g.type, ∀ (old : Int) (pre rest : List Char),
      (∀ ch ∈ pre, isWhite ch = true) → readI32 old ⟨pre ++ printInt v ++ ' ' :: rest, true⟩ = (v, ⟨' ' :: rest, true⟩) := by
    intro v hv old pre rest hp
    obtain ⟨g, hg, rfl⟩ := List.mem_map.mp hv
    have := h.gates g (gsmem g hg)
    exact readNumber_int _ _ old _ pre rest ' ' hp (by decide) (by omega) (by omega)
  have go : ∀ v ∈ c.outputs, ∀ (old : Int) (pre rest : List Char),
      (∀ ch ∈ pre, isWhite ch = true) → readI64 old ⟨pre ++ printU64 v ++ ' ' :: rest, true⟩ = (v, ⟨' ' :: rest, true⟩) := by
    intro v hv old pre rest hp
    have := h.outputs v hv
    have e1 : printU64 v = printInt v := by
      unfold printU64 printInt
      have e2 : (v % 2 ^ 64).toNat = v.natAbs := by omega
      rw [if_neg (by omega), e2]
    rw [e1]
    exact readNumber_int _ _ old v pre rest ' ' hp (by decide) (by omega) (by omega)
  have gD : ∀ v ∈ c.dffs.map fun g => g.input0, -2 ^ 63 ≤ v ∧ v < 2 ^ 63 := by
    intro v hv
    obtain ⟨g, hg, rfl⟩ := List.mem_map.mp hv
    have := h.dffs g hg; omega
  have gI : ∀ v ∈ c.dffs.map fun g => g.input1, -2 ^ 63 ≤ v ∧ v < 2 ^ 63 := by
    intro v hv
    obtain ⟨g, hg, rfl⟩ := List.mem_map.mp hv
    have := h.dffs g hg; omega
  have ht64 : c.terminateId.toNat < 2 ^ 64 := by have := h.terminateId; omega
  have hgl : c.gates.length < 2 ^ 64 := by have := h.gateSize; omega
  obtain ⟨a0, p0, s0, v0, e0⟩ := readArray_line readI64 printInt (gs.map fun g => g.input0) (hI _ g0)
    (fun i => (junk.gate i).input0) ['\n'] _ nl c.gates.length (by simp [gslen])
  obtain ⟨a1, p1, s1, v1, e1⟩ := readArray_line readI64 printInt (gs.map fun g => g.input1) (hI _ g1)
    (fun i => (junk.gate i).input1) p0 _ s0 c.gates.length (by simp [gslen])
  obtain ⟨a2, p2, s2, v2, e2⟩ := readArray_line readI32 printInt (gs.map fun g => g.type) g2
    (fun i => (junk.gate i).type) p1 _ s1 c.gates.length (by simp [gslen])
  obtain ⟨a3, p3, s3, v3, e3⟩ := readArray_line readI64 printU64 c.outputs go junk.outputs p2 _ s2 c.outputs.length rfl
  obtain ⟨a4, p4, s4, v4, e4⟩ := readArray_line readI64 printInt (c.dffs.map fun g => g.input0) (hI _ gD) junk.D p3 _ s3
    c.dffs.length (by simp)
  obtain ⟨a5, p5, s5, v5, e5⟩ := readArray_line readI64 printInt (c.dffs.map fun g => g.input1) (hI _ gI) junk.I p4 [] s4
    c.dffs.length (by simp)
  rw [hfile]
  have key : readScd ([] ++ printNat c.pInit ++ ' ' :: ([] ++ printNat c.gInit ++ ' ' :: ([] ++ printNat c.eInit ++ ' ' ::
        ([] ++ printNat c.pInput ++ ' ' :: ([] ++ printNat c.gInput ++ ' ' :: ([] ++ printNat c.eInput ++ ' ' ::
        ([] ++ printNat c.dffs.length ++ ' ' :: ([] ++ printNat c.outputs.length ++ ' ' ::
        ([] ++ printNat c.terminateId.toNat ++ ' ' :: ([] ++ printNat c.gates.length ++ '\n' :: body)))))))))) junk
      = { pInit := c.pInit, gInit := c.gInit, eInit := c.eInit, pInput := c.pInput, gInput := c.gInput, eInput := c.eInput,
          dffSize := c.dffs.length, outputSize := c.outputs.length, terminateId := c.terminateId.toNat,
          gateSize := c.gates.length, gate := fun i => if i < c.gates.length then ⟨a0 i, a1 i, a2 i⟩ else ⟨0, 0, 0⟩
          outputs := fun i => if i < c.outputs.length then a3 i else 0
          D := fun i => if i < c.dffs.length then a4 i else 0
          I := fun i => if i < c.dffs.length then a5 i else 0 } := by
    unfold readScd
    simp only
    rw [readU64_print _ c.pInit [] _ ' ' (by simp) (by decide) h.pInit]
    simp only
    rw [hU _ _ _ h.gInit]
    simp only
    rw [hU _ _ _ h.eInit]
    simp only
    rw [hU _ _ _ h.pInput]
    simp only
    rw [hU _ _ _ h.gInput]
    simp only
    rw [hU _ _ _ h.eInput]
    simp only
    rw [hU _ _ _ h.dffSize]
    simp only
    rw [hU _ _ _ h.outputSize]
    simp only
    rw [hU _ _ _ ht64]
    simp only
    rw [show readU64 junk.gateSize ⟨' ' :: ([] ++ printNat c.gates.length ++ '\n' :: body), true⟩
      = (c.gates.length, ⟨'\n' :: body, true⟩) from readU64_print _ _ [' '] _ '\n' sp (by decide) hgl]
    simp only
    rw [show ('\n' :: body) = ['\n'] ++ body from rfl, e0]
    simp only
    rw [e1]
    simp only
    rw [e2]
    simp only
    rw [e3]
    simp only
    rw [e4]
    simp only
    rw [e5]
  rw [key]
  refine ⟨rfl, rfl, rfl, rfl, rfl, rfl, rfl, rfl, rfl, rfl, fun i hi => ?_, fun i hi => ?_, fun i hi => ?_, fun i hi => ?_⟩
  · have hi : i < c.gates.length := hi
    obtain ⟨g, eg, es⟩ := gsgate i hi
    rw [es]
    show (if i < c.gates.length then (⟨a0 i, a1 i, a2 i⟩ : Gate) else _) = _
    rw [if_pos hi, v0 i hi, v1 i hi, v2 i hi]
    simp [List.getElem?_map, eg]
  · have hi : i < c.outputs.length := hi
    exact (if_pos hi).trans (v3 i hi)
  · have hi : i < c.dffs.length := hi
    refine (if_pos hi).trans ((v4 i hi).trans ?_)
    simp [scheduled, asCircuit, List.getElem?_map, List.getElem?_eq_getElem hi]
  · have hi : i < c.dffs.length := hi
    refine (if_pos hi).trans ((v5 i hi).trans ?_)
    simp [scheduled, asCircuit, List.getElem?_map, List.getElem?_eq_getElem hi]

/-- C48. A well-formed netlist that is sorted, written to a file and read back is computed correctly: the plaintext evaluator on
the circuit read produces the outputs and the number of cycles that the netlist prescribes; all wire references of the circuit
read are valid and every gate comes after its operands. -/
theorem C48_compiled_circuit {c : ReadCircuit} (wf : NetlistWF c) (ft : Fits c) :
    ∃ c' file, sortNetlist c = some (some c') ∧ writeScd c' = some file ∧ ∀ junk,
      WF (readScd file junk) ∧
      ∀ (x : Inputs) (v : Nat → Nat → Bool), Solves (asCircuit c) x v → ∀ (w0 : Nat → Bool) (n T : Nat),
        let r := evaluatePlaintext (readScd file junk) x w0 n T
        Executed (asCircuit c) T v n r.2
        ∧ (∀ t < r.2, ∀ i < c.outputs.length, r.1.testBit (t * c.outputs.length + i) = v t (c.outputs[i]?.getD 0).toNat)
        ∧ ∀ j, r.2 * c.outputs.length ≤ j → r.1.testBit j = false := by
  obtain ⟨order, inv, π, σ, ho, R, e⟩ := sortNetlist_eq wf
  obtain ⟨file, ef, hs⟩ := C27_roundtrip_partial (R.writable ho wf ft)
  exact ⟨_, file, e, ef, fun junk => ⟨(hs junk).wf (R.wf wf), fun x v hv w0 n T => evaluates_sorted wf R (hs junk) x v hv w0 n T⟩⟩

/-- C47, false of the code: `ReadSCD` does not look at the state of the stream. From an empty file it reads nothing, reports
SUCCESS, and the circuit is whatever was in memory. -/
theorem C47_empty_file_accepted (junk : Circuit) : SameCircuit (readScd [] junk) junk := by
  have h1 : ∀ (old : Nat) (s : InStream), s.rest = [] → readU64 old s = (old, ⟨[], false⟩) := by
    intro old s hs
    unfold readU64 readNumber
    cases s with | mk r g => subst hs; cases g <;> simp
  have h2 : ∀ (lo hi old : Int), readNumber lo hi false old ⟨[], false⟩ = (old, ⟨[], false⟩) := by
    intro lo hi old; simp [readNumber]
  have h3 : ∀ (rd : Int → InStream → Int × InStream), (∀ old, rd old ⟨[], false⟩ = (old, ⟨[], false⟩)) →
      ∀ n a, readArray rd n a ⟨[], false⟩ = (a, ⟨[], false⟩) := by
    intro rd hrd n a
    unfold readArray
    induction n with
    | zero => rfl
    | succ n ih =>
      rw [forLoop, ih]
      simp only [hrd]
      refine Prod.ext ?_ rfl
      funext i
      show (if i = n then a n else a i) = a i
      split
      · rename_i h; rw [h]
      · rfl
  have h64 : ∀ old, readI64 old ⟨[], false⟩ = (old, ⟨[], false⟩) := fun old => h2 _ _ old
  have h32 : ∀ old, readI32 old ⟨[], false⟩ = (old, ⟨[], false⟩) := fun old => h2 _ _ old
  unfold readScd
  simp only [h1, h3 readI64 h64, h3 readI32 h32]
  exact ⟨rfl, rfl, rfl, rfl, rfl, rfl, rfl, rfl, rfl, rfl, fun _ hi => if_pos hi, fun _ hi => if_pos hi, fun _ hi => if_pos hi,
    fun _ hi => if_pos hi⟩

/-- Arrays of a circuit that was read have no elements beyond their sizes. -/
theorem readScd_beyond (file : List Char) (junk : Circuit) :
    (∀ i, (readScd file junk).gateSize ≤ i → (readScd file junk).gate i = ⟨0, 0, 0⟩)
    ∧ (∀ i, (readScd file junk).outputSize ≤ i → (readScd file junk).outputs i = 0)
    ∧ (∀ i, (readScd file junk).dffSize ≤ i → (readScd file junk).D i = 0)
    ∧ ∀ i, (readScd file junk).dffSize ≤ i → (readScd file junk).I i = 0 :=
  ⟨fun _ hi => if_neg (Nat.not_lt.mpr hi), fun _ hi => if_neg (Nat.not_lt.mpr hi), fun _ hi => if_neg (Nat.not_lt.mpr hi),
    fun _ hi => if_neg (Nat.not_lt.mpr hi)⟩

/-- A file that determines all contents is read to the same circuit whatever the memory was. -/
theorem readScd_det {file : List Char} {c : Circuit} (h : ∀ junk, SameCircuit (readScd file junk) c) (m m' : Circuit) :
    readScd file m = readScd file m' := by
  obtain ⟨b1, b2, b3, b4⟩ := readScd_beyond file m
  obtain ⟨b1', b2', b3', b4'⟩ := readScd_beyond file m'
  have h1 := h m
  have h2 := h m'
  have eg : (readScd file m).gate = (readScd file m').gate := by
    funext i
    by_cases hi : i < c.gateSize
    · rw [h1.gate i hi, h2.gate i hi]
    · rw [b1 i (by rw [h1.gateSize]; omega), b1' i (by rw [h2.gateSize]; omega)]
  have eo : (readScd file m).outputs = (readScd file m').outputs := by
    funext i
    by_cases hi : i < c.outputSize
    · rw [h1.outputs i hi, h2.outputs i hi]
    · rw [b2 i (by rw [h1.outputSize]; omega), b2' i (by rw [h2.outputSize]; omega)]
  have eD : (readScd file m).D = (readScd file m').D := by
    funext i
    by_cases hi : i < c.dffSize
    · rw [h1.D i hi, h2.D i hi]
    · rw [b3 i (by rw [h1.dffSize]; omega), b3' i (by rw [h2.dffSize]; omega)]
  have eI : (readScd file m).I = (readScd file m').I := by
    funext i
    by_cases hi : i < c.dffSize
    · rw [h1.I i hi, h2.I i hi]
    · rw [b4 i (by rw [h1.dffSize]; omega), b4' i (by rw [h2.dffSize]; omega)]
  have hext : ∀ a b : Circuit, a.pInit = b.pInit → a.gInit = b.gInit → a.eInit = b.eInit → a.pInput = b.pInput →
      a.gInput = b.gInput → a.eInput = b.eInput → a.dffSize = b.dffSize → a.outputSize = b.outputSize →
      a.terminateId = b.terminateId → a.gateSize = b.gateSize → a.gate = b.gate → a.outputs = b.outputs → a.D = b.D →
      a.I = b.I → a = b := by
    rintro ⟨⟩ ⟨⟩ rfl rfl rfl rfl rfl rfl rfl rfl rfl rfl rfl rfl rfl rfl
    rfl
  exact hext _ _ (h1.pInit.trans h2.pInit.symm) (h1.gInit.trans h2.gInit.symm) (h1.eInit.trans h2.eInit.symm)
    (h1.pInput.trans h2.pInput.symm) (h1.gInput.trans h2.gInput.symm) (h1.eInput.trans h2.eInput.symm)
    (h1.dffSize.trans h2.dffSize.symm) (h1.outputSize.trans h2.outputSize.symm) (h1.terminateId.trans h2.terminateId.symm)
    (h1.gateSize.trans h2.gateSize.symm) eg eo eD eI

/-- C27, outside of the hypotheses of `C27_roundtrip_partial`: a schedule entry from 2^31 on does not fit `int gindex`; the code reads
outside of the array. -/
theorem C27_large_index {c : ReadCircuit} {i : Nat} {s : Int} (hi : i < c.gates.length) (hs : c.schedule[i]? = some s)
    (h1 : 2 ^ 31 ≤ s) (h2 : s < 2 ^ 32) : writeScd c = none := by
  have hn : scheduledGate c i = none := by
    unfold scheduledGate
    rw [hs]
    simp only [Option.bind_eq_bind, Option.bind_some]
    have e : (s % 2 ^ 64).toNat = s.toNat := by omega
    rw [e]
    unfold getI
    rw [if_neg]
    unfold toInt32
    have : (BitVec.ofNat 32 s.toNat).toInt < 0 := by
      rw [BitVec.toInt_neg_iff, BitVec.toNat_ofNat]
      omega
    omega
  unfold writeScd
  have : (List.range c.gates.length).mapM (scheduledGate c) = none := by
    have hm : i ∈ List.range c.gates.length := List.mem_range.mpr hi
    generalize List.range c.gates.length = l at hm
    induction l with
    | nil => cases hm
    | cons a l ih =>
      rw [List.mapM_cons]
      rcases List.mem_cons.mp hm with rfl | hm
      · rw [hn]; rfl
      · rw [ih hm]
        cases scheduledGate c a <;> rfl
  rw [this]
  rfl

theorem sortExample_fits : Fits sortExample := by
  refine ⟨by decide, by decide, ?_, ?_⟩
  · intro g hg
    simp only [sortExample, List.mem_cons, List.not_mem_nil, or_false] at hg
    rcases hg with rfl | rfl | rfl <;> decide
  · intro g hg
    simp only [sortExample, List.mem_cons, List.not_mem_nil, or_false] at hg
    subst hg; decide

example : ∃ c, Writable c ∧ 0 < c.gates.length ∧ 0 < c.dffs.length := by
  obtain ⟨order, inv, π, σ, ho, R, e⟩ := sortNetlist_eq sortExample_wf
  exact ⟨_, R.writable ho sortExample_wf sortExample_fits, by simp [renumbered, sortExample], by simp [renumbered, sortExample]⟩

example : ∃ c, NetlistWF c ∧ Fits c ∧ 0 < c.gates.length := ⟨_, sortExample_wf, sortExample_fits, by decide⟩

/-- A circuit written with the schedule reversed, and the text of its file. -/
example : writeScd ⟨0, 0, 0, 0, 1, 1, [⟨2, 0, 3, 8⟩, ⟨0, 1, 2, 6⟩], [], [3], 0, [1, 0]⟩
    = some "0 0 0 0 1 1 0 1 0 2\n0 2 \n1 0 \n6 8 \n3 \n\n\n".toList := by decide +kernel

example : ∃ (c : ReadCircuit) (i : Nat) (s : Int), i < c.gates.length ∧ c.schedule[i]? = some s ∧ 2 ^ 31 ≤ s ∧ s < 2 ^ 32 :=
  ⟨⟨0, 0, 0, 0, 1, 1, [⟨2, 0, 3, 8⟩], [], [3], 0, [2 ^ 31]⟩, 0, 2 ^ 31, by decide, rfl, by decide, by decide⟩

end TinyGarble.Props
