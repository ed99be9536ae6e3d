import Verif.Spec.EndToEnd
import Verif.Props.StrApi
import Verif.Props.Verilog
import Verif.Props.Bristol

/-!
# C54: from the text of a module to the results of two parties
-/

namespace TinyGarble.Props
open TinyGarble Spec Proof

section
variable {cap : Nat} {cr : Crypto} {c : Circuit} {a b : StrArgs} {G : GEnv} {E : EEnv}

theorem _root_.TinyGarble.Spec.Ready.proper (h : Ready cap cr c a.parse b.parse G E) (wf : WF c) {u : Nat → Nat → Bool}
    (hu : Solves c (inputsOf a.parse b.parse) u) : Proper cap cr c a.parse b.parse G E u :=
  ⟨⟨wf, h.cycles, h.term, h.paired, h.conn, h.sizes, h.gFresh, h.eFresh⟩, hu, h.lucky u hu, h.publicStop u hu⟩

/-- The strings of both parties in terms of the plaintext evaluator's number. -/
theorem strings_of_plain (wf : WF c) (h : Ready cap cr c a.parse b.parse G E) (w0 : Nat → Bool) :
    let r := evaluatePlaintext c (inputsOf a.parse b.parse) w0 a.cycles a.period
    ∃ g e, AlwaysFinishes cap (garbleStr cr (some c) a G) (evaluateStr cr (some c) b E) g e
      ∧ ShowsRun a.mode c.outputSize r.2
          (fun t i => (hex2bn a.mask).testBit i && r.1.testBit (t * c.outputSize + i)) g
      ∧ ShowsRun a.mode c.outputSize r.2
          (fun t i => !(hex2bn a.mask).testBit i && r.1.testBit (t * c.outputSize + i)) e := by
  intro r
  have hu := plainWires_solves wf (inputsOf a.parse b.parse) w0
  have hp := h.proper wf hu
  obtain ⟨g, e, m, h1, h2, h3, h4, h5⟩ := strings_protocol hp
  obtain ⟨p1, p2, p3⟩ := C33_plain_outputs wf (inputsOf a.parse b.parse) w0 a.cycles a.period hu
  obtain rfl : r.2 = m := executed_unique p1 h3
  refine ⟨g, e, h1, showsRun_congr h2 h4 (fun t ht i hi => ?_), showsRun_congr h2 h5 (fun t ht i hi => ?_)⟩
  · rw [p2 t ht i hi]
    rfl
  · rw [p2 t ht i hi]
    have ht' : t < a.cycles := Nat.lt_of_lt_of_le ht h3.le
    by_cases hl : a.parse.useLow = true ∧ a.mode = .lastClock
    · rw [if_pos hl]
      exact storedLast_of_not_lost ht' (fun t ht => h.kept _ hu t ht i hi)
    · rw [if_neg hl]
      show (sessionOf cr c a.parse b.parse G E).stored a.parse.mask _ t i = _
      unfold Session.stored
      rw [if_neg (h.kept _ hu t ht' i hi)]
      rfl

end

/-- The circuit read from a compiled file is well formed and does not depend on the memory. -/
theorem compiled_read {s : CircuitStr} {file : List Char} (L : Legal s) (h : compile s = some (some file))
    (h0 : 0 < drivers s - s.gates.length) (hw : drivers s < 2 ^ 31) (ho : s.outputSize < 2 ^ 64) :
    (∀ mem, WF (readScd file mem) ∧ (readScd file mem).outputSize = s.outputSize)
    ∧ ∀ m m', readScd file m = readScd file m' := by
  obtain ⟨c, c', hc, hs, hf⟩ := compile_some h
  have A := idAssignment_assigned hc
  have hd := drivers_eq s
  have hg := A.gates
  have wf : NetlistWF c := A.netlistWF L (by rw [A.iid]; omega) (by omega) hs
  obtain ⟨order, inv, π, σ, hor, R, e⟩ := sortNetlist_eq wf
  obtain ⟨file', ef, hsame⟩ := C27_roundtrip_partial (R.writable hor wf (A.fits hw ho))
  rw [hs] at e
  simp only [Option.some.injEq] at e
  subst e
  rw [hf] at ef
  simp only [Option.some.injEq] at ef
  subst ef
  refine ⟨fun mem => ⟨(hsame mem).wf (R.wf wf), ?_⟩, readScd_det hsame⟩
  rw [(hsame mem).outputSize]
  simp [scheduled, asCircuit, renumbered, A.outputs]

/-- C54, Verilog. A module is compiled to a circuit file; two parties read the file, each into its own memory, and run `GarbleStr`
and `EvaluateStr` on hexadecimal numbers. However they are scheduled, both return SUCCESS; the string of the garbler shows the
bits of `o` where the mask has a 1, that of the evaluator the bits where the mask has a 0, for the cycles up to the one in which
`terminate` is on. `v` is the meaning of the module for these numbers. Missing: what `Ready` excludes (see C01). -/
theorem C54_verilog_partial {items : List Item} (P : ProperModule items) {file : List Char} (hf : WrittenIn items file)
    (hm : NoMidNames items) (L : VLegal items) (S : VSizes items) {scd : List Char} (h : verilog2Scd file = some (some scd))
    (memA memB : Circuit) {cap : Nat} {cr : Crypto} {a b : StrArgs} {G : GEnv} {E : EEnv}
    (hr : Ready cap cr (readScd scd memA) a.parse b.parse G E) (v : Nat → Name → Bool)
    (hv : VerilogSolves items ⟨hex2bn a.pInit, hex2bn a.init, hex2bn b.init, hex2bn a.pInput, hex2bn a.input, hex2bn b.input⟩ v) :
    ∃ g e m, AlwaysFinishes cap (garbleStr cr (some (readScd scd memA)) a G) (evaluateStr cr (some (readScd scd memB)) b E) g e
      ∧ NamedExecuted (frame items) a.period v a.cycles m
      ∧ ShowsRun a.mode (width items "o") m (fun t i => (hex2bn a.mask).testBit i && v t (indexName "o".toList i)) g
      ∧ ShowsRun a.mode (width items "o") m (fun t i => !(hex2bn a.mask).testBit i && v t (indexName "o".toList i)) e := by
  have hc : compile (moduleNet items) = some (some scd) := by
    unfold verilog2Scd at h
    rw [module_parsed true P.each hf, applies_eq P] at h
    exact h
  obtain ⟨h0, hw⟩ := S.nets
  have ho : (moduleNet items).outputSize < 2 ^ 64 := Nat.lt_trans (width_le P "o") (by decide)
  obtain ⟨hwf, hdet⟩ := compiled_read (legal_of_verilog P hm L) hc h0 hw ho
  obtain ⟨wf, hs⟩ := hwf memA
  have hs : (readScd scd memA).outputSize = width items "o" := hs
  obtain ⟨g, e, h1, h2, h3⟩ := strings_of_plain wf hr fun _ => false
  obtain ⟨p1, p2, p3⟩ := C51_verilog P hf hm L S h memA _ v hv (fun _ => false) a.cycles a.period
  rw [hdet memB memA]
  rw [hs] at h2 h3
  have hpos : 0 < (evaluatePlaintext (readScd scd memA) (inputsOf a.parse b.parse) (fun _ => false) a.cycles a.period).2 := by
    have hu := plainWires_solves wf (inputsOf a.parse b.parse) fun _ => false
    rw [executed_unique (C33_plain_outputs wf (inputsOf a.parse b.parse) (fun _ => false) a.cycles a.period hu).1
      (executed_count _ a.period _ a.cycles)]
    exact loopCount_pos _ _ _ hr.cycles
  refine ⟨g, e, _, h1, p1, showsRun_congr hpos h2 fun t ht i hi => ?_, showsRun_congr hpos h3 fun t ht i hi => ?_⟩
  · exact congrArg _ (p2 t ht i hi)
  · exact congrArg _ (p2 t ht i hi)

/-- C54, Bristol. Likewise for a Bristol circuit, evaluated afresh in each cycle. -/
theorem C54_bristol_partial {B : Bristol} (P : B.Proper) (file : List Char) (h : words file = B.text) (junk0 junk) :
    ∃ scd, brist2Scd file junk0 junk = some (some scd) ∧
      ∀ (memA memB : Circuit) {cap : Nat} {cr : Crypto} {a b : StrArgs} {G : GEnv} {E : EEnv},
        Ready cap cr (readScd scd memA) a.parse b.parse G E →
        let bit : Nat → Nat → Bool := fun t i =>
          B.eval (B.inputs (hex2bn a.input >>> (t * B.g)) (hex2bn b.input >>> (t * B.e))) (B.wires - B.out + i)
        ∃ g e, AlwaysFinishes cap (garbleStr cr (some (readScd scd memA)) a G) (evaluateStr cr (some (readScd scd memB)) b E) g e
          ∧ ShowsRun a.mode B.out a.cycles (fun t i => (hex2bn a.mask).testBit i && bit t i) g
          ∧ ShowsRun a.mode B.out a.cycles (fun t i => !(hex2bn a.mask).testBit i && bit t i) e := by
  obtain ⟨scd, hc0, hplain⟩ := C50_bristol P file h junk0 junk
  refine ⟨scd, hc0, ?_⟩
  intro memA memB cap cr a b G E hr bit
  have hsz := P.sizes
  have hsm := P.small
  have hfew := P.few
  have hin := P.inputs
  have hdr := bcircuit_drivers P
  have hgl : (bcircuit B).gates.length = B.gates.length := by simp [bcircuit]
  have hc : compile (bcircuit B) = some (some scd) := by
    unfold brist2Scd at hc0
    rw [parseBrist_words P.bfits true file h] at hc0
    exact hc0
  obtain ⟨hwf, hdet⟩ := compiled_read (bcircuit_legal P) hc (by omega) (by omega) (show B.out < 2 ^ 64 by omega)
  obtain ⟨wf, hs⟩ := hwf memA
  have hs : (readScd scd memA).outputSize = B.out := hs
  obtain ⟨g, e, h1, h2, h3⟩ := strings_of_plain wf hr fun _ => false
  obtain ⟨p1, p2, p3⟩ := hplain memA (inputsOf a.parse b.parse) (fun _ => false) a.cycles a.period
  rw [hdet memB memA]
  rw [hs, p1] at h2 h3
  refine ⟨g, e, h1, showsRun_congr hr.cycles h2 fun t ht i hi => ?_, showsRun_congr hr.cycles h3 fun t ht i hi => ?_⟩
  · exact congrArg _ (p2 t ht i hi)
  · exact congrArg _ (p2 t ht i hi)

/-! ## Example -/

/-- A file that was written is read back as exactly this circuit. -/
theorem readScd_eq {file : List Char} {c : ReadCircuit} (h : ∀ junk, SameCircuit (readScd file junk) (scheduled c))
    (hl : c.schedule.length = c.gates.length) (m : Circuit) : readScd file m = scheduled c := by
  obtain ⟨b1, b2, b3, b4⟩ := readScd_beyond file m
  have h1 := h m
  have hext : ∀ a b : Circuit, a.pInit = b.pInit → a.gInit = b.gInit → a.eInit = b.eInit → a.pInput = b.pInput →
      a.gInput = b.gInput → a.eInput = b.eInput → a.dffSize = b.dffSize → a.outputSize = b.outputSize →
      a.terminateId = b.terminateId → a.gateSize = b.gateSize → a.gate = b.gate → a.outputs = b.outputs → a.D = b.D →
      a.I = b.I → a = b := by
    rintro ⟨⟩ ⟨⟩ rfl rfl rfl rfl rfl rfl rfl rfl rfl rfl rfl rfl rfl rfl
    rfl
  refine hext _ _ h1.pInit h1.gInit h1.eInit h1.pInput h1.gInput h1.eInput h1.dffSize h1.outputSize h1.terminateId h1.gateSize
    (funext fun i => ?_) (funext fun i => ?_) (funext fun i => ?_) (funext fun i => ?_)
  · by_cases hi : i < c.gates.length
    · exact h1.gate i hi
    · rw [b1 i (by rw [h1.gateSize]; exact Nat.not_lt.mp hi)]
      show _ = match c.schedule[i]? with | some j => _ | none => _
      rw [List.getElem?_eq_none (by omega)]
  · by_cases hi : i < c.outputs.length
    · exact h1.outputs i hi
    · rw [b2 i (by rw [h1.outputSize]; exact Nat.not_lt.mp hi)]
      show _ = c.outputs[i]?.getD 0
      rw [List.getElem?_eq_none (by omega)]
      rfl
  · by_cases hi : i < c.dffs.length
    · exact h1.D i hi
    · rw [b3 i (by rw [h1.dffSize]; exact Nat.not_lt.mp hi)]
      show _ = match c.dffs[i]? with | some j => _ | none => _
      rw [List.getElem?_eq_none (by omega)]
  · by_cases hi : i < c.dffs.length
    · exact h1.I i hi
    · rw [b4 i (by rw [h1.dffSize]; exact Nat.not_lt.mp hi)]
      show _ = match c.dffs[i]? with | some j => _ | none => _
      rw [List.getElem?_eq_none (by omega)]


/-- `visit` with a bound on the depth, to be computed. -/
def visitN (c : ReadCircuit) : Nat → SortState → Int → Option (Except (List Int) SortState)
  | 0, _, _ => none
  | n + 1, st, idx =>
    if idx < 0 then some (.ok st)
    else (getI st.marks idx).bind fun m =>
      match m with
      | .temp => some (.error [idx])
      | .un => (setI st.marks idx .temp).bind fun marks =>
        (getI c.gates (idx - c.iid)).bind fun g =>
        (visitN c n ⟨marks, st.sorted⟩ g.input0).bind fun r0 =>
        match r0 with
        | .error loop => some (.error (loop ++ [idx]))
        | .ok st => (visitN c n st g.input1).bind fun r1 =>
          match r1 with
          | .error loop => some (.error (loop ++ [idx]))
          | .ok st => (setI st.marks idx .per).bind fun marks => some (.ok ⟨marks, st.sorted ++ [idx]⟩)
      | .per => some (.ok st)

theorem visitN_sound (c : ReadCircuit) : ∀ (n : Nat) (st : SortState) (idx : Int) (r), visitN c n st idx = some r →
    visit c st idx = some r := by
  intro n
  induction n with
  | zero => intro st idx r h; cases h
  | succ n ih =>
    intro st idx r h
    rw [visitN] at h
    rw [visit]
    split at h
    · rename_i hi; rw [if_pos hi]; exact h
    · rename_i hi
      rw [if_neg hi]
      obtain ⟨m, hm, h⟩ := Option.bind_eq_some_iff.1 h
      rw [hm]
      cases m with
      | temp | per => exact h
      | un =>
        simp only [Option.bind_eq_bind, Option.bind_some] at h ⊢
        obtain ⟨marks, hm, h⟩ := Option.bind_eq_some_iff.1 h
        obtain ⟨g, hg, h⟩ := Option.bind_eq_some_iff.1 h
        obtain ⟨r0, h0, h⟩ := Option.bind_eq_some_iff.1 h
        rw [hm, Option.bind_some, hg, Option.bind_some, ih _ _ _ h0, Option.bind_some]
        cases r0 with
        | error l => exact h
        | ok st =>
          obtain ⟨r1, h1, h⟩ := Option.bind_eq_some_iff.1 h
          simp only
          rw [ih _ _ _ h1, Option.bind_some]
          cases r1 with
          | error l => exact h
          | ok st => exact h

def sortLoopN (c : ReadCircuit) : Nat → SortState → Option (Except (List Int) SortState)
  | 0, _ => none
  | n + 1, st => if st.sorted.length = c.iid + c.gates.length then some (.ok st)
    else match firstUnmarked c st.marks with
      | none => some (.ok st)
      | some w => (visitN c n st w).bind fun r =>
        match r with
        | .error loop => some (.error loop)
        | .ok st => sortLoopN c n st

theorem sortLoopN_sound (c : ReadCircuit) : ∀ (n : Nat) (st : SortState) (r), sortLoopN c n st = some r → sortLoop c st = some r := by
  intro n
  induction n with
  | zero => intro st r h; cases h
  | succ n ih =>
    intro st r h
    rw [sortLoopN] at h
    rw [sortLoop]
    split at h
    · rename_i hi; rw [if_pos hi]; exact h
    · rename_i hi
      rw [if_neg hi]
      cases hf : firstUnmarked c st.marks with
      | none => rw [hf] at h; exact h
      | some w =>
        rw [hf] at h
        obtain ⟨r0, h0, h⟩ := Option.bind_eq_some_iff.1 h
        simp only [Option.bind_eq_bind]
        rw [visitN_sound c _ _ _ _ h0, Option.bind_some]
        cases r0 with
        | error l => exact h
        | ok st => exact ih _ _ h


/-- The sorted netlist of the example. -/
def verilogSorted : ReadCircuit := { verilogNumbered with schedule := [0, 1, 2, 3, 4] }

theorem verilogNumbered_sorted : sortNetlist verilogNumbered = some (some verilogSorted) := by
  have h : topologicalSort verilogNumbered = some (some [0, 1, 2, 3, 4, 5, 6, 7, 8]) := by
    unfold topologicalSort
    have e : ∃ m, sortLoopN verilogNumbered 20 ⟨(List.range (verilogNumbered.iid + verilogNumbered.gates.length)).map fun i =>
        if i < verilogNumbered.iid then Mark.per else Mark.un, (List.range verilogNumbered.iid).map fun i : Nat => (i : Int)⟩
        = some (.ok ⟨m, [0, 1, 2, 3, 4, 5, 6, 7, 8]⟩) := ⟨List.replicate 9 .per, by rfl⟩
    obtain ⟨m, e⟩ := e
    have := sortLoopN_sound _ _ _ _ e
    simp only [Option.bind_eq_bind]
    rw [this]
    rfl
  unfold sortNetlist
  rw [h]
  decide +kernel

theorem verilogSorted_writable : Writable verilogSorted := by
  constructor <;> decide

theorem verilogText_file : ∃ scd, verilog2Scd verilogText = some (some scd)
    ∧ ∀ mem, readScd scd mem = scheduled verilogSorted := by
  obtain ⟨scd, h2, h3⟩ := C27_roundtrip_partial verilogSorted_writable
  refine ⟨scd, ?_, readScd_eq h3 rfl⟩
  unfold verilog2Scd
  rw [module_parsed true verilogItems_proper.each verilogItems_written, applies_eq verilogItems_proper]
  show compile (moduleNet verilogItems) = _
  unfold compile
  rw [verilogItems_id]
  simp [verilogNumbered_sorted, h2]

/-- Three cycles; the garbler gets the first output bit. -/
def accA (mode : OutputMode) (low : Bool) : StrArgs :=
  ⟨"0".toList, "0".toList, "0".toList, "2D".toList, 3, "1".toList, 0, mode, true, low⟩

def accB (mode : OutputMode) (low : Bool) : StrArgs :=
  ⟨"0".toList, "0".toList, "0".toList, "5".toList, 3, "1".toList, 0, mode, true, low⟩

theorem segment1 : ∀ i < numBits (hex2bn "1".toList), (hex2bn "1".toList).testBit i = true := by decide +kernel

abbrev accS (mode : OutputMode) (low : Bool) : Session :=
  sessionOf prCrypto (scheduled verilogSorted) (accA mode low).parse (accB mode low).parse prG prE

theorem accS_noAccident (mode : OutputMode) (low : Bool) : (accS mode low).NoAccident 2 := by
  rw [show accS mode low = accS .consecutive low from by cases low <;> rfl]
  intro k hk
  have : k = 0 ∨ k = 1 ∨ k = 2 := by omega
  cases low <;> rcases this with rfl | rfl | rfl <;>
    exact ⟨checkG_sound (by decide +kernel), checkE_sound (by decide +kernel)⟩

theorem acc_ready (mode : OutputMode) (low : Bool) :
    Ready 1 prCrypto (scheduled verilogSorted) (accA mode low).parse (accB mode low).parse prG prE where
  cycles := by show 0 < 3; decide
  term := fun h => absurd rfl h
  paired := ⟨rfl, rfl, rfl, rfl, rfl, rfl, rfl, rfl⟩
  conn := ⟨by decide, fun h => (by cases h), fun h => (by cases h), fun h => (by cases h), fun h => (by cases h)⟩
  sizes := ⟨by decide, by decide, by decide, by show 0 + 3 * 1 < 2 ^ 30; decide, by show numBytes 0 < 2 ^ 31; decide,
    by show numBytes 5 < 2 ^ 31; decide⟩
  gFresh := fun _ => rfl
  eFresh := ⟨fun _ => rfl, fun _ => by show 5 ≤ (BitVec.allOnes 32).toNat; decide⟩
  lucky := fun u _ k hk _ j hj => accS_noAccident mode low j (by
    have : k < 3 := hk
    omega)
  publicStop := fun u _ h => absurd rfl h
  kept := fun u _ t _ i _ => not_lost_of_segment segment1 t i

/-- The hypotheses of `C54_verilog_partial` are met by this module and these numbers. -/
example (mode : OutputMode) (low : Bool) (mem : Circuit) : ∃ scd v, ProperModule verilogItems ∧ WrittenIn verilogItems verilogText
    ∧ NoMidNames verilogItems ∧ VLegal verilogItems ∧ VSizes verilogItems ∧ verilog2Scd verilogText = some (some scd)
    ∧ Ready 1 prCrypto (readScd scd mem) (accA mode low).parse (accB mode low).parse prG prE
    ∧ VerilogSolves verilogItems ⟨0, 0, 0, 0, 0x2D, 5⟩ v := by
  obtain ⟨scd, h1, h2⟩ := verilogText_file
  obtain ⟨v, hv⟩ := C51_meaning verilogItems_proper verilogItems_written verilogItems_noMid verilogItems_legal
    verilogItems_oneDriver verilogItems_sizes h1 ⟨0, 0, 0, 0, 0x2D, 5⟩
  exact ⟨scd, v, verilogItems_proper, verilogItems_written, verilogItems_noMid, verilogItems_legal, verilogItems_sizes, h1,
    by rw [h2]; exact acc_ready mode low, hv⟩

/-- The sorted netlist of the Bristol example. -/
def bristSorted : ReadCircuit :=
  ⟨0, 0, 0, 0, 1, 1, [⟨0, 1, 2, 6⟩, ⟨2, -1, 3, 12⟩, ⟨3, -1, 4, 12⟩, ⟨0, 1, 5, 8⟩], [], [4, 5], 0, [0, 1, 2, 3]⟩

theorem bristSorted_eq : sortNetlist { bristSorted with schedule := [] } = some (some bristSorted) := by
  have h : topologicalSort { bristSorted with schedule := [] } = some (some [0, 1, 2, 3, 4, 5]) := by
    unfold topologicalSort
    have e : sortLoopN { bristSorted with schedule := [] } 20 ⟨(List.range 6).map fun i =>
        if i < 2 then Mark.per else Mark.un, (List.range 2).map fun i : Nat => (i : Int)⟩
        = some (.ok ⟨List.replicate 6 .per, [0, 1, 2, 3, 4, 5]⟩) := by rfl
    have := sortLoopN_sound _ _ _ _ e
    simp only [Option.bind_eq_bind]
    refine (congrArg (fun o => Option.bind o _) this).trans ?_
    rfl
  unfold sortNetlist
  rw [h]
  decide +kernel

theorem bristExample_read {file : List Char} (h : words file = bristExample.text) {junk0 junk scd}
    (hs : brist2Scd file junk0 junk = some (some scd)) (mem : Circuit) : readScd scd mem = scheduled bristSorted := by
  have w : Writable bristSorted := by constructor <;> decide
  obtain ⟨scd', h2, h3⟩ := C27_roundtrip_partial w
  have : compile (bcircuit bristExample) = some (some scd') := by
    unfold compile
    rw [show idAssignment true (bcircuit bristExample) = some { bristSorted with schedule := [] } by decide +kernel]
    simp [bristSorted_eq, h2]
  unfold brist2Scd at hs
  rw [parseBrist_words bristExample_proper.bfits true file h] at hs
  have := this.symm.trans hs
  simp only [Option.some.injEq] at this
  subst this
  exact readScd_eq h3 rfl mem

abbrev brS (mode : OutputMode) (low : Bool) : Session :=
  sessionOf prCrypto (scheduled bristSorted) (accA mode low).parse (accB mode low).parse prG prE

theorem brS_noAccident (mode : OutputMode) (low : Bool) : (brS mode low).NoAccident 2 := by
  rw [show brS mode low = brS .consecutive low from by cases low <;> rfl]
  intro k hk
  have : k = 0 ∨ k = 1 ∨ k = 2 := by omega
  cases low <;> rcases this with rfl | rfl | rfl <;>
    exact ⟨checkG_sound (by decide +kernel), checkE_sound (by decide +kernel)⟩

/-- The hypotheses of `C54_bristol_partial` are met by this circuit and these numbers. -/
example (mode : OutputMode) (low : Bool) (mem : Circuit) : ∃ file, words file = bristExample.text ∧ bristExample.Proper
    ∧ ∀ junk0 junk scd, brist2Scd file junk0 junk = some (some scd) →
      Ready 1 prCrypto (readScd scd mem) (accA mode low).parse (accB mode low).parse prG prE := by
  refine ⟨"4 6\n1 1 2\n\n2 1 0 1 2 XOR\n1 1 2 3 INV\n1 1 3 4 INV\n2 1 0 1 5 AND\n".toList, by decide +kernel,
    bristExample_proper, fun junk0 junk scd hs => ?_⟩
  rw [bristExample_read (by decide +kernel) hs]
  exact {
    cycles := by show 0 < 3; decide
    term := fun h => absurd rfl h
    paired := ⟨rfl, rfl, rfl, rfl, rfl, rfl, rfl, rfl⟩
    conn := ⟨by decide, fun h => (by cases h), fun h => (by cases h), fun h => (by cases h), fun h => (by cases h)⟩
    sizes := ⟨by decide, by decide, by decide, by show 0 + 3 * 1 < 2 ^ 30; decide, by show numBytes 0 < 2 ^ 31; decide,
      by show numBytes 5 < 2 ^ 31; decide⟩
    gFresh := fun _ => rfl
    eFresh := ⟨fun _ => rfl, fun _ => by show 4 ≤ (BitVec.allOnes 32).toNat; decide⟩
    lucky := fun u _ k hk _ j hj => brS_noAccident mode low j (by
      have : k < 3 := hk
      omega)
    publicStop := fun u _ h => absurd rfl h
    kept := fun u _ t _ i _ => not_lost_of_segment segment1 t i }

end TinyGarble.Props
