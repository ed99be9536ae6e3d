import Verif.Proof.Main
import Verif.Props.EndToEnd
import Verif.Props.Mapping

/-!
# C88: different options of the two parties; C89: the programs
-/

namespace TinyGarble.Props
open TinyGarble Spec Proof

/-! ## C88 -/

/-- C88, `CheckOptionsAlice` and `CheckOptionsBob` (which `main` does not call): if Alice's strings are empty, both return the same status however they are
scheduled, SUCCESS (0) when their options are the same and FAILURE (-1) when not. Missing: other strings (`C88_check_undefined`) and that the
functions are called (`C88_false`). -/
theorem C88_check_partial {oA oB : SharedOptions} (hs : oA.scdFile = []) (hm : oA.mask = []) (hc : oA.cycles < 2 ^ 64) {cap : Nat} (hcap : 0 < cap) :
    AlwaysFinishes cap (checkOptionsAlice oA) (checkOptionsBob oB) (if oA = oB then 0 else -1) (if oA = oB then 0 else -1) := by
  obtain ⟨s, r, h⟩ := dual_options (oB := oB) hs hm hc
  exact h.alwaysFinishes hcap

example : AlwaysFinishes 1 (checkOptionsAlice ⟨[], 1000, [], false, true⟩) (checkOptionsBob ⟨[], 1001, [], false, true⟩) (-1) (-1) :=
  C88_check_partial rfl rfl (by decide) (by decide)

/-- C88 fails for other strings: if Alice's file name or mask is not empty (and contains no zero byte, as is the case for arguments of a program), then
`CheckOptionsBob` reads memory behind its buffer, also if the options are the same. -/
theorem C88_check_undefined {oA oB : SharedOptions} (hne : oA.scdFile ≠ [] ∨ oA.mask ≠ []) (h1 : 0 ∉ oA.scdFile) (h2 : 0 ∉ oA.mask)
    (l1 : oA.scdFile.length < 2 ^ 31) (l2 : oA.mask.length < 2 ^ 31) {cap : Nat} (hc : 0 < cap) :
    CanBeUndefined cap (checkOptionsAlice oA) (checkOptionsBob oB) := options_undefined hne h1 h2 l1 l2 hc

/-- The default mask. -/
example : CanBeUndefined 1 (checkOptionsAlice ⟨[], 1, [0x30], false, false⟩) (checkOptionsBob ⟨[], 1, [0x30], false, false⟩) :=
  C88_check_undefined (.inr (by decide)) (by decide) (by decide) (by decide) (by decide) (by decide)

/-- The circuit file of the example circuit `prCircuit`. -/
def prText : List Char :=
  "0 0 0 1 1 1 1 2 10 7\n1 4 1 4 6 0 0 \n2 3 2 3 7 1 -2 \n6 6 8 8 14 14 6 \n9 5 \n8 \n-2 \n".toList

/-- The files of both parties. -/
def prFiles : Files := fun n => if n = "pr.scd".toList then some prText else none

/-- The options of the example. -/
def prOptions (alice : Bool) (input mask : String) : RunOptions :=
  ⟨alice, !alice, "pr.scd".toList, "0".toList, "4".toList, "0".toList, input.toList, 4, mask.toList, 1, none, true, false⟩

/-- The circuit in the file. -/
def prRead : ReadCircuit :=
  ⟨0, 0, 0, 1, 1, 1, [⟨1, 2, 4, 6⟩, ⟨4, 3, 5, 6⟩, ⟨1, 2, 6, 8⟩, ⟨4, 3, 7, 8⟩, ⟨6, 7, 8, 14⟩, ⟨0, 1, 9, 14⟩, ⟨0, -2, 10, 6⟩], [⟨8, -2, 3, -1⟩], [9, 5], 10,
    [0, 1, 2, 3, 4, 5, 6]⟩

theorem prText_read (mem : Circuit) : readScd prText mem = scheduled prRead := by
  have w : Writable prRead := by constructor <;> decide
  obtain ⟨scd, h1, h2⟩ := C27_roundtrip_partial w
  have h : writeScd prRead = some prText := by decide +kernel
  rw [h] at h1
  cases h1
  exact readScd_eq h2 rfl mem

theorem prMain_alice (mem : Circuit) (input mask : String) (E : EEnv) :
    tinyGarbleMain prCrypto (fun _ => true) prFiles mem true prG E (prOptions true input mask) =
      garbleStr prCrypto (some (scheduled prRead)) ((prOptions true input mask).args prFiles .consecutive) prG := by
  have h : openScd (fun _ => true) prFiles "pr.scd".toList mem = some (scheduled prRead) := congrArg some (prText_read mem)
  have hm : parseMode (prOptions true input mask).mode = some .consecutive := rfl
  unfold tinyGarbleMain
  rw [hm]
  simp only [show (prOptions true input mask).scd = "pr.scd".toList from rfl, h]
  rfl

theorem prMain_bob (mem : Circuit) (input mask : String) (G : GEnv) :
    tinyGarbleMain prCrypto (fun _ => true) prFiles mem true G prE (prOptions false input mask) =
      evaluateStr prCrypto (some (scheduled prRead)) ((prOptions false input mask).args prFiles .consecutive) prE := by
  have h : openScd (fun _ => true) prFiles "pr.scd".toList mem = some (scheduled prRead) := congrArg some (prText_read mem)
  have hm : parseMode (prOptions false input mask).mode = some .consecutive := rfl
  unfold tinyGarbleMain
  rw [hm]
  simp only [show (prOptions false input mask).scd = "pr.scd".toList from rfl, h]
  rfl

/-- C88 fails: Alice is called with mask 0 (all outputs are Bob's), Bob with mask 3 (they are Alice's). Both programs end with SUCCESS and print 0,
however they are scheduled; with mask 0 also for Bob, Bob prints 31. -/
theorem C88_false (mem : Circuit) (G : GEnv) (E : EEnv) :
    AlwaysReturns 1000 (tinyGarbleMain prCrypto (fun _ => true) prFiles mem true prG E (prOptions true "5" "0"))
      (tinyGarbleMain prCrypto (fun _ => true) prFiles mem true G prE (prOptions false "7" "3")) "0".toList "0".toList
    ∧ AlwaysReturns 1000 (tinyGarbleMain prCrypto (fun _ => true) prFiles mem true prG E (prOptions true "5" "0"))
      (tinyGarbleMain prCrypto (fun _ => true) prFiles mem true G prE (prOptions false "7" "0")) "0".toList "31".toList := by
  rw [prMain_alice, prMain_bob, prMain_bob]
  exact ⟨alwaysReturns_of (n := 3000) (by decide +kernel), alwaysReturns_of (n := 3000) (by decide +kernel)⟩

/-! ## C89 -/

/-- What is written. -/
theorem writeOutputs_iff {writable : List Char → Bool} {fs fs' : Files} {name : List Char} {m t : Option (Option (List Char))} :
    writeOutputs writable fs name m t = .success fs' ↔
      ∃ map scd, m = some (some map) ∧ t = some (some scd) ∧ writable (name ++ ".map".toList) = true ∧ writable name = true
        ∧ fs' name = some scd ∧ fs' (name ++ ".map".toList) = some map ∧ ∀ n, n ≠ name → n ≠ name ++ ".map".toList → fs' n = fs n := by
  have hmap : name ++ ".map".toList ≠ name := by
    intro h
    have := congrArg List.length h
    simp at this
  constructor
  · intro h
    unfold writeOutputs at h
    split at h <;> try cases h
    rename_i m
    split at h <;> try cases h
    rename_i hw
    split at h <;> try cases h
    rename_i t
    split at h <;> try cases h
    rename_i hw2
    refine ⟨m, t, rfl, rfl, hw, hw2, ?_, ?_, ?_⟩
    · simp [Files.write]
    · simp only [Files.write]
      rw [if_neg hmap]
      simp
    · intro n h1 h2
      simp only [Files.write]
      rw [if_neg h1, if_neg h2]
  · rintro ⟨map, scd, hm, h2, w1, w2, f1, f2, f3⟩
    unfold writeOutputs
    simp only [hm, h2, w1, w2, if_true]
    congr 1
    funext n
    simp only [Files.write]
    by_cases e1 : n = name
    · rw [if_pos e1, e1, f1]
    · rw [if_neg e1]
      by_cases e2 : n = name ++ ".map".toList
      · rw [if_pos e2, e2, f2]
      · rw [if_neg e2, f3 n e1 e2]

/-- C89, V2SCD_Main for a Verilog netlist: the program exits with SUCCESS exactly when the netlist and the outputs can be opened and the netlist is compiled,
and then the circuit file and the mapping file are there and nothing else has changed. -/
theorem C89_convert {writable : List Char → Bool} {fs fs' : Files} {junk0 junk} {o : ConvertOptions} (hn : o.netlist ≠ []) :
    convertMain writable fs junk0 junk o = .success fs' ↔
      ∃ text map scd, o.scd ≠ [] ∧ fs o.netlist = some text ∧ verilog2Map text = some (some map) ∧ verilog2Scd text = some (some scd)
        ∧ writable (o.scd ++ ".map".toList) = true ∧ writable o.scd = true
        ∧ fs' o.scd = some scd ∧ fs' (o.scd ++ ".map".toList) = some map
        ∧ ∀ n, n ≠ o.scd → n ≠ o.scd ++ ".map".toList → fs' n = fs n := by
  unfold convertMain
  rw [if_pos hn]
  constructor
  · intro h
    split at h
    · cases h
    · rename_i hs
      split at h
      · cases h
      · rename_i text ht
        obtain ⟨m, t, r⟩ := writeOutputs_iff.1 h
        exact ⟨text, m, t, hs, ht, r⟩
  · rintro ⟨text, map, scd, hs, ht, r⟩
    rw [if_neg hs, ht]
    exact writeOutputs_iff.2 ⟨map, scd, r⟩

/-- C89, V2SCD_Main for a Bristol netlist: the program exits with SUCCESS if the files can be opened. The circuit file is then there, and nothing but the
mapping file has changed besides. -/
theorem C89_convert_bristol {B : Bristol} (P : B.Proper) {file : List Char} (hf : words file = B.text) {writable : List Char → Bool} {fs : Files}
    {junk0 junk} {o : ConvertOptions} (hn : o.netlist = []) (hb : o.brist ≠ []) (hs : o.scd ≠ []) (ht : fs o.brist = some file)
    (w1 : writable (o.scd ++ ".map".toList) = true) (w2 : writable o.scd = true) :
    ∃ fs' scd, convertMain writable fs junk0 junk o = .success fs' ∧ brist2Scd file junk0 junk = some (some scd)
      ∧ fs' o.scd = some scd ∧ (fs' (o.scd ++ ".map".toList)).isSome = true ∧ ∀ n, n ≠ o.scd → n ≠ o.scd ++ ".map".toList → fs' n = fs n := by
  obtain ⟨scd, h1, -⟩ := C50_bristol P file hf junk0 junk
  have hm : ∃ m, brist2Map file junk0 junk = some (some m) := by
    unfold brist2Scd at h1
    unfold brist2Map
    rw [parseBrist_words P.bfits true file hf] at h1 ⊢
    have hsz := P.sizes
    have hsm := P.small
    have hfew := P.few
    have hin := P.inputs
    have hdr := bcircuit_drivers P
    have hgl : (bcircuit B).gates.length = B.gates.length := by simp [bcircuit]
    obtain ⟨_, _, h, -⟩ := C65_mapping (bcircuit_legal P) (bcircuit_oneDriver P) h1 (by omega) (by omega) (show B.out < 2 ^ 64 by omega)
    exact ⟨_, h⟩
  obtain ⟨m, hm⟩ := hm
  have hc : convertMain writable fs junk0 junk o = writeOutputs writable fs o.scd (some (some m)) (some (some scd)) := by
    unfold convertMain
    rw [if_neg hs, if_neg (by rw [hn]; simp), if_pos hb, ht]
    simp only
    rw [hm, h1]
  have hw : writeOutputs writable fs o.scd (some (some m)) (some (some scd)) = .success ((fs.write (o.scd ++ ".map".toList) m).write o.scd scd) := by
    unfold writeOutputs
    simp only [w1, w2, if_true]
  obtain ⟨m', t', e1, e2, -, -, f1, f2, f3⟩ := writeOutputs_iff.1 hw
  cases e1
  cases e2
  exact ⟨_, scd, hc.trans hw, h1, f1, by rw [f2]; rfl, f3⟩

/-- C89, from the file with a module to the lines that the two programs print. V2SCD_Main exits with SUCCESS; the circuit file is copied to the
two parties, who run TinyGarble, each with the own files for the inputs. Both exit with SUCCESS however they are scheduled, and print the outputs of
the module: Alice those where the mask has a 1, Bob the others. Missing: what `Ready` excludes (see C01). -/
theorem C89_programs_partial {items : List Item} (P : ProperModule items) {text : List Char} (hf : WrittenIn items text)
    (hm : NoMidNames items) (L : VLegal items) (S : VSizes items)
    {writable : List Char → Bool} {fs fs' : Files} {junk0 junk} {o : ConvertOptions} (hn : o.netlist ≠ []) (ht : fs o.netlist = some text)
    (h : convertMain writable fs junk0 junk o = .success fs')
    {writableA writableB : List Char → Bool} {fsA fsB : Files} {oA oB : RunOptions} (memA memB : Circuit) {modeA modeB : OutputMode}
    (hA : fsA oA.scd = fs' o.scd) (hB : fsB oB.scd = fs' o.scd) (wA : writableA oA.scd = true) (wB : writableB oB.scd = true)
    (alice : oA.alice = true) (bob : oB.alice = false ∧ oB.bob = true) (mA : Selects oA.mode modeA) (mB : Selects oB.mode modeB)
    {cap : Nat} {cr : Crypto} {G G' : GEnv} {E E' : EEnv}
    (hr : ∀ c, openScd writableA fsA oA.scd memA = some c → Ready cap cr c (oA.args fsA modeA).parse (oB.args fsB modeB).parse G E)
    (v : Nat → Name → Bool)
    (hv : VerilogSolves items ⟨hex2bn (readFileOrPassHex fsA oA.pInit), hex2bn (readFileOrPassHex fsA oA.init),
      hex2bn (readFileOrPassHex fsB oB.init), hex2bn (readFileOrPassHex fsA oA.pInput), hex2bn (readFileOrPassHex fsA oA.input),
      hex2bn (readFileOrPassHex fsB oB.input)⟩ v) :
    ∃ a b m, AlwaysFinishes cap (tinyGarbleMain cr writableA fsA memA true G E' oA) (tinyGarbleMain cr writableB fsB memB true G' E oB) a b
      ∧ NamedExecuted (frame items) oA.period v oA.cycles m
      ∧ ShowsRun modeA (width items "o") m (fun t i => (hex2bn oA.mask).testBit i && v t (indexName "o".toList i)) a
      ∧ ShowsRun modeA (width items "o") m (fun t i => !(hex2bn oA.mask).testBit i && v t (indexName "o".toList i)) b := by
  obtain ⟨text', map, scd, -, ht', -, hs, -, -, f1, -, -⟩ := (C89_convert hn).1 h
  rw [ht] at ht'
  cases ht'
  have cA : openScd writableA fsA oA.scd memA = some (readScd scd memA) := by
    unfold openScd
    rw [if_pos wA, hA, f1]
    rfl
  have cB : openScd writableB fsB oB.scd memB = some (readScd scd memB) := by
    unfold openScd
    rw [if_pos wB, hB, f1]
    rfl
  have eA : tinyGarbleMain cr writableA fsA memA true G E' oA = garbleStr cr (some (readScd scd memA)) (oA.args fsA modeA) G := by
    unfold tinyGarbleMain
    rw [(parseMode_iff _ _).2 mA]
    simp only [alice, cA]
    simp
  have eB : tinyGarbleMain cr writableB fsB memB true G' E oB = evaluateStr cr (some (readScd scd memB)) (oB.args fsB modeB) E := by
    unfold tinyGarbleMain
    rw [(parseMode_iff _ _).2 mB]
    simp only [bob.1, bob.2, cB]
    simp
  rw [eA, eB]
  exact C54_verilog_partial P hf hm L S hs memA memB (hr _ cA) v hv

/-- C89, SCD_Evaluator_Main, on the circuit file with its mapping file: prints the outputs of the module. Missing: that it exits with FAILURE
otherwise, which is false (`C89_evaluator_exit_status`). -/
theorem C89_evaluator_partial {items : List Item} (P : ProperModule items) {text : List Char} (hf : WrittenIn items text)
    (hm : NoMidNames items) (L : VLegal items) (S : VSizes items)
    {writable : List Char → Bool} {fs fs' : Files} {junk0 junk} {o : ConvertOptions} (hn : o.netlist ≠ []) (ht : fs o.netlist = some text)
    (h : convertMain writable fs junk0 junk o = .success fs')
    {q : EvaluatorOptions} (hq : q.scd = o.scd) (hw : writable (o.scd ++ ".csv".toList) = true) {mode : OutputMode}
    (hmode : Selects q.mode mode) (hc : 0 < q.cycles) (mem : Circuit) (w0 : Nat → Bool)
    (hT : ∀ c, openScd writable fs' q.scd mem = some c → q.period ≠ 0 → 0 < c.terminateId)
    (v : Nat → Name → Bool)
    (hv : VerilogSolves items ⟨hex2bn (readFileOrPassHex fs' q.pInit), hex2bn (readFileOrPassHex fs' q.gInit), hex2bn (readFileOrPassHex fs' q.eInit),
      hex2bn (readFileOrPassHex fs' q.pInput), hex2bn (readFileOrPassHex fs' q.gInput), hex2bn (readFileOrPassHex fs' q.eInput)⟩ v) :
    ∃ line m, evaluatorMain writable fs' mem w0 q = .success line ∧ NamedExecuted (frame items) q.period v q.cycles m
      ∧ ShowsRun mode (width items "o") m (fun t i => v t (indexName "o".toList i)) line := by
  replace hv : VerilogSolves items (q.inputs fs').parse v := hv
  obtain ⟨text', map, scd, hne, ht', -, hs, -, hws, f1, f2, -⟩ := (C89_convert hn).1 h
  rw [ht] at ht'
  cases ht'
  have hcmp : compile (moduleNet items) = some (some scd) := by
    unfold verilog2Scd at hs
    rw [module_parsed true P.each hf, applies_eq P] at hs
    exact hs
  obtain ⟨h0, hw'⟩ := S.nets
  have ho : (moduleNet items).outputSize < 2 ^ 64 := Nat.lt_trans (width_le P "o") (by decide)
  obtain ⟨hwf, -⟩ := compiled_read (legal_of_verilog P hm L) hcmp h0 hw' ho
  obtain ⟨wf, hsz⟩ := hwf mem
  have hsz : (readScd scd mem).outputSize = width items "o" := hsz
  obtain ⟨p1, p2, p3⟩ := C51_verilog P hf hm L S hs mem (q.inputs fs').parse v hv w0 q.cycles q.period
  have hopen : openScd writable fs' q.scd mem = some (readScd scd mem) := by
    unfold openScd
    rw [hq, if_pos hws, f1]
    rfl
  have hts := hT _ hopen
  refine ⟨_, _, ?_, p1, showsRun_high ?_ mode p2 p3⟩
  · unfold evaluatorMain
    rw [if_neg (by rw [hq]; exact hne), (parseMode_iff _ _).2 hmode, hopen, hq, f2, hw]
    unfold evaluatePlaintextStr
    simp only
    rw [if_neg (by intro ⟨a, b⟩; have := hts a; omega), hsz]
    rfl
  · obtain ⟨v', hv'⟩ : ∃ v', Solves (readScd scd mem) (q.inputs fs').parse v' := ⟨_, plainWires_solves wf _ fun _ => false⟩
    obtain ⟨h1, -, -⟩ := C33_plain_outputs wf (q.inputs fs').parse w0 q.cycles q.period hv'
    rw [executed_unique h1 (executed_count _ q.period v' q.cycles)]
    exact loopCount_pos _ _ _ hc

/-- C89 for a Bristol netlist, from the file with the netlist to the lines that the two programs print, as in `C89_programs_partial`. -/
theorem C89_bristol_partial {B : Bristol} (P : B.Proper) {file : List Char} (hf : words file = B.text)
    {writable : List Char → Bool} {fs : Files} {junk0 junk} {o : ConvertOptions} (hn : o.netlist = []) (hb : o.brist ≠ []) (hs : o.scd ≠ [])
    (ht : fs o.brist = some file) (w1 : writable (o.scd ++ ".map".toList) = true) (w2 : writable o.scd = true) :
    ∃ fs', convertMain writable fs junk0 junk o = .success fs' ∧
      ∀ {writableA writableB : List Char → Bool} {fsA fsB : Files} {oA oB : RunOptions} (memA memB : Circuit) {modeA modeB : OutputMode},
        fsA oA.scd = fs' o.scd → fsB oB.scd = fs' o.scd → writableA oA.scd = true → writableB oB.scd = true →
        oA.alice = true → oB.alice = false ∧ oB.bob = true → Selects oA.mode modeA → Selects oB.mode modeB →
        ∀ {cap : Nat} {cr : Crypto} {G G' : GEnv} {E E' : EEnv},
        (∀ c, openScd writableA fsA oA.scd memA = some c → Ready cap cr c (oA.args fsA modeA).parse (oB.args fsB modeB).parse G E) →
        let bit : Nat → Nat → Bool := fun t i => B.eval (B.inputs (hex2bn (readFileOrPassHex fsA oA.input) >>> (t * B.g))
          (hex2bn (readFileOrPassHex fsB oB.input) >>> (t * B.e))) (B.wires - B.out + i)
        ∃ a b, AlwaysFinishes cap (tinyGarbleMain cr writableA fsA memA true G E' oA) (tinyGarbleMain cr writableB fsB memB true G' E oB) a b
          ∧ ShowsRun modeA B.out oA.cycles (fun t i => (hex2bn oA.mask).testBit i && bit t i) a
          ∧ ShowsRun modeA B.out oA.cycles (fun t i => !(hex2bn oA.mask).testBit i && bit t i) b := by
  obtain ⟨fs', scd, hc, h1, f1, -, -⟩ := C89_convert_bristol P hf (junk0 := junk0) (junk := junk) hn hb hs ht w1 w2
  obtain ⟨scd', h1', hrun⟩ := C54_bristol_partial P file hf junk0 junk
  rw [h1] at h1'
  cases h1'
  refine ⟨fs', hc, fun {writableA writableB fsA fsB oA oB} memA memB {modeA modeB} hA hB wA wB alice bob mA mB {cap cr G G' E E'} hr => ?_⟩
  have cA : openScd writableA fsA oA.scd memA = some (readScd scd memA) := by
    unfold openScd
    rw [if_pos wA, hA, f1]
    rfl
  have cB : openScd writableB fsB oB.scd memB = some (readScd scd memB) := by
    unfold openScd
    rw [if_pos wB, hB, f1]
    rfl
  have eA : tinyGarbleMain cr writableA fsA memA true G E' oA = garbleStr cr (some (readScd scd memA)) (oA.args fsA modeA) G := by
    unfold tinyGarbleMain
    rw [(parseMode_iff _ _).2 mA]
    simp only [alice, cA]
    simp
  have eB : tinyGarbleMain cr writableB fsB memB true G' E oB = evaluateStr cr (some (readScd scd memB)) (oB.args fsB modeB) E := by
    unfold tinyGarbleMain
    rw [(parseMode_iff _ _).2 mB]
    simp only [bob.1, bob.2, cB]
    simp
  rw [eA, eB]
  exact hrun memA memB (hr _ cA)

/-- C89 for a Bristol netlist, SCD_Evaluator_Main. -/
theorem C89_bristol_evaluator_partial {B : Bristol} (P : B.Proper) {file : List Char} (hf : words file = B.text)
    {writable : List Char → Bool} {fs : Files} {junk0 junk} {o : ConvertOptions} (hn : o.netlist = []) (hb : o.brist ≠ []) (hs : o.scd ≠ [])
    (ht : fs o.brist = some file) (w1 : writable (o.scd ++ ".map".toList) = true) (w2 : writable o.scd = true) :
    ∃ fs', convertMain writable fs junk0 junk o = .success fs' ∧
      ∀ {q : EvaluatorOptions}, q.scd = o.scd → writable (o.scd ++ ".csv".toList) = true → ∀ {mode : OutputMode}, Selects q.mode mode → 0 < q.cycles → q.period = 0 →
        ∀ (mem : Circuit) (w0 : Nat → Bool), ∃ line, evaluatorMain writable fs' mem w0 q = .success line
          ∧ ShowsRun mode B.out q.cycles (fun t i => B.eval (B.inputs (hex2bn (readFileOrPassHex fs' q.gInput) >>> (t * B.g))
              (hex2bn (readFileOrPassHex fs' q.eInput) >>> (t * B.e))) (B.wires - B.out + i)) line := by
  obtain ⟨fs', scd, hc, h1, f1, f2, -⟩ := C89_convert_bristol P hf (junk0 := junk0) (junk := junk) hn hb hs ht w1 w2
  obtain ⟨scd', h1', hplain⟩ := C50_bristol P file hf junk0 junk
  rw [h1] at h1'
  cases h1'
  refine ⟨fs', hc, fun {q} hq hw {mode} hmode hcyc hper mem w0 => ?_⟩
  have hsz := P.sizes
  have hsm := P.small
  have hfew := P.few
  have hin := P.inputs
  have hdr := bcircuit_drivers P
  have hgl : (bcircuit B).gates.length = B.gates.length := by simp [bcircuit]
  have hcmp : compile (bcircuit B) = some (some scd) := by
    unfold brist2Scd at h1
    rw [parseBrist_words P.bfits true file hf] at h1
    exact h1
  obtain ⟨hwf, -⟩ := compiled_read (bcircuit_legal P) hcmp (by omega) (by omega) (show B.out < 2 ^ 64 by omega)
  obtain ⟨-, hos⟩ := hwf mem
  have hos : (readScd scd mem).outputSize = B.out := hos
  obtain ⟨p1, p2, p3⟩ := hplain mem (q.inputs fs').parse w0 q.cycles q.period
  have hopen : openScd writable fs' q.scd mem = some (readScd scd mem) := by
    unfold openScd
    rw [hq, if_pos w2, f1]
    rfl
  refine ⟨_, ?_, showsRun_high hcyc mode p2 p3⟩
  unfold evaluatorMain
  rw [if_neg (by rw [hq]; exact hs), (parseMode_iff _ _).2 hmode, hopen, hq, f2, hw]
  unfold evaluatePlaintextStr
  simp only
  rw [if_neg (by intro ⟨a, b⟩; exact a hper), hos]
  exact congrArg (fun k => Exit.success (outputStrHigh B.out (evaluatePlaintext (readScd scd mem) (q.inputs fs').parse w0 q.cycles q.period).1 k mode)) p1

/-- The half adder in a file. -/
example (junk0 junk) : ∃ (file : List Char) (fs' : Files), words file = bristExample.text
    ∧ convertMain (fun _ => true) (fun n => if n = "add.txt".toList then some file else none) junk0 junk
      ⟨[], "add.txt".toList, "add.scd".toList⟩ = .success fs' := by
  have hf : words "4 6\n1 1 2\n\n2 1 0 1 2 XOR\n1 1 2 3 INV\n1 1 3 4 INV\n2 1 0 1 5 AND\n".toList = bristExample.text := by decide +kernel
  generalize "4 6\n1 1 2\n\n2 1 0 1 2 XOR\n1 1 2 3 INV\n1 1 3 4 INV\n2 1 0 1 5 AND\n".toList = file at hf
  obtain ⟨fs', -, h, -⟩ := C89_convert_bristol bristExample_proper hf (writable := fun _ => true)
    (fs := fun n => if n = "add.txt".toList then some file else none) (junk0 := junk0) (junk := junk)
    (o := ⟨[], "add.txt".toList, "add.scd".toList⟩) rfl (by decide) (by decide) (if_pos rfl) rfl rfl
  exact ⟨file, fs', hf, h⟩

/-- A module in a file. -/
def accFiles : Files := fun n => if n = "acc.v".toList then some verilogText else none

/-- `V2SCD_Main --netlist acc.v --scd acc.scd`. -/
def accConvert : ConvertOptions := ⟨"acc.v".toList, [], "acc.scd".toList⟩

theorem acc_converted (junk0 : Nat → Nat) (junk : Nat → Nat → Nat) : ∃ fs', convertMain (fun _ => true) accFiles junk0 junk accConvert = .success fs'
    ∧ (∀ mem, openScd (fun _ => true) fs' "acc.scd".toList mem = some (scheduled verilogSorted))
    ∧ ∀ n, n ≠ "acc.scd".toList → n ≠ "acc.scd.map".toList → fs' n = accFiles n := by
  obtain ⟨scd, h1, h2⟩ := verilogText_file
  have hm : ∃ map, verilog2Map verilogText = some (some map) := by
    unfold verilog2Map
    rw [module_parsed true verilogItems_proper.each verilogItems_written, applies_eq verilogItems_proper]
    show ∃ map, compileMap (moduleNet verilogItems) = _
    unfold compileMap
    rw [verilogItems_id]
    simp only [verilogNumbered_sorted]
    have : (writeMapping (moduleNet verilogItems) verilogSorted).isSome = true := by decide +kernel
    obtain ⟨m, e⟩ := Option.isSome_iff_exists.1 this
    exact ⟨m, by simp [e]⟩
  obtain ⟨map, hm⟩ := hm
  have hc : convertMain (fun _ => true) accFiles junk0 junk accConvert
      = .success ((accFiles.write "acc.scd.map".toList map).write "acc.scd".toList scd) := by
    have hf : accFiles accConvert.netlist = some verilogText := if_pos rfl
    unfold convertMain
    rw [if_neg (by decide), if_pos (by decide), hf]
    unfold writeOutputs
    simp only [hm, h1, if_true]
    rfl
  refine ⟨_, hc, fun mem => ?_, fun n e1 e2 => ?_⟩
  · exact congrArg some (h2 mem)
  · unfold Files.write
    rw [if_neg e1, if_neg e2]

/-- `TinyGarble --alice --scd_file acc.scd --input 2D --clock_cycles 3 --output_mask 1 --disable_OT` and its counterpart with input 5. -/
def accOptions (alice : Bool) : RunOptions :=
  ⟨alice, !alice, "acc.scd".toList, "0".toList, "0".toList, "0".toList, if alice then "2D".toList else "5".toList, 3, "1".toList, 0, none, true, false⟩

/-- `SCD_Evaluator_Main --scd_file acc.scd --g_input 2D --e_input 5 --clock_cycles 3`. -/
def accEvaluator : EvaluatorOptions :=
  ⟨"acc.scd".toList, 3, "0".toList, "0".toList, "0".toList, "0".toList, "2D".toList, "5".toList, 0, none⟩

/-- The hypotheses of `C89_programs_partial` and `C89_evaluator_partial` are met. -/
example (junk0 : Nat → Nat) (junk : Nat → Nat → Nat) (mem : Circuit) : ∃ fs' v, ProperModule verilogItems ∧ WrittenIn verilogItems verilogText
    ∧ NoMidNames verilogItems ∧ VLegal verilogItems ∧ VSizes verilogItems
    ∧ accFiles accConvert.netlist = some verilogText ∧ convertMain (fun _ => true) accFiles junk0 junk accConvert = .success fs'
    ∧ (∀ c, openScd (fun _ => true) fs' (accOptions true).scd mem = some c →
      Ready 1 prCrypto c ((accOptions true).args fs' .consecutive).parse ((accOptions false).args fs' .consecutive).parse prG prE)
    ∧ VerilogSolves verilogItems ⟨hex2bn (readFileOrPassHex fs' (accOptions true).pInit), hex2bn (readFileOrPassHex fs' (accOptions true).init),
      hex2bn (readFileOrPassHex fs' (accOptions false).init), hex2bn (readFileOrPassHex fs' (accOptions true).pInput),
      hex2bn (readFileOrPassHex fs' (accOptions true).input), hex2bn (readFileOrPassHex fs' (accOptions false).input)⟩ v
    ∧ VerilogSolves verilogItems (accEvaluator.inputs fs').parse v := by
  obtain ⟨scd, h1, -⟩ := verilogText_file
  obtain ⟨fs', c1, c2, c3⟩ := acc_converted junk0 junk
  obtain ⟨v, hv⟩ := C51_meaning verilogItems_proper verilogItems_written verilogItems_noMid verilogItems_legal
    verilogItems_oneDriver verilogItems_sizes h1 ⟨0, 0, 0, 0, 0x2D, 5⟩
  have r0 : readFileOrPassHex fs' "0".toList = "0".toList := by
    unfold readFileOrPassHex
    rw [c3 _ (by decide) (by decide)]
    rfl
  have rA : readFileOrPassHex fs' "2D".toList = "2D".toList := by
    unfold readFileOrPassHex
    rw [c3 _ (by decide) (by decide)]
    rfl
  have rB : readFileOrPassHex fs' "5".toList = "5".toList := by
    unfold readFileOrPassHex
    rw [c3 _ (by decide) (by decide)]
    rfl
  have h0 : hex2bn "0".toList = 0 := by decide +kernel
  have hA : hex2bn "2D".toList = 0x2D := by decide +kernel
  have hB : hex2bn "5".toList = 5 := by decide +kernel
  refine ⟨fs', v, verilogItems_proper, verilogItems_written, verilogItems_noMid, verilogItems_legal, verilogItems_sizes, rfl, c1, ?_, ?_, ?_⟩
  · intro c hc
    rw [show (accOptions true).scd = "acc.scd".toList from rfl, c2] at hc
    cases hc
    have a1 : (accOptions true).args fs' .consecutive = accA .consecutive false := by
      show StrArgs.mk (readFileOrPassHex fs' "0".toList) (readFileOrPassHex fs' "0".toList) (readFileOrPassHex fs' "0".toList)
        (readFileOrPassHex fs' "2D".toList) .. = _
      rw [r0, rA]
      rfl
    have a2 : (accOptions false).args fs' .consecutive = accB .consecutive false := by
      show StrArgs.mk (readFileOrPassHex fs' "0".toList) (readFileOrPassHex fs' "0".toList) (readFileOrPassHex fs' "0".toList)
        (readFileOrPassHex fs' "5".toList) .. = _
      rw [r0, rB]
      rfl
    rw [a1, a2]
    exact acc_ready _ _
  · show VerilogSolves verilogItems ⟨hex2bn (readFileOrPassHex fs' "0".toList), hex2bn (readFileOrPassHex fs' "0".toList),
      hex2bn (readFileOrPassHex fs' "0".toList), hex2bn (readFileOrPassHex fs' "0".toList), hex2bn (readFileOrPassHex fs' "2D".toList),
      hex2bn (readFileOrPassHex fs' "5".toList)⟩ v
    rw [r0, rA, rB, h0, hA, hB]
    exact hv
  · show VerilogSolves verilogItems ⟨hex2bn (readFileOrPassHex fs' "0".toList), hex2bn (readFileOrPassHex fs' "0".toList),
      hex2bn (readFileOrPassHex fs' "0".toList), hex2bn (readFileOrPassHex fs' "0".toList), hex2bn (readFileOrPassHex fs' "2D".toList),
      hex2bn (readFileOrPassHex fs' "5".toList)⟩ v
    rw [r0, rA, rB, h0, hA, hB]
    exact hv

/-- C89, an option `--output_mode` that is none of the six words: both programs exit with FAILURE. -/
theorem C89_unknown_mode {option : Option (List Char)} (h : ∀ m, ¬ Selects option m) :
    (∀ cr writable fs mem connected G E (o : RunOptions), o.mode = option → tinyGarbleMain cr writable fs mem connected G E o = .fail)
    ∧ ∀ writable fs mem w0 (q : EvaluatorOptions), q.mode = option → evaluatorMain writable fs mem w0 q = .failure := by
  have hn : parseMode option = none := by
    cases e : parseMode option with
    | none => rfl
    | some m => exact absurd ((parseMode_iff _ _).1 e) (h m)
  refine ⟨fun cr writable fs mem connected G E o ho => ?_, fun writable fs mem w0 q hq => ?_⟩
  · unfold tinyGarbleMain
    rw [ho, hn]
  · unfold evaluatorMain
    rw [hq, hn]
    split <;> rfl

example : ∀ m, ¬ Selects (some "last".toList) m := by
  rintro m ⟨w, hw, e⟩
  revert w
  cases m <;> decide

/-- C89 fails for SCD_Evaluator_Main: if the circuit file cannot be opened it exits with SUCCESS and prints an empty line. -/
theorem C89_evaluator_exit_status {writable : List Char → Bool} {fs : Files} {q : EvaluatorOptions} (hq : q.scd ≠ []) (hf : fs q.scd = none)
    {mode : OutputMode} (hmode : Selects q.mode mode) (mem : Circuit) (w0 : Nat → Bool) :
    evaluatorMain writable fs mem w0 q = .success [] := by
  have : openScd writable fs q.scd mem = none := by
    unfold openScd
    rw [hf]
    split <;> rfl
  unfold evaluatorMain
  rw [if_neg hq, (parseMode_iff _ _).2 hmode, this]
  rfl

example : evaluatorMain (fun _ => true) prFiles prCircuit (fun _ => false)
    ⟨"missing".toList, 1, "0".toList, "0".toList, "0".toList, "0".toList, "0".toList, "0".toList, 0, none⟩ = .success [] :=
  C89_evaluator_exit_status (mode := .consecutive) (by decide) (by decide) (show Selects none .consecutive from rfl) _ _

/-- C89 fails for circuit files without write permission: both programs treat a readable file as missing, because `ReadSCD` opens it for writing too. -/
theorem C89_write_protected {writable : List Char → Bool} {o : RunOptions} (hw : writable o.scd = false) (cr : Crypto) (fs : Files) (mem : Circuit)
    (connected : Bool) (G : GEnv) (E : EEnv) : tinyGarbleMain cr writable fs mem connected G E o = .fail := by
  have : openScd writable fs o.scd mem = none := by
    unfold openScd
    rw [if_neg (by rw [hw]; decide)]
  unfold tinyGarbleMain
  split
  · rfl
  · split
    · rfl
    · split
      · rfl
      · rw [this]
        split
        · unfold garbleStr
          split <;> rfl
        · unfold evaluateStr
          split <;> rfl

example : prFiles "pr.scd".toList = some prText ∧ tinyGarbleMain prCrypto (fun _ => false) prFiles prCircuit true prG prE (prOptions true "5" "0") = .fail :=
  ⟨rfl, C89_write_protected rfl ..⟩

end TinyGarble.Props
