import Verif.Proof.StrApi

/-!
# The functions called by applications (C01, C12, C40)
-/

namespace TinyGarble.Props
open TinyGarble Proof Spec

/-- The inputs of both parties as the plaintext evaluator takes them. -/
def strInputs (a b : StrArgs) : StrInputs := ⟨a.pInit, a.init, b.init, a.pInput, a.input, b.input⟩

/-! ## C40 -/

/-- C40, partial: if the circuit file and both auxiliary files can be opened, `EvalauatePlaintextStr` on a
well-formed circuit returns SUCCESS and the string that shows the outputs of the executed cycles. Missing: it
also returns SUCCESS otherwise (`C40_success_without_evaluation`). -/
theorem C40_evaluates_partial {c : Circuit} (wf : WF c) (s : StrInputs) (w0 : Nat → Bool) {n T : Nat} (hn : 0 < n)
    (hT : T ≠ 0 → 0 < c.terminateId) (mode : OutputMode) {v : Nat → Nat → Bool} (hv : Solves c s.parse v) :
    ∃ p m, evaluatePlaintextStr (some c) true true s w0 n T mode = some p ∧ Executed c T v n m
      ∧ ShowsRun mode c.outputSize m (fun t i => v t (c.outputs i).toNat) p := by
  obtain ⟨h1, h2, h3⟩ := C33_plain_outputs wf s.parse w0 n T hv
  refine ⟨_, _, ?_, h1, showsRun_high ?_ mode h2 h3⟩
  · show (if T ≠ 0 ∧ c.terminateId = 0 then none else _) = _
    rw [if_neg (by intro ⟨a, b⟩; have := hT a; omega)]
    rfl
  · rw [executed_unique h1 (executed_count c T v n)]
    exact loopCount_pos _ _ _ hn

example : WF prCircuit ∧ evaluatePlaintextStr (some prCircuit) true true
    ⟨"0".toList, "0".toList, "0".toList, "4".toList, "5".toList, "7".toList⟩ (fun _ => false) 4 1 .separatedClock
      = some "01\n0\n03".toList := ⟨prCircuit_wf, by decide +kernel⟩

/-- C40 fails: for every circuit file that can be read, if the `.map` or the `.csv` file cannot be opened,
`EvalauatePlaintextStr` still returns SUCCESS, with a string that does not depend on the inputs: that of a circuit
whose outputs are all 0. -/
theorem C40_success_without_evaluation (c : Circuit) {mapFile csvFile : Bool} (h : (mapFile && csvFile) = false)
    (w0 : Nat → Bool) {n T : Nat} (hn : 0 < n) (hT : T ≠ 0 → 0 < c.terminateId) (mode : OutputMode) :
    ∃ p, (∀ s, evaluatePlaintextStr (some c) mapFile csvFile s w0 n T mode = some p)
      ∧ ShowsRun mode c.outputSize n (fun _ _ => false) p := by
  refine ⟨_, ?_, showsRun_high hn mode (out := 0) (fun _ _ _ _ => Nat.zero_testBit _) (fun _ _ => Nat.zero_testBit _)⟩
  intro s
  show (if T ≠ 0 ∧ c.terminateId = 0 then none else _) = _
  rw [if_neg (by intro ⟨a, b⟩; have := hT a; omega)]
  unfold evaluatePlaintextFiles
  rw [h]
  rfl

/-- In the example above the answer is then wrong. -/
example : evaluatePlaintextStr (some prCircuit) false true
    ⟨"0".toList, "0".toList, "0".toList, "4".toList, "5".toList, "7".toList⟩ (fun _ => false) 4 1 .separatedClock
      = some "0\n0\n0\n0".toList := by decide +kernel

/-! ## C01, strings -/

/-- C01 for the functions that applications call: in every execution of `GarbleStr` and `EvaluateStr` both return
SUCCESS; `EvalauatePlaintextStr` on the same inputs returns a string that shows the outputs of the circuit; the
garbler's string shows these outputs where the mask has a 1 and 0 elsewhere, the evaluator's string those where
the mask has a 0, for the same number of cycles. Missing: as for `C01_protocol_equals_plaintext_partial`. -/
theorem C01_strings_partial {cap : Nat} {cr : Crypto} {c : Circuit} {a b : StrArgs} {G : GEnv} {E : EEnv}
    {v : Nat → Nat → Bool} (h : Proper cap cr c a.parse b.parse G E v)
    (hn : ∀ t < a.cycles, ∀ i < c.outputSize, ¬ (sessionOf cr c a.parse b.parse G E).LostAt a.parse.mask v t i)
    (w0 : Nat → Bool) :
    ∃ g e p m, ∃ bit : Nat → Nat → Bool,
      AlwaysFinishes cap (garbleStr cr (some c) a G) (evaluateStr cr (some c) b E) g e
      ∧ evaluatePlaintextStr (some c) true true (strInputs a b) w0 a.cycles a.period a.mode = some p
      ∧ ShowsRun a.mode c.outputSize m bit p
      ∧ ShowsRun a.mode c.outputSize m (fun t i => (hex2bn a.mask).testBit i && bit t i) g
      ∧ ShowsRun a.mode c.outputSize m (fun t i => !(hex2bn a.mask).testBit i && bit t i) e := by
  obtain ⟨g, e, m, h1, h2, h3, h4, h5⟩ := strings_protocol h
  obtain ⟨p, m', p1, p2, p3⟩ := C40_evaluates_partial h.setup.wf (strInputs a b) w0 (n := a.cycles) (T := a.period)
    h.setup.cycles h.setup.term a.mode (v := v) h.values
  have hm : m' = m := executed_unique p2 h3
  subst hm
  refine ⟨g, e, p, m', _, h1, p1, p3, h4, ?_⟩
  refine showsRun_congr h2 h5 (fun t ht i hi => ?_)
  have ht' : t < a.cycles := Nat.lt_of_lt_of_le ht h3.le
  by_cases hl : a.parse.useLow = true ∧ a.mode = .lastClock
  · rw [if_pos hl]
    exact storedLast_of_not_lost ht' (fun t ht => hn t ht i hi)
  · rw [if_neg hl]
    show (sessionOf cr c a.parse b.parse G E).stored a.parse.mask v t i = _
    unfold Session.stored
    rw [if_neg (hn t ht' i hi)]
    rfl

/-- The example execution, with strings. -/
def prAStr (mask : List Char) (mode : OutputMode) (low : Bool) : StrArgs :=
  ⟨"0".toList, "4".toList, "0".toList, "5".toList, 4, mask, 1, mode, true, low⟩

def prBStr (mask : List Char) (mode : OutputMode) (low : Bool) : StrArgs :=
  ⟨"0".toList, "4".toList, "0".toList, "7".toList, 4, mask, 1, mode, true, low⟩

theorem prAStr_parse (mask : List Char) (mode : OutputMode) (low : Bool) :
    (prAStr mask mode low).parse = prA (hex2bn mask) mode low := rfl

theorem prBStr_parse (mask : List Char) (mode : OutputMode) (low : Bool) :
    (prBStr mask mode low).parse = prB (hex2bn mask) mode low := rfl

example : Proper 1 prCrypto prCircuit (prAStr "1".toList .lastClock true).parse (prBStr "1".toList .lastClock true).parse prG
      prE prV
    ∧ ∀ t < 4, ∀ i < 2, ¬ (prS 1 .lastClock true).LostAt 1 prV t i :=
  ⟨prProper .., fun t _ i _ => not_lost_of_segment (by decide) t i⟩

/-! ## C12, strings -/

/-- What is lost does not depend on the mode, the randomness or the memory. -/
theorem lost_congr {cap cap' : Nat} {cr cr' : Crypto} {c : Circuit} {A B A' B' : Args} {G G' : GEnv} {E E' : EEnv}
    {v : Nat → Nat → Bool} (h : Proper cap cr c A B G E v) (h' : Proper cap' cr' c A' B' G' E' v)
    (hp : A.pInit = A'.pInit) (hp' : A.pInput = A'.pInput) (hc : A.cycles = A'.cycles) (hT : A.period = A'.period)
    {mask m t i : Nat} (hm : Executed c A.period v A.cycles m) (ht : t < m) (hi : i < c.outputSize) :
    (sessionOf cr c A B G E).LostAt mask v t i ↔ (sessionOf cr' c A' B' G' E').LostAt mask v t i := by
  have hb : ∀ j < t, ¬ StopAt c A.period v j := fun j hj => hm.before j (by omega)
  have ht' : t < A.cycles := Nat.lt_of_lt_of_le ht hm.le
  have na := h.lucky t ht' hb
  have na' := h'.lucky t (by rw [← hc]; exact ht') (by rw [← hT]; exact hb)
  have hw : (c.outputs i).toNat < c.wireSize := by
    have := h.setup.wf.outputs i hi
    omega
  have := secret_congr (session_ok h.setup) (session_ok h'.setup) rfl hp hp' na na' hw
  unfold Session.LostAt
  show _ ∧ _ ∧ (((sessionOf cr c A B G E).g t).val (c.outputs i).toNat).isSecret = false ∧ _ ↔ _
  rw [this]
  rfl

/-- C12, partial: executions with the same circuit and arguments in low-memory and in high-memory mode, whatever the
randomness and the schedules in each: the garbler gets the same string; the evaluator gets the same string in the
output modes `consecutive` and `separated_clock`, and in all output modes if no output bit is lost (see C10). Missing:
in `last_clock` mode lost bits differ (`C12_strings_differ`). -/
theorem C12_same_strings_partial {cap cap' : Nat} {cr cr' : Crypto} {c : Circuit} {a b : StrArgs} {G G' : GEnv} {E E' : EEnv}
    {v : Nat → Nat → Bool}
    (h : Proper cap cr c { a with lowMem := true }.parse { b with lowMem := true }.parse G E v)
    (h' : Proper cap' cr' c { a with lowMem := false }.parse { b with lowMem := false }.parse G' E' v) :
    ∃ g e e', AlwaysFinishes cap (garbleStr cr (some c) { a with lowMem := true } G)
        (evaluateStr cr (some c) { b with lowMem := true } E) g e
      ∧ AlwaysFinishes cap' (garbleStr cr' (some c) { a with lowMem := false } G')
        (evaluateStr cr' (some c) { b with lowMem := false } E') g e'
      ∧ (a.mode ≠ .lastClock → e = e')
      ∧ ((∀ t < a.cycles, ∀ i < c.outputSize,
          ¬ (sessionOf cr' c { a with lowMem := false }.parse { b with lowMem := false }.parse G' E').LostAt
            (hex2bn a.mask) v t i) → e = e') := by
  obtain ⟨g, e, m, h1, h2, h3, h4, h5⟩ := strings_protocol h
  obtain ⟨g', e', m', k1, k2, k3, k4, k5⟩ := strings_protocol h'
  have hm : m' = m := executed_unique k3 h3
  subst hm
  have hg : g = g' := showsRun_unique h2 h4 k4 (fun _ _ _ _ => rfl)
  subst hg
  rw [if_neg (by simp [Args.useLow, StrArgs.parse])] at k5
  have lost : ∀ t < m', ∀ i < c.outputSize, _ := fun t ht i hi =>
    lost_congr h h' rfl rfl rfl rfl (mask := hex2bn a.mask) h3 ht hi
  refine ⟨g, e, e', h1, k1, ?_, ?_⟩
  · intro hmode
    rw [if_neg (fun hh => hmode hh.2)] at h5
    refine showsRun_unique h2 h5 k5 (fun t ht i hi => ?_)
    show Session.stored _ (hex2bn a.mask) v t i = Session.stored _ (hex2bn a.mask) v t i
    unfold Session.stored
    simp only [lost t ht i hi]
    rfl
  · intro hn
    refine showsRun_unique h2 h5 k5 (fun t ht i hi => ?_)
    have hlt : t < a.cycles := Nat.lt_of_lt_of_le ht h3.le
    have e2 : Session.stored (sessionOf cr' c { a with lowMem := false }.parse { b with lowMem := false }.parse G' E')
        (hex2bn a.mask) v t i = (!(hex2bn a.mask).testBit i && v t (c.outputs i).toNat) := by
      unfold Session.stored
      rw [if_neg (hn t hlt i hi)]
      rfl
    refine Eq.trans ?_ e2.symm
    split
    · exact storedLast_of_not_lost (n := m') ht (fun t ht hh =>
        hn t (Nat.lt_of_lt_of_le ht h3.le) i hi ((lost t ht i hi).mp hh))
    · show Session.stored _ (hex2bn a.mask) v t i = _
      unfold Session.stored
      rw [if_neg (fun hh => hn t hlt i hi ((lost t ht i hi).mp hh))]
      rfl

example (mask : List Char) (mode : OutputMode) :
    Proper 1 prCrypto prCircuit { prAStr mask mode true with lowMem := true }.parse
      { prBStr mask mode true with lowMem := true }.parse prG prE prV
    ∧ Proper 1 prCrypto prCircuit { prAStr mask mode true with lowMem := false }.parse
      { prBStr mask mode true with lowMem := false }.parse prG prE prV := ⟨prProper .., prProper ..⟩

/-- As the example, the garbler holding 7. -/
def luA (low : Bool) : StrArgs := ⟨"0".toList, "4".toList, "0".toList, "7".toList, 4, "2".toList, 1, .lastClock, true, low⟩

def luV : Nat → Nat → Bool := plainWires prCircuit ⟨0, 0, 0, 0b100, 0b111, 0b111⟩ fun _ => false

abbrev luS (low : Bool) : Session :=
  sessionOf prCrypto prCircuit (luA low).parse (prBStr "2".toList .lastClock low).parse prG prE

theorem luProper (low : Bool) :
    Proper 1 prCrypto prCircuit (luA low).parse (prBStr "2".toList .lastClock low).parse prG prE luV where
  setup := { prSetup 2 .lastClock low with
    cycles := by show 0 < 4; decide
    term := fun _ => by decide
    paired := ⟨rfl, rfl, rfl, rfl, rfl, rfl, rfl, rfl⟩
    conn := ⟨by decide, fun h => (by cases h), fun h => (by cases h), fun h => (by cases h), fun h => (by cases h)⟩
    sizes := ⟨by decide, by decide, by decide, by show 0 + 4 * 1 < 2 ^ 30; decide, by show numBytes 0 < 2 ^ 31; decide,
      by show numBytes 7 < 2 ^ 31; decide⟩ }
  values := plainWires_solves prCircuit_wf _ _
  lucky := by
    intro k hk _ j hj
    have hk : k < 4 := hk
    have : j = 0 ∨ j = 1 ∨ j = 2 ∨ j = 3 := by omega
    cases low <;> rcases this with rfl | rfl | rfl | rfl <;>
      exact ⟨checkG_sound (by decide +kernel), checkE_sound (by decide +kernel)⟩
  publicStop := by
    intro _ k hk _ _
    have hk : k < 4 := hk
    have : k = 0 ∨ k = 1 ∨ k = 2 ∨ k = 3 := by omega
    cases low <;> rcases this with rfl | rfl | rfl | rfl <;> decide +kernel

/-- C12 fails for `last_clock`: in this example the evaluator's strings differ. Its first output is 1 in all three
cycles; in the last one it is public and lost; the low-memory mode shows what the second cycle left. -/
theorem C12_strings_differ :
    ∃ cap cr c, ∃ a b : StrArgs, ∃ G E v, Proper cap cr c { a with lowMem := true }.parse { b with lowMem := true }.parse G E v
      ∧ Proper cap cr c { a with lowMem := false }.parse { b with lowMem := false }.parse G E v
      ∧ ∃ g e g' e', AlwaysFinishes cap (garbleStr cr (some c) { a with lowMem := true } G)
          (evaluateStr cr (some c) { b with lowMem := true } E) g e
        ∧ AlwaysFinishes cap (garbleStr cr (some c) { a with lowMem := false } G)
          (evaluateStr cr (some c) { b with lowMem := false } E) g' e'
        ∧ e ≠ e' := by
  refine ⟨1, prCrypto, prCircuit, luA true, prBStr "2".toList .lastClock true, prG, prE, luV, luProper true, luProper false, ?_⟩
  obtain ⟨g, e, m, h1, h2, h3, h4, h5⟩ := strings_protocol (luProper true)
  obtain ⟨g', e', m', k1, k2, k3, k4, k5⟩ := strings_protocol (luProper false)
  have hx : Executed prCircuit 1 luV 4 3 :=
    ⟨by decide, fun _ => ⟨2, rfl, by unfold StopAt; decide +kernel⟩, by
      intro k hk
      have : k = 0 ∨ k = 1 := by omega
      rcases this with rfl | rfl <;> (unfold StopAt; decide +kernel)⟩
  have e1 : m = 3 := executed_unique h3 hx
  have e2 : m' = 3 := executed_unique k3 hx
  subst e1 e2
  refine ⟨g, e, g', e', h1, k1, ?_⟩
  rintro rfl
  rw [if_pos ⟨by decide, rfl⟩] at h5
  rw [if_neg (by decide)] at k5
  obtain ⟨x, x1, x2⟩ := h5
  obtain ⟨y, y1, y2⟩ := k5
  have hxy : x = y := by rw [← x1.value, ← y1.value]
  have a := x2 0
  have b := y2 0
  rw [hxy, b] at a
  revert a
  decide +kernel

end TinyGarble.Props
