import Verif.Proof.Smooth
import Verif.Props.Privacy
import Verif.Props.Protocol
import Verif.Props.ExampleProtocol
import Verif.Props.Fresh

/-!
# C55, C56: with random choices, accidents are rare
-/

namespace TinyGarble.Props
open TinyGarble Spec Proof

section
variable {P : Setting} {n : Nat}

/-! ## C55 -/

/-- C55: among the garbler's random choices with an odd offset, the fraction that is not good (for the
values `v` of the wires) is at most `(16 q² + 2^64 q) / 2^127`, where `q` is the number of cycles times
the number of gates. -/
theorem C55_bad_choices_rare (wf : WF P.c) (hg : GFresh P.gst0) (hn : n < 2 ^ 64) (v : Nat → Nat → Bool) :
    Nat.card {ω : Coins P.c n // getLSB ω.R = true ∧ ¬ P.Good v ω} * 2 ^ 127
      ≤ badBound ((n + 1) * P.c.gateSize) * Nat.card {ω : Coins P.c n // getLSB ω.R = true} :=
  bad_count wf hg hn v

theorem advantage_arith {a a' g b b' K B T : Nat} (h1 : a = g + b) (h2 : a' = g + b') (h3 : b * B ≤ K * T) :
    a * B ≤ a' * B + K * T := by
  subst h1 h2
  rw [Nat.add_mul, Nat.add_mul]; omega

/-- C55: no test of the evaluator's view distinguishes two secret inputs with the same revealed values
with more than that advantage: the fractions of random choices for which the test succeeds differ by
at most `(16 q² + 2^64 q) / 2^127` (exchange `x` and `x'` for the other direction). -/
theorem C55_advantage (wf : WF P.c) (hg : GFresh P.gst0) (hn : n < 2 ^ 64) {x x' : Inputs}
    (hx : x.pInit = P.pInit ∧ x.pInput = P.pInput) (hx' : x'.pInit = P.pInit ∧ x'.pInput = P.pInput)
    {v v' : Nat → Nat → Bool} (hv : Solves P.c x v) (hv' : Solves P.c x' v') {reveal : Nat → Nat → Prop}
    (hr : ∀ k ≤ n, ∀ w, OutWire P.c w → reveal k w → v k w = v' k w) (test : View P.c n → Prop) :
    Nat.card {ω : Coins P.c n // getLSB ω.R = true ∧ test (P.view x v reveal ω)} * 2 ^ 127
      ≤ Nat.card {ω : Coins P.c n // getLSB ω.R = true ∧ test (P.view x' v' reveal ω)} * 2 ^ 127
        + badBound ((n + 1) * P.c.gateSize) * Nat.card {ω : Coins P.c n // getLSB ω.R = true} := by
  have swap : ∀ (x : Inputs) (v : Nat → Nat → Bool),
      Nat.card {ω : Coins P.c n // (getLSB ω.R = true ∧ test (P.view x v reveal ω)) ∧ P.Good v ω}
        = Nat.card {ω : Coins P.c n // P.Good v ω ∧ test (P.view x v reveal ω)} := by
    intro x v
    exact Nat.card_congr (Equiv.subtypeEquivRight fun ω => ⟨fun h => ⟨h.2, h.1.2⟩, fun h => ⟨⟨h.1.odd, h.2⟩, h.1⟩⟩)
  have e := card_split (fun ω : Coins P.c n => getLSB ω.R = true ∧ test (P.view x v reveal ω)) (P.Good v)
  have e' := card_split (fun ω : Coins P.c n => getLSB ω.R = true ∧ test (P.view x' v' reveal ω)) (P.Good v')
  rw [swap x v, C52_no_test_distinguishes wf hg hx hx' hv hv' hr test] at e
  rw [swap x' v'] at e'
  have hb := C55_bad_choices_rare wf hg hn v
  refine advantage_arith e e' (Nat.le_trans (Nat.mul_le_mul_right _ ?_) hb)
  exact card_mono fun ω h => ⟨h.1.1, h.2⟩

/-- The hypotheses hold for the adder of C52 and two different pairs of summands; three cycles of
five gates: the bound is less than 2^-59. -/
example : WF exSetting.c ∧ GFresh exSetting.gst0 ∧ 2 < 2 ^ 64
    ∧ (exX.pInit = exSetting.pInit ∧ exX.pInput = exSetting.pInput)
    ∧ (exX'.pInit = exSetting.pInit ∧ exX'.pInput = exSetting.pInput)
    ∧ Solves exSetting.c exX (exV exX) ∧ Solves exSetting.c exX' (exV exX')
    ∧ (∀ k ≤ 2, ∀ w, OutWire exSetting.c w → exV exX k w = exV exX' k w)
    ∧ badBound (3 * exSetting.c.gateSize) * 2 ^ 59 < 2 ^ 127 := by
  refine ⟨exCircuit_wf, fun _ => rfl, by decide, ⟨rfl, rfl⟩, ⟨rfl, rfl⟩, plainWires_solves exCircuit_wf _ _,
    plainWires_solves exCircuit_wf _ _, ?_, by decide⟩
  intro k hk w hw
  have hw4 : w = 4 := by
    rcases hw with ⟨i, _, h⟩ | ⟨h, _⟩
    · exact h.symm
    · exact absurd h (by decide)
  subst hw4
  have : k = 0 ∨ k = 1 ∨ k = 2 := by omega
  rcases this with rfl | rfl | rfl <;> decide +kernel

/-! ## C56 -/

/-- C56: the fraction of random choices with which labels agree by accident is at most
`(16 q² + 2^64 q) / 2^127`. -/
theorem C56_accidents_rare (wf : WF P.c) (hg : GFresh P.gst0) (hn : n < 2 ^ 64) :
    Nat.card {ω : Coins P.c n // getLSB ω.R = true ∧ P.Accident ω} * 2 ^ 127
      ≤ badBound ((n + 1) * P.c.gateSize) * Nat.card {ω : Coins P.c n // getLSB ω.R = true} := by
  refine Nat.le_trans (Nat.mul_le_mul_right _ (card_mono fun ω h => ⟨h.1, fun g => h.2 g.noCollision⟩))
    (C55_bad_choices_rare wf hg hn fun _ _ => false)

/-- C56: an execution without accident is correct. -/
theorem C56_correct_without_accident_partial {cap : Nat} {cr : Crypto} {c : Circuit} {A B : Args} {G : GEnv}
    {E : EEnv} (h : Setup cap cr c A B G E) (hA : A.cycles = n + 1)
    (ha : ¬ (settingOf c A G).Accident (coinsOf cr c A G n)) (need : (settingOf c A G).Needed n)
    {v : Nat → Nat → Bool} (hv : Solves c (inputsOf A B) v)
    (hp : (sessionOf cr c A B G E).PublicStop A.period A.cycles v)
    (hl : ∀ t < A.cycles, ∀ i < c.outputSize, ¬ (sessionOf cr c A B G E).LostAt A.mask v t i) :
    Correct cap cr c A B G E := by
  intro w0
  refine C01_protocol_equals_plaintext_partial ⟨h, hv, ?_, hp⟩ hl w0
  have na := noAccident_of (session_ok h) (n := n) need (session_noCollision h ha)
  intro k hk _ j hj
  exact na j (by omega)

/-- C56: the fraction of the garbler's random choices with which some execution is wrong is at most
`(16 q² + 2^64 q) / 2^127`. Missing: executions with superfluous secret gates, where the evaluator
computes with random rows instead of tables; and what is missing in C01. -/
theorem C56_rarely_wrong_partial (wf : WF P.c) (hg : GFresh P.gst0) (hn : n < 2 ^ 64) :
    Nat.card {ω : Coins P.c n // getLSB ω.R = true ∧ P.Wrong ω} * 2 ^ 127
      ≤ badBound ((n + 1) * P.c.gateSize) * Nat.card {ω : Coins P.c n // getLSB ω.R = true} := by
  refine Nat.le_trans (Nat.mul_le_mul_right _ (card_mono fun ω h => ⟨h.1, ?_⟩)) (C56_accidents_rare wf hg hn)
  obtain ⟨c, pI, pIn, f0, s0, low⟩ := P
  obtain ⟨_, cap, cr, A, B, G, E, v, rfl, rfl, rfl, rfl, rfl, hA, rfl, h1, h2, h3, h4, h5, h6⟩ := h
  exact Classical.byContradiction fun ha => h6 (C56_correct_without_accident_partial h1 hA ha h5 h2 h3 h4)

theorem twice_arith {w a b A K T : Nat} (h : w ≤ a + b) (ha : a * A ≤ K * T) (hb : b * A ≤ K * T) : w * A ≤ 2 * K * T := by
  have := Nat.mul_le_mul_right A h
  rw [Nat.add_mul] at this
  rw [Nat.mul_assoc]; omega

/-- C56: also when secret gates are superfluous, such that the evaluator computes with random rows instead of
tables: for all inputs and whatever random rows the evaluator draws, the fraction of the garbler's random choices
with which an execution is wrong is at most `2 (16 q² + 2^64 q) / 2^127`. Missing: what is missing in C01. -/
theorem C56_rarely_wrong_superfluous_partial (wf : WF P.c) (hg : GFresh P.gst0) (hn : n < 2 ^ 64) (x : Inputs)
    (rnd : Nat → Block) (p₀ : Nat) :
    Nat.card {ω : Coins P.c n // getLSB ω.R = true ∧ P.WrongFor x rnd p₀ ω} * 2 ^ 127
      ≤ 2 * badBound ((n + 1) * P.c.gateSize) * Nat.card {ω : Coins P.c n // getLSB ω.R = true} := by
  obtain ⟨pv, hpv⟩ := exists_pmap wf (sf := P.sfan) (fun g hg => fillFanout_counts wf P.fan0 hg) x n
  refine twice_arith (card_or (p := fun ω : Coins P.c n => getLSB ω.R = true ∧ P.Accident ω)
    (q := fun ω : Coins P.c n => getLSB ω.R = true ∧ ¬ Smooth pv (rowsAt P.c P.sym rnd p₀) ω) ?_)
    (C56_accidents_rare wf hg hn) (rough_count pv _ wf hn)
  obtain ⟨c, pI, pIn, f0, s0, low⟩ := P
  rintro ω ⟨ho, cap, cr, A, B, G, E, v, rfl, rfl, rfl, rfl, rfl, hA, rfl, rfl, rfl, rfl, h1, h2, h3, h4, h6⟩
  by_cases ha : (settingOf c A G).Accident (coinsOf cr c A G n)
  · exact .inl ⟨ho, ha⟩
  · refine .inr ⟨ho, fun sm => h6 fun w0 => ?_⟩
    refine C01_protocol_equals_plaintext_partial ⟨h1, h2, ?_, h3⟩ h4 w0
    have na := noAccident_smooth h1 ha hpv sm
    intro k hk _ j hj
    exact na j (by omega)

/-- The adder with two more gates: a conjunction of secret inputs, and its exclusive or with itself, which is the
third output. -/
def spCircuit : Circuit :=
  { prCircuit with
    gateSize := 9
    outputSize := 3
    gate := fun i => match i with
      | 7 => ⟨1, 2, 8⟩
      | 8 => ⟨11, 11, 6⟩
      | i => prCircuit.gate i
    outputs := fun i => if i = 2 then 12 else prCircuit.outputs i }

theorem spCircuit_wf : WF spCircuit where
  in0 := by
    intro i hi
    have : i < 9 := hi
    rcases i with _ | _ | _ | _ | _ | _ | _ | _ | _ | i <;> first | omega | (right; constructor <;> decide)
  in1 := by
    intro i hi
    have : i < 9 := hi
    rcases i with _ | _ | _ | _ | _ | _ | _ | _ | _ | i <;> first | omega | (right; constructor <;> decide) | (left; decide)
  type := by
    intro i hi
    have : i < 9 := hi
    rcases i with _ | _ | _ | _ | _ | _ | _ | _ | _ | i <;> first | omega | decide
  D := fun _ _ => Or.inr (show (0 : Int) ≤ 8 ∧ (8 : Int) < 13 by decide)
  outputs := by
    intro i hi
    have : i < 3 := hi
    rcases i with _ | _ | _ | i <;> first | omega | (constructor <;> decide)
  term := Or.inr (by decide)
  size := by decide

/-- An execution with a superfluous secret gate: `Setup`, what is excluded, and the gate. -/
example : Setup 1 prCrypto spCircuit (prA 1 .lastClock true) (prB 1 .lastClock true) prG prE
    ∧ Solves spCircuit (inputsOf (prA 1 .lastClock true) (prB 1 .lastClock true))
      (plainWires spCircuit (inputsOf (prA 1 .lastClock true) (prB 1 .lastClock true)) fun _ => false)
    ∧ (∀ v, (sessionOf prCrypto spCircuit (prA 1 .lastClock true) (prB 1 .lastClock true) prG prE).PublicStop 1 4 v)
    ∧ (∀ v, ∀ t < 4, ∀ i < 3,
      ¬ (sessionOf prCrypto spCircuit (prA 1 .lastClock true) (prB 1 .lastClock true) prG prE).LostAt 1 v t i)
    ∧ ¬ (settingOf spCircuit (prA 1 .lastClock true) prG).Needed 3 := by
  refine ⟨{ prSetup 1 .lastClock true with
      wf := spCircuit_wf
      term := fun _ => by decide
      sizes := ⟨by decide, by decide, by decide, by show 0 + 4 * 1 < 2 ^ 30; decide, by show numBytes 0 < 2 ^ 31; decide,
        by show numBytes 7 < 2 ^ 31; decide⟩
      eFresh := ⟨fun _ => rfl, fun _ => by show 9 ≤ (BitVec.allOnes 32).toNat; decide⟩ },
    plainWires_solves spCircuit_wf _ _, ?_, fun v t _ i _ => not_lost_of_segment (by decide) t i, ?_⟩
  · intro v _ k hk _ _
    have : k = 0 ∨ k = 1 ∨ k = 2 ∨ k = 3 := by omega
    rcases this with rfl | rfl | rfl | rfl <;> decide +kernel
  · intro h
    have e : ((symRun spCircuit (settingOf spCircuit (prA 1 .lastClock true) prG).sfan 0 0b100 0).sw
        (spCircuit.gateLo + 7)) = .sec (2 ^ atomGate spCircuit 0 7) false := by decide +kernel
    have := h 0 (by decide) 7 (by decide) _ _ e
    revert this
    decide +kernel

/-- C56: all choices with an odd offset are possible: they arise from draws of the generator. -/
theorem C56_choices_possible (c : Circuit) (A : Args) (G : GEnv) (ω : Coins c n) (hω : getLSB ω.R = true) :
    ∃ cr rnd, coinsOf cr c A { G with rnd := rnd } n = ω := by
  have hR : ω.R ||| 1#128 = ω.R := by
    unfold getLSB at hω
    apply BitVec.eq_of_getLsbD_eq
    intro i hi
    rw [BitVec.getLsbD_or]
    rcases i with _ | i
    · rw [hω]; rfl
    · simp
  obtain ⟨R, init, input, cipher⟩ := ω
  let I : Nat → Block := fun k => if h : k < c.secretInitSize then init ⟨k, h⟩ else 0
  let L : Nat → Nat → Block := fun cid k =>
    if h : cid < n + 1 ∧ k < c.secretInputSize then input ⟨cid, h.1⟩ ⟨k, h.2⟩ else 0
  refine ⟨⟨fun _ => cipher, fun l => l⟩, ?_⟩
  cases hA : A.useLow
  · obtain ⟨rnd, h1, h2, h3, h4, _⟩ := C46_fresh_high prCrypto c A G R 0 I L
    refine ⟨rnd, ?_⟩
    unfold coinsOf
    congr 1
    · show rnd 0 ||| 1#128 = R
      rw [h1]; exact hR
    · funext k
      unfold initPairs
      rw [hA]
      show (initLabelsHigh rnd k).label0 = _
      rw [h3 k k.2]
      show I k = _
      exact dif_pos k.2
    · funext cid k
      unfold inputPairs
      rw [hA]
      show (inputLabelsHigh c rnd (cid * c.secretInputSize + k)).label0 = _
      rw [h4 cid k k.2]
      show L cid k = _
      exact dif_pos ⟨cid.2, k.2⟩
  · obtain ⟨rnd, h1, h2, h3, h4, _⟩ := C46_fresh_low prCrypto c A G R 0 I L
    refine ⟨rnd, ?_⟩
    unfold coinsOf
    congr 1
    · show rnd 0 ||| 1#128 = R
      rw [h1]; exact hR
    · funext k
      unfold initPairs
      rw [hA]
      show (initLabelsLow c rnd k).label0 = _
      rw [h3 k k.2]
      show I k = _
      exact dif_pos k.2
    · funext cid k
      unfold inputPairs
      rw [hA]
      show (inputLabelsLow c rnd cid k).label0 = _
      rw [h4 cid k k.2]
      show L cid k = _
      exact dif_pos ⟨cid.2, k.2⟩

theorem needed_sound {c : Circuit} {s : SState}
    (h : ((List.range c.gateSize).all fun g => match s.sw (c.gateLo + g) with
      | .sec _ _ => decide (0 < s.fan g) | _ => true) = true) : AllNeeded c s := by
  intro g hg f i e
  rw [List.all_eq_true] at h
  have := h g (List.mem_range.mpr hg)
  rw [e] at this
  simpa using this

/-- The hypotheses hold for the adder with a public stop signal, with the labels the program makes from
the seed 1111. -/
example : Setup 1 prCrypto prCircuit (prA 1 .lastClock true) (prB 1 .lastClock true) prG prE
    ∧ ¬ (settingOf prCircuit (prA 1 .lastClock true) prG).Accident (coinsOf prCrypto prCircuit (prA 1 .lastClock true) prG 3)
    ∧ (settingOf prCircuit (prA 1 .lastClock true) prG).Needed 3
    ∧ Solves prCircuit (inputsOf (prA 1 .lastClock true) (prB 1 .lastClock true)) prV
    ∧ (prS 1 .lastClock true).PublicStop 1 4 prV
    ∧ ∀ t < 4, ∀ i < 2, ¬ (prS 1 .lastClock true).LostAt 1 prV t i := by
  refine ⟨prSetup .., fun h => h ?_, ?_, prV_solves .., prS_public _ _ _ _ _, fun t _ i _ => not_lost_of_segment (by decide) t i⟩
  · intro k hk
    have : k = 0 ∨ k = 1 ∨ k = 2 ∨ k = 3 := by omega
    rcases this with rfl | rfl | rfl | rfl <;> exact checkG_sound (by decide +kernel)
  · intro k hk
    have : k = 0 ∨ k = 1 ∨ k = 2 ∨ k = 3 := by omega
    rcases this with rfl | rfl | rfl | rfl <;> exact needed_sound (by decide +kernel)

end

end TinyGarble.Props
