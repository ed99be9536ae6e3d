import Verif.Proof.Outputs
import Verif.Proof.Exec
import Verif.Props.ExampleProtocol

/-!
# Properties of the whole protocol (C01, C10, C12, C13, C14)
-/

namespace TinyGarble.Props
open TinyGarble Spec Proof

section
variable {cap : Nat} {cr : Crypto} {c : Circuit} {A B : Args} {G : GEnv} {E : EEnv}

/-! ## C14 -/

/-- C14: with the same well-formed circuit and matching arguments, however the two processes are
scheduled, both finish with SUCCESS, having consumed every byte, with the same results under every
schedule: with at least 16896 bytes of buffer space in each direction when oblivious transfer is used,
with any buffer otherwise. Missing: with smaller buffers oblivious transfer can deadlock
(`C14_ot_can_deadlock`), and so does a secret terminate signal (`C13_secret_terminate_deadlocks`). -/
theorem C14_protocol_finishes_partial {v : Nat → Nat → Bool} (h : Proper cap cr c A B G E v) :
    ∃ a b, AlwaysFinishes cap (garbleBN cr c A G) (evaluateBN cr c B E) a b :=
  ⟨_, _, (runs_protocol h.setup h.values h.lucky h.publicStop).always⟩

example (mask : Nat) (mode : OutputMode) (low : Bool) :
    Proper 1 prCrypto prCircuit (prA mask mode low) (prB mask mode low) prG prE prV := prProper mask mode low

example (mask : Nat) (mode : OutputMode) (low : Bool) :
    Proper 16896 prCrypto prCircuit { prA mask mode low with disableOT := false } { prB mask mode low with disableOT := false }
      prG prE prV := prProper_ot mask mode low

/-! ## C10 -/

/-- C10, garbler: in every execution the garbler ends up with exactly the output bits the mask gives to
it, each with its true value (`v`), all other bits being 0. -/
theorem C10_garbler_bits {v : Nat → Nat → Bool} (h : Proper cap cr c A B G E v) :
    ∃ go eo m, AlwaysFinishes cap (garbleBN cr c A G) (evaluateBN cr c B E) (go, m) (eo, m)
      ∧ Executed c A.period v A.cycles m
      ∧ Reports c A m go (fun t i => A.mask.testBit i && v t (c.outputs i).toNat) := by
  refine ⟨_, _, _, (runs_protocol h.setup h.values h.lucky h.publicStop).always, executed_count c A.period v A.cycles, ?_⟩
  exact reports_garbler (S := sessionOf cr c A B G E) (loopCount_pos _ _ _ h.setup.cycles)

/-- C10, evaluator, exactly what happens: the evaluator ends up with its bits, except that publicly
known ones below the highest bit of the mask are lost (`LostAt`): they read 0, or in low-memory
`last_clock` mode whatever an earlier cycle left. Missing: the full property, which is false
(`C10_evaluator_loses_output`). -/
theorem C10_evaluator_bits_partial {v : Nat → Nat → Bool} (h : Proper cap cr c A B G E v) :
    ∃ go eo m, AlwaysFinishes cap (garbleBN cr c A G) (evaluateBN cr c B E) (go, m) (eo, m)
      ∧ Executed c A.period v A.cycles m
      ∧ Reports c A m eo (if A.useLow = true ∧ A.mode = .lastClock
          then fun t i => (sessionOf cr c A B G E).storedLast A.mask v i (t + 1)
          else fun t i => (sessionOf cr c A B G E).stored A.mask v t i) := by
  refine ⟨_, _, _, (runs_protocol h.setup h.values h.lucky h.publicStop).always, executed_count c A.period v A.cycles, ?_⟩
  exact reports_evaluator (S := sessionOf cr c A B G E) (loopCount_pos _ _ _ h.setup.cycles)

theorem storedLast_of_not_lost {S : Session} {mask n : Nat} {v : Nat → Nat → Bool} {i t : Nat} (ht : t < n)
    (h : ∀ t < n, ¬ S.LostAt mask v t i) : S.storedLast mask v i (t + 1) = (!mask.testBit i && v t (S.c.outputs i).toNat) := by
  simp only [Session.storedLast]
  rw [if_neg (h t ht)]

theorem Reports.congr {c : Circuit} {A : Args} {m out : Nat} {f g : Nat → Nat → Bool} (h : Reports c A m out f) (hm : 0 < m)
    (hfg : ∀ t < m, ∀ i < c.outputSize, f t i = g t i) : Reports c A m out g := by
  unfold Reports at h ⊢
  by_cases hh : A.useLow = true ∧ A.mode = .lastClock
  · rw [if_pos hh] at h ⊢
    exact ⟨fun i hi => (h.1 i hi).trans (hfg _ (by omega) i hi), h.2⟩
  · rw [if_neg hh] at h ⊢
    exact ⟨fun t ht i hi => (h.1 t ht i hi).trans (hfg t ht i hi), h.2⟩

/-- C10, both parties, when no output bit is lost: for example when the mask is 0, when it covers an
initial segment of the outputs, or when all outputs are secret. -/
theorem C10_both_bits_partial {v : Nat → Nat → Bool} (h : Proper cap cr c A B G E v)
    (hn : ∀ t < A.cycles, ∀ i < c.outputSize, ¬ (sessionOf cr c A B G E).LostAt A.mask v t i) :
    ∃ go eo m, AlwaysFinishes cap (garbleBN cr c A G) (evaluateBN cr c B E) (go, m) (eo, m)
      ∧ Executed c A.period v A.cycles m
      ∧ Reports c A m go (fun t i => A.mask.testBit i && v t (c.outputs i).toNat)
      ∧ Reports c A m eo (fun t i => !A.mask.testBit i && v t (c.outputs i).toNat) := by
  have hx := executed_count c A.period v A.cycles
  have hm := loopCount_pos (stopB c A.period v) A.cycles 0 h.setup.cycles
  refine ⟨_, _, _, (runs_protocol h.setup h.values h.lucky h.publicStop).always, hx,
    reports_garbler (S := sessionOf cr c A B G E) hm, ?_⟩
  refine Reports.congr (reports_evaluator (S := sessionOf cr c A B G E) hm) hm ?_
  intro t ht i hi
  have hle := hx.le
  by_cases hh : A.useLow = true ∧ A.mode = .lastClock
  · rw [if_pos hh]
    exact storedLast_of_not_lost (n := A.cycles) (Nat.lt_of_lt_of_le ht hle) (fun t ht => hn t ht i hi)
  · rw [if_neg hh]
    show (sessionOf cr c A B G E).stored A.mask v t i = _
    unfold Session.stored
    rw [if_neg (hn t (Nat.lt_of_lt_of_le ht hle) i hi)]
    rfl

/-- A simple case: the mask covers an initial segment of the outputs (0 is such a mask). -/
theorem not_lost_of_segment {S : Session} {mask : Nat} {v : Nat → Nat → Bool}
    (hm : ∀ i < numBits mask, mask.testBit i = true) (t i : Nat) : ¬ S.LostAt mask v t i := by
  intro h
  have := hm i h.1
  rw [h.2.1] at this
  cases this

example : (∀ i < numBits 1, Nat.testBit 1 i = true) ∧ (∀ i < numBits 0, Nat.testBit 0 i = true) := by decide

end

/-- C10 fails for the evaluator: in the example with mask 2, the first output of the third cycle
belongs to the evaluator, is 1 and public; the evaluator ends up with 0. (All hypotheses of
`C10_evaluator_bits_partial` hold.) -/
theorem C10_evaluator_loses_output :
    ∃ cap cr c A B G E v, Proper cap cr c A B G E v
      ∧ ∃ go eo m, AlwaysFinishes cap (garbleBN cr c A G) (evaluateBN cr c B E) (go, m) (eo, m)
        ∧ ¬ Reports c A m eo (fun t i => !A.mask.testBit i && v t (c.outputs i).toNat) := by
  refine ⟨1, prCrypto, prCircuit, prA 2 .consecutive false, prB 2 .consecutive false, prG, prE, prV,
    prProper .., ?_⟩
  obtain ⟨go, eo, m, h1, h2, h3⟩ := C10_evaluator_bits_partial (prProper 2 .consecutive false)
  refine ⟨go, eo, m, h1, ?_⟩
  have hm : m = 3 := executed_unique h2
    ⟨by show 3 ≤ 4; decide, fun _ => ⟨2, rfl, by show StopAt prCircuit 1 prV 2; unfold StopAt; decide +kernel⟩,
      by
        intro k hk
        have : k = 0 ∨ k = 1 := by omega
        show ¬ StopAt prCircuit 1 prV k
        rcases this with rfl | rfl <;> (unfold StopAt; decide +kernel)⟩
  subst hm
  intro hr
  have e1 := hr.1 2 (by decide) 0 (by decide)
  have e2 := h3.1 2 (by decide) 0 (by decide)
  rw [e1] at e2
  revert e2
  decide +kernel

/-! ## C13 -/

section
variable {cap : Nat} {cr : Crypto} {c : Circuit} {A B : Args} {G : GEnv} {E : EEnv}

/-- C13, public terminate signal: in every execution both parties stop after the same number of cycles,
which is the number of cycles the plaintext evaluator executes: up to and including the first cycle
divisible by the period in which the signal is 1. Missing: secret signals, for which the property is
false (`C13_secret_terminate_deadlocks`). -/
theorem C13_stop_cycle_partial {v : Nat → Nat → Bool} (h : Proper cap cr c A B G E v) (w0 : Nat → Bool) :
    ∃ go eo m, AlwaysFinishes cap (garbleBN cr c A G) (evaluateBN cr c B E) (go, m) (eo, m)
      ∧ Executed c A.period v A.cycles m
      ∧ (evaluatePlaintext c (inputsOf A B) w0 A.cycles A.period).2 = m := by
  have hx := executed_count c A.period v A.cycles
  refine ⟨_, _, _, (runs_protocol h.setup h.values h.lucky h.publicStop).always, hx, ?_⟩
  exact executed_unique (C33_plain_outputs h.setup.wf (inputsOf A B) w0 A.cycles A.period h.values).1 hx

/-- C13 fails for secret terminate signals: whenever the signal is secret at the first look at it, then in
every execution, whatever the buffers, both parties end up waiting for each other forever (both call
`RecvData`), although a plaintext evaluation of the same circuit ends. -/
theorem C13_secret_terminate_deadlocks (h : Setup cap cr c A B G E) {v : Nat → Nat → Bool}
    (hv : Solves c (inputsOf A B) v) {k : Nat} (hk : (sessionOf cr c A B G E).SecretLook A.period A.cycles v k) :
    AlwaysDeadlocks cap (garbleBN cr c A G) (evaluateBN cr c B E) :=
  deadlock_protocol h hv hk

example (low : Bool) : AlwaysDeadlocks 1 (garbleBN prCrypto prT (prA 0 .consecutive low) prG)
    (evaluateBN prCrypto prT (prB 0 .consecutive low) prE) :=
  C13_secret_terminate_deadlocks (prT_setup low) (plainWires_solves prT_wf _ _) (prT_look low)

/-! ## C01 -/

/-- C01: in every execution of the two parties, both return SUCCESS, and each output bit, read from
the party that owns it, is the bit the plaintext evaluator computes from the same inputs (whatever its
uninitialised memory `w0`); a bit of the other party reads 0; both report the number of cycles of the
plaintext evaluator. Missing: output bits lost by the evaluator (`C10_evaluator_loses_output`), secret
terminate signals (`C13_secret_terminate_deadlocks`), small buffers (`C14_ot_can_deadlock`). -/
theorem C01_protocol_equals_plaintext_partial {v : Nat → Nat → Bool} (h : Proper cap cr c A B G E v)
    (hn : ∀ t < A.cycles, ∀ i < c.outputSize, ¬ (sessionOf cr c A B G E).LostAt A.mask v t i) (w0 : Nat → Bool) :
    let r := evaluatePlaintext c (inputsOf A B) w0 A.cycles A.period
    ∃ go eo, AlwaysFinishes cap (garbleBN cr c A G) (evaluateBN cr c B E) (go, r.2) (eo, r.2)
      ∧ Reports c A r.2 go (fun t i => A.mask.testBit i && r.1.testBit (t * c.outputSize + i))
      ∧ Reports c A r.2 eo (fun t i => !A.mask.testBit i && r.1.testBit (t * c.outputSize + i)) := by
  intro r
  obtain ⟨go, eo, m, h1, h2, h3, h4⟩ := C10_both_bits_partial h hn
  obtain ⟨p1, p2, p3⟩ := C33_plain_outputs h.setup.wf (inputsOf A B) w0 A.cycles A.period h.values
  have hm : m = r.2 := executed_unique h2 p1
  subst hm
  have hpos : 0 < r.2 := by
    have e := executed_unique h2 (executed_count c A.period v A.cycles)
    rw [e]
    exact loopCount_pos _ _ _ h.setup.cycles
  refine ⟨go, eo, h1, Reports.congr h3 hpos ?_, Reports.congr h4 hpos ?_⟩ <;>
  · intro t ht i hi
    rw [p2 t ht i hi]

example : Proper 1 prCrypto prCircuit (prA 1 .lastClock true) (prB 1 .lastClock true) prG prE prV
    ∧ ∀ t < 4, ∀ i < 2, ¬ (prS 1 .lastClock true).LostAt 1 prV t i :=
  ⟨prProper .., fun t _ i _ => not_lost_of_segment (by decide) t i⟩

end

end TinyGarble.Props
