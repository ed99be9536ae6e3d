import Verif.Proof.QuietRun
import Verif.Props.Lost
import Verif.Proof.Outputs

/-!
# C93: the build without logging
-/

namespace TinyGarble.Props
open TinyGarble Spec Proof

variable (cr : Crypto) (c : Circuit) (A : Args) (E : EEnv)

/-- C93, evaluator, low-memory mode: what it returns with SUCCESS when it is built with logging, it returns when it is built without. `s` are the
bytes that arrive. Missing: runs that fail, for which it is false (`C93_false`); high-memory mode is in `C93_protocol_partial`. -/
theorem C93_low_partial (hu : A.useLow = true) {u : List Byte} {m : Nat} {r : Nat × Nat} {w : Conn} (h : evaluateOn cr c A E ⟨u, m⟩ = (.ok r, w))
    (s : Nat → Byte) (hs : ∀ i (hi : i < u.length), s i = u[i]) : ((evaluateQuiet cr c A E).quiet s).1 = .ok r := by
  rw [evaluateOn_low hu] at h
  obtain ⟨s', h1, -⟩ := quiet_of_on ((refines_evaluate cr c A E hu).on h) s hs
  rw [h1]

example : (prB 0 .consecutive true).useLow = true ∧
    evaluateOn prCrypto prCircuit (prB 0 .consecutive true) prE ⟨(prTalk true).1, 19⟩ = (.ok (49, 3), ⟨[], 0⟩) ∧
    ((evaluateQuiet prCrypto prCircuit (prB 0 .consecutive true) prE).quiet fun i => (prTalk true).1.getD i 0).1 = .ok (49, 3) := by
  have h : evaluateOn prCrypto prCircuit (prB 0 .consecutive true) prE ⟨(prTalk true).1, 19⟩ = (.ok (49, 3), ⟨[], 0⟩) := by decide +kernel
  exact ⟨rfl, h, C93_low_partial _ _ _ _ rfl h _ fun i hi => by simp [List.getD, hi]⟩

/-- C93, negation, for all circuits and inputs (without oblivious transfer): built without logging the evaluator never returns FAILURE, wherever the
connection is lost: whatever the bytes `s` are that have arrived and those that its buffers held before. -/
theorem C93_false (hd : A.disableOT = true) (h0 : A.cycles ≠ 0) (hp : A.period ≠ 0 → c.terminateId ≠ 0) (s : Nat → Byte) :
    ((evaluateQuiet cr c A E).quiet s).1 ≠ .failed :=
  quiet_noFail (noFail_evaluate cr c A E hd h0 hp) s

example : (prB 0 .consecutive true).disableOT = true ∧ (prB 0 .consecutive true).cycles ≠ 0 ∧
    (prB 0 .consecutive true).period ≠ 0 ∧ prCircuit.terminateId ≠ 0 := by decide +kernel

/-- In the example (output 49 after 3 cycles), when the connection is lost before the first byte: with logging, FAILURE; without, SUCCESS with the
output 16, if the buffers are zero. -/
theorem C93_false_example :
    (prB 0 .consecutive true).disableOT = true ∧ (prB 0 .consecutive true).useLow = true ∧ (prB 0 .consecutive false).useLow = false ∧
    (evaluateOn prCrypto prCircuit (prB 0 .consecutive true) prZ ⟨[], 0⟩).1 = .failed ∧
    ((evaluateQuiet prCrypto prCircuit (prB 0 .consecutive true) prZ).quiet fun _ => 0).1 = .ok (16, 3) ∧
    (evaluateOn prCrypto prCircuit (prB 0 .consecutive false) prZ ⟨[], 0⟩).1 = .failed ∧
    ((evaluateQuiet prCrypto prCircuit (prB 0 .consecutive false) prZ).quiet fun _ => 0).1 = .ok (16, 3) := by
  decide +kernel

/-- C93, garbler, low-memory mode: like `C93_low_partial`. `garbleBN` contains no test but those of the transfers, so its program is the same in both
builds. Missing: runs that fail, for which it is false (`C93_false_garbler`); high-memory mode is
in `C93_garbler_high_partial`. -/
theorem C93_garbler_partial (G : GEnv) (out0 : Nat → BlockPair × WVal) (hu : A.useLow = true) {u : List Byte} {m : Nat} {r : Nat × Nat} {w : Conn}
    (h : garbleOn cr c A G out0 ⟨u, m⟩ = (.ok r, w)) (s : Nat → Byte) (hs : ∀ i (hi : i < u.length), s i = u[i]) :
    ((garbleBN cr c A G).quiet s).1 = .ok r := by
  rw [garbleOn_low hu] at h
  obtain ⟨s', h1, -⟩ := quiet_of_on h s hs
  rw [h1]

example : (prA 0 .consecutive true).useLow = true ∧
    garbleOn prCrypto prCircuit (prA 0 .consecutive true) prG (fun _ => (zeroPair, .sec false)) ⟨(prTalk true).2, 482⟩ = (.ok (0, 3), ⟨[], 0⟩) ∧
    ((garbleBN prCrypto prCircuit (prA 0 .consecutive true) prG).quiet fun i => (prTalk true).2.getD i 0).1 = .ok (0, 3) := by
  have h : garbleOn prCrypto prCircuit (prA 0 .consecutive true) prG (fun _ => (zeroPair, .sec false)) ⟨(prTalk true).2, 482⟩ =
    (.ok (0, 3), ⟨[], 0⟩) := by decide +kernel
  exact ⟨rfl, h, C93_garbler_partial _ _ _ _ _ rfl h _ fun i hi => by simp [List.getD, hi]⟩

/-- C93, garbler, high-memory mode: if no transfer fails (`garbleBN` is the program that reports all failures), both builds return the same. Missing: runs
that fail. -/
theorem C93_garbler_high_partial (G : GEnv) (out0 : Nat → BlockPair × WVal) (hu : A.useLow = false) {u : List Byte} {m : Nat} {r : Nat × Nat} {w : Conn}
    (h : (garbleBN cr c A G).on ⟨u, m⟩ = (.ok r, w)) (s : Nat → Byte) (hs : ∀ i (hi : i < u.length), s i = u[i]) :
    garbleOn cr c A G out0 ⟨u, m⟩ = (.ok r, w) ∧ ((garbleBN cr c A G).quiet s).1 = .ok r := by
  constructor
  · unfold garbleBN at h
    unfold garbleOn
    by_cases h0 : A.cycles = 0
    · rw [if_pos h0] at h
      cases h
    rw [if_neg h0] at h ⊢
    by_cases ht : A.period ≠ 0 ∧ c.terminateId = 0
    · rw [if_pos ht] at h
      cases h
    rw [if_neg ht, on_bind] at h
    rw [if_neg ht]
    obtain ⟨x, w1, h1, h⟩ := andThen_ok h
    rw [h1]
    show (if A.useLow = true then _ else garbleHighOn cr c A G out0 w1) = _
    rw [hu, if_neg (by decide)] at h ⊢
    exact garbleHigh_ok cr c A G out0 h
  · obtain ⟨s', h1, -⟩ := quiet_of_on h s hs
    rw [h1]

example : (prA 0 .consecutive false).useLow = false ∧
    (garbleBN prCrypto prCircuit (prA 0 .consecutive false) prG).on ⟨(prTalk false).2, 514⟩ = (.ok (0, 3), ⟨[], 0⟩) := by
  decide +kernel

/-- C93, negation, garbler, for all circuits and inputs (without oblivious transfer): built without logging and with memory that is zero it does not
return FAILURE when the connection is lost before it has sent or received anything. -/
theorem C93_false_garbler (G : GEnv) (out0 : Nat → BlockPair × WVal) (hd : A.disableOT = true) (h0 : A.cycles ≠ 0)
    (hp : A.period ≠ 0 → c.terminateId ≠ 0) :
    (garbleOn cr c A G out0 ⟨[], 0⟩).1 = .failed ∧ ((garbleBN cr c A G).quiet fun _ => 0).1 ≠ .failed := by
  refine ⟨?_, calm_garble cr c A G hd h0 hp⟩
  unfold garbleOn
  rw [if_neg h0, if_neg fun hh => hp hh.1 hh.2]
  have : ((sendData (blockBytes (keyOf G.rnd)) 16).on ⟨[], 0⟩) = (.failed, ⟨[], 0⟩) := by
    unfold sendData
    rw [if_neg (by decide)]
    rfl
  rw [this]
  rfl

example : (prA 0 .consecutive true).disableOT = true ∧ (prA 0 .consecutive true).cycles ≠ 0 ∧
    (prA 0 .consecutive true).period ≠ 0 ∧ prCircuit.terminateId ≠ 0 ∧
    ((garbleBN prCrypto prCircuit (prA 0 .consecutive true) prG).quiet fun _ => 0).1 = .ok (0, 3) := by decide +kernel

/-- C93, both parties, both memory modes: in a proper execution the two parties finish under every schedule, with the same results whether the
evaluator is built with logging or without, and so with the results of C10. What the garbler does (`garbleBN`) does not depend on logging as long as
no transfer fails. Missing: transfers that fail, for which it is false (`C93_false`). -/
theorem C93_protocol_partial {cap : Nat} {cr : Crypto} {c : Circuit} {A B : Args} {G : GEnv} {E : EEnv} {v : Nat → Nat → Bool}
    (h : Proper cap cr c A B G E v) :
    ∃ go eo m, AlwaysFinishes cap (garbleBN cr c A G) (evaluateBN cr c B E) (go, m) (eo, m)
      ∧ AlwaysFinishes cap (garbleBN cr c A G) (evaluateQuiet cr c B E) (go, m) (eo, m)
      ∧ Executed c A.period v A.cycles m
      ∧ Reports c A m go (fun t i => A.mask.testBit i && v t (c.outputs i).toNat) :=
  ⟨_, _, _, (runs_protocol h.setup h.values h.lucky h.publicStop).always, (runs_quiet h.setup h.values h.lucky h.publicStop).always,
    executed_count c A.period v A.cycles, reports_garbler (S := sessionOf cr c A B G E) (loopCount_pos _ _ _ h.setup.cycles)⟩

example (mask : Nat) (mode : OutputMode) (low : Bool) :
    Proper 1 prCrypto prCircuit (prA mask mode low) (prB mask mode low) prG prE prV := prProper mask mode low

end TinyGarble.Props
