import Verif.Proof.Lost
import Verif.Props.ExampleProtocol

/-!
# C86: lost connections

A connection `⟨l, n⟩` delivers the bytes `l` and takes `n` bytes, and then it is lost. The full claim: if a party on the connection `⟨u, m⟩` succeeds
after it has read all of `u` and written `m` bytes, then on a connection that is lost earlier, `⟨l, n⟩` with `l` a prefix of `u` and `n ≤ m`, one of
them shorter, it returns FAILURE.
-/

namespace TinyGarble.Props
open TinyGarble Spec Proof

variable (cr : Crypto) (c : Circuit) (A : Args)

/-- C86, evaluator, low-memory mode. Missing: high-memory mode, where it is false (`C86_evaluator_false`). -/
theorem C86_evaluator_low_partial (E : EEnv) (hu : A.useLow = true) {u : List Byte} {m : Nat} {r : Nat × Nat}
    (h : evaluateOn cr c A E ⟨u, m⟩ = (.ok r, ⟨[], 0⟩)) {l : List Byte} {n : Nat} (hl : l <+: u) (hn : n ≤ m) (hlt : l.length < u.length ∨ n < m) :
    (evaluateOn cr c A E ⟨l, n⟩).1 = .failed := by
  rw [evaluateOn_low hu] at h ⊢
  exact on_short h hl hn hlt

/-- C86, garbler, low-memory mode. Missing: high-memory mode (`C86_garbler_high_partial`). -/
theorem C86_garbler_low_partial (G : GEnv) (out0 : Nat → BlockPair × WVal) (hu : A.useLow = true) {u : List Byte} {m : Nat} {r : Nat × Nat}
    (h : garbleOn cr c A G out0 ⟨u, m⟩ = (.ok r, ⟨[], 0⟩)) {l : List Byte} {n : Nat} (hl : l <+: u) (hn : n ≤ m)
    (hlt : l.length < u.length ∨ n < m) : (garbleOn cr c A G out0 ⟨l, n⟩).1 = .failed := by
  rw [garbleOn_low hu] at h ⊢
  exact on_short h hl hn hlt

/-- The bytes that the two parties of the example send to each other. -/
def prTalk (low : Bool) : List Byte × List Byte :=
  converse 2000 (garbleBN prCrypto prCircuit (prA 0 .consecutive low) prG) (evaluateBN prCrypto prCircuit (prB 0 .consecutive low) prE) [] []

example : evaluateOn prCrypto prCircuit (prB 0 .consecutive true) prE ⟨(prTalk true).1, 19⟩ = (.ok (49, 3), ⟨[], 0⟩) ∧
    garbleOn prCrypto prCircuit (prA 0 .consecutive true) prG (fun _ => (zeroPair, .sec false)) ⟨(prTalk true).2, 482⟩ = (.ok (0, 3), ⟨[], 0⟩) := by
  decide +kernel

/-- C86, evaluator, high-memory mode: a loss during the transfer of the key and the labels is reported. Missing: a loss later
(`C86_evaluator_false`). -/
theorem C86_evaluator_labels_partial (E : EEnv) (hu : A.useLow = false) {u : List Byte} {m : Nat} {r : (Nat → Block) × (Nat → Block)}
    (h : ((recvData 16).bind fun _ => evalTransferHigh cr c A E.init0 E.input0 (E.rk 0) (E.ext 0)).on ⟨u, m⟩ = (.ok r, ⟨[], 0⟩))
    {l : List Byte} {n : Nat} (hl : l <+: u) (hn : n ≤ m) (hlt : l.length < u.length ∨ n < m) :
    (evaluateOn cr c A E ⟨l, n⟩).1 = .failed := by
  have hf := on_short h hl hn hlt
  unfold evaluateOn
  split
  · rfl
  · split
    · rfl
    · rw [on_bind] at hf
      generalize hx : (recvData 16).on ⟨l, n⟩ = x at hf ⊢
      rcases x with ⟨k | _ | _, w⟩
      · have hf : ((evalTransferHigh cr c A E.init0 E.input0 (E.rk 0) (E.ext 0)).on w).1 = .failed := hf
        show (if A.useLow = true then _ else evalHighOn cr c A E (bytesBlock k) w).1 = .failed
        rw [hu, if_neg (by decide)]
        unfold evalHighOn
        exact andThen_failed hf
      · rfl
      · cases hf

/-- C86, evaluator, high-memory mode, negation: when the connection is lost directly after the labels, the evaluator returns SUCCESS, with an output
from uninitialised memory; when that memory is zero (as new pages from the operating system are), with the output 0, whatever the inputs are. -/
theorem C86_evaluator_false (E : EEnv) (hu : A.useLow = false) (h0 : A.cycles ≠ 0) (hp : A.period ≠ 0 → c.terminateId ≠ 0)
    (hr : refsInRange c = true) {l : List Byte} {n n' : Nat} {r : (Nat → Block) × (Nat → Block)}
    (h : ((recvData 16).bind fun _ => evalTransferHigh cr c A E.init0 E.input0 (E.rk 0) (E.ext 0)).on ⟨l, n⟩ = (.ok r, ⟨[], n'⟩))
    (hz : ∀ j, (E.out0 j).2 = .pub false) : evaluateOn cr c A E ⟨l, n⟩ = (.ok (0, A.cycles), ⟨[], n'⟩) := by
  rw [on_bind] at h
  obtain ⟨k, w, h1, h2⟩ := andThen_ok h
  unfold evaluateOn
  rw [if_neg h0, if_neg fun hh => hp hh.1 hh.2, h1]
  show (if A.useLow = true then _ else evalHighOn cr c A E (bytesBlock k) w) = _
  rw [hu, if_neg (by decide)]
  unfold evalHighOn
  rw [h2]
  show (if refsInRange c = false then _ else _) = _
  rw [if_neg (by rw [hr]; decide)]
  have hloop : evalLoopHighOn cr c A E (bytesBlock k) r.1 r.2 A.cycles 0 E.st0 E.out0 ⟨[], n'⟩ = (.ok (E.out0, A.cycles), ⟨[], n'⟩) := by
    obtain ⟨k', hk⟩ : ∃ k', A.cycles = k' + 1 := ⟨A.cycles - 1, by omega⟩
    rw [show evalLoopHighOn cr c A E (bytesBlock k) r.1 r.2 A.cycles = evalLoopHighOn cr c A E (bytesBlock k) r.1 r.2 (k' + 1) by rw [hk], evalLoopHighOn]
    rfl
  rw [hloop]
  show Ret.andThen ((evalOutputsHigh c A E.out0 A.cycles).on ⟨[], n'⟩) _ = _
  rw [evalOutputsHigh_zero c A hz]
  rfl

/-- The evaluator of the example with memory that is zero. -/
def prZ : EEnv := { prE with out0 := fun _ => (0#128, .pub false) }

/-- In the example the output is 49 after 3 cycles. When the connection is lost after the key and the labels (144 bytes), the evaluator
reports the output 0 after 4 cycles. -/
example : evaluateOn prCrypto prCircuit (prB 0 .consecutive false) prZ ⟨(prTalk false).1, 9⟩ = (.ok (49, 3), ⟨[], 0⟩) ∧
    evaluateOn prCrypto prCircuit (prB 0 .consecutive false) prZ ⟨(prTalk false).1.take 144, 9⟩ = (.ok (0, 4), ⟨[], 0⟩) := by
  decide +kernel

example : ∃ r n', ((recvData 16).bind fun _ => evalTransferHigh prCrypto prCircuit (prB 0 .consecutive false) prZ.init0 prZ.input0 (prZ.rk 0) (prZ.ext 0)).on
    ⟨(prTalk false).1.take 144, 9⟩ = (.ok r, ⟨[], n'⟩) := by
  have h : ((((recvData 16).bind fun _ => evalTransferHigh prCrypto prCircuit (prB 0 .consecutive false) prZ.init0 prZ.input0 (prZ.rk 0)
      (prZ.ext 0)).bind fun _ => .ret ()).on ⟨(prTalk false).1.take 144, 9⟩) = (.ok (), ⟨[], 0⟩) := by decide +kernel
  rw [on_bind] at h
  obtain ⟨r, w, h1, h2⟩ := andThen_ok h
  refine ⟨r, 0, h1.trans ?_⟩
  have : w = ⟨[], 0⟩ := (Prod.mk.inj h2).2
  rw [this]

/-- C86, garbler, high-memory mode: the ignored failure is noticed in the transfer of the outputs, if some output of the first cycle is secret and
the values of the terminate signal are public: whenever the function would fail if all failures were reported (`garbleBN`), it fails. `hlab`: the key
and the labels have been transferred and the evaluator has not yet sent more. Missing: a loss with a secret terminate signal, where it is false
(`C86_garbler_false`), and a loss with some of the bits of the outputs already received. -/
theorem C86_garbler_high_partial (G : GEnv) (out0 : Nat → BlockPair × WVal) (hu : A.useLow = false) (hp : PublicSignal cr c A G)
    (hr : refsInRange c = true) {i : Nat} (hi : i < c.outputSize)
    (hsec : ∃ b, (beforeCycle cr c A G 1).val (c.outputs i).toNat = .sec b) {l : List Byte} {n n' : Nat}
    (hlab : ((sendData (blockBytes (keyOf G.rnd)) 16).bind fun _ =>
      garbleTransferHigh cr c A (initLabelsHigh G.rnd) (inputLabelsHigh c G.rnd) (G.ot 0) (G.ext 0)).on ⟨l, n⟩ = (.ok (), ⟨[], n'⟩))
    (hf : ((garbleBN cr c A G).on ⟨l, n⟩).1 = .failed) : (garbleOn cr c A G out0 ⟨l, n⟩).1 = .failed := by
  rw [on_bind] at hlab
  obtain ⟨k, w, h1, h2⟩ := andThen_ok hlab
  unfold garbleBN at hf
  unfold garbleOn
  by_cases h0 : A.cycles = 0
  · rw [if_pos h0]
  rw [if_neg h0] at hf ⊢
  by_cases ht : A.period ≠ 0 ∧ c.terminateId = 0
  · rw [if_pos ht]
  rw [if_neg ht] at hf ⊢
  rw [on_bind, h1] at hf
  rw [h1]
  have hf : (Proc.on (if A.useLow = true then _ else _) w).1 = .failed := hf
  show (if A.useLow = true then _ else garbleHighOn cr c A G out0 w).1 = .failed
  rw [hu, if_neg (by decide)] at hf ⊢
  exact garbleHigh_reports cr c A G out0 hp hr hi hsec w h2 hf

theorem prA_public : PublicSignal prCrypto prCircuit (prA 0 .consecutive false) prG := by
  intro k hk _ _
  have h : ∀ k < 4, (match (beforeCycle prCrypto prCircuit (prA 0 .consecutive false) prG (k + 1)).val prCircuit.terminateId with
      | .pub _ => true | .sec _ => false) = true := by decide +kernel
  have h := h k hk
  generalize (beforeCycle prCrypto prCircuit (prA 0 .consecutive false) prG (k + 1)).val prCircuit.terminateId = v at h ⊢
  rcases v with v | v
  · exact ⟨v, rfl⟩
  · cases h

/-- The example: the values of the terminate signal are public, and the second output (the sum) is secret in the first cycle. The connection takes
200 bytes; the garbler would send 514. -/
example : let A := prA 0 .consecutive false
    PublicSignal prCrypto prCircuit A prG ∧
    (∃ b, (beforeCycle prCrypto prCircuit A prG 1).val (prCircuit.outputs 1).toNat = .sec b) ∧
    ((sendData (blockBytes (keyOf prG.rnd)) 16).bind fun _ =>
      garbleTransferHigh prCrypto prCircuit A (initLabelsHigh prG.rnd) (inputLabelsHigh prCircuit prG.rnd) (prG.ot 0) (prG.ext 0)).on
        ⟨(prTalk false).2, 200⟩ = (.ok (), ⟨[], 56⟩) ∧
    ((garbleBN prCrypto prCircuit A prG).on ⟨(prTalk false).2, 200⟩).1 = .failed := by
  refine ⟨prA_public, ?_, ?_, ?_⟩
  · have h : (match (beforeCycle prCrypto prCircuit (prA 0 .consecutive false) prG 1).val (prCircuit.outputs 1).toNat with
        | .sec _ => true | .pub _ => false) = true := by decide +kernel
    generalize (beforeCycle prCrypto prCircuit (prA 0 .consecutive false) prG 1).val (prCircuit.outputs 1).toNat = v at h ⊢
    rcases v with v | v
    · cases h
    · exact ⟨v, rfl⟩
  · decide +kernel
  · decide +kernel

/-- C86, garbler, high-memory mode, negation: the terminate signal of the first cycle is secret, and all outputs are for the evaluator. If the evaluator
is lost after it has sent what the transfer of the labels needs, while at least `k` more bytes can be written (the operating system still takes them), the
garbler does not get the evaluator's bit of the signal; the function would fail if all failures were reported, but it returns SUCCESS after having
garbled one cycle and announces `A.cycles` cycles. -/
theorem C86_garbler_false (G : GEnv) (out0 : Nat → BlockPair × WVal) (hu : A.useLow = false) (h0 : A.cycles ≠ 0) (hm : A.mask = 0)
    (hp : A.period ≠ 0) (ht : c.terminateId ≠ 0) (hr : refsInRange c = true)
    (hsec : ∃ b, (beforeCycle cr c A G 1).val c.terminateId = .sec b) :
    ∃ k out, ∀ l n n', k ≤ n' →
      ((sendData (blockBytes (keyOf G.rnd)) 16).bind fun _ =>
        garbleTransferHigh cr c A (initLabelsHigh G.rnd) (inputLabelsHigh c G.rnd) (G.ot 0) (G.ext 0)).on ⟨l, n⟩ = (.ok (), ⟨[], n'⟩) →
      ((garbleBN cr c A G).on ⟨l, n⟩).1 = .failed ∧ (garbleOn cr c A G out0 ⟨l, n⟩).1 = .ok (out, A.cycles) := by
  obtain ⟨k, out, H⟩ := garbleHigh_unanswered cr c A G out0 h0 hm hp ht hr hsec
  refine ⟨k, out, fun l n n' hk hlab => ?_⟩
  rw [on_bind] at hlab
  obtain ⟨x, w, h1, h2⟩ := andThen_ok hlab
  have ht' : ¬(A.period ≠ 0 ∧ c.terminateId = 0) := fun hh => ht hh.2
  constructor
  · unfold garbleBN
    rw [if_neg h0, if_neg ht', on_bind, h1]
    show (Proc.on (if A.useLow = true then _ else garbleHigh cr c A G) w).1 = _
    rw [hu, if_neg (by decide)]
    exact (H w n' hk h2).1
  · unfold garbleOn
    rw [if_neg h0, if_neg ht', h1]
    show (if A.useLow = true then _ else garbleHighOn cr c A G out0 w).1 = _
    rw [hu, if_neg (by decide)]
    exact (H w n' hk h2).2

/-- The circuit of the example with the secret sum as terminate signal. -/
def prSecret : Circuit := { prCircuit with terminateId := (prCircuit.outputs 1).toNat }

/-- After 144 bytes for the key and the labels, 2000 more bytes can be written. -/
example : let A := prA 0 .consecutive false
    A.useLow = false ∧ A.mask = 0 ∧ A.period ≠ 0 ∧ prSecret.terminateId ≠ 0 ∧ refsInRange prSecret = true ∧
    (match (beforeCycle prCrypto prSecret A prG 1).val prSecret.terminateId with | .sec _ => true | .pub _ => false) = true ∧
    ((sendData (blockBytes (keyOf prG.rnd)) 16).bind fun _ =>
      garbleTransferHigh prCrypto prSecret A (initLabelsHigh prG.rnd) (inputLabelsHigh prSecret prG.rnd) (prG.ot 0) (prG.ext 0)).on
        ⟨(prTalk false).2, 2144⟩ = (.ok (), ⟨[], 2000⟩) ∧
    ((garbleBN prCrypto prSecret A prG).on ⟨(prTalk false).2, 2144⟩).1 = .failed ∧
    (garbleOn prCrypto prSecret A prG (fun _ => (zeroPair, .sec false)) ⟨(prTalk false).2, 2144⟩).1 = .ok (0, 4) := by
  refine ⟨?_, ?_, ?_, ?_, ?_, ?_, ?_, ?_, ?_⟩ <;> decide +kernel

end TinyGarble.Props
