import Verif.Proof.BristolNet
import Verif.Props.Named

/-! # Bristol circuits -/

namespace TinyGarble.Props
open TinyGarble.Spec TinyGarble.Proof

/-- The netlist whose sizes `GetBristWire` consults. -/
def bristSizes (g e out : Nat) : CircuitStr := { CircuitStr.empty with gInput := g, eInput := e, outputSize := out }

/-- C32. When inputs and outputs do not overlap, the first wires are the garbler's inputs, the next ones the evaluator's, the last
ones the outputs, in order; different wires have different names. -/
theorem C32_wire_names (wires g e out : Nat) (h : g + e + out ≤ wires) (hw : wires < 2 ^ 63) :
    (∀ w < g, bristWire w wires (bristSizes g e out) = indexName "g_input".toList w)
    ∧ (∀ w < e, bristWire (g + w) wires (bristSizes g e out) = indexName "e_input".toList w)
    ∧ (∀ w < out, bristWire (wires - out + w) wires (bristSizes g e out) = indexName "o".toList w)
    ∧ ∀ a < wires, ∀ b < wires, bristWire a wires (bristSizes g e out) = bristWire b wires (bristSizes g e out) → a = b := by
  have S : BSizes ⟨wires, g, e, out, []⟩ := ⟨h, hw⟩
  refine ⟨fun w hw => bname_g (B := ⟨wires, g, e, out, []⟩) hw, fun w hw => ?_, fun w hw => ?_,
    fun a ha b hb hab => bname_inj S ha hb hab⟩
  · refine (bname_e S (show g ≤ g + w by omega) (show g + w < g + e by omega)).trans ?_
    rw [show g + w - (⟨wires, g, e, out, []⟩ : Bristol).g = w from Nat.add_sub_cancel_left ..]
    rfl
  · refine (bname_o S (show wires - out ≤ wires - out + w by omega) (show wires - out + w < wires by omega)).trans ?_
    rw [show wires - out + w - ((⟨wires, g, e, out, []⟩ : Bristol).wires - (⟨wires, g, e, out, []⟩ : Bristol).out) = w
      from Nat.add_sub_cancel_left ..]
    rfl

example : (2 : Nat) + 3 + 4 ≤ 12 ∧ (12 : Nat) < 2 ^ 63 := by decide

/-- C32. Reading a file: every gate of the file becomes a gate between the named wires, whatever the layout of the file, and
whatever the uninitialised variables hold. -/
theorem C32_parsed {B : Bristol} (P : B.Proper) (log : Bool) (file : List Char) (h : words file = B.text) (junk0 junk) :
    parseBrist log file junk0 junk = some { bristSizes B.g B.e B.out with
      gates := B.gates.map fun
        | .and a b o => ⟨bristWire a B.wires (bristSizes B.g B.e B.out), bristWire b B.wires (bristSizes B.g B.e B.out),
            bristWire o B.wires (bristSizes B.g B.e B.out), ANDGATE⟩
        | .xor a b o => ⟨bristWire a B.wires (bristSizes B.g B.e B.out), bristWire b B.wires (bristSizes B.g B.e B.out),
            bristWire o B.wires (bristSizes B.g B.e B.out), XORGATE⟩
        | .inv a o => ⟨bristWire a B.wires (bristSizes B.g B.e B.out), [], bristWire o B.wires (bristSizes B.g B.e B.out),
            NOTGATE⟩ } := by
  rw [parseBrist_words P.bfits log file h]
  unfold bcircuit
  congr 2

/-- C50. A proper Bristol circuit is compiled (checks compiled in), and the plaintext evaluator on the circuit read back from the
compiled file computes it: with the inputs of cycle `t`, bit `i` of the output is the value of wire `wires - out + i` when the
gates are computed one after the other. -/
theorem C50_bristol {B : Bristol} (P : B.Proper) (file : List Char) (h : words file = B.text) (junk0 junk) :
    ∃ scd, brist2Scd file junk0 junk = some (some scd) ∧
      ∀ (mem : Circuit) (x : Inputs) (w0 : Nat → Bool) (n T : Nat),
        let r := evaluatePlaintext (readScd scd mem) x w0 n T
        r.2 = n
        ∧ (∀ t < n, ∀ i < B.out, r.1.testBit (t * B.out + i)
            = B.eval (B.inputs (x.gInput >>> (t * B.g)) (x.eInput >>> (t * B.e))) (B.wires - B.out + i))
        ∧ ∀ j, n * B.out ≤ j → r.1.testBit j = false := by
  have hsz := P.sizes
  have hsm := P.small
  have hfew := P.few
  have hin := P.inputs
  have hdr := bcircuit_drivers P
  have hgl : (bcircuit B).gates.length = B.gates.length := by simp [bcircuit]
  obtain ⟨c, hc⟩ := bcircuit_id P
  have A := idAssignment_assigned hc
  obtain ⟨c', scd, hs, hf, _⟩ := C48_compiled_circuit (bcircuit_wf P A)
    (A.fits (by rw [hdr]; omega) (show B.out < 2 ^ 64 by omega))
  have hcomp : compile (bcircuit B) = some (some scd) := by
    unfold compile
    rw [hc]
    simp [hs, hf]
  refine ⟨scd, ?_, fun mem x w0 n T => ?_⟩
  · unfold brist2Scd
    rw [parseBrist_words P.bfits true file h]
    exact hcomp
  · have L := bcircuit_legal P
    have h0 : 0 < drivers (bcircuit B) - (bcircuit B).gates.length := by omega
    obtain ⟨v, hv⟩ := C49_meaning_partial L (bcircuit_oneDriver P) hcomp h0 (by omega) x
    obtain ⟨he, ho, hr⟩ := C49_compiled_partial L hcomp h0 (by omega) (show B.out < 2 ^ 64 by omega) mem x v hv w0 n T
    have hn : (evaluatePlaintext (readScd scd mem) x w0 n T).2 = n := by
      by_contra hne
      obtain ⟨k, _, hst⟩ := he.last (by have := he.le; omega)
      exact absurd hst.2.1 (by simp [bcircuit, bristPorts, CircuitStr.empty])
    refine ⟨hn, fun t ht i hi => ?_, fun j hj => hr j (by rw [hn]; exact hj)⟩
    have hbit := ho t (by rw [hn]; exact ht) i hi
    refine hbit.trans ?_
    have hp : ∀ w < B.g + B.e, v t (bname B w) = B.inputs (x.gInput >>> (t * B.g)) (x.eInput >>> (t * B.e)) w := by
      intro w hw
      unfold Bristol.inputs
      by_cases h1 : w < B.g
      · rw [if_pos h1, bname_g h1, Nat.testBit_shiftRight]
        exact hv.gInput t w h1
      · rw [if_neg h1, bname_e P.bsizes (by omega) hw, Nat.testBit_shiftRight]
        exact hv.eInput t (w - B.g) (show w - B.g < B.e by omega)
    obtain ⟨gate, hm, e⟩ := P.driven (B.wires - B.out + i) (by omega) (by omega)
    obtain ⟨j, hj, rfl⟩ := List.getElem_of_mem hm
    have := beval_prefix P hv t _ hp B.gates.length (Nat.le_refl _) (B.wires - B.out + i) (Or.inr ⟨j, hj, e⟩)
    rw [List.take_length] at this
    rw [Bristol.eval, ← this, bname_o P.bsizes (by omega) (by omega)]
    congr 2
    omega

/-- Half adder: two inputs, sum and carry; the sum through an inverter twice. -/
def bristExample : Bristol := ⟨6, 1, 1, 2, [.xor 0 1 2, .inv 2 3, .inv 3 4, .and 0 1 5]⟩

theorem bristExample_proper : bristExample.Proper := by
  refine ⟨by decide, by decide, by decide, by decide, by decide, by decide, by decide, ?_, ?_⟩
  · intro i hi a ha
    match i, hi with
    | 0, _ => left; simp [bristExample, BGate.ins] at ha ⊢; omega
    | 1, _ => right; exact ⟨0, by decide, by simp [bristExample, BGate.ins, BGate.out] at ha ⊢; omega⟩
    | 2, _ => right; exact ⟨1, by decide, by simp [bristExample, BGate.ins, BGate.out] at ha ⊢; omega⟩
    | 3, _ => left; simp [bristExample, BGate.ins] at ha ⊢; omega
  · intro w h1 h2
    have : w = 4 ∨ w = 5 := by simp only [bristExample] at h1 h2; omega
    rcases this with rfl | rfl
    · exact ⟨_, List.mem_cons_of_mem _ (List.mem_cons_of_mem _ (List.mem_cons_self ..)), rfl⟩
    · exact ⟨_, List.mem_cons_of_mem _ (List.mem_cons_of_mem _ (List.mem_cons_of_mem _ (List.mem_cons_self ..))), rfl⟩

example : ∃ file, words file = bristExample.text ∧ bristExample.Proper :=
  ⟨"4 6\n1 1 2\n\n2 1 0 1 2 XOR\n1 1 2 3 INV\n1 1 3 4 INV\n2 1 0 1 5 AND\n".toList, by decide +kernel, bristExample_proper⟩

/-- C50, outside of proper circuits: an output that is an input at the same time has no driver. It is rejected, and without the
checks it becomes the first input of the garbler. -/
theorem C50_overlap :
    let file := "1 3\n1 1 2\n\n2 1 0 1 2 AND\n".toList
    (∀ junk0 junk, ∃ s, parseBrist true file junk0 junk = some s ∧ idAssignment true s = none
      ∧ (idAssignment false s).map (·.outputs) = some [0, 2]) := by
  intro file junk0 junk
  have hf : BFits ⟨3, 1, 1, 2, [.and 0 1 2]⟩ :=
    ⟨by decide, by decide, by decide, by decide, by decide, by decide, by decide, by unfold small; decide⟩
  exact ⟨_, parseBrist_words hf true file (by decide +kernel) junk0 junk, by decide +kernel, by decide +kernel⟩

end TinyGarble.Props
