import Verif.Spec.Netlist

/-! # Circuits with the same contents -/

namespace TinyGarble.Proof
open TinyGarble.Spec

section same
variable {a b : Circuit}

theorem sameCircuit_refl (a : Circuit) : SameCircuit a a :=
  ⟨rfl, rfl, rfl, rfl, rfl, rfl, rfl, rfl, rfl, rfl, fun _ _ => rfl, fun _ _ => rfl, fun _ _ => rfl, fun _ _ => rfl⟩

theorem _root_.TinyGarble.Spec.SameCircuit.layout (h : SameCircuit a b) : a.initSize = b.initSize ∧ a.wireSize = b.wireSize
    ∧ a.gateLo = b.gateLo ∧ inputBase a = inputBase b ∧ ffBase a = ffBase b ∧ gateBase a = gateBase b := by
  simp only [Circuit.initSize, Circuit.wireSize, Circuit.inputSize, Circuit.gateLo, Circuit.dffLo, Circuit.eInputLo,
    Circuit.gInputLo, Circuit.pInputLo, Circuit.gInitHi, Circuit.pInitHi, inputBase, ffBase, gateBase, h.pInit, h.gInit, h.eInit,
    h.pInput, h.gInput, h.eInput, h.dffSize, h.gateSize, and_self]

theorem _root_.TinyGarble.Spec.SameCircuit.wf (h : SameCircuit a b) (wf : WF b) : WF a := by
  obtain ⟨l1, l2, l3, _⟩ := h.layout
  refine ⟨fun i hi => ?_, fun i hi => ?_, fun i hi => ?_, fun i hi => ?_, fun i hi => ?_, ?_, ?_⟩
  · rw [h.gateSize] at hi
    have := wf.in0 i hi
    unfold Readable at this ⊢
    rw [h.gate i hi, l1, l3]; exact this
  · rw [h.gateSize] at hi
    have := wf.in1 i hi
    unfold Readable at this ⊢
    rw [h.gate i hi, l1, l3]; exact this
  · rw [h.gateSize] at hi
    rw [h.gate i hi]; exact wf.type i hi
  · rw [h.dffSize] at hi
    have := wf.D i hi
    unfold Readable at this ⊢
    rw [h.D i hi, l1, l2]; exact this
  · rw [h.outputSize] at hi
    rw [h.outputs i hi, l1, l2]; exact wf.outputs i hi
  · rw [h.terminateId, l1, l2]; exact wf.term
  · rw [h.gateSize]; exact wf.size

theorem _root_.TinyGarble.Spec.SameCircuit.solves (h : SameCircuit a b) {x : Inputs} {v : Nat → Nat → Bool} (hv : Solves b x v) :
    Solves a x v := by
  obtain ⟨l1, l2, l3, l4, l5, l6⟩ := h.layout
  refine ⟨fun t k hk => ?_, fun t k hk => ?_, fun t k hk => ?_, fun i hi => ?_, fun t i hi => ?_, fun t k hk => ?_⟩
  · rw [h.pInput] at hk ⊢; rw [l4]; exact hv.pIn t k hk
  · rw [h.gInput] at hk ⊢; rw [l4, h.pInput]; exact hv.gIn t k hk
  · rw [h.eInput] at hk ⊢; rw [l4, h.pInput, h.gInput]; exact hv.eIn t k hk
  · rw [h.dffSize] at hi
    rw [l5, hv.ffInit i hi, h.I i hi]
    unfold initialBit
    rw [h.pInit, h.gInit, h.eInit]
  · rw [h.dffSize] at hi
    rw [l5, hv.ffNext t i hi, h.D i hi]
  · rw [h.gateSize] at hk
    rw [l6, hv.gate t k hk, h.gate k hk]

end same

end TinyGarble.Proof
