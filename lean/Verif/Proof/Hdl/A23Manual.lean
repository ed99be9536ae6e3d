import Verif.Spec.ArmCircuit

/-! # Where the circuit follows the manual -/

namespace TinyGarble.Proof.Hdl.A23

open TinyGarble.Spec.Arm

theorem supported_circuit {l : Layout} {s : State} {c : BitVec 4} {i : Instr} (h : Supported l s c i) : Circuit.Supported l s c i := by
  obtain ⟨h1, h2, h3⟩ := h
  refine ⟨fun hh => ?_, fun hh => ?_, h3⟩
  · have h1 := h1 hh
    cases i with
    | dp op set rd rn o => exact ⟨h1.1, fun h => (h1.2 h).2.2.2⟩
    | mul => trivial
    | transfer => exact h1
    | multi => exact h1
    | branch => exact h1
  · have h2 := h2 hh
    cases i with
    | dp op set rd rn o => intro h; rw [h] at h2; cases h2
    | mul => exact h2
    | transfer => exact h2
    | multi => exact h2
    | branch => exact h2

theorem step_circuit {l : Layout} {s : State} (h : ∀ c i, s.fetch l = some (c, i) → Supported l s c i) : Circuit.step l s = step l s := by
  unfold Circuit.step step
  cases hf : s.fetch l with
  | none => rfl
  | some x =>
    obtain ⟨c, i⟩ := x
    obtain ⟨h1, h2, -⟩ := h c i hf
    show (if _ then _ else _) = if _ then _ else _
    by_cases hh : holds c s.flags = true
    · rw [if_pos hh, if_pos hh]
      have h1 := h1 hh
      cases i with
      | dp op set rd rn o =>
        show (if _ then _ else _) = _
        split
        · rename_i hs
          obtain ⟨n1, n2, n3, -⟩ := h1.2 hs
          have : ∀ f, Circuit.flags op f = f := by
            intro f
            cases op <;> first | rfl | exact absurd rfl n1 | exact absurd rfl n2 | exact absurd rfl n3
          simp only [this]
          exact Option.map_id' ..
        · rfl
      | mul acc set rd rn rs rm =>
        have h1 : acc = false := h1
        rw [h1]; rfl
      | transfer => rfl
      | multi => rfl
      | branch => rfl
    · rw [if_neg hh, if_neg hh]
      have h2 := h2 (by simpa using hh)
      cases i with
      | dp op set rd rn o =>
        show (if _ then _ else _) = _
        rw [h2, if_neg (by decide)]
      | mul => rfl
      | transfer => rfl
      | multi => rfl
      | branch => rfl

theorem trace_circuit {l : Layout} {s : State} {t : Nat}
    (h : ∀ k < t, ∀ s' c i, trace l s k = some s' → s'.fetch l = some (c, i) → Supported l s' c i) : ∀ k ≤ t, Circuit.trace l s k = trace l s k := by
  intro k
  induction k with
  | zero => intro _; rfl
  | succ k ih =>
    intro hk
    unfold Circuit.trace trace
    rw [ih (by omega)]
    cases ht : trace l s k with
    | none => rfl
    | some s' => exact step_circuit fun c i hf => h k (by omega) s' c i ht hf

theorem cost_circuit {l : Layout} {s : State} {t : Nat}
    (h : ∀ k < t, ∀ s' c i, trace l s k = some s' → s'.fetch l = some (c, i) → Supported l s' c i) : ∀ k ≤ t, Circuit.cost l s k = cost l s k := by
  intro k
  induction k with
  | zero => intro _; rfl
  | succ k ih =>
    intro hk
    unfold Circuit.cost cost
    rw [ih (by omega), trace_circuit h k (by omega)]

end TinyGarble.Proof.Hdl.A23
