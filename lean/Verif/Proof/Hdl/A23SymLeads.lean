import Verif.Proof.Hdl.A23SymApply

/-!
# Symbolic execution: conditions on states

`Runs` has one list of micro-operations for all states. `Leads` also allows distinctions between states, as they are necessary when an address depends
on the data.
-/

namespace TinyGarble.Proof.Hdl.A23.Sym

open TinyGarble.Spec.Arm

/-- From states as described by `τ` with `P` the machine gets in `k` cycles to a state as described by `τ'` with `Q`. -/
def Leads (prog : List (BitVec 32)) (m : Layout) (τ : Abs) (P : State → Prop) (k : Nat) (τ' : Abs) (Q : State → Prop) : Prop :=
  ∀ l s, Within m l → Desc prog τ s → P s → ∃ s', Reach l s k s' ∧ Desc prog τ' s' ∧ Q s'

section
variable {prog : List (BitVec 32)} {m : Layout}

theorem Leads.of_runs {τ τ' : Abs} {ms : List Micro} {k : Nat} {P Q : State → Prop} (h : Runs prog m τ ms k τ')
    (hq : ∀ s s', (∀ b, s'.word b = (applyAll s ms).word b) → (∀ r, s'.reg r = (applyAll s ms).reg r) → P s → Q s') : Leads prog m τ P k τ' Q := by
  intro l s hl hD hP
  obtain ⟨h1, h2⟩ := h l s hl hD
  exact ⟨_, h1, h2, hq s _ (fun _ => rfl) (fun _ => rfl) hP⟩

theorem Leads.trans {τ τ' τ'' : Abs} {P Q R : State → Prop} {j k : Nat} (h1 : Leads prog m τ P j τ' Q) (h2 : Leads prog m τ' Q k τ'' R) :
    Leads prog m τ P (j + k) τ'' R := by
  intro l s hl hD hP
  obtain ⟨s1, r1, d1, q1⟩ := h1 l s hl hD hP
  obtain ⟨s2, r2, d2, q2⟩ := h2 l s1 hl d1 q1
  exact ⟨s2, r1.trans r2, d2, q2⟩

theorem Leads.mono {τ τ' : Abs} {P P' Q Q' : State → Prop} {k : Nat} (h : Leads prog m τ P k τ' Q) (hp : ∀ s, P' s → P s) (hq : ∀ s, Q s → Q' s) :
    Leads prog m τ P' k τ' Q' := by
  intro l s hl hD hP
  obtain ⟨s1, r1, d1, q1⟩ := h l s hl hD (hp s hP)
  exact ⟨s1, r1, d1, hq s1 q1⟩

theorem Leads.loop (τ : Nat → Abs) (P : Nat → State → Prop) (k : Nat) (n : Nat) (h : ∀ i < n, Leads prog m (τ i) (P i) k (τ (i + 1)) (P (i + 1))) :
    Leads prog m (τ 0) (P 0) (n * k) (τ n) (P n) := by
  induction n with
  | zero =>
    intro l s hl hD hP
    rw [Nat.zero_mul]
    exact ⟨s, .refl _, hD, hP⟩
  | succ n ih =>
    rw [Nat.succ_mul]
    exact (ih fun i hi => h i (by omega)).trans (h n (Nat.lt_succ_self n))

/-- A register becomes known by a distinction of cases. -/
theorem Desc.learn {τ : Abs} {s : State} (h : Desc prog τ s) {r : BitVec 4} {v : BitVec 32} (hv : s.reg r = v) : Desc prog (τ.setReg r (some v)) s := by
  refine ⟨h.pc, fun k x hk hx => ?_, h.flags, h.word⟩
  rcases reg_setReg _ _ _ _ hx with ⟨h1, h2⟩ | ⟨h1, h2⟩
  · cases h2; rw [h1]; exact hv
  · exact h.reg k x hk h2

theorem Leads.learn {τ τ' : Abs} {P Q : State → Prop} {k : Nat} {r : BitVec 4} {v : BitVec 32} (h : Leads prog m (τ.setReg r (some v)) P k τ' Q)
    (hv : ∀ s, P s → s.reg r = v) : Leads prog m τ P k τ' Q :=
  fun l s hl hD hP => h l s hl (hD.learn (hv s hP)) hP

end

end TinyGarble.Proof.Hdl.A23.Sym
