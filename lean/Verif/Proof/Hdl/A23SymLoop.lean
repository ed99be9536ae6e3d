import Verif.Proof.Hdl.A23SymRun

/-! # Symbolic execution: loops, and the circuit -/

namespace TinyGarble.Proof.Hdl.A23.Sym

open TinyGarble.Spec.Arm
open TinyGarble.Spec.Mips (bits put fetch)

/-- All that `τ'` knows is known by `τ`. -/
def weaker (prog : List (BitVec 32)) (τ' τ : Abs) : Bool :=
  τ'.pc == τ.pc && (List.range 15).all (fun r => τ'.reg (BitVec.ofNat 4 r) == none || τ'.reg (BitVec.ofNat 4 r) == τ.reg (BitVec.ofNat 4 r)) &&
  (τ'.flags == none || τ'.flags == τ.flags) &&
  (τ'.mem ++ τ.mem).all fun x => τ'.word prog x.1 == none || τ'.word prog x.1 == τ.word prog x.1

theorem find_none {a : BitVec 32} {l : List (BitVec 32 × Option (BitVec 32))} (h : ∀ x ∈ l, x.1 ≠ a) : find a l = none := by
  induction l with
  | nil => rfl
  | cons x l ih =>
    obtain ⟨b, t⟩ := x
    rw [find, if_neg (h _ (List.mem_cons_self ..))]
    exact ih fun y hy => h y (List.mem_cons_of_mem _ hy)

theorem weaker_sound {prog : List (BitVec 32)} {τ τ' : Abs} {s : State} (hw : weaker prog τ' τ = true) (h : Desc prog τ s) : Desc prog τ' s := by
  unfold weaker at hw
  rw [Bool.and_eq_true, Bool.and_eq_true, Bool.and_eq_true] at hw
  obtain ⟨⟨⟨h1, h2⟩, h3⟩, h4⟩ := hw
  refine ⟨by rw [h.pc]; exact (beq_iff_eq.1 h1).symm, fun r v hr hv => ?_, fun f hf => ?_, fun a w ha hx => ?_⟩
  · have h15 : r.toNat ≠ 15 := fun h => hr (BitVec.eq_of_toNat_eq h)
    have := List.all_eq_true.1 h2 r.toNat (List.mem_range.2 (by have := r.isLt; omega))
    rw [BitVec.ofNat_toNat, BitVec.setWidth_eq, hv] at this
    rw [Bool.or_eq_true, beq_iff_eq, beq_iff_eq] at this
    exact h.reg r v hr (this.elim (fun h => by cases h) fun h => h.symm)
  · rw [hf, Bool.or_eq_true, beq_iff_eq, beq_iff_eq] at h3
    exact h.flags f (h3.elim (fun h => by cases h) fun h => h.symm)
  · by_cases hm : ∃ x ∈ τ'.mem ++ τ.mem, x.1 = a
    · obtain ⟨x, hx1, rfl⟩ := hm
      have := List.all_eq_true.1 h4 x hx1
      rw [hx, Bool.or_eq_true, beq_iff_eq, beq_iff_eq] at this
      exact h.word _ w ha (this.elim (fun h => by cases h) fun h => h.symm)
    · have hm : ∀ x ∈ τ'.mem ++ τ.mem, x.1 ≠ a := fun x hx h => hm ⟨x, hx, h⟩
      refine h.word a w ha ?_
      rw [← hx]
      unfold Abs.word
      rw [find_none fun x hx => hm x (List.mem_append_right _ hx), find_none fun x hx => hm x (List.mem_append_left _ hx)]

/-- From states as described by `τ` the machine gets by the micro-operations, in `k` cycles, to a state as described by `τ'`. -/
def Runs (prog : List (BitVec 32)) (m : Layout) (τ : Abs) (ms : List Micro) (k : Nat) (τ' : Abs) : Prop :=
  ∀ l s, Within m l → Desc prog τ s → Reach l s k { applyAll s ms with pc := τ'.pc } ∧ Desc prog τ' { applyAll s ms with pc := τ'.pc }

/-- Executing `n` instructions. -/
def check (prog : List (BitVec 32)) (m : Layout) (τ : Abs) (n : Nat) (ms : List Micro) (k : Nat) (τ' : Abs) : Bool :=
  match τ.run prog m n with
  | some (τ1, ms1, k1) => ms1 == ms && k1 == k && weaker prog τ' τ1
  | none => false

section
variable {prog : List (BitVec 32)} {m : Layout}

theorem Runs.of_check {τ τ' : Abs} {n k : Nat} {ms : List Micro} (h : check prog m τ n ms k τ' = true) : Runs prog m τ ms k τ' := by
  intro l s hl hD
  unfold check at h
  split at h
  · rename_i τ1 ms1 k1 h1
    rw [Bool.and_eq_true, Bool.and_eq_true, beq_iff_eq, beq_iff_eq] at h
    obtain ⟨⟨rfl, rfl⟩, hw⟩ := h
    have := run_sound hl n hD h1
    have hpc : τ'.pc = τ1.pc := by
      unfold weaker at hw
      rw [Bool.and_eq_true, Bool.and_eq_true, Bool.and_eq_true] at hw
      exact beq_iff_eq.1 hw.1.1.1
    rw [hpc]
    exact ⟨this.1, weaker_sound hw this.2⟩
  · cases h

theorem applyAll_append (s : State) (a b : List Micro) : applyAll s (a ++ b) = applyAll (applyAll s a) b := List.foldl_append ..

theorem Runs.trans {τ τ' τ'' : Abs} {a b : List Micro} {j k : Nat} (h1 : Runs prog m τ a j τ') (h2 : Runs prog m τ' b k τ'') :
    Runs prog m τ (a ++ b) (j + k) τ'' := by
  intro l s hl hD
  obtain ⟨r1, d1⟩ := h1 l s hl hD
  obtain ⟨r2, d2⟩ := h2 l _ hl d1
  have : ({ applyAll s (a ++ b) with pc := τ''.pc } : State) = { applyAll { applyAll s a with pc := τ'.pc } b with pc := τ''.pc } := by
    rw [applyAll_pc (applyAll s a) τ'.pc, applyAll_append]
  rw [this]
  exact ⟨r1.trans r2, d2⟩

theorem Runs.nil (τ : Abs) : Runs prog m τ [] 0 τ := by
  intro l s hl hD
  have : ({ applyAll s [] with pc := τ.pc } : State) = s := by rw [← hD.pc]; rfl
  rw [this]
  exact ⟨.refl _, hD⟩

theorem Runs.loop (τ : Nat → Abs) (body : Nat → List Micro) (k : Nat → Nat) (n : Nat) (h : ∀ i < n, Runs prog m (τ i) (body i) (k i) (τ (i + 1))) :
    Runs prog m (τ 0) ((List.range n).flatMap body) ((List.range n).map k).sum (τ n) := by
  induction n with
  | zero => exact .nil _
  | succ n ih =>
    rw [List.range_succ, List.flatMap_append, List.map_append, List.sum_append]
    have h1 := h n (Nat.lt_succ_self n)
    rw [show (List.flatMap body [n]) = body n by simp, show (List.map k [n]).sum = k n by simp]
    exact (ih fun i hi => h i (by omega)).trans h1

/-- Invariants of loops. -/
theorem applyAll_loop (P : Nat → State → Prop) (body : Nat → List Micro) (n : Nat) {s : State} (h0 : P 0 s)
    (h : ∀ i < n, ∀ s, P i s → P (i + 1) (applyAll s (body i))) : P n (applyAll s ((List.range n).flatMap body)) := by
  induction n with
  | zero => exact h0
  | succ n ih =>
    rw [List.range_succ, List.flatMap_append, applyAll_append]
    have := h n (Nat.lt_succ_self n) _ (ih fun i hi => h i (by omega))
    simpa using this

end

theorem Reach.to_trace {l : Layout} {s s' : State} {k : Nat} (h : Reach l s k s') :
    ∃ t, Circuit.trace l s t = some s' ∧ Circuit.cost l s t = k ∧
      ∀ j < t, ∀ s' c i, Circuit.trace l s j = some s' → s'.fetch l = some (c, i) → Circuit.Supported l s' c i ∧ Ordinary s' i := by
  induction h with
  | refl s => exact ⟨0, rfl, rfl, fun j hj => absurd hj (by omega)⟩
  | @step s s1 s2 c i k hf hs hsup ho hr ih =>
    obtain ⟨t, h1, h2, h3⟩ := ih
    have htr : ∀ j, Circuit.trace l s (j + 1) = Circuit.trace l s1 j := by
      intro j
      induction j with
      | zero => exact hs
      | succ j ihj => rw [Circuit.trace, ihj]; rfl
    refine ⟨t + 1, by rw [htr, h1], ?_, fun j hj => ?_⟩
    · rw [← h2]
      clear h1 h2 h3
      induction t with
      | zero =>
        show 0 + (((some s).bind (State.fetch l)).map _).getD 0 = _
        simp [hf, Circuit.cost]
      | succ t iht =>
        rw [Circuit.cost, iht, htr, Circuit.cost]
        omega
    · cases j with
      | zero =>
        intro s' c' i' h4 h5
        cases h4
        rw [hf] at h5
        cases h5
        exact ⟨hsup, ho⟩
      | succ j =>
        intro s' c' i' h4 h5
        rw [htr] at h4
        exact h3 j (by omega) s' c' i' h4 h5

/-- What is known at the start. -/
def Abs.init : Abs := ⟨0, List.replicate 15 (some 0), some ⟨false, false, false, false⟩, []⟩

/-- A number whose bytes are consecutive in the memory. -/
theorem word_of_bytes (s : State) (n : Nat) (b : Nat) (x : Nat) (hb : b % 4 = 0) (hlt : b < 2 ^ 32)
    (h : ∀ j < 4, s.mem (BitVec.ofNat 32 (b + j)) = BitVec.ofNat 8 (x / 2 ^ (8 * (n + j)))) : s.word (BitVec.ofNat 32 b) = BitVec.ofNat 32 (x / 2 ^ (8 * n)) := by
  unfold State.word
  rw [align_of_mod (by rw [BitVec.toNat_ofNat, Nat.mod_eq_of_lt hlt]; exact hb)]
  have hadd : ∀ j : Nat, BitVec.ofNat 32 (b + j) + 1 = BitVec.ofNat 32 (b + (j + 1)) := by
    intro j
    apply BitVec.eq_of_toNat_eq
    rw [BitVec.toNat_add, BitVec.toNat_ofNat, BitVec.toNat_ofNat, show (1 : BitVec 32).toNat = 1 from rfl]
    omega
  have e0 := h 0 (by omega)
  have e1 := h 1 (by omega)
  have e2 := h 2 (by omega)
  have e3 := h 3 (by omega)
  rw [← Nat.add_zero b]
  simp only [fetch]
  rw [hadd, hadd, hadd, e0, e1, e2, e3]
  apply BitVec.eq_of_toNat_eq
  simp only [BitVec.toNat_ofNat]
  rw [show 8 * (n + 0) = 8 * n by omega, show 8 * (n + 1) = 8 * n + 8 by omega, show 8 * (n + 2) = 8 * n + 16 by omega,
    show 8 * (n + 3) = 8 * n + 24 by omega, pow_add, pow_add, pow_add, ← Nat.div_div_eq_div_mul, ← Nat.div_div_eq_div_mul, ← Nat.div_div_eq_div_mul]
  generalize x / 2 ^ (8 * n) = y
  omega

end TinyGarble.Proof.Hdl.A23.Sym
