import Verif.Proof.Sort

/-! # C28: ordering the gates -/

namespace TinyGarble.Props
open TinyGarble.Spec TinyGarble.Proof

/-- C28. `TopologicalSort` always ends, without leaving an array; it returns SUCCESS exactly when no gate depends on itself. -/
theorem C28_succeeds_iff_acyclic (c : ReadCircuit) (hc : OperandsExist c) :
    ∃ r, topologicalSort c = some r ∧ (r.isSome ↔ Acyclic c) := by
  rcases topologicalSort_spec c hc with ⟨e, h⟩ | ⟨order, e, h⟩
  · exact ⟨_, e, by simp [h]⟩
  · exact ⟨_, e, by simp [h.acyclic]⟩

/-- C28. When it succeeds, every wire is listed exactly once, every gate after the wires it reads. -/
theorem C28_order (c : ReadCircuit) (hc : OperandsExist c) (order : List Int) (h : topologicalSort c = some (some order)) :
    Ordered c order := by
  rcases topologicalSort_spec c hc with ⟨e, _⟩ | ⟨order', e, h'⟩
  · rw [e] at h; cases h
  · rw [e] at h
    obtain rfl : order' = order := by simpa using h
    exact h'

/-- Two inputs, a flip-flop, gates listed against their dependencies: wire 3 reads wire 5, wire 5 reads wire 4. -/
def sortExample : ReadCircuit :=
  ⟨0, 0, 0, 0, 1, 1, [⟨5, 0, 3, 8⟩, ⟨1, 2, 4, 6⟩, ⟨4, -1, 5, 12⟩], [⟨3, -2, 2, -1⟩], [3, 4], 5, []⟩

theorem sortExample_operands : OperandsExist sortExample := by
  intro g hg
  simp only [sortExample, List.mem_cons, List.not_mem_nil, or_false] at hg
  rcases hg with rfl | rfl | rfl <;> decide

theorem sortExample_acyclic : Acyclic sortExample := by
  refine acyclic_of_rank (fun w => if w = 3 then 3 else if w = 5 then 2 else if w = 4 then 1 else 0) ?_
  rintro b a ⟨i, g, hg, rfl, hb⟩
  match i, hg with
  | 0, hg =>
    obtain rfl : _ = g := by simpa [sortExample] using hg
    rcases hb with hb | hb <;> simp only at hb
    · obtain rfl : b = 5 := by omega
      decide
    · obtain rfl : b = 0 := by omega
      decide
  | 1, hg =>
    obtain rfl : _ = g := by simpa [sortExample] using hg
    rcases hb with hb | hb <;> simp only at hb
    · obtain rfl : b = 1 := by omega
      decide
    · obtain rfl : b = 2 := by omega
      decide
  | 2, hg =>
    obtain rfl : _ = g := by simpa [sortExample] using hg
    rcases hb with hb | hb <;> simp only at hb
    · obtain rfl : b = 4 := by omega
      decide
    · omega
  | n + 3, hg => simp [sortExample] at hg

example : ∃ c, OperandsExist c ∧ Acyclic c ∧ ∃ b a, Feeds c b a ∧ a < b :=
  ⟨sortExample, sortExample_operands, sortExample_acyclic, 5, 3, ⟨0, _, rfl, rfl, Or.inl rfl⟩, by decide⟩

example : ∃ c order, OperandsExist c ∧ topologicalSort c = some (some order) := by
  obtain ⟨r, e, h⟩ := C28_succeeds_iff_acyclic _ sortExample_operands
  obtain ⟨order, rfl⟩ := Option.isSome_iff_exists.mp (h.mpr sortExample_acyclic)
  exact ⟨_, _, sortExample_operands, e⟩

/-- A cyclic one: wires 2 and 3 read each other. -/
example : ∃ c, OperandsExist c ∧ ¬ Acyclic c := by
  refine ⟨⟨0, 0, 0, 0, 1, 1, [⟨3, 0, 2, 0⟩, ⟨2, 1, 3, 4⟩], [], [2], 0, []⟩, ?_, ?_⟩
  · intro g hg
    simp only [List.mem_cons, List.not_mem_nil, or_false] at hg
    rcases hg with rfl | rfl <;> decide
  · intro h
    refine h 2 (Relation.TransGen.tail (b := 3) (Relation.TransGen.single ?_) ?_)
    · exact ⟨1, _, rfl, rfl, Or.inl rfl⟩
    · exact ⟨0, _, rfl, rfl, Or.inl rfl⟩

end TinyGarble.Props
