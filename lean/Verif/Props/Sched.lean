import Verif.Proof.Sched

/-! # C42: ordering tasks by level -/

namespace TinyGarble.Props
open TinyGarble.Proof

/-- C42, for non-empty arrays (see `C42_empty_reads_outside` for the empty one). `QuickSort` ends without leaving the array, the keys are then in descending order, and each
index has stayed with its key. -/
theorem C42_quicksort_partial (arr index : List Int) (hl : arr.length = index.length) (hne : arr ≠ []) :
    ∃ arr' index', quickSort arr index 0 ((arr.length : Int) - 1) = some (arr', index') ∧
      arr'.length = arr.length ∧ index'.length = index.length ∧
      arr'.Pairwise (· ≥ ·) ∧ (arr'.zip index').Perm (arr.zip index) := by
  have hpos : 0 < arr.length := List.length_pos_iff.mpr hne
  obtain ⟨a, b, e, R, s⟩ := quickSort_spec _ (arr := arr) (index := index) (left := 0) (right := (arr.length : Int) - 1) hl
    (by omega) (by omega) (by omega) (Nat.le_refl _)
  refine ⟨a, b, e, R.lenA, R.lenB, ?_, R.perm⟩
  rw [List.pairwise_iff_getElem]
  intro i j hi hj hij
  have := s (i : Int) (j : Int) (by omega) (by omega) (by have := R.lenA; omega)
  simpa [at', List.getD_eq_getElem?_getD, hi, hj] using this

example : ∃ arr index : List Int, arr.length = index.length ∧ arr ≠ [] ∧ ¬ arr.Pairwise (· ≥ ·) :=
  ⟨[1, 3, 2], [0, 1, 2], rfl, by decide, by decide⟩

/-- C42, any part of an array: from `left` to `right` the keys are in descending order afterwards, the rest is unchanged. -/
theorem C42_quicksort_range (arr index : List Int) (left right : Nat) (hl : arr.length = index.length) (hlr : left ≤ right)
    (hr : right < arr.length) :
    ∃ arr' index', quickSort arr index left right = some (arr', index') ∧
      arr'.length = arr.length ∧ index'.length = index.length ∧ (arr'.zip index').Perm (arr.zip index) ∧
      (∀ i j x y, left ≤ i → i ≤ j → j ≤ right → arr'[i]? = some x → arr'[j]? = some y → x ≥ y) ∧
      (∀ i, i < left ∨ right < i → arr'[i]? = arr[i]?) := by
  obtain ⟨a, b, e, R, s⟩ := quickSort_spec _ (arr := arr) (index := index) (left := left) (right := right) hl
    (by omega) (by omega) (by omega) (Nat.le_refl _)
  refine ⟨a, b, e, R.lenA, R.lenB, R.perm, ?_, ?_⟩
  · intro i j x y h1 h2 h3 hx hy
    have := s (i : Int) (j : Int) (by omega) (by omega) (by omega)
    simpa [at', List.getD_eq_getElem?_getD, hx, hy] using this
  · intro i h
    have := R.outside (i : Int) (by omega) (by omega)
    by_cases hi : i < arr.length
    · have hi' : i < a.length := by rw [R.lenA]; exact hi
      rw [List.getElem?_eq_getElem hi, List.getElem?_eq_getElem hi']
      simpa [at', List.getD_eq_getElem?_getD, hi, hi'] using this
    · rw [List.getElem?_eq_none (by rw [R.lenA]; omega), List.getElem?_eq_none (by omega)]

example : ∃ (arr index : List Int) (left right : Nat), arr.length = index.length ∧ left ≤ right ∧ right < arr.length ∧ 0 < left :=
  ⟨[1, 3, 2, 5], [0, 1, 2, 3], 1, 3, by decide⟩

/-- The call for no task at all reads `arr[0]` of an empty array. -/
theorem C42_empty_reads_outside : quickSort [] [] 0 (-1) = none := by
  rw [quickSort]
  rfl

/-- C42. `TopSort` lists every task once, and a task before the later ones that read its output. -/
theorem C42_topsort_partial (G : List ReadGate) (hne : G ≠ []) :
    ∃ order, topSort G = some order ∧ order.Perm ((List.range G.length).map fun i : Nat => (i : Int)) ∧
      ∀ (i j : Nat) (g h : ReadGate), i < j → G[i]? = some g → G[j]? = some h →
        (h.input0 = g.output ∨ h.input1 = g.output) →
        ∃ a b : Nat, a < b ∧ order[a]? = some (i : Int) ∧ order[b]? = some (j : Int) := by
  have hpos : 0 < G.length := List.length_pos_iff.mpr hne
  obtain ⟨a, b, e, la, lb, sorted, perm⟩ := C42_quicksort_partial (levels G) ((List.range G.length).map fun i : Nat => (i : Int))
    (by simp [length_levels]) (by rw [← List.length_pos_iff, length_levels]; exact hpos)
  rw [length_levels] at e la
  have lb : b.length = G.length := by simpa using lb
  have hb : b.Perm ((List.range G.length).map fun i : Nat => (i : Int)) := by
    have := perm.map Prod.snd
    rwa [List.map_snd_zip (by omega), List.map_snd_zip (by simp [length_levels])] at this
  refine ⟨b, by rw [topSort, e]; rfl, hb, ?_⟩
  intro i j g h hij hg hh hr
  obtain ⟨hi, rfl⟩ := List.getElem?_eq_some_iff.mp hg
  obtain ⟨hj, rfl⟩ := List.getElem?_eq_some_iff.mp hh
  have lt := levels_lt G hij hj hr
  have find : ∀ i : Nat, (hi : i < G.length) → ∃ k, ∃ hk : k < G.length, b[k] = (i : Int) ∧
      a[k] = (levels G)[i]'(by rw [length_levels]; exact hi) := by
    intro i hi
    have : ((levels G)[i]'(by rw [length_levels]; exact hi), (i : Int)) ∈ a.zip b := by
      refine perm.mem_iff.mpr ?_
      rw [List.mem_iff_getElem]
      exact ⟨i, by simp [length_levels, hi], by simp⟩
    rw [List.mem_iff_getElem] at this
    obtain ⟨k, hk, ek⟩ := this
    simp only [List.length_zip, la, lb, Nat.min_self] at hk
    simp only [List.getElem_zip, Prod.mk.injEq] at ek
    exact ⟨k, hk, ek.2, ek.1⟩
  obtain ⟨p, hp, bp, ap⟩ := find i hi
  obtain ⟨q, hq, bq, aq⟩ := find j hj
  refine ⟨p, q, ?_, by rw [List.getElem?_eq_getElem (by omega), bp], by rw [List.getElem?_eq_getElem (by omega), bq]⟩
  by_contra hc
  rw [List.pairwise_iff_getElem] at sorted
  rcases Nat.lt_or_ge q p with hqp | hqp
  · have := sorted q p (by omega) (by omega) hqp
    omega
  · obtain rfl : p = q := by omega
    omega

example : ∃ G : List ReadGate, G ≠ [] ∧ ∃ g h, G[0]? = some g ∧ G[2]? = some h ∧ h.input1 = g.output :=
  ⟨[⟨0, 1, 2, 0⟩, ⟨0, 0, 3, 0⟩, ⟨0, 2, 4, 0⟩], by decide, _, _, rfl, rfl, rfl⟩

end TinyGarble.Props
