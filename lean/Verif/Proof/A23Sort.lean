import Verif.Model.A23

/-! Loops, exchange of elements, bubble sort. -/

namespace TinyGarble.A23

theorem loop_inv {σ : Type} {body : Nat → σ → Option σ} (P : Nat → σ → Prop) {n : Nat} {s : σ} (h0 : P 0 s)
    (hs : ∀ k < n, ∀ s, P k s → ∃ s', body k s = some s' ∧ P (k + 1) s') : ∃ s', loop body n s = some s' ∧ P n s' := by
  induction n with
  | zero => exact ⟨s, rfl, h0⟩
  | succ n ih =>
    obtain ⟨s1, e1, p1⟩ := ih fun k hk => hs k (by omega)
    obtain ⟨s2, e2, p2⟩ := hs n (by omega) s1 p1
    exact ⟨s2, by rw [loop, e1]; exact e2, p2⟩

theorem store_lt {α : Type} {l : List α} {i : Nat} {v : α} (h : i < l.length) : store l i v = some (l.set i v) := if_pos h

theorem xorShares_eq {g e o0 : List Word} {n : Nat} (hg : n ≤ g.length) (he : n ≤ e.length) (ho : o0.length = n) :
    xorShares g e n o0 = some ((g.zipWith (· ^^^ ·) e).take n) := by
  obtain ⟨o, eo, ho', ho''⟩ := loop_inv (body := fun i o => do
      let x ← g[i]?
      let y ← e[i]?
      store o i (x ^^^ y)) (fun k (o : List Word) => o.length = n ∧
        ∀ i < k, o[i]? = (g.zipWith (· ^^^ ·) e)[i]?) (n := n) (s := o0) ⟨ho, fun _ h => absurd h (by omega)⟩ (by
    intro k hk o ⟨h1, h2⟩
    have eg : g[k]? = some (g[k]'(by omega)) := List.getElem?_eq_getElem _
    have ee : e[k]? = some (e[k]'(by omega)) := List.getElem?_eq_getElem _
    refine ⟨o.set k (g[k]'(by omega) ^^^ e[k]'(by omega)), ?_, by simpa using h1, ?_⟩
    · simp only [eg, ee, Option.bind_eq_bind, Option.bind_some]
      exact store_lt (by omega)
    · intro i hi
      rw [List.getElem?_set]
      by_cases hik : k = i
      · subst hik
        rw [if_pos rfl, if_pos (by omega)]
        simp [List.getElem?_zipWith, eg, ee]
      · rw [if_neg hik]; exact h2 i (by omega))
  unfold xorShares
  rw [eo]
  congr 1
  apply List.ext_getElem?
  intro i
  by_cases hi : i < n
  · rw [ho'' i hi, List.getElem?_take, if_pos hi]
  · rw [List.getElem?_eq_none (by omega), List.getElem?_eq_none (by simp; omega)]

/-- Element `i` as a number. -/
def val (a : List Word) (i : Nat) : Int := (a.getD i 0).toInt

theorem val_set {a : List Word} {i j : Nat} {x : Word} (h : i < a.length) :
    val (a.set i x) j = if i = j then x.toInt else val a j := by
  unfold val
  simp only [List.getD_eq_getElem?_getD, List.getElem?_set]
  by_cases hij : i = j
  · subst hij; simp [h]
  · simp [hij]

theorem val_getElem {a : List Word} {i : Nat} (h : i < a.length) : (a[i]).toInt = val a i := by
  unfold val; simp [List.getD_eq_getElem?_getD, h]

theorem perm_swap {α : Type} {a : List α} {i j : Nat} (hi : i < a.length) (hj : j < a.length) :
    ((a.set i a[j]).set j a[i]).Perm a := List.set_set_perm hi hj

theorem bubbleStep_spec {i : Nat} {a : List Word} (h : i + 1 < a.length) :
    ∃ a', bubbleStep i a = some a' ∧ a'.length = a.length ∧ a'.Perm a ∧ val a' i ≤ val a' (i + 1)
      ∧ (∀ k, k ≠ i → k ≠ i + 1 → val a' k = val a k)
      ∧ (val a' i = val a i ∧ val a' (i + 1) = val a (i + 1) ∨ val a' i = val a (i + 1) ∧ val a' (i + 1) = val a i) := by
  have e0 : a[i]? = some (a[i]'(by omega)) := List.getElem?_eq_getElem _
  have e1 : a[i + 1]? = some (a[i + 1]'h) := List.getElem?_eq_getElem _
  unfold bubbleStep
  simp only [e0, e1, Option.bind_eq_bind, Option.bind_some]
  by_cases hc : (a[i + 1]'h).slt (a[i]'(by omega))
  · rw [if_pos hc, store_lt (by omega), Option.bind_some, store_lt (by simpa using h)]
    rw [BitVec.slt_iff_toInt_lt, val_getElem, val_getElem] at hc
    have v := fun k => val_set (a := a.set i (a[i + 1]'h)) (i := i + 1) (j := k) (x := a[i]'(by omega)) (by simpa using h)
    have w := fun k => val_set (a := a) (i := i) (j := k) (x := a[i + 1]'h) (by omega)
    refine ⟨_, rfl, by simp, perm_swap (by omega) h, ?_, ?_, Or.inr ⟨?_, ?_⟩⟩
    · rw [v, v, w, if_neg (by omega), if_pos rfl, if_pos rfl, val_getElem, val_getElem]; omega
    · intro k h1 h2
      rw [v, w, if_neg (by omega), if_neg (by omega)]
    · rw [v, w, if_neg (by omega), if_pos rfl, val_getElem]
    · rw [v, if_pos rfl, val_getElem]
  · rw [if_neg hc]
    rw [BitVec.slt_iff_toInt_lt, val_getElem, val_getElem] at hc
    exact ⟨_, rfl, rfl, .refl _, by omega, fun _ _ _ => rfl, Or.inl ⟨rfl, rfl⟩⟩

theorem bubblePass_spec {k : Nat} {a : List Word} (h : k < a.length) :
    ∃ a', loop bubbleStep k a = some a' ∧ a'.length = a.length ∧ a'.Perm a ∧ (∀ i ≤ k, val a' i ≤ val a' k)
      ∧ (∀ i, k < i → val a' i = val a i) ∧ ∀ B, (∀ i ≤ k, val a i ≤ B) → ∀ i ≤ k, val a' i ≤ B := by
  induction k with
  | zero =>
    exact ⟨a, rfl, rfl, .refl _, fun i hi => by obtain rfl : i = 0 := by omega
                                                exact Int.le_refl _, fun _ _ => rfl, fun _ h => h⟩
  | succ k ih =>
    obtain ⟨a1, e1, l1, p1, m1, s1, b1⟩ := ih (by omega)
    obtain ⟨a2, e2, l2, p2, m2, s2, c2⟩ := bubbleStep_spec (i := k) (a := a1) (by omega)
    refine ⟨a2, by rw [loop, e1]; exact e2, by omega, p2.trans p1, ?_, ?_, ?_⟩
    · intro i hi
      rcases Nat.lt_or_ge i k with h1 | h1
      · rw [s2 i (by omega) (by omega)]
        have := m1 i (by omega)
        rcases c2 with ⟨c, d⟩ | ⟨c, d⟩ <;> omega
      · rcases Nat.eq_or_lt_of_le h1 with rfl | h1
        · exact m2
        · obtain rfl : i = k + 1 := by omega
          exact Int.le_refl _
    · intro i hi
      rw [s2 i (by omega) (by omega), s1 i (by omega)]
    · intro B hB i hi
      have hk := s1 (k + 1) (by omega)
      have hB1 := b1 B fun i hi => hB i (by omega)
      have hBk := hB (k + 1) (by omega)
      rcases Nat.lt_or_ge i k with h1 | h1
      · rw [s2 i (by omega) (by omega)]; exact hB1 i (by omega)
      · have := hB1 k (by omega)
        have : i = k ∨ i = k + 1 := by omega
        rcases this with rfl | rfl <;> rcases c2 with ⟨c, d⟩ | ⟨c, d⟩ <;> omega

theorem bubbleSort_spec (a : List Word) :
    ∃ a', bubbleSort a.length a = some a' ∧ a'.length = a.length ∧ a'.Perm a
      ∧ ∀ p q, p < q → q < a.length → val a' p ≤ val a' q := by
  unfold bubbleSort
  obtain ⟨a', e, l, p, s⟩ := loop_inv (body := fun j a' => loop bubbleStep (a.length - j - 1) a')
    (fun j a' => a'.length = a.length ∧ a'.Perm a
      ∧ ∀ p q, p < q → q < a.length → a.length - j ≤ q → val a' p ≤ val a' q) (n := a.length - 1) (s := a)
    ⟨rfl, .refl _, fun p q h1 h2 h3 => by omega⟩ (by
      intro j hj a1 ⟨l1, p1, s1⟩
      obtain ⟨a2, e2, l2, p2, m2, c2, b2⟩ := bubblePass_spec (k := a.length - j - 1) (a := a1) (by omega)
      refine ⟨a2, e2, by omega, p2.trans p1, ?_⟩
      intro p q h1 h2 h3
      rcases Nat.eq_or_lt_of_le (show a.length - j - 1 ≤ q by omega) with h4 | h4
      · rw [← h4]; exact m2 p (by omega)
      · rw [c2 q h4]
        rcases Nat.lt_or_ge (a.length - j - 1) p with h5 | h5
        · rw [c2 p h5]; exact s1 p q h1 h2 (by omega)
        · exact b2 _ (fun i hi => s1 i q (by omega) h2 (by omega)) p h5)
  exact ⟨a', e, l, p, fun p q h1 h2 => s p q h1 h2 (by omega)⟩

end TinyGarble.A23
