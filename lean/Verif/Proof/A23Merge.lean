import Verif.Proof.A23Sort

/-! What merge-sort.c does: it ends, stays inside of its arrays, and permutes the elements. -/

namespace TinyGarble.A23

/-- `n` elements from `i` on. -/
def seg {α : Type} (a : List α) (i n : Nat) : List α := (a.drop i).take n

theorem seg_length {α : Type} {a : List α} {i n : Nat} (h : i + n ≤ a.length) : (seg a i n).length = n := by
  unfold seg; simp; omega

theorem seg_getElem? {α : Type} (a : List α) (i n k : Nat) : (seg a i n)[k]? = if k < n then a[i + k]? else none := by
  unfold seg; rw [List.getElem?_take]; simp

theorem seg_head {α : Type} {a : List α} {i k : Nat} {x : α} (h : a[i]? = some x) : seg a i (k + 1) = x :: seg a (i + 1) k := by
  obtain ⟨hi, rfl⟩ := List.getElem?_eq_some_iff.mp h
  unfold seg
  rw [List.drop_eq_getElem_cons hi, List.take_succ_cons]

theorem seg_last {α : Type} {a : List α} {i k : Nat} {x : α} (h : a[i + k]? = some x) : seg a i (k + 1) = seg a i k ++ [x] := by
  unfold seg
  rw [List.take_succ, List.getElem?_drop, h]; rfl

theorem split_seg {α : Type} (a : List α) (l n : Nat) : a = a.take l ++ seg a l n ++ a.drop (l + n) := by
  unfold seg
  rw [List.append_assoc, ← List.drop_drop, List.take_append_drop, List.take_append_drop]

theorem copyLeft_spec (l : Nat) : ∀ (i : Nat) (s : MState), l ≤ i → i ≤ s.a.length → s.b.length = s.a.length →
    ∃ b', copyLeft l i s = some { s with b := b', i := l } ∧ b'.length = s.a.length
      ∧ ∀ k, b'[k]? = if l ≤ k ∧ k < i then s.a[k]? else s.b[k]? := by
  intro i
  induction i with
  | zero =>
    intro s hl ha hb
    obtain rfl : l = 0 := by omega
    exact ⟨s.b, rfl, hb, fun k => by rw [if_neg (by omega)]⟩
  | succ i ih =>
    intro s hl ha hb
    rw [copyLeft]
    by_cases h : l < i + 1
    · rw [if_pos h]
      have ex : s.a[i]? = some (s.a[i]'(by omega)) := List.getElem?_eq_getElem _
      simp only [ex, Option.bind_eq_bind, Option.bind_some]
      rw [store_lt (by omega), Option.bind_some]
      obtain ⟨b', e, hl', hk⟩ := ih { s with b := s.b.set i (s.a[i]'(by omega)) } (by omega) (by show i ≤ s.a.length; omega)
        (by simpa using hb)
      refine ⟨b', e, hl', fun k => ?_⟩
      rw [hk k]
      simp only [List.getElem?_set]
      by_cases h1 : l ≤ k ∧ k < i
      · rw [if_pos h1, if_pos (by omega)]
      · rw [if_neg h1]
        by_cases h2 : i = k
        · subst h2
          rw [if_pos rfl, if_pos (by omega), if_pos (by omega), ex]
        · rw [if_neg h2, if_neg (by omega)]
    · rw [if_neg h]
      obtain rfl : l = i + 1 := by omega
      exact ⟨s.b, rfl, hb, fun k => by rw [if_neg (by omega)]⟩

theorem copyRight_spec (r : Nat) (s : MState) (hm : s.m < r) (hr : r < s.a.length) (hb : s.b.length = s.a.length) :
    ∃ b', copyRight r (r - s.m) s = some { s with b := b', j := r } ∧ b'.length = s.a.length
      ∧ (∀ k, k ≤ s.m → b'[k]? = s.b[k]?) ∧ ∀ t, t < r - s.m → b'[r - t]? = s.a[s.m + t + 1]? := by
  obtain ⟨s', e, hs', hl, h1, h2⟩ := loop_inv (body := fun t s => do
    let x ← s.a[s.m + t + 1]?
    let b ← store s.b (r - t) x
    some { s with b := b }) (fun n (s' : MState) => s' = { s with b := s'.b } ∧ s'.b.length = s.a.length
      ∧ (∀ k, k ≤ s.m → s'.b[k]? = s.b[k]?) ∧ ∀ t, t < n → s'.b[r - t]? = s.a[s.m + t + 1]?) (n := r - s.m) (s := s)
    ⟨rfl, hb, fun _ _ => rfl, fun _ h => absurd h (by omega)⟩ (by
      intro n hn s1 ⟨e1, l1, b1, b2⟩
      obtain ⟨x, ex'⟩ : ∃ x, s.a[s.m + n + 1]? = some x := ⟨_, List.getElem?_eq_getElem (by omega)⟩
      have ex : s1.a[s1.m + n + 1]? = some x := by rw [e1]; exact ex'
      simp only [ex, Option.bind_eq_bind, Option.bind_some]
      rw [store_lt (by omega), Option.bind_some]
      refine ⟨_, rfl, ?_, by simpa using l1, ?_, ?_⟩
      · rw [e1]
      · intro k hk
        simp only [List.getElem?_set]
        rw [if_neg (by omega)]; exact b1 k hk
      · intro t ht
        simp only [List.getElem?_set]
        by_cases h : t = n
        · subst h
          rw [if_pos rfl, if_pos (by omega), ex']
        · rw [if_neg (by omega)]; exact b2 t (by omega))
  refine ⟨s'.b, ?_, hl, h1, h2⟩
  unfold copyRight
  rw [e]
  simp only [Option.bind_eq_bind, Option.bind_some]
  rw [hs']
  simp only [Option.some.injEq, MState.mk.injEq, true_and, and_true]
  omega

theorem copied {l r m : Nat} {a b : List Word} (hl : l ≤ m) (hm : m < r) (hr : r < a.length) (hb : b.length = a.length)
    (h1 : ∀ k, l ≤ k → k ≤ m → b[k]? = a[k]?) (h2 : ∀ t, t < r - m → b[r - t]? = a[m + t + 1]?) :
    (seg b l (r + 1 - l)).Perm (seg a l (r + 1 - l)) := by
  have e1 : seg b l (r + 1 - l) = seg a l (m + 1 - l) ++ (seg a (m + 1) (r - m)).reverse := by
    apply List.ext_getElem?
    intro k
    have hla : (seg a l (m + 1 - l)).length = m + 1 - l := seg_length (by omega)
    have hlb : (seg a (m + 1) (r - m)).length = r - m := seg_length (by omega)
    rw [List.getElem?_append, seg_getElem?, hla]
    by_cases h : k < m + 1 - l
    · rw [if_pos (by omega), if_pos h, seg_getElem?, if_pos h, h1 _ (by omega) (by omega)]
    · rw [if_neg h]
      by_cases h' : k < r + 1 - l
      · rw [if_pos h', List.getElem?_reverse (by omega), hlb, seg_getElem?, if_pos (by omega)]
        have := h2 (r - (l + k)) (by omega)
        rw [show r - (r - (l + k)) = l + k by omega] at this
        rw [this]
        exact congrArg (a[·]?) (by omega)
      · rw [if_neg h', List.getElem?_eq_none (by simp only [List.length_reverse]; omega)]
  have e2 : seg a l (r + 1 - l) = seg a l (m + 1 - l) ++ seg a (m + 1) (r - m) := by
    apply List.ext_getElem?
    intro k
    have hla : (seg a l (m + 1 - l)).length = m + 1 - l := seg_length (by omega)
    rw [List.getElem?_append, seg_getElem?, hla, seg_getElem?, seg_getElem?]
    by_cases h : k < m + 1 - l
    · rw [if_pos (by omega), if_pos h, if_pos h]
    · rw [if_neg h]
      by_cases h' : k < r + 1 - l
      · rw [if_pos h', if_pos (by omega)]
        exact congrArg (a[·]?) (by omega)
      · rw [if_neg h', if_neg (by omega)]
  rw [e1, e2]
  exact List.Perm.append_left _ (List.reverse_perm _)

theorem mergeLoop_spec {l n : Nat} {s : MState} (ha : l + n ≤ s.a.length) (hb : s.b.length = s.a.length)
    (hi : s.i = l) (hj : s.j = l + n - 1) :
    ∃ s', loop (fun t => mergeStep (l + t)) n s = some s' ∧ s'.b = s.b ∧ s'.m = s.m ∧ s'.a.length = s.a.length
      ∧ ∃ p, p.Perm (seg s.b l n) ∧ s'.a = s.a.take l ++ p ++ s.a.drop (l + n) := by
  obtain ⟨s', e, h1, h2, h3, -, -, p, -, hp, hp'⟩ := loop_inv (body := fun t => mergeStep (l + t))
    (fun t (s' : MState) => s'.b = s.b ∧ s'.m = s.m ∧ s'.a.length = s.a.length ∧ s'.i + (n - t) ≤ s.b.length
      ∧ s'.j = s'.i + (n - t) - 1 ∧ ∃ p, p.length = t ∧ (p ++ seg s.b s'.i (n - t)).Perm (seg s.b l n)
        ∧ s'.a = s.a.take l ++ p ++ s.a.drop (l + t)) (n := n) (s := s)
    ⟨rfl, rfl, rfl, by omega, by omega, [], rfl, by rw [hi]; exact .refl _, by simp⟩ (by
      intro t ht s1 ⟨b1, m1, l1, i1, j1, p, hpl, hp, hpa⟩
      obtain ⟨x, ex⟩ : ∃ x, s1.b[s1.i]? = some x := ⟨_, List.getElem?_eq_getElem (by rw [b1]; omega)⟩
      obtain ⟨y, ey⟩ : ∃ y, s1.b[s1.j]? = some y := ⟨_, List.getElem?_eq_getElem (by rw [b1]; omega)⟩
      have hset : ∀ x, s1.a.set (l + t) x = s.a.take l ++ (p ++ [x]) ++ s.a.drop (l + (t + 1)) := by
        intro x
        have hl' : (List.take l s.a ++ p).length = l + t := by simp [hpl]; omega
        rw [hpa, List.set_append_right _ _ (by omega), hl', Nat.sub_self,
          List.drop_eq_getElem_cons (show l + t < s.a.length by omega), List.set_cons_zero]
        simp [Nat.add_assoc]
      obtain ⟨k, hk⟩ : ∃ k, n - t = k + 1 := ⟨n - t - 1, by omega⟩
      have hk' : n - (t + 1) = k := by omega
      unfold mergeStep
      simp only [ex, ey, Option.bind_eq_bind, Option.bind_some]
      rw [hk] at hp
      split
      · rw [store_lt (by omega), Option.bind_some]
        refine ⟨_, rfl, b1, m1, by simpa using l1, by show s1.i + 1 + _ ≤ _; omega, by show s1.j = s1.i + 1 + _ - 1; omega,
          p ++ [x], by simp [hpl], ?_, hset _⟩
        rw [hk', List.append_assoc, List.singleton_append]
        rw [b1] at ex
        rw [seg_head ex] at hp
        exact hp
      · rw [store_lt (by omega), Option.bind_some]
        refine ⟨_, rfl, b1, m1, by simpa using l1, by show s1.i + _ ≤ _; omega, by show s1.j - 1 = s1.i + _ - 1; omega,
          p ++ [y], by simp [hpl], ?_, hset _⟩
        rw [hk', List.append_assoc, List.singleton_append]
        rw [b1, show s1.j = s1.i + k by omega] at ey
        rw [seg_last ey] at hp
        refine List.Perm.trans (List.Perm.append_left _ ?_) hp
        exact (List.perm_append_singleton _ _).symm)
  refine ⟨s', e, h1, h2, h3, p, ?_, hp'⟩
  have : seg s.b s'.i (n - n) = [] := by simp [seg]
  rwa [this, List.append_nil] at hp

theorem mergesort_spec : ∀ (d l r : Nat) (s : MState), r - l ≤ d → l ≤ r → r < s.a.length → s.b.length = s.a.length →
    ∃ s', mergesort l r s = some s' ∧ s'.a.Perm s.a ∧ s'.b.length = s'.a.length
      ∧ (l < r → l ≤ s'.m ∧ s'.m < r) ∧ (l = r → s'.m = s.m) := by
  intro d
  induction d with
  | zero =>
    intro l r s hd hl hr hb
    rw [mergesort, if_neg (by omega)]
    exact ⟨s, rfl, .refl _, hb, fun h => by omega, fun _ => rfl⟩
  | succ d ih =>
    intro l r s hd hl hr hb
    rw [mergesort]
    by_cases h : l < r
    · rw [if_pos h]
      obtain ⟨s1, e1, p1, b1, m1, m1'⟩ := ih l ((r + l) / 2) { s with m := (r + l) / 2 } (by omega) (by omega)
        (by show _ < s.a.length; omega) hb
      simp only at m1' p1
      have l1 : s1.a.length = s.a.length := p1.length_eq
      have hm1 : l ≤ s1.m ∧ s1.m < r := by
        rcases Nat.eq_or_lt_of_le (show l ≤ (r + l) / 2 by omega) with h | h
        · have := m1' h; omega
        · have := m1 h; omega
      obtain ⟨s2, e2, p2, b2, m2, m2'⟩ := ih (s1.m + 1) r s1 (by omega) (by omega) (by omega) b1
      have l2 : s2.a.length = s1.a.length := p2.length_eq
      have hm2 : l ≤ s2.m ∧ s2.m < r := by
        rcases Nat.eq_or_lt_of_le (show s1.m + 1 ≤ r by omega) with h | h
        · have := m2' h; omega
        · have := m2 h; omega
      obtain ⟨b3, e3, l3, h3⟩ := copyLeft_spec l (s2.m + 1) s2 (by omega) (by omega) b2
      obtain ⟨b4, e4, l4, h4, h4'⟩ := copyRight_spec r { s2 with b := b3, i := l } hm2.2 (by show r < s2.a.length; omega) l3
      simp only at e4 l4 h4 h4'
      obtain ⟨s5, e5, b5, m5, l5, p, hp, hpa⟩ := mergeLoop_spec (l := l) (n := r + 1 - l)
        (s := { s2 with b := b4, i := l, j := r }) (by show _ ≤ s2.a.length; omega) l4 rfl (by show r = _; omega)
      simp only at b5 m5 l5 hp hpa
      simp only [e1, e2, e3, e4, e5, Option.bind_eq_bind, Option.bind_some]
      refine ⟨s5, rfl, ?_, by rw [b5, l5, l4], fun _ => by omega, fun h => by omega⟩
      refine List.Perm.trans ?_ (p2.trans p1)
      rw [hpa]
      have hc := copied (l := l) (r := r) (m := s2.m) (a := s2.a) (b := b4) hm2.1 hm2.2 (by omega) l4
        (fun k h1 h2 => by rw [h4 k h2, h3 k, if_pos (by omega)]) h4'
      conv => rhs; rw [split_seg s2.a l (r + 1 - l)]
      exact List.Perm.append_right _ (List.Perm.append_left _ (hp.trans hc))
    · rw [if_neg h]
      exact ⟨s, rfl, .refl _, hb, fun h' => absurd h' h, fun _ => rfl⟩

/-! To run the model on examples. -/

/-- `mergesort` with a bound on the depth of the recursion. -/
def mergesortN : Nat → Nat → Nat → MState → Option MState
  | 0, _, _, _ => none
  | d + 1, l, r, s =>
    if l < r then
      (mergesortN d l ((r + l) / 2) { s with m := (r + l) / 2 }).bind fun s =>
      (mergesortN d (s.m + 1) r s).bind fun s =>
      (copyLeft l (s.m + 1) s).bind fun s =>
      (copyRight r (r - s.m) s).bind fun s =>
      loop (fun t => mergeStep (l + t)) (r + 1 - l) s
    else some s

theorem mergesortN_sound : ∀ (d l r : Nat) (s s' : MState), mergesortN d l r s = some s' → mergesort l r s = some s' := by
  intro d
  induction d with
  | zero => intro l r s s' h; exact absurd h (by simp [mergesortN])
  | succ d ih =>
    intro l r s s' h
    rw [mergesortN] at h
    rw [mergesort]
    by_cases hl : l < r
    · rw [if_pos hl] at h ⊢
      obtain ⟨s1, h1, h⟩ := Option.bind_eq_some_iff.mp h
      obtain ⟨s2, h2, h⟩ := Option.bind_eq_some_iff.mp h
      simp only [ih _ _ _ _ h1, ih _ _ _ _ h2, Option.bind_eq_bind, Option.bind_some]
      exact h
    · rw [if_neg hl] at h ⊢
      exact h

end TinyGarble.A23
