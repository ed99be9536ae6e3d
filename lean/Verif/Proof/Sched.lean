import Verif.Model.Sched
import Mathlib.Data.List.Basic

/-! # Quicksort: lemmas -/

namespace TinyGarble.Proof

variable {α : Type}

/-- Element `k` of an array of integers. -/
def at' (l : List Int) (k : Int) : Int := l.getD k.toNat 0

theorem getI_some {l : List Int} {k : Int} (h0 : 0 ≤ k) (h1 : k < l.length) : getI l k = some (at' l k) := by
  unfold getI at'
  rw [if_pos h0, List.getD_eq_getElem?_getD, List.getElem?_eq_getElem (by omega)]
  rfl

theorem setI_some {l : List Int} {k : Int} (v : Int) (h0 : 0 ≤ k) (h1 : k < l.length) :
    setI l k v = some (l.set k.toNat v) := by
  unfold setI
  rw [if_pos ⟨h0, by omega⟩]

theorem at_set {l : List Int} {k m : Int} (v : Int) (h0 : 0 ≤ k) (h1 : k < l.length) (hm : 0 ≤ m) :
    at' (l.set k.toNat v) m = if m = k then v else at' l m := by
  unfold at'
  simp only [List.getD_eq_getElem?_getD, List.getElem?_set]
  by_cases h : m = k
  · subst h; simp; rw [if_pos (by omega)]; rfl
  · rw [if_neg (by omega), if_neg h]

theorem scanUp_spec {arr : List Int} {pivot : Int} (n : Nat) : ∀ {i m : Int}, 0 ≤ i → i ≤ m → (m - i).toNat = n →
    m < arr.length → at' arr m ≤ pivot →
    ∃ k, scanUp arr pivot i = some k ∧ i ≤ k ∧ k ≤ m ∧ at' arr k ≤ pivot ∧ ∀ l, i ≤ l → l < k → pivot < at' arr l := by
  induction n with
  | zero =>
    intro i m h0 him hn hm hp
    obtain rfl : i = m := by omega
    refine ⟨i, ?_, Int.le_refl _, Int.le_refl _, hp, fun l _ _ => by omega⟩
    rw [scanUp, getI_some h0 hm]
    simp; intro; omega
  | succ n ih =>
    intro i m h0 him hn hm hp
    rw [scanUp, getI_some h0 (by omega)]
    simp only [Option.bind_eq_bind, Option.bind_some]
    by_cases h : pivot < at' arr i
    · rw [if_pos h]
      obtain ⟨k, e, h1, h2, h3, h4⟩ := ih (i := i + 1) (m := m) (by omega) (by omega) (by omega) hm hp
      refine ⟨k, e, by omega, h2, h3, fun l hl hk => ?_⟩
      by_cases hli : l = i
      · subst hli; exact h
      · exact h4 l (by omega) hk
    · rw [if_neg h]
      exact ⟨i, rfl, Int.le_refl _, him, by omega, fun l _ _ => by omega⟩

theorem scanDown_spec {arr : List Int} {pivot : Int} (n : Nat) : ∀ {j m : Int}, 0 ≤ m → m ≤ j → (j - m).toNat = n →
    j < arr.length → pivot ≤ at' arr m →
    ∃ k, scanDown arr pivot j = some k ∧ m ≤ k ∧ k ≤ j ∧ pivot ≤ at' arr k ∧ ∀ l, k < l → l ≤ j → at' arr l < pivot := by
  induction n with
  | zero =>
    intro j m h0 him hn hm hp
    obtain rfl : m = j := by omega
    refine ⟨m, ?_, Int.le_refl _, Int.le_refl _, hp, fun l _ _ => by omega⟩
    rw [scanDown, getI_some h0 hm]
    simp; intro; omega
  | succ n ih =>
    intro j m h0 him hn hm hp
    rw [scanDown, getI_some (by omega) hm]
    simp only [Option.bind_eq_bind, Option.bind_some]
    by_cases h : at' arr j < pivot
    · rw [if_pos h]
      obtain ⟨k, e, h1, h2, h3, h4⟩ := ih (j := j - 1) (m := m) h0 (by omega) (by omega) (by omega) hp
      refine ⟨k, e, h1, by omega, h3, fun l hl hk => ?_⟩
      by_cases hli : l = j
      · subst hli; exact h
      · exact h4 l hl (by omega)
    · rw [if_neg h]
      exact ⟨j, rfl, him, Int.le_refl _, by omega, fun l _ _ => by omega⟩

/-- The result of exchanging two elements. -/
def swapped (l : List Int) (i j : Int) : List Int := (l.set i.toNat (at' l j)).set j.toNat (at' l i)

theorem swapI_some {l : List Int} {i j : Int} (hi : 0 ≤ i) (hil : i < l.length) (hj : 0 ≤ j) (hjl : j < l.length) :
    swapI l i j = some (swapped l i j) := by
  unfold swapI swapped
  rw [getI_some hi hil, getI_some hj hjl]
  simp only [Option.bind_eq_bind, Option.bind_some]
  rw [setI_some _ hi hil]
  simp only [Option.bind_some]
  rw [setI_some _ hj (by simpa using hjl)]

theorem length_swapped (l : List Int) (i j : Int) : (swapped l i j).length = l.length := by simp [swapped]

theorem at_swapped {l : List Int} {i j : Int} (hi : 0 ≤ i) (hil : i < l.length) (hj : 0 ≤ j) (hjl : j < l.length)
    {k : Int} (hk : 0 ≤ k) : at' (swapped l i j) k = if k = j then at' l i else if k = i then at' l j else at' l k := by
  unfold swapped
  rw [at_set _ hj (by simpa using hjl) hk, at_set _ hi hil hk]

theorem zip_swapped {a b : List Int} {i j : Int} (hl : a.length = b.length) (hi : 0 ≤ i) (hil : i < a.length) (hj : 0 ≤ j)
    (hjl : j < a.length) : ((swapped a i j).zip (swapped b i j)).Perm (a.zip b) := by
  have e : (swapped a i j).zip (swapped b i j)
      = ((a.zip b).set i.toNat ((a.zip b)[j.toNat]'(by simp; omega))).set j.toNat ((a.zip b)[i.toNat]'(by simp; omega)) := by
    apply List.ext_getElem
    · simp [length_swapped]
    · intro k h1 h2
      have hk : k < a.length := by simpa [length_swapped, hl] using h1
      have v : ∀ (l : List Int) (x : Int) (hx : x.toNat < l.length), at' l x = l[x.toNat] := by
        intro l x hx
        simp [at', List.getD_eq_getElem?_getD, List.getElem?_eq_getElem hx]
      simp only [List.getElem_zip, swapped, List.getElem_set]
      have va := v a i (by omega)
      have va' := v a j (by omega)
      have vb := v b i (by omega)
      have vb' := v b j (by omega)
      simp only [va, va', vb, vb']
      by_cases h1 : j.toNat = k
      · simp [h1]
      · by_cases h2 : i.toNat = k <;> simp [h1, h2]
  rw [e]
  exact List.set_set_perm (by simp; omega) (by simp; omega)

/-- What the loops keep and change: a rearrangement of the pairs that touches only the positions from `l` to `r` and does
not bring other values in. -/
structure Rearr (a b : List Int) (a' b' : List Int) (l r : Int) : Prop where
  lenA : a'.length = a.length
  lenB : b'.length = b.length
  perm : (a'.zip b').Perm (a.zip b)
  outside : ∀ k, 0 ≤ k → (k < l ∨ r < k) → at' a' k = at' a k
  inside : ∀ P : Int → Prop, (∀ k, l ≤ k → k ≤ r → P (at' a k)) → ∀ k, l ≤ k → k ≤ r → P (at' a' k)

theorem Rearr.refl (a b : List Int) (l r : Int) : Rearr a b a b l r :=
  ⟨rfl, rfl, List.Perm.refl _, fun _ _ _ => rfl, fun _ h => h⟩

theorem Rearr.trans {a b a' b' a'' b'' : List Int} {l r : Int} (h : Rearr a b a' b' l r) (h' : Rearr a' b' a'' b'' l r) :
    Rearr a b a'' b'' l r :=
  ⟨h'.lenA.trans h.lenA, h'.lenB.trans h.lenB, h'.perm.trans h.perm, fun k hk ho => (h'.outside k hk ho).trans (h.outside k hk ho),
    fun P hP => h'.inside P (h.inside P hP)⟩

theorem Rearr.widen {a b a' b' : List Int} {l r l' r' : Int} (h : Rearr a b a' b' l r) (hl : l' ≤ l) (hr : r ≤ r') (h0 : 0 ≤ l') :
    Rearr a b a' b' l' r' := by
  refine ⟨h.lenA, h.lenB, h.perm, fun k hk ho => h.outside k hk (by omega), fun P hP k hk hk' => ?_⟩
  by_cases hin : l ≤ k ∧ k ≤ r
  · exact h.inside P (fun m hm hm' => hP m (by omega) (by omega)) k hin.1 hin.2
  · rw [h.outside k (by omega) (by omega)]; exact hP k hk hk'

theorem Rearr.swap {a b : List Int} {i j l r : Int} (hl : a.length = b.length) (h0 : 0 ≤ l) (hr : r < a.length)
    (hi : l ≤ i) (hir : i ≤ r) (hj : l ≤ j) (hjr : j ≤ r) : Rearr a b (swapped a i j) (swapped b i j) l r := by
  refine ⟨length_swapped _ _ _, length_swapped _ _ _, zip_swapped hl (by omega) (by omega) (by omega) (by omega), ?_, ?_⟩
  · intro k hk ho
    rw [at_swapped (by omega) (by omega) (by omega) (by omega) hk, if_neg (by omega), if_neg (by omega)]
  · intro P hP k hk hk'
    rw [at_swapped (by omega) (by omega) (by omega) (by omega) (by omega)]
    split
    · exact hP i hi hir
    · split
      · exact hP j hj hjr
      · exact hP k hk hk'

/-- The state of the partition loop. -/
structure PInv (left right pivot : Int) (s : Partition) : Prop where
  len : s.arr.length = s.index.length
  l0 : 0 ≤ left
  rn : right < s.arr.length
  li : left ≤ s.i
  jr : s.j ≤ right
  low : ∀ k, left ≤ k → k < s.i → pivot ≤ at' s.arr k
  high : ∀ k, s.j < k → k ≤ right → at' s.arr k ≤ pivot
  mid : (left < s.i ∧ s.j < right) ∨ (s.i ≤ s.j ∧ ∃ m, s.i ≤ m ∧ m ≤ s.j ∧ at' s.arr m = pivot)

theorem partition_spec (n : Nat) : ∀ {left right pivot : Int} {s : Partition}, PInv left right pivot s →
    (s.j - s.i + 1).toNat ≤ n →
    ∃ p, partitionLoop pivot s = some p ∧ PInv left right pivot p ∧ p.j < p.i ∧ left < p.i ∧ p.j < right ∧
      Rearr s.arr s.index p.arr p.index left right := by
  induction n with
  | zero =>
    intro left right pivot s h hn
    refine ⟨s, ?_, h, by omega, ?_, ?_, Rearr.refl _ _ _ _⟩
    · rw [partitionLoop, if_neg (by omega)]
    · rcases h.mid with hm | hm <;> omega
    · rcases h.mid with hm | hm <;> omega
  | succ n ih =>
    intro left right pivot s h hn
    have hl0 := h.l0; have hrn := h.rn; have hli := h.li; have hjr := h.jr
    by_cases hij : s.i ≤ s.j
    · -- an element where the upward scan stops, and one for the downward scan
      obtain ⟨mu, hmu1, hmu2, hmu3⟩ : ∃ m, s.i ≤ m ∧ m ≤ right ∧ at' s.arr m ≤ pivot := by
        rcases h.mid with hm | ⟨_, m, h1, h2, h3⟩
        · exact ⟨s.j + 1, by omega, by omega, h.high _ (by omega) (by omega)⟩
        · exact ⟨m, h1, by omega, by omega⟩
      obtain ⟨md, hmd1, hmd2, hmd3⟩ : ∃ m, left ≤ m ∧ m ≤ s.j ∧ pivot ≤ at' s.arr m := by
        rcases h.mid with hm | ⟨_, m, h1, h2, h3⟩
        · exact ⟨s.i - 1, by omega, by omega, h.low _ (by omega) (by omega)⟩
        · exact ⟨m, by omega, h2, by omega⟩
      obtain ⟨i, ei, i1, i2, i3, i4⟩ := scanUp_spec _ (arr := s.arr) (pivot := pivot) (i := s.i) (m := mu) (by omega) hmu1 rfl
        (by omega) hmu3
      obtain ⟨j, ej, j1, j2, j3, j4⟩ := scanDown_spec _ (arr := s.arr) (pivot := pivot) (j := s.j) (m := md) (by omega) hmd2 rfl
        (by omega) hmd3
      -- in the first iteration both scans stop at the pivot at the latest
      have first : (∃ m, s.i ≤ m ∧ m ≤ s.j ∧ at' s.arr m = pivot) → i ≤ j := by
        rintro ⟨m, h1, h2, h3⟩
        have a : i ≤ m := by
          by_contra hc
          have := i4 m h1 (by omega)
          omega
        have b : m ≤ j := by
          by_contra hc
          have := j4 m (by omega) h2
          omega
        omega
      have lowi : ∀ k, left ≤ k → k < i → pivot ≤ at' s.arr k := by
        intro k h1 h2
        by_cases hk : k < s.i
        · exact h.low k h1 hk
        · exact Int.le_of_lt (i4 k (by omega) h2)
      have highj : ∀ k, j < k → k ≤ right → at' s.arr k ≤ pivot := by
        intro k h1 h2
        by_cases hk : s.j < k
        · exact h.high k hk h2
        · exact Int.le_of_lt (j4 k h1 (by omega))
      rw [partitionLoop, if_pos hij, ei, ej]
      simp only [Option.bind_eq_bind, Option.bind_some]
      by_cases hsw : i ≤ j
      · rw [if_pos hsw, swapI_some (by omega) (by omega) (by omega) (by omega)]
        simp only [Option.bind_some]
        rw [swapI_some (by omega) (by have := h.len; omega) (by omega) (by have := h.len; omega)]
        simp only [Option.bind_some]
        have R : Rearr s.arr s.index (swapped s.arr i j) (swapped s.index i j) left right :=
          Rearr.swap h.len hl0 hrn (by omega) (by omega) (by omega) (by omega)
        have sw := fun (k : Int) (hk : 0 ≤ k) => at_swapped (l := s.arr) (i := i) (j := j) (by omega) (by omega) (by omega)
          (by omega) hk
        obtain ⟨p, e, hp, h1, h2, h3, R'⟩ := ih (left := left) (right := right) (pivot := pivot)
          (s := ⟨swapped s.arr i j, swapped s.index i j, i + 1, j - 1⟩) (by
            refine ⟨?_, hl0, ?_, ?_, ?_, ?_, ?_, ?_⟩
            · simpa [length_swapped] using h.len
            · simpa [length_swapped] using hrn
            · show left ≤ i + 1; omega
            · show j - 1 ≤ right; omega
            · intro k k1 k2
              show pivot ≤ at' (swapped s.arr i j) k
              have k2 : k < i + 1 := k2
              rw [sw k (by omega)]
              by_cases ha : k = j
              · rw [if_pos ha]
                obtain rfl : i = j := by omega
                exact j3
              · rw [if_neg ha]
                by_cases hb : k = i
                · rw [if_pos hb]; exact j3
                · rw [if_neg hb]; exact lowi k k1 (by omega)
            · intro k k1 k2
              show at' (swapped s.arr i j) k ≤ pivot
              have k1 : j - 1 < k := k1
              rw [sw k (by omega)]
              by_cases ha : k = j
              · rw [if_pos ha]; exact i3
              · rw [if_neg ha, if_neg (by omega)]; exact highj k (by omega) k2
            · left
              show left < i + 1 ∧ j - 1 < right
              omega) (by show (j - 1 - (i + 1) + 1).toNat ≤ n; omega)
        exact ⟨p, e, hp, h1, h2, h3, R.trans R'⟩
      · rw [if_neg hsw, partitionLoop, if_neg (show ¬ (i ≤ j) from hsw)]
        have notfirst : left < s.i ∧ s.j < right := by
          rcases h.mid with hm | ⟨_, hm⟩
          · exact hm
          · exact absurd (first hm) hsw
        refine ⟨_, rfl, ⟨h.len, hl0, hrn, by show left ≤ i; omega, by show j ≤ right; omega, lowi, highj, Or.inl ?_⟩,
          by show j < i; omega, by show left < i; omega, by show j < right; omega, Rearr.refl _ _ _ _⟩
        show left < i ∧ j < right
        omega
    · refine ⟨s, ?_, h, by omega, ?_, ?_, Rearr.refl _ _ _ _⟩
      · rw [partitionLoop, if_neg hij]
      · rcases h.mid with hm | hm <;> omega
      · rcases h.mid with hm | hm <;> omega

theorem quickSort_spec (n : Nat) : ∀ {arr index : List Int} {left right : Int}, arr.length = index.length → 0 ≤ left →
    left ≤ right → right < arr.length → (right - left).toNat ≤ n →
    ∃ arr' index', quickSort arr index left right = some (arr', index') ∧ Rearr arr index arr' index' left right ∧
      ∀ k m, left ≤ k → k ≤ m → m ≤ right → at' arr' m ≤ at' arr' k := by
  induction n with
  | zero =>
    intro arr index left right hl h0 hlr hr hn
    obtain rfl : left = right := by omega
    have hmid : (left + left).tdiv 2 = left := by rw [Int.tdiv_eq_ediv_of_nonneg (by omega)]; omega
    rw [quickSort, hmid, getI_some h0 hr]
    simp only [Option.bind_eq_bind, Option.bind_some]
    obtain ⟨p, e, hp, h1, h2, h3, R⟩ := partition_spec _ (left := left) (right := left) (pivot := at' arr left)
      (s := ⟨arr, index, left, left⟩) ⟨hl, h0, hr, Int.le_refl _, Int.le_refl _, fun k _ h => by have : k < left := h; omega,
        fun k h _ => by have : left < k := h; omega, Or.inr ⟨Int.le_refl _, left, Int.le_refl _, Int.le_refl _, rfl⟩⟩ (Nat.le_refl _)
    rw [e]
    simp only [Option.bind_some]
    have hli := hp.li; have hjr := hp.jr
    rw [if_neg (by omega)]
    simp only [Option.bind_some]
    rw [if_neg (by omega)]
    refine ⟨_, _, rfl, R, fun k m h1 h2 h3 => ?_⟩
    obtain rfl : k = m := by omega
    exact Int.le_refl _
  | succ n ih =>
    intro arr index left right hl h0 hlr hr hn
    have hmid : left ≤ (left + right).tdiv 2 ∧ (left + right).tdiv 2 ≤ right := by
      rw [Int.tdiv_eq_ediv_of_nonneg (by omega)]; omega
    rw [quickSort, getI_some (by omega) (by omega)]
    generalize (left + right).tdiv 2 = mid at hmid
    simp only [Option.bind_eq_bind, Option.bind_some]
    obtain ⟨p, e, hp, h1, h2, h3, R⟩ := partition_spec _ (left := left) (right := right) (pivot := at' arr mid)
      (s := ⟨arr, index, left, right⟩) ⟨hl, h0, hr, Int.le_refl _, Int.le_refl _, fun k _ h => by have : k < left := h; omega,
        fun k h _ => by have : right < k := h; omega, Or.inr ⟨hlr, mid, hmid.1, hmid.2, rfl⟩⟩ (Nat.le_refl _)
    rw [e]
    simp only [Option.bind_some]
    have hli := hp.li; have hjr := hp.jr; have hlow := hp.low; have hhigh := hp.high; have hlen := hp.len
    have hrn := hp.rn
    generalize at' arr mid = pivot at *
    -- the part to the left
    obtain ⟨a1, b1, e1, R1, s1⟩ : ∃ a1 b1, (if left < p.j then quickSort p.arr p.index left p.j else some (p.arr, p.index))
        = some (a1, b1) ∧ Rearr p.arr p.index a1 b1 left p.j ∧
        ∀ k m, left ≤ k → k ≤ m → m ≤ p.j → at' a1 m ≤ at' a1 k := by
      by_cases hlj : left < p.j
      · rw [if_pos hlj]
        exact ih hlen h0 (by omega) (by omega) (by omega)
      · rw [if_neg hlj]
        refine ⟨_, _, rfl, Rearr.refl _ _ _ _, fun k m k1 k2 k3 => ?_⟩
        obtain rfl : k = m := by omega
        exact Int.le_refl _
    rw [e1]
    simp only [Option.bind_some]
    have l1 := R1.lenA; have l2 := R1.lenB
    obtain ⟨a2, b2, e2, R2, s2⟩ : ∃ a2 b2, (if p.i < right then quickSort a1 b1 p.i right else some (a1, b1))
        = some (a2, b2) ∧ Rearr a1 b1 a2 b2 p.i right ∧
        ∀ k m, p.i ≤ k → k ≤ m → m ≤ right → at' a2 m ≤ at' a2 k := by
      by_cases hir : p.i < right
      · rw [if_pos hir]
        exact ih (by omega) (by omega) (by omega) (by omega) (by omega)
      · rw [if_neg hir]
        refine ⟨_, _, rfl, Rearr.refl _ _ _ _, fun k m k1 k2 k3 => ?_⟩
        obtain rfl : k = m := by omega
        exact Int.le_refl _
    refine ⟨a2, b2, e2, (R.trans (R1.widen (Int.le_refl _) (by omega) h0)).trans (R2.widen (by omega) (Int.le_refl _) h0), ?_⟩
    -- values by region
    have v1 : ∀ k, left ≤ k → k ≤ p.j → pivot ≤ at' a2 k := by
      intro k k1 k2
      rw [R2.outside k (by omega) (by omega)]
      exact R1.inside (fun x => pivot ≤ x) (fun m m1 m2 => hlow m m1 (by omega)) k k1 k2
    have v2 : ∀ k, left ≤ k → k ≤ right → p.j < k → k < p.i → at' a2 k = pivot := by
      intro k hk hk' k1 k2
      rw [R2.outside k (by omega) (by omega), R1.outside k (by omega) (by omega)]
      have := hlow k hk k2
      have := hhigh k k1 hk'
      omega
    have v3 : ∀ k, p.i ≤ k → k ≤ right → at' a2 k ≤ pivot := by
      intro k k1 k2
      refine R2.inside (fun x => x ≤ pivot) (fun m m1 m2 => ?_) k k1 k2
      rw [R1.outside m (by omega) (by omega)]
      exact hhigh m (by omega) m2
    intro k m k1 k2 k3
    by_cases hm : m ≤ p.j
    · rw [R2.outside m (by omega) (by omega), R2.outside k (by omega) (by omega)]
      exact s1 k m k1 k2 hm
    · by_cases hk : p.i ≤ k
      · exact s2 k m hk k2 k3
      · have hm' : at' a2 m ≤ pivot := by
          by_cases h : p.i ≤ m
          · exact v3 m h k3
          · rw [v2 m (by omega) k3 (by omega) (by omega)]; exact Int.le_refl _
        have hk' : pivot ≤ at' a2 k := by
          by_cases h : k ≤ p.j
          · exact v1 k k1 h
          · rw [v2 k k1 (by omega) (by omega) (by omega)]; exact Int.le_refl _
        omega

end TinyGarble.Proof

namespace TinyGarble.Proof

theorem length_levels (G : List ReadGate) : (levels G).length = G.length := by
  induction G with
  | nil => rfl
  | cons g l ih => simp [levels, ih]

theorem le_maxStep (out a : Int) (p : ReadGate × Int) : a ≤ maxStep out a p := by
  unfold maxStep
  dsimp only
  split <;> split <;> (try split) <;> (try split) <;> omega

theorem maxStep_ge (out a : Int) (p : ReadGate × Int) (h : p.1.input0 = out ∨ p.1.input1 = out) : p.2 ≤ maxStep out a p := by
  unfold maxStep
  dsimp only
  by_cases h0 : p.1.input0 = out <;> by_cases h1 : p.1.input1 = out
  · simp only [h0, h1, if_true]; split <;> (try split) <;> omega
  · simp only [h0, h1, if_true, if_false]; split <;> omega
  · simp only [h0, h1, if_true, if_false]; split <;> omega
  · omega

theorem maxLevel_acc (out : Int) (l : List (ReadGate × Int)) : ∀ a : Int,
    a ≤ l.foldl (maxStep out) a ∧
    ∀ p ∈ l, (p.1.input0 = out ∨ p.1.input1 = out) → p.2 ≤ l.foldl (maxStep out) a := by
  induction l with
  | nil => intro a; simp
  | cons q l ih =>
    intro a
    simp only [List.foldl_cons]
    obtain ⟨h1, h2⟩ := ih (maxStep out a q)
    have := le_maxStep out a q
    refine ⟨by omega, fun p hp hr => ?_⟩
    rcases List.mem_cons.mp hp with rfl | hp
    · have := maxStep_ge out a p hr
      omega
    · exact h2 p hp hr

theorem levels_lt (G : List ReadGate) : ∀ {i j : Nat} (hij : i < j) (hj : j < G.length),
    (G[j].input0 = G[i].output ∨ G[j].input1 = G[i].output) →
    (levels G)[j]'(by rw [length_levels]; exact hj) < (levels G)[i]'(by rw [length_levels]; omega) := by
  induction G with
  | nil => intro i j hij hj; simp at hj
  | cons g l ih =>
    intro i j hij hj hr
    obtain ⟨j, rfl⟩ : ∃ j', j = j' + 1 := ⟨j - 1, by omega⟩
    simp only [levels, List.getElem_cons_succ]
    have hj' : j < l.length := by simpa using hj
    cases i with
    | zero =>
      simp only [List.getElem_cons_zero, List.getElem_cons_succ] at hr ⊢
      have := (maxLevel_acc g.output (l.zip (levels l)) 0).2 (l[j], (levels l)[j]'(by rw [length_levels]; omega))
        (by
          rw [List.mem_iff_getElem]
          exact ⟨j, by simp [length_levels, hj'], by simp⟩) hr
      unfold maxLevel
      simp only at this
      omega
    | succ i =>
      simp only [List.getElem_cons_succ] at hr ⊢
      exact ih (by omega) hj' hr

end TinyGarble.Proof
