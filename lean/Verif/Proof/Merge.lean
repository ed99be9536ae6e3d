import Verif.Spec.Merge

/-! # Merging from both ends -/

namespace TinyGarble.Proof.Merge
open Spec

theorem takeEnds_perm (n : Nat) (l : List (BitVec 32)) (h : l.length = n) : (takeEnds n l).Perm l := by
  induction n generalizing l with
  | zero => rw [List.length_eq_zero_iff.1 h]; exact .refl _
  | succ n ih =>
    have hne : l ≠ [] := by rintro rfl; cases h
    rw [takeEnds]
    split
    · obtain ⟨a, t, rfl⟩ := List.exists_cons_of_ne_nil hne
      exact (ih t (by simpa using h)).cons a
    · obtain ⟨t, a, rfl⟩ : ∃ t a, l = t ++ [a] := ⟨l.dropLast, l.getLast hne, (List.dropLast_concat_getLast hne).symm⟩
      rw [List.getLastD_concat, List.dropLast_concat]
      exact ((ih t (by simpa using h)).cons a).trans (List.perm_append_singleton _ _).symm

/-- The smaller one of the two ends of two ascending lists is the smallest entry. -/
theorem takeEnds_ascending (n : Nat) (u v : List (BitVec 32)) (h : u.length + v.length = n) (hu : Ascending u) (hv : Ascending v) :
    Ascending (takeEnds n (u ++ v.reverse)) := by
  induction n generalizing u v with
  | zero => exact .nil
  | succ n ih =>
    have hall : ∀ w : BitVec 32, ∀ u' v' : List (BitVec 32), (∀ x ∈ u', w.toInt ≤ x.toInt) → (∀ x ∈ v', w.toInt ≤ x.toInt) → u'.length + v'.length = n →
        Ascending u' → Ascending v' → Ascending (w :: takeEnds n (u' ++ v'.reverse)) := by
      intro w u' v' h1 h2 h3 h4 h5
      refine List.pairwise_cons.2 ⟨fun x hx => ?_, ih u' v' h3 h4 h5⟩
      have := (takeEnds_perm n (u' ++ v'.reverse) (by simp [h3])).mem_iff.1 hx
      rcases List.mem_append.1 this with hx | hx
      · exact h1 x hx
      · exact h2 x (List.mem_reverse.1 hx)
    rw [takeEnds]
    cases u with
    | nil =>
      cases v with
      | nil => simp at h
      | cons b v =>
        have hb := List.pairwise_cons.1 hv
        simp only [List.nil_append, List.reverse_cons]
        have hlast : (v.reverse ++ [b]).getLastD 0 = b := by simp
        rw [hlast, List.dropLast_append_cons]
        have hhead : ¬ ((v.reverse ++ [b]).headD 0).toInt < b.toInt := by
          have hm : (v.reverse ++ [b]).headD 0 ∈ v.reverse ++ [b] := by
            cases hr : v.reverse ++ [b] with
            | nil => simp at hr
            | cons x t => exact List.mem_cons_self ..
          rcases List.mem_append.1 hm with hm | hm
          · have := hb.1 _ (List.mem_reverse.1 hm); omega
          · rw [List.mem_singleton.1 hm]; omega
        rw [if_neg hhead, List.dropLast_singleton, List.append_nil]
        exact hall b [] v (fun x hx => by cases hx) hb.1 (by simpa using h) .nil hb.2
    | cons a u =>
      have ha := List.pairwise_cons.1 hu
      show Ascending (if a.toInt < _ then a :: takeEnds n (u ++ v.reverse) else _)
      cases v with
      | nil =>
        rw [List.reverse_nil, List.append_nil]
        split
        · have := hall a u [] ha.1 (fun x hx => by cases hx) (by simpa using h) ha.2 .nil
          rwa [List.reverse_nil] at this
        · rename_i hlt
          have hsub : (a :: u).dropLast.Sublist (a :: u) := List.dropLast_sublist _
          have := hall ((a :: u).getLastD 0) (a :: u).dropLast [] (fun x hx => by
            have hx := hsub.subset hx
            rcases List.mem_cons.1 hx with rfl | hx
            · omega
            · have := ha.1 x hx; omega) (fun x hx => by cases hx) (by simpa using h) (hu.sublist hsub) .nil
          rwa [List.reverse_nil, List.append_nil] at this
      | cons b v =>
        have hb := List.pairwise_cons.1 hv
        have hlast : (a :: u ++ (b :: v).reverse).getLastD 0 = b := by
          rw [List.reverse_cons, ← List.append_assoc, List.getLastD_concat]
        have hdrop : (a :: u ++ (b :: v).reverse).dropLast = a :: u ++ v.reverse := by
          rw [List.reverse_cons, ← List.append_assoc, List.dropLast_append_cons, List.dropLast_singleton, List.append_nil]
        rw [hlast, hdrop]
        split
        · rename_i hlt
          exact hall a u (b :: v) ha.1 (fun x hx => by
            rcases List.mem_cons.1 hx with rfl | hx
            · omega
            · have := hb.1 x hx; omega) (by simp only [List.length_cons] at h ⊢; omega) ha.2 hv
        · rename_i hlt
          exact hall b (a :: u) v (fun x hx => by
            rcases List.mem_cons.1 hx with rfl | hx
            · omega
            · have := ha.1 x hx; omega) hb.1 (by simp only [List.length_cons] at h ⊢; omega) hu hb.2

/-- The entries from `i` on. -/
def seg (B : Nat → BitVec 32) (i n : Nat) : List (BitVec 32) := (List.range n).map fun x => B (i + x)

/-- The ends of what is left after `k` steps. -/
def pos (B : Nat → BitVec 32) (N : Nat) : Nat → Nat × Nat
  | 0 => (0, N)
  | k + 1 => if (B (pos B N k).1).toInt < (B (pos B N k).2).toInt then ((pos B N k).1 + 1, (pos B N k).2) else ((pos B N k).1, (pos B N k).2 - 1)

/-- What is taken in step `k`. -/
def res (B : Nat → BitVec 32) (N k : Nat) : BitVec 32 :=
  if (B (pos B N k).1).toInt < (B (pos B N k).2).toInt then B (pos B N k).1 else B (pos B N k).2

theorem pos_inv (B : Nat → BitVec 32) (N k : Nat) (h : k ≤ N) : (pos B N k).1 ≤ k ∧ (pos B N k).2 + k = N + (pos B N k).1 := by
  induction k with
  | zero => exact ⟨Nat.le_refl _, rfl⟩
  | succ k ih =>
    have := ih (by omega)
    rw [pos]
    split <;> simp only <;> omega

theorem seg_takeEnds (B : Nat → BitVec 32) (N : Nat) (n k : Nat) (h : k + n = N + 1) :
    takeEnds n (seg B (pos B N k).1 n) = (List.range n).map fun x => res B N (k + x) := by
  induction n generalizing k with
  | zero => rfl
  | succ n ih =>
    have hp := pos_inv B N k (by omega)
    have hhead : (seg B (pos B N k).1 (n + 1)).headD 0 = B (pos B N k).1 := by
      rw [seg, List.range_succ_eq_map]; rfl
    have hlast : (seg B (pos B N k).1 (n + 1)).getLastD 0 = B (pos B N k).2 := by
      rw [seg, List.range_succ, List.map_append, List.map_singleton, List.getLastD_concat]
      congr 1; omega
    have htail : (seg B (pos B N k).1 (n + 1)).tail = seg B ((pos B N k).1 + 1) n := by
      rw [seg, List.range_succ_eq_map, List.map_cons, List.tail_cons, List.map_map]
      refine List.map_congr_left fun x _ => ?_
      show B _ = B _
      congr 1; omega
    have hdrop : (seg B (pos B N k).1 (n + 1)).dropLast = seg B (pos B N k).1 n := by
      rw [seg, List.range_succ, List.map_append, List.map_singleton, List.dropLast_concat]; rfl
    have hr : (List.range (n + 1)).map (fun x => res B N (k + x)) = res B N k :: (List.range n).map fun x => res B N (k + 1 + x) := by
      rw [List.range_succ_eq_map, List.map_cons, List.map_map]
      refine congrArg _ (List.map_congr_left fun x _ => ?_)
      show res B N _ = res B N _
      congr 1; omega
    have ih' := ih (k + 1) (by omega)
    rw [takeEnds, hhead, hlast, htail, hdrop, hr, ← ih', res, pos]
    split <;> rfl

end TinyGarble.Proof.Merge
