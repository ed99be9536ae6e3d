import Verif.Proof.A23Sum

/-! Products of matrices. -/

namespace TinyGarble.A23
open Spec

theorem ofInt_fits {z : Int} (h : FitsInt z) : (BitVec.ofInt 32 z).toInt = z := by
  unfold FitsInt at h
  rw [BitVec.toInt_ofInt, Int.bmod_eq_of_le (by omega) (by omega)]

theorem mulS_eq (x y : Word) [Decidable (FitsInt (x.toInt * y.toInt))] :
    mulS x y = if FitsInt (x.toInt * y.toInt) then some (BitVec.ofInt 32 (x.toInt * y.toInt)) else none := by
  unfold mulS BitVec.smulOverflow
  split
  · rename_i h
    rw [if_neg]
    unfold FitsInt
    simp only [Bool.or_eq_true, decide_eq_true_eq] at h
    omega
  · rename_i h
    rw [if_pos]
    · rw [BitVec.ofInt_mul, BitVec.ofInt_toInt, BitVec.ofInt_toInt]
    · unfold FitsInt
      simp only [Bool.or_eq_true, decide_eq_true_eq] at h
      omega

theorem addS_eq (x y : Word) [Decidable (FitsInt (x.toInt + y.toInt))] :
    addS x y = if FitsInt (x.toInt + y.toInt) then some (BitVec.ofInt 32 (x.toInt + y.toInt)) else none := by
  by_cases h : FitsInt (x.toInt + y.toInt)
  · rw [if_pos h]
    unfold addS BitVec.saddOverflow
    rw [if_neg]
    · rw [BitVec.ofInt_add, BitVec.ofInt_toInt, BitVec.ofInt_toInt]
    · unfold FitsInt at h
      simp only [Bool.or_eq_true, decide_eq_true_eq, not_or]
      omega
  · rw [if_neg h, addS_none h]

theorem entry_eq {n : Nat} {a : List Word} {i j : Nat} (h : i * n + j < a.length) : (a[i * n + j]).toInt = entry n a i j := by
  unfold entry
  rw [List.getD_eq_getElem?_getD, List.getElem?_eq_getElem h, Option.getD_some]

theorem index_lt {i j n : Nat} (hi : i < n) (hj : j < n) : i * n + j < n * n := by
  have : (i + 1) * n ≤ n * n := Nat.mul_le_mul_right _ hi
  rw [Nat.add_mul, Nat.one_mul] at this
  omega

open Classical in
theorem inner_eq {n : Nat} {g e : List Word} (hg : g.length = n * n) (he : e.length = n * n) {i j : Nat} (hi : i < n) (hj : j < n)
    {m : Nat} (hm : m ≤ n) :
    loop (fun k temp => do
      let x ← g[i * n + k]?
      let y ← e[k * n + j]?
      let p ← mulS x y
      addS temp p) m (0 : Word) =
    if RowFits n g e i j m then some (BitVec.ofInt 32 (total (fun k => entry n g i k * entry n e k j) m)) else none := by
  induction m with
  | zero => rw [if_pos (show RowFits n g e i j 0 from fun k hk => absurd hk (by omega))]; rfl
  | succ m ih =>
    rw [loop, ih (by omega)]
    have h1 := index_lt hi (show m < n by omega)
    have h2 := index_lt (show m < n by omega) hj
    by_cases hr : RowFits n g e i j m
    · rw [if_pos hr]
      simp only [List.getElem?_eq_getElem (show i * n + m < g.length by omega),
        List.getElem?_eq_getElem (show m * n + j < e.length by omega), Option.bind_eq_bind, Option.bind_some, mulS_eq, addS_eq]
      rw [entry_eq, entry_eq]
      have ht : (BitVec.ofInt 32 (total (fun k => entry n g i k * entry n e k j) m)).toInt
          = total (fun k => entry n g i k * entry n e k j) m := by
        apply ofInt_fits
        cases m with
        | zero => exact (show FitsInt 0 from ⟨by decide, by decide⟩)
        | succ m => exact (hr m (by omega)).2
      by_cases hp : FitsInt (entry n g i m * entry n e m j)
      · rw [if_pos hp, Option.bind_some, ht, ofInt_fits hp]
        by_cases hs : FitsInt (total (fun k => entry n g i k * entry n e k j) m + entry n g i m * entry n e m j)
        · rw [if_pos hs, if_pos]
          · rfl
          · intro k hk
            rcases Nat.eq_or_lt_of_le (Nat.le_of_lt_succ hk) with rfl | hk
            · exact ⟨hp, hs⟩
            · exact hr k hk
        · rw [if_neg hs, if_neg]
          exact fun h => hs (h m (by omega)).2
      · rw [if_neg hp, Option.bind_none, if_neg]
        exact fun h => hp (h m (by omega)).1
    · rw [if_neg hr, if_neg]
      · rfl
      · exact fun h => hr fun k hk => h k (by omega)

theorem index_inj {i j i' j' n : Nat} (hj : j < n) (hj' : j' < n) (h : i * n + j = i' * n + j') : i = i' ∧ j = j' := by
  have h1 : (i * n + j) / n = i := by
    rw [Nat.mul_comm, Nat.mul_add_div (by omega), Nat.div_eq_of_lt hj]; omega
  have h2 : (i' * n + j') / n = i' := by
    rw [Nat.mul_comm, Nat.mul_add_div (by omega), Nat.div_eq_of_lt hj']; omega
  have : i = i' := by rw [← h1, h, h2]
  subst this
  exact ⟨rfl, by omega⟩

theorem entry_set {n : Nat} {a : List Word} {i j i' j' : Nat} {x : Word} (h : i * n + j < a.length) (hj : j < n) (hj' : j' < n) :
    entry n (a.set (i * n + j) x) i' j' = if i = i' ∧ j = j' then x.toInt else entry n a i' j' := by
  unfold entry
  rw [List.getD_eq_getElem?_getD, List.getD_eq_getElem?_getD, List.getElem?_set]
  by_cases he : i = i' ∧ j = j'
  · obtain ⟨rfl, rfl⟩ := he
    simp [h]
  · rw [if_neg he, if_neg fun hh => he (index_inj hj hj' hh)]

theorem matrixMain_some {n : Nat} {g e o0 : List Word} (hg : g.length = n * n) (he : e.length = n * n) (ho : o0.length = n * n)
    (h : ∀ i < n, ∀ j < n, RowFits n g e i j n) :
    ∃ o, matrixMain n g e o0 = some o ∧ o.length = n * n
      ∧ ∀ i < n, ∀ j < n, entry n o i j = total (fun k => entry n g i k * entry n e k j) n := by
  classical
  obtain ⟨o, h1, h2, h3⟩ := loop_inv (body := fun i o => loop (fun j o => do
    let temp ← loop (fun k temp => do
      let x ← g[i * n + k]?
      let y ← e[k * n + j]?
      let p ← mulS x y
      addS temp p) n 0
    store o (i * n + j) temp) n o) (fun i (o : List Word) => o.length = n * n
      ∧ ∀ i' < i, ∀ j < n, entry n o i' j = total (fun k => entry n g i' k * entry n e k j) n) (n := n) (s := o0)
    ⟨ho, fun _ h => by omega⟩ (by
      intro i hi o ⟨l1, p1⟩
      obtain ⟨o', a1, a2, a3, a4⟩ := loop_inv (body := fun j o => do
        let temp ← loop (fun k temp => do
          let x ← g[i * n + k]?
          let y ← e[k * n + j]?
          let p ← mulS x y
          addS temp p) n 0
        store o (i * n + j) temp) (fun j (o : List Word) => o.length = n * n
          ∧ (∀ i' < i, ∀ j < n, entry n o i' j = total (fun k => entry n g i' k * entry n e k j) n)
          ∧ ∀ j' < j, entry n o i j' = total (fun k => entry n g i k * entry n e k j') n) (n := n) (s := o)
        ⟨l1, p1, fun _ h => by omega⟩ (by
          intro j hj o ⟨l1, p1, q1⟩
          have hij := index_lt hi hj
          rw [inner_eq hg he hi hj (Nat.le_refl _), if_pos (h i hi j hj), Option.bind_eq_bind, Option.bind_some]
          refine ⟨_, store_lt (by omega), by simpa using l1, ?_, ?_⟩
          · intro i' hi' j' hj'
            rw [entry_set (by omega) hj hj', if_neg (by omega)]; exact p1 i' hi' j' hj'
          · intro j' hj'
            rw [entry_set (by omega) hj (by omega)]
            by_cases hjj : j = j'
            · subst hjj
              rw [if_pos ⟨rfl, rfl⟩]
              apply ofInt_fits
              obtain ⟨m, rfl⟩ : ∃ m, n = m + 1 := ⟨n - 1, by omega⟩
              exact (h i hi j hj m (by omega)).2
            · rw [if_neg (by omega)]; exact q1 j' (by omega))
      refine ⟨o', a1, a2, ?_⟩
      intro i' hi' j hj
      rcases Nat.eq_or_lt_of_le (Nat.le_of_lt_succ hi') with rfl | hi'
      · exact a4 j hj
      · exact a3 i' hi' j hj)
  exact ⟨o, h1, h2, h3⟩

theorem matrixMain_none {n : Nat} {g e o0 : List Word} (hg : g.length = n * n) (he : e.length = n * n) {i j : Nat} (hi : i < n)
    (hj : j < n) (h : ¬ RowFits n g e i j n) : matrixMain n g e o0 = none := by
  classical
  unfold matrixMain
  apply loop_none hi
  intro o
  apply loop_none hj
  intro o
  rw [inner_eq hg he hi hj (Nat.le_refl _), if_neg h]; rfl

end TinyGarble.A23
