import Verif.Model.Hdl.Knns
import Verif.Proof.Hdl.Arith
import Verif.Proof.Hdl.Aes
import Mathlib.Data.List.Sort

/-! Nearest neighbours. -/

namespace TinyGarble.Proof.Hdl

open TinyGarble.Hdl

/-! ### One pass -/

/-- A pass of comparisons from the end of the list: the first element and the others of the result. -/
def pass (key : α → Nat) : List α → α → α × List α
  | [], x => (x, [])
  | r :: rs, x =>
    let c := pass key rs x
    if key c.1 ≤ key r then (c.1, r :: c.2) else (r, c.1 :: c.2)

def dist {D V : Nat} (p : Item D V) : Nat := p.1.toNat

theorem pass_perm (key : α → Nat) (l : List α) (x : α) : ((pass key l x).1 :: (pass key l x).2).Perm (x :: l) := by
  induction l with
  | nil => exact List.Perm.refl _
  | cons r rs ih =>
    rw [pass]
    have h1 : (r :: (pass key rs x).1 :: (pass key rs x).2).Perm (x :: r :: rs) := ((ih.cons r).trans (List.Perm.swap ..))
    split
    · exact (List.Perm.swap ..).trans h1
    · exact h1

theorem pass_sorted (key : α → Nat) (l : List α) (x : α) (h : l.Pairwise fun p q => key p ≤ key q) :
    ((pass key l x).1 :: (pass key l x).2).Pairwise fun p q => key p ≤ key q := by
  induction l with
  | nil => exact List.pairwise_singleton _ _
  | cons r rs ih =>
    obtain ⟨hr, hrs⟩ := List.pairwise_cons.mp h
    have ih := ih hrs
    have hp := pass_perm key rs x
    obtain ⟨hc, hrest⟩ := List.pairwise_cons.mp ih
    rw [pass]
    split
    · rename_i hle
      have hr' : ∀ y ∈ (pass key rs x).2, key r ≤ key y := by
        intro y hy
        have hcm : (pass key rs x).1 ∈ x :: rs := hp.subset List.mem_cons_self
        rcases List.mem_cons.mp hcm with e | e
        · rw [e] at hp
          exact hr y ((List.Perm.cons_inv hp).subset hy)
        · exact Nat.le_trans (hr _ e) (hc y hy)
      refine List.pairwise_cons.mpr ⟨?_, List.pairwise_cons.mpr ⟨hr', hrest⟩⟩
      intro y hy
      rcases List.mem_cons.mp hy with rfl | e
      · exact hle
      · exact hc y e
    · rename_i hgt
      refine List.pairwise_cons.mpr ⟨?_, ih⟩
      intro y hy
      show key r ≤ key y
      rcases List.mem_cons.mp hy with rfl | e
      · omega
      · have := hc y e
        omega

theorem pass_length (key : α → Nat) (l : List α) (x : α) : (pass key l x).2.length = l.length := by
  have := (pass_perm key l x).length_eq
  simpa using this

theorem pass_replicate (key : α → Nat) (d : α) (j : Nat) (x : α) (h : key x ≤ key d) : pass key (List.replicate j d) x = (x, List.replicate j d) := by
  induction j with
  | zero => rfl
  | succ j ih => rw [List.replicate_succ, pass, ih]; simp [h]

theorem pass_map {α β : Type} (f : α → β) (key : β → Nat) (d : β) (j : Nat) (l : List α) (x : α) (h : ∀ y, key (f y) ≤ key d) :
    pass key (l.map f ++ List.replicate j d) (f x) =
      (f (pass (fun y => key (f y)) l x).1, (pass (fun y => key (f y)) l x).2.map f ++ List.replicate j d) := by
  induction l with
  | nil => rw [List.map_nil, List.nil_append, pass_replicate key d j _ (h x)]; rfl
  | cons r rs ih =>
    rw [List.map_cons, List.cons_append, pass, ih, pass]
    dsimp only
    split <;> rfl

/-! ### The circuit makes a pass -/

theorem pass_circuit {D V : Nat} (K : Nat) (reg : Nat → Item D V) (x : Item D V) (j : Nat) (hj : j ≤ K) :
    pass dist ((List.range' (K - j) j).map reg) x = (localMin K reg x j, (List.range' (K - j + 1) j).map (minItem K reg x)) := by
  induction j with
  | zero => rfl
  | succ j ih =>
    have e1 : List.range' (K - (j + 1)) (j + 1) = (K - 1 - j) :: List.range' (K - j) j := by
      rw [List.range'_succ, show K - (j + 1) = K - 1 - j by omega, show K - 1 - j + 1 = K - j by omega]
    have e2 : List.range' (K - (j + 1) + 1) (j + 1) = (K - j) :: List.range' (K - j + 1) j := by
      rw [show K - (j + 1) + 1 = K - j by omega, List.range'_succ]
    have hm : minItem K reg x (K - j) = if dist (localMin K reg x j) ≤ dist (reg (K - 1 - j)) then reg (K - 1 - j) else localMin K reg x j := by
      rw [minItem]
      simp only [MUX_eq, COMP_spec (Nat.le_refl _)]
      rw [if_pos (by omega), show K - (K - j) = j by omega, show K - j - 1 = K - 1 - j by omega]
      by_cases h : dist (localMin K reg x j) ≤ dist (reg (K - 1 - j))
      · rw [if_pos h]
        have h' : (localMin K reg x j).1.toNat ≤ (reg (K - 1 - j)).1.toNat := h
        simp [h']
      · rw [if_neg h]
        have h' : ¬ (localMin K reg x j).1.toNat ≤ (reg (K - 1 - j)).1.toNat := h
        simp [h']
    have hl : localMin K reg x (j + 1) = if dist (localMin K reg x j) ≤ dist (reg (K - 1 - j)) then localMin K reg x j else reg (K - 1 - j) := by
      rw [localMin]
      simp only [MUX_eq, COMP_spec (Nat.le_refl _)]
      by_cases h : dist (localMin K reg x j) ≤ dist (reg (K - 1 - j))
      · rw [if_pos h]
        have h' : (localMin K reg x j).1.toNat ≤ (reg (K - 1 - j)).1.toNat := h
        simp [h']
      · rw [if_neg h]
        have h' : ¬ (localMin K reg x j).1.toNat ≤ (reg (K - 1 - j)).1.toNat := h
        simp [h']
    rw [e1, e2, List.map_cons, List.map_cons, pass, ih (by omega), hm, hl]
    dsimp only
    split <;> rfl

theorem regs_next {D V : Nat} (K : Nat) (reg : Nat → Item D V) (x : Item D V) :
    (List.range K).map (minItem K reg x) =
      ((pass dist ((List.range K).map reg) x).1 :: (pass dist ((List.range K).map reg) x).2).take K := by
  have h := pass_circuit K reg x K (Nat.le_refl _)
  rw [Nat.sub_self, ← List.range_eq_range'] at h
  rw [h]
  dsimp only
  have h0 : localMin K reg x K = minItem K reg x 0 := by rw [minItem, if_neg (by omega), Nat.sub_zero]
  rw [h0, ← List.map_cons, show (0 :: List.range' (0 + 1) K) = List.range (K + 1) by rw [List.range_eq_range', List.range'_succ],
    ← List.map_take, List.take_range, Nat.min_eq_left (by omega)]

/-! ### The invariant -/

/-- The registers hold the nearest elements of `xs`, then `d`. -/
def Holds {D V : Nat} {α : Type} (K : Nat) (f : α → Item D V) (d : Item D V) (xs : List α) (reg : Nat → Item D V) : Prop :=
  ∃ A B : List α, (List.range K).map reg = A.map f ++ List.replicate (K - A.length) d ∧ A.length ≤ K ∧ (A ++ B).Perm xs ∧
    (A.Pairwise fun p q => dist (f p) ≤ dist (f q)) ∧ (∀ a ∈ A, ∀ b ∈ B, dist (f a) ≤ dist (f b)) ∧ (A.length < K → B = [])

theorem holds_step {D V : Nat} {α : Type} {K : Nat} {f : α → Item D V} {d : Item D V} (hd : ∀ y, dist (f y) ≤ dist d) {xs : List α}
    {reg : Nat → Item D V} (h : Holds K f d xs reg) (x : α) : Holds K f d (xs ++ [x]) (minItem K reg (f x)) := by
  obtain ⟨A, B, h1, h2, h3, h4, h5, h6⟩ := h
  have hn := regs_next K reg (f x)
  rw [h1, pass_map f dist d _ A x hd] at hn
  dsimp only at hn
  have hp := pass_perm (fun y => dist (f y)) A x
  have hs := pass_sorted (fun y => dist (f y)) A x h4
  have hl := pass_length (fun y => dist (f y)) A x
  generalize pass (fun y => dist (f y)) A x = P at hn hp hs hl
  obtain ⟨c, rest⟩ := P
  dsimp only at hn hp hs hl
  rw [← List.cons_append, ← List.map_cons] at hn
  have hx : (xs ++ [x]).Perm (x :: xs) := List.perm_append_singleton x xs
  rcases Nat.lt_or_ge A.length K with hlt | hge
  · refine ⟨c :: rest, [], ?_, by simp; omega, ?_, hs, by simp, fun _ => rfl⟩
    · rw [hn, List.take_append, List.take_of_length_le (by simp; omega), List.take_replicate, List.length_map, List.length_cons, hl]
      congr 2
      omega
    · have := h6 hlt
      subst this
      rw [List.append_nil] at h3 ⊢
      exact hp.trans ((h3.cons x).trans hx.symm)
  · have hK : A.length = K := by omega
    rw [hK, Nat.sub_self, List.replicate_zero, List.append_nil, ← List.map_take] at hn
    have hlen : (c :: rest).length = K + 1 := by simp; omega
    have hlt : ((c :: rest).take K).length = K := by simp; omega
    refine ⟨(c :: rest).take K, (c :: rest).drop K ++ B, ?_, by omega, ?_, hs.sublist (List.take_sublist _ _), ?_, by omega⟩
    · rw [hn, hlt, Nat.sub_self, List.replicate_zero, List.append_nil]
    · rw [← List.append_assoc, List.take_append_drop]
      exact (hp.append_right B).trans ((h3.cons x).trans hx.symm)
    · intro a ha b hb
      rcases List.mem_append.mp hb with hb | hb
      · have := hs
        rw [← List.take_append_drop K (c :: rest)] at this
        exact (List.pairwise_append.mp this).2.2 a ha b hb
      · have hB := h5
        by_cases hax : a ∈ A
        · exact hB a hax b hb
        · -- `a` is `x`; then the dropped element is in `A`
          have hpa : a ∈ x :: A := hp.subset (List.mem_of_mem_take ha)
          rcases List.mem_cons.mp hpa with e | e
          · obtain ⟨z, hz⟩ : ∃ z, z ∈ (c :: rest).drop K := by
              have : 0 < ((c :: rest).drop K).length := by rw [List.length_drop]; omega
              exact List.exists_mem_of_length_pos this
            have hz1 : dist (f a) ≤ dist (f z) := by
              have := hs
              rw [← List.take_append_drop K (c :: rest)] at this
              exact (List.pairwise_append.mp this).2.2 a ha z hz
            have hzm : z ∈ A := by
              -- the list without one occurrence of `a`
              obtain ⟨s, t, hst⟩ := List.append_of_mem ha
              have h7 : (a :: (s ++ t ++ (c :: rest).drop K)).Perm (x :: A) := by
                have e1 : c :: rest = s ++ a :: t ++ (c :: rest).drop K := by rw [← hst, List.take_append_drop]
                have e2 : (a :: (s ++ t ++ (c :: rest).drop K)).Perm (s ++ a :: t ++ (c :: rest).drop K) := by
                  rw [← List.cons_append]
                  exact List.Perm.append_right _ List.perm_middle.symm
                rw [← e1] at e2
                exact e2.trans hp
              rw [e] at h7
              exact (List.Perm.cons_inv h7).subset (List.mem_append_right _ hz)
            exact Nat.le_trans hz1 (hB z hzm b hb)
          · exact absurd e hax

/-- What the registers hold, as the beginning of a sorted list. -/
theorem holds_sorted {D V : Nat} {α : Type} {K : Nat} {f : α → Item D V} {d : Item D V} {xs : List α}
    {reg : Nat → Item D V} (h : Holds K f d xs reg) :
    ∃ l : List α, l.Perm xs ∧ (l.Pairwise fun p q => dist (f p) ≤ dist (f q)) ∧
      (List.range K).map reg = (l.map f ++ List.replicate K d).take K := by
  obtain ⟨A, B, h1, h2, h3, h4, h5, h6⟩ := h
  let r : α → α → Prop := fun p q => dist (f p) ≤ dist (f q)
  have : DecidableRel r := fun _ _ => inferInstanceAs (Decidable (_ ≤ _))
  have : IsTrans α r := ⟨fun a b c h h' => Nat.le_trans h h'⟩
  have : Std.Total r := ⟨fun a b => Nat.le_total _ _⟩
  have hB := List.pairwise_insertionSort r B
  have hBp := List.perm_insertionSort r B
  refine ⟨A ++ B.insertionSort r, ((List.Perm.append_left A hBp).trans h3), ?_, ?_⟩
  · refine List.pairwise_append.mpr ⟨h4, hB, ?_⟩
    intro a ha b hb
    exact h5 a ha b (hBp.subset hb)
  · rw [h1]
    rcases Nat.lt_or_ge A.length K with hlt | hge
    · have := h6 hlt
      subst this
      rw [List.insertionSort_nil, List.append_nil, List.take_append, List.take_of_length_le (by simp; omega), List.take_replicate,
        List.length_map]
      congr 2
      omega
    · have hK : A.length = K := by omega
      rw [hK, Nat.sub_self, List.replicate_zero, List.append_nil, List.map_append, List.append_assoc,
        List.take_append_of_le_length (by simp; omega), List.take_of_length_le (by simp; omega)]

theorem holds_init {D V : Nat} {α : Type} (K : Nat) (f : α → Item D V) (d : Item D V) : Holds K f d [] (fun _ => d) :=
  ⟨[], [], by simp, by simp, List.Perm.refl _, List.Pairwise.nil, by simp, fun _ => rfl⟩

theorem kNns_run {D V : Nat} {α : Type} {K : Nat} {f : α → Item D V} {d : Item D V} (hd : ∀ y, dist (f y) ≤ dist d) (xs : List α) :
    ∀ (ys : List α) (reg : Nat → Item D V), Holds K f d ys reg → ∀ t, t < xs.length →
      ∃ (o : BitVec (K * V)) (l : List α), (runSeq (kNnsStep K) reg (xs.map f))[t]? = some o ∧ l.Perm (ys ++ xs.take (t + 1)) ∧
        (l.Pairwise fun p q => dist (f p) ≤ dist (f q)) ∧ (List.range K).map (entry V o) = ((l.map f ++ List.replicate K d).take K).map (·.2) := by
  induction xs with
  | nil => intro ys reg h t ht; simp at ht
  | cons x xs ih =>
    intro ys reg h t ht
    have hs := holds_step hd h x
    rw [List.map_cons, runSeq]
    cases t with
    | zero =>
      obtain ⟨l, h1, h2, h3⟩ := holds_sorted hs
      refine ⟨_, l, rfl, h1, h2, ?_⟩
      rw [← h3, List.map_map]
      refine List.map_congr_left fun i hi => ?_
      rw [List.mem_range] at hi
      show entry V (ofEntries K V _) i = _
      rw [Aes.entry_of _ hi]
      rfl
    | succ t =>
      obtain ⟨o, l, h1, h2, h3⟩ := ih (ys ++ [x]) _ hs t (by simpa using ht)
      refine ⟨o, l, ?_, ?_, h3⟩
      · rw [List.getElem?_cons_succ]; exact h1
      · rw [List.append_assoc] at h2
        exact h2

/-! ### Distances -/

theorem hammingDist_spec {W : Nat} (g e : BitVec W) : (hammingDist g e).toNat = Spec.Hdl.ones W (fun i => g.getLsbD i != e.getLsbD i) := by
  rw [hammingDist, COUNT_spec]
  apply ones_congr
  intro i _
  exact BitVec.getLsbD_xor

theorem SUB_1_eq {n : Nat} (A B : BitVec n) :
    SUB_1 A B = BitVec.cons (decide (A.toNat < B.toNat)) (A - B) := by
  rw [SUB_1]
  have h := ADD_eq A (~~~B) true
  rw [h]
  rw [BitVec.setWidth_eq, sub_not, carry_not]
  congr 1
  by_cases hlt : A.toNat < B.toNat
  · simp [hlt]
  · simp [hlt]; omega

theorem abs_diff {n : Nat} (A B : BitVec n) :
    (MUX (SUB_1 A B) (SUB_1 B A) ((SUB_1 A B).getLsbD n)).toNat = ((A.toNat : Int) - B.toNat).natAbs := by
  rw [MUX_eq, SUB_1_eq, SUB_1_eq]
  have hb : (BitVec.cons (decide (A.toNat < B.toNat)) (A - B)).getLsbD n = decide (A.toNat < B.toNat) := by
    rw [BitVec.getLsbD_cons]; simp
  rw [hb]
  by_cases h : A.toNat < B.toNat
  · have h2 : ¬ B.toNat < A.toNat := by omega
    simp only [h, h2, decide_true, decide_false, if_true]
    rw [BitVec.toNat_cons, BitVec.toNat_sub_of_le (by rw [BitVec.le_def]; omega)]
    simp
    omega
  · simp only [h, decide_false]
    rw [if_neg (by simp), BitVec.toNat_cons, BitVec.toNat_sub_of_le (by rw [BitVec.le_def]; omega)]
    simp
    omega

theorem taxicab_spec {n : Nat} (x1 y1 x2 y2 : BitVec n) :
    (taxicabDistance x1 y1 x2 y2).toNat = ((x1.toNat : Int) - x2.toNat).natAbs + ((y1.toNat : Int) - y2.toNat).natAbs := by
  rw [taxicabDistance]
  have h := ADD_spec (Nat.le_refl _) (MUX (SUB_1 x1 x2) (SUB_1 x2 x1) ((SUB_1 x1 x2).getLsbD n))
    (MUX (SUB_1 y1 y2) (SUB_1 y2 y1) ((SUB_1 y1 y2).getLsbD n)) false
  rw [abs_diff, abs_diff] at h
  rw [BitVec.toNat_cons', Nat.shiftLeft_eq]
  refine Eq.trans ?_ h
  rw [Nat.mul_comm, Nat.add_comm]

/-! ### The first one -/

theorem firstNns_spec {D V : Nat} (N : Nat) (val : Nat → BitVec V) (d : Nat → BitVec D) (hN : 0 < N) :
    ∃ m < N, firstNns N val d = (val m, d m) ∧ (∀ j < N, (d j).toNat ≤ (d m).toNat) ∧ ∀ j < m, (d j).toNat < (d m).toNat := by
  have key : ∀ k, ∃ m < k + 1, (List.range' 1 k).foldl (fun (s : BitVec V × BitVec D) i =>
      let gt := COMP s.2 (d i)
      (MUX (val i) s.1 gt, MUX (d i) s.2 gt)) (val 0, d 0) = (val m, d m) ∧ (∀ j < k + 1, (d j).toNat ≤ (d m).toNat) ∧
        ∀ j < m, (d j).toNat < (d m).toNat := by
    intro k
    induction k with
    | zero => exact ⟨0, by omega, rfl, fun j hj => by obtain rfl : j = 0 := by omega
                                                      exact Nat.le_refl _, fun j hj => by omega⟩
    | succ k ih =>
      obtain ⟨m, hm, h1, h2, h3⟩ := ih
      rw [List.range'_concat, List.foldl_append, h1, List.foldl_cons, List.foldl_nil]
      simp only [MUX_eq, COMP_spec (Nat.le_refl _), Nat.one_mul]
      rw [Nat.add_comm 1 k]
      by_cases h : (d (k + 1)).toNat ≤ (d m).toNat
      · refine ⟨m, by omega, by simp [h], ?_, h3⟩
        intro j hj
        rcases Nat.lt_or_ge j (k + 1) with h' | h'
        · exact h2 j h'
        · obtain rfl : j = k + 1 := by omega
          exact h
      · refine ⟨k + 1, by omega, by simp [h], ?_, ?_⟩
        · intro j hj
          rcases Nat.lt_or_ge j (k + 1) with h' | h'
          · have := h2 j h'; omega
          · obtain rfl : j = k + 1 := by omega
            exact Nat.le_refl _
        · intro j hj
          have := h2 j hj
          omega
  obtain ⟨m, hm, h1, h2, h3⟩ := key (N - 1)
  rw [Nat.sub_add_cancel hN] at hm h2
  exact ⟨m, hm, h1, h2, h3⟩

theorem firstNnsSeq_run {D V : Nat} (xs : List (BitVec V × BitVec D)) (v : BitVec V) :
    runSeq firstNnsSeqStep (v, BitVec.allOnes D) xs = List.replicate xs.length v := by
  induction xs with
  | nil => rfl
  | cons x xs ih =>
    have h : COMP (BitVec.allOnes D) x.2 = true := by
      rw [COMP_spec (Nat.le_refl _), BitVec.toNat_allOnes]
      have := x.2.isLt
      simp
      omega
    rw [runSeq]
    have hs : firstNnsSeqStep (v, BitVec.allOnes D) x = ((v, BitVec.allOnes D), v) := by
      rw [firstNnsSeqStep]
      simp only [h, MUX_eq, if_true]
    rw [hs, ih, List.length_cons, List.replicate_succ]

end TinyGarble.Proof.Hdl
