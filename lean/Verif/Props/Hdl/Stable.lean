import Verif.Proof.Hdl.Stable
import Verif.Props.Hdl.Knns
import Mathlib.Data.Finset.Card

/-!
# Stable matching (C78)
-/

namespace TinyGarble.Props.Hdl

open TinyGarble.Hdl TinyGarble.Spec.Hdl TinyGarble.Proof.Hdl

theorem prefs_eq_row {n : Nat} (K w : Nat) (x : BitVec n) : prefs K (smMatrix K w x) = row K w x := by
  funext i
  rw [prefs, row]
  refine List.map_congr_left fun j _ => ?_
  have : w * K * i + w * j = w * (K * i + j) := by rw [Nat.mul_add, Nat.mul_assoc]
  rw [smMatrix, this]
  exact congrArg BitVec.toNat (congrFun (entry_eq_part w x) _)

theorem smMatrix_mem {n : Nat} {K w : Nat} {x : BitVec n} {i j : Nat} (hj : j < K) : smMatrix K w x i j ∈ row K w x i := by
  rw [← prefs_eq_row]
  exact mem_prefs.mpr ⟨j, hj, rfl⟩

theorem part_ofEntries (n M : Nat) (f : Nat → BitVec M) (i : Nat) (hi : i < n) : part M (ofEntries n M f) i = f i := by
  rw [← entry_eq_part]
  apply eq_of_bits
  intro k hk
  have h1 : M * i + k < n * M := by
    have : M * i + M ≤ M * n := by rw [← Nat.mul_succ]; exact Nat.mul_le_mul_left _ hi
    rw [Nat.mul_comm n]; omega
  rw [TinyGarble.Hdl.entry, BitVec.getLsbD_extractLsb', ofEntries, getLsbD_ofBits]
  rw [show (M * i + k) / M = i by rw [Nat.mul_add_div (by omega), Nat.div_eq_of_lt hk]; omega, Nat.mul_add_mod, Nat.mod_eq_of_lt hk]
  simp [hk, h1]

/-- **C78**, stable_match_seq.v: if the suitors' lists contain numbers of reviewers only, then from cycle `2 S Ks` on the output is a stable
matching `μ`; the bits `sIsMatch` say who has a partner. If moreover each reviewer lists all suitors, no suitor has a better partner in
another stable matching. (The lists may be incomplete, then a reviewer likes those not listed least, but accepts them.) -/
theorem C78_stable_partial (S R Ks Kr : Nat) (hS : 2 ≤ S) (rPref : BitVec (R * Kr * clog2 S)) (sPref : BitVec (S * Ks * clog2 R))
    (hQ : ∀ s < S, ∀ r ∈ row Ks (clog2 R) sPref s, r < R) (t : Nat) (ht : 2 * S * Ks ≤ t) :
    ∃ o μ, stableMatchSeq S R Ks Kr rPref sPref t = some o ∧ Stable S R (row Ks (clog2 R) sPref) (row Kr (clog2 S) rPref) μ ∧
      (∀ r s, μ r = some s → (part (clog2 S) o.matchList r).toNat = s) ∧
      (∀ s < S, o.sIsMatch.getLsbD s = true ↔ ∃ r, μ r = some s) ∧
      ((∀ r < R, ∀ s < S, s ∈ row Kr (clog2 S) rPref r) → ∀ μ', Stable S R (row Ks (clog2 R) sPref) (row Kr (clog2 S) rPref) μ' →
        ∀ r s, μ' r = some s → ∃ r', μ r' = some s ∧ ¬ Before (row Ks (clog2 R) sPref s) r r') := by
  have hQ' : ∀ s < S, ∀ i < Ks, smMatrix Ks (clog2 R) sPref s i < R := fun s hs i hi => hQ s hs _ (smMatrix_mem hi)
  obtain ⟨st, h1, h2⟩ := smRun_inv (Kr := Kr) (P := smMatrix Kr (clog2 S) rPref) hS hQ' t
  have h3 := smRun_inactive hS hQ' t ht h1
  refine ⟨_, matching R st, by rw [stableMatchSeq, h1]; rfl, ?_, ?_, ?_, ?_⟩
  · rw [← prefs_eq_row, ← prefs_eq_row]
    exact matching_stable h2 h3
  · intro r s hm
    rw [matching_some] at hm
    rw [part_ofEntries _ _ _ _ hm.1, BitVec.toNat_ofNat, hm.2.2, Nat.mod_eq_of_lt]
    have := (h2.reviewer r hm.1 hm.2.1).1
    have := clog2_spec S
    omega
  · intro s hs
    rw [getLsbD_ofBits]
    simp only [hs, decide_true, Bool.true_and, h2.suitor s hs, matching_some]
  · intro hP μ' hμ' r s hm
    rw [← prefs_eq_row, ← prefs_eq_row] at hμ'
    rw [← prefs_eq_row]
    refine matching_best hQ' hμ' h2 h3 (smRun_rejected hS hQ' ?_ hμ' t h1) hm
    intro r hr s hs
    have := hP r hr s hs
    rw [← prefs_eq_row] at this
    exact mem_prefs.mp this

/-- **C78**, stable_match_seq.v: if the suitors' lists are complete and there are not less suitors than reviewers, every reviewer has a
partner, and the output `matchList` is a stable matching. -/
theorem C78_complete_partial (S R Ks Kr : Nat) (hS : 2 ≤ S) (hR : R ≤ S) (rPref : BitVec (R * Kr * clog2 S)) (sPref : BitVec (S * Ks * clog2 R))
    (hQ : ∀ s < S, ∀ r, r ∈ row Ks (clog2 R) sPref s ↔ r < R) (t : Nat) (ht : 2 * S * Ks ≤ t) :
    ∃ o, stableMatchSeq S R Ks Kr rPref sPref t = some o ∧ Stable S R (row Ks (clog2 R) sPref) (row Kr (clog2 S) rPref)
      fun r => if r < R then some (part (clog2 S) o.matchList r).toNat else none := by
  classical
  obtain ⟨o, μ, h1, h2, h3, -, -⟩ := C78_stable_partial S R Ks Kr hS rPref sPref (fun s hs r hr => (hQ s hs r).mp hr) t ht
  refine ⟨o, h1, ?_⟩
  suffices h : ∀ r < R, ∃ s, μ r = some s by
    have : (fun r => if r < R then some (part (clog2 S) o.matchList r).toNat else none) = μ := by
      funext r
      by_cases hr : r < R
      · obtain ⟨s, hs⟩ := h r hr
        simp only [hr, if_true]
        rw [hs, h3 r s hs]
      · simp only [hr, if_false]
        cases hm : μ r with
        | none => rfl
        | some s => exact absurd (h2.matched r s hm).1 hr
    rw [this]
    exact h2
  intro r hr
  by_contra hc
  have hnone : ∀ s, μ r ≠ some s := fun s hs => hc ⟨s, hs⟩
  -- then all suitors have partners among the others
  have hall : ∀ s < S, ∃ r', μ r' = some s := by
    intro s hs
    by_contra hn
    exact h2.stable s hs r hr ⟨(hQ s hs r).mpr hr, fun r' hr' => absurd ⟨r', hr'⟩ hn, fun s' hs' => absurd hs' (hnone s')⟩
  choose! f hf using hall
  have hcard : (Finset.range S).card ≤ ((Finset.range R).erase r).card := by
    refine Finset.card_le_card_of_injOn f ?_ ?_
    · intro s hs
      have hs : s < S := by simpa using hs
      rw [Finset.mem_coe, Finset.mem_erase, Finset.mem_range]
      exact ⟨fun e => hnone s (e ▸ hf s hs), (h2.matched _ _ (hf s hs)).1⟩
    · intro s hs s' hs' e
      have hs : s < S := by simpa using hs
      have hs' : s' < S := by simpa using hs'
      have h5 := hf s hs
      rw [e, hf s' hs'] at h5
      exact (Option.some.inj h5).symm
  rw [Finset.card_range, Finset.card_erase_of_mem (Finset.mem_range.mpr hr), Finset.card_range] at hcard
  omega

/-- **C78**, stable_match_seq.v: the output `finish` is never set. -/
theorem C78_never_finishes (S R Ks Kr : Nat) (rPref : BitVec (R * Kr * clog2 S)) (sPref : BitVec (S * Ks * clog2 R)) (t : Nat) (o : SmOut S R)
    (ho : stableMatchSeq S R Ks Kr rPref sPref t = some o) : o.finish = false := by
  rw [stableMatchSeq, Option.map_eq_some_iff] at ho
  obtain ⟨st, -, rfl⟩ := ho
  show (List.range S).foldl (fun finishAND k => finishAND && st.pc k == 0) false = false
  induction List.range S with
  | nil => rfl
  | cons k l ih => rw [List.foldl_cons]; exact ih

/-! ## stable_match.v -/

theorem mw_wIsMatch {a b Km Kw : Nat} (st : MwRegs a b Km) (h : st.wIsMatch = fun _ => false) (i : BitVec (Km * b) × BitVec (2 ^ a * clog2 Kw)) :
    (mwStep a b Km Kw st i).1.wIsMatch = fun _ => false := by
  simp [mwStep, h]

theorem mw_ignores {a b Km Kw : Nat} (st : MwRegs a b Km) (h : st.wIsMatch = fun _ => false) (x : BitVec (Km * b))
    (y z : BitVec (2 ^ a * clog2 Kw)) : mwStep a b Km Kw st (x, y) = mwStep a b Km Kw st (x, z) := by
  simp [mwStep, h]

/-- **C78**, stable_match.v: the output does not depend on the preferences of the women. -/
theorem C78_ignores_preferences (a b Km Kw : Nat) (i : List (BitVec (Km * b))) (y z : List (BitVec (2 ^ a * clog2 Kw)))
    (hy : y.length = i.length) (hz : z.length = i.length) : stableMatch a b Km Kw (i.zip y) = stableMatch a b Km Kw (i.zip z) := by
  have key : ∀ (i : List (BitVec (Km * b))) (y z : List (BitVec (2 ^ a * clog2 Kw))) (st : MwRegs a b Km), st.wIsMatch = (fun _ => false) →
      y.length = i.length → z.length = i.length → runSeq (mwStep a b Km Kw) st (i.zip y) = runSeq (mwStep a b Km Kw) st (i.zip z) := by
    intro i
    induction i with
    | nil => intro y z st _ _ _; rw [List.zip_nil_left, List.zip_nil_left]
    | cons x i ih =>
      intro y z st h hy hz
      cases y with
      | nil => simp at hy
      | cons u y =>
        cases z with
        | nil => simp at hz
        | cons v z =>
          rw [List.zip_cons_cons, List.zip_cons_cons, runSeq, runSeq, mw_ignores st h x u v]
          rw [ih y z _ (mw_wIsMatch st h _) (by simpa using hy) (by simpa using hz)]
  exact key i y z _ rfl hy hz

/-- The registers while the circuit waits for woman 0. -/
theorem mw_hang {a b Km Kw : Nat} (i : List (BitVec (Km * b) × BitVec (2 ^ a * clog2 Kw))) (st : MwRegs a b Km) (hs : st.state = 3) (hw : st.w = 0) :
    runSeq (mwStep a b Km Kw) st i = List.replicate i.length (ofEntries (2 ^ b) a st.matchList) := by
  induction i generalizing st with
  | nil => rfl
  | cons x i ih =>
    rw [runSeq, List.length_cons, List.replicate_succ]
    have h1 : (mwStep a b Km Kw st x).1.state = 3 := by simp [mwStep, hs, hw]
    have h2 : (mwStep a b Km Kw st x).1.w = 0 := by simp [mwStep, hs, hw]
    have h3 : (mwStep a b Km Kw st x).1.matchList = st.matchList := by simp [mwStep, hs]
    rw [ih _ h1 h2, h3]
    rfl

/-- **C78**, stable_match.v: if the first choice of man 0 is woman 0, no proposal is ever made, so the output remains what it was at the reset. -/
theorem C78_hangs (a b Km Kw : Nat) (hK : 0 < Km) (x : BitVec (Km * b)) (y : BitVec (2 ^ a * clog2 Kw)) (hx : part b x 0 = 0)
    (i : List (BitVec (Km * b) × BitVec (2 ^ a * clog2 Kw))) :
    stableMatch a b Km Kw ((x, y) :: i) = List.replicate (i.length + 1) (ofEntries (2 ^ b) a fun _ => BitVec.ofNat a Km) := by
  have hle := clog2_spec Km
  have hKm : Km < 2 ^ (clog2 Km + 1) := by rw [Nat.pow_succ]; have := Nat.two_pow_pos (clog2 Km); omega
  have hcan : (BitVec.ofNat (clog2 Km + 1) Km != 0) = true := by
    rw [bne_iff_ne]
    intro e
    have := congrArg BitVec.toNat e
    rw [BitVec.toNat_ofNat, Nat.mod_eq_of_lt hKm] at this
    simp at this
    omega
  have haddr : (BitVec.ofNat (clog2 Km) (Km + 2 ^ (clog2 Km + 1) - (BitVec.ofNat (clog2 Km + 1) Km).toNat)).toNat = 0 := by
    rw [BitVec.toNat_ofNat, BitVec.toNat_ofNat, Nat.mod_eq_of_lt hKm, Nat.add_sub_cancel_left, Nat.pow_succ]
    exact Nat.mul_mod_right _ _
  have h1 : (mwStep a b Km Kw (mwReset a b Km) (x, y)).1.state = 3 := by
    have hcan' := bne_iff_ne.mp hcan
    simp [mwStep, mwReset]
    exact hcan'
  have h2 : (mwStep a b Km Kw (mwReset a b Km) (x, y)).1.w = 0 := by
    show entry b x (BitVec.ofNat (clog2 Km) (Km + 2 ^ (clog2 Km + 1) - (BitVec.ofNat (clog2 Km + 1) Km).toNat)).toNat = 0
    rw [haddr, entry_eq_part, hx]
  have h3 : (mwStep a b Km Kw (mwReset a b Km) (x, y)).1.matchList = fun _ => BitVec.ofNat a Km := by
    simp [mwStep, mwReset]
  rw [stableMatch, runSeq, mw_hang _ _ h1 h2, h3, List.replicate_succ]
  rfl

/-! ## Examples -/

/-- Two suitors and two reviewers: suitor 0 lists 1, 0 and suitor 1 lists 1, 0; reviewer 0 lists 0, 1 and reviewer 1 lists 1, 0. The hypotheses are
met, and suitor 0 gets its second choice. -/
example : ∃ (rPref : BitVec (2 * 2 * clog2 2)) (sPref : BitVec (2 * 2 * clog2 2)),
    (∀ s < 2, ∀ r, r ∈ row 2 (clog2 2) sPref s ↔ r < 2) ∧ (∀ r < 2, ∀ s < 2, s ∈ row 2 (clog2 2) rPref r) ∧
    Stable 2 2 (row 2 (clog2 2) sPref) (row 2 (clog2 2) rPref) (fun r => if r < 2 then some r else none) := by
  have h : clog2 2 = 1 := by rw [clog2, clog2]; simp
  rw [h]
  have e1 : row 2 1 (0b0101#(2 * 2 * 1)) 0 = [1, 0] := by decide
  have e2 : row 2 1 (0b0101#(2 * 2 * 1)) 1 = [1, 0] := by decide
  have e3 : row 2 1 (0b0110#(2 * 2 * 1)) 0 = [0, 1] := by decide
  have e4 : row 2 1 (0b0110#(2 * 2 * 1)) 1 = [1, 0] := by decide
  refine ⟨0b0110#_, 0b0101#_, ?_, ?_, ?_⟩
  · intro s hs r
    obtain rfl | rfl : s = 0 ∨ s = 1 := by omega
    · rw [e1]; simp; omega
    · rw [e2]; simp; omega
  · intro r hr s hs
    obtain rfl | rfl : r = 0 ∨ r = 1 := by omega
    · rw [e3]; simp; omega
    · rw [e4]; simp; omega
  · have hsome : ∀ r s : Nat, (if r < 2 then some r else none) = some s ↔ r < 2 ∧ r = s := by
      intro r s
      by_cases hr : r < 2 <;> simp [hr]
    refine ⟨?_, ?_, ?_⟩
    · intro r s hm
      obtain ⟨h1, rfl⟩ := (hsome r s).mp hm
      refine ⟨h1, h1, ?_⟩
      obtain rfl | rfl : r = 0 ∨ r = 1 := by omega
      · rw [e1]; simp
      · rw [e2]; simp
    · intro r r' s hm hm'
      rw [hsome] at hm hm'
      omega
    · rintro s hs r hr ⟨h1, h2, h3⟩
      have h4 := h2 s ((hsome s s).mpr ⟨hs, rfl⟩)
      have h5 := h3 r ((hsome r r).mpr ⟨hr, rfl⟩)
      obtain rfl | rfl : s = 0 ∨ s = 1 := by omega
      · obtain rfl | rfl : r = 0 ∨ r = 1 := by omega
        · obtain ⟨i, g1, g2⟩ := h4
          exact g2 i (Nat.le_refl _) g1
        · rw [e4] at h5
          obtain ⟨i, g1, g2⟩ := h5
          exact g2 0 (Nat.zero_le _) rfl
      · obtain rfl | rfl : r = 0 ∨ r = 1 := by omega
        · rw [e2] at h4
          obtain ⟨i, g1, g2⟩ := h4
          exact g2 0 (Nat.zero_le _) rfl
        · obtain ⟨i, g1, g2⟩ := h4
          exact g2 i (Nat.le_refl _) g1

example : part 3 (0o531420#18) 0 = 0 := by decide

end TinyGarble.Props.Hdl
