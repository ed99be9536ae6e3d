import Verif.Proof.Hdl.Knns
import Verif.Spec.Hdl.Knns

/-!
# Nearest neighbours (C74)
-/

namespace TinyGarble.Props.Hdl

open TinyGarble.Hdl TinyGarble.Spec.Hdl TinyGarble.Proof.Hdl

theorem entry_eq_part {n : Nat} (M : Nat) (x : BitVec n) : entry M x = part M x := by
  funext i
  apply BitVec.eq_of_toNat_eq
  rw [TinyGarble.Hdl.entry, BitVec.extractLsb'_toNat, part, BitVec.toNat_ofNat, Nat.shiftRight_eq_div_pow]

theorem taxicabDist_spec {W : Nat} (g e : BitVec (2 * W)) : (taxicabDist g e).toNat = taxicab g e := by
  have hhi : ∀ x : BitVec (2 * W), (x.extractLsb' W W).toNat = x.toNat / 2 ^ W := by
    intro x
    rw [BitVec.extractLsb'_toNat, Nat.shiftRight_eq_div_pow, Nat.mod_eq_of_lt]
    rw [Nat.div_lt_iff_lt_mul (Nat.two_pow_pos _), ← Nat.pow_add, ← Nat.two_mul]
    exact x.isLt
  have hlo : ∀ x : BitVec (2 * W), (x.extractLsb' 0 W).toNat = x.toNat % 2 ^ W := by
    intro x
    rw [BitVec.extractLsb'_toNat, Nat.shiftRight_zero]
  rw [taxicabDist, taxicab_spec, hhi, hhi, hlo, hlo, taxicab]
  omega

theorem hamming_key {W : Nat} (p : BitVec W × BitVec W) : dist (V := W) (hammingDist p.1 p.2, p.2) = differing p.1 p.2 :=
  hammingDist_spec _ _

/-- **C74**, k_nns_seq.v: after cycle `t` the output are the first `K` of the points that the evaluator has given so far, sorted by their
distances to the garbler's word; zeros if there are fewer. -/
theorem C74_k_nearest_partial (W K : Nat) (i : List (BitVec W × BitVec W)) (t : Nat) (ht : t < i.length) :
    ∃ (o : BitVec (K * W)) (l : List (BitVec W × BitVec W)), (kNnsSeq W K i)[t]? = some o ∧ List.Perm l (i.take (t + 1)) ∧ l.Pairwise (fun p q => differing p.1 p.2 ≤ differing q.1 q.2) ∧
      (List.range K).map (part W o) = (l.map Prod.snd ++ List.replicate K 0).take K := by
  obtain ⟨o, l, h1, h2, h3, h4⟩ := kNns_run (K := K) (f := fun p : BitVec W × BitVec W => (hammingDist p.1 p.2, p.2))
    (d := (BitVec.allOnes (log2 W), 0)) (by
      intro y
      show (hammingDist y.1 y.2).toNat ≤ (BitVec.allOnes (log2 W)).toNat
      rw [BitVec.toNat_allOnes]
      have := (hammingDist y.1 y.2).isLt
      omega) i [] _ (holds_init K _ _) t ht
  refine ⟨o, l, h1, h2, ?_, ?_⟩
  · simpa only [hamming_key] using h3
  · rw [← entry_eq_part, h4, List.map_take, List.map_append, List.map_map, List.map_replicate]
    rfl

/-- **C74**, k_nns_seq_td.v: the same for the taxicab distance, with the roles of the parties exchanged. -/
theorem C74_k_nearest_td_partial (W K : Nat) (i : List (BitVec (2 * W) × BitVec (2 * W))) (t : Nat) (ht : t < i.length) :
    ∃ (o : BitVec (K * (2 * W))) (l : List (BitVec (2 * W) × BitVec (2 * W))), (kNnsSeqTd W K i)[t]? = some o ∧ List.Perm l (i.take (t + 1)) ∧ l.Pairwise (fun p q => taxicab p.1 p.2 ≤ taxicab q.1 q.2) ∧
      (List.range K).map (part (2 * W) o) = (l.map Prod.fst ++ List.replicate K 0).take K := by
  have hv : ∀ x : BitVec (2 * W), (x.extractLsb' W W ++ x.extractLsb' 0 W).setWidth (2 * W) = x := by
    intro x
    apply eq_of_bits
    intro j hj
    rw [BitVec.getLsbD_setWidth, BitVec.getLsbD_append]
    simp only [hj, decide_true, Bool.true_and, BitVec.getLsbD_extractLsb', Nat.zero_add]
    by_cases h : j < W
    · simp [h]
    · simp only [h, if_false, show j - W < W by omega, decide_true, Bool.true_and]
      rw [show W + (j - W) = j by omega]
  obtain ⟨o, l, h1, h2, h3, h4⟩ := kNns_run (K := K) (f := fun p : BitVec (2 * W) × BitVec (2 * W) =>
      (taxicabDist p.1 p.2, (p.1.extractLsb' W W ++ p.1.extractLsb' 0 W).setWidth (2 * W)))
    (d := (BitVec.allOnes (W + 1 + 1), 0)) (by
      intro y
      show (taxicabDist y.1 y.2).toNat ≤ (BitVec.allOnes (W + 1 + 1)).toNat
      rw [BitVec.toNat_allOnes]
      have := (taxicabDist y.1 y.2).isLt
      omega) i [] _ (holds_init K _ _) t ht
  refine ⟨o, l, h1, h2, ?_, ?_⟩
  · have hd : ∀ p : BitVec (2 * W) × BitVec (2 * W), dist (taxicabDist p.1 p.2, (p.1.extractLsb' W W ++ p.1.extractLsb' 0 W).setWidth (2 * W)) =
        taxicab p.1 p.2 := fun p => taxicabDist_spec _ _
    simpa only [hd] using h3
  · rw [← entry_eq_part, h4, List.map_take, List.map_append, List.map_map, List.map_replicate]
    congr 2
    exact List.map_congr_left fun (p : BitVec (2 * W) × BitVec (2 * W)) _ => hv p.1

/-- **C74**, what first_nns_comb.v computes: the first one of the points with the greatest distance. -/
theorem C74_first_is_farthest (W N : Nat) (hN : 0 < N) (g : BitVec W) (e : BitVec (W * N)) :
    ∃ m < N, firstNnsComb W N g e = part W e m ∧ (∀ j < N, differing g (part W e j) ≤ differing g (part W e m)) ∧
      ∀ j < m, differing g (part W e j) < differing g (part W e m) := by
  obtain ⟨m, h0, h1, h2, h3⟩ := firstNns_spec N (entry W e) (fun i => hammingDist g (entry W e i)) hN
  refine ⟨m, h0, ?_, ?_⟩
  · rw [firstNnsComb, h1, entry_eq_part]
  · simp only [hammingDist_spec, entry_eq_part] at h2 h3
    exact ⟨h2, h3⟩

/-- **C74**, the same for the taxicab distance. -/
theorem C74_first_td_is_farthest (W N : Nat) (hN : 0 < N) (g : BitVec (2 * W)) (e : BitVec (2 * W * N)) :
    ∃ m < N, firstNnsCombTd W N g e = part (2 * W) e m ∧
      (∀ j < N, taxicab g (part (2 * W) e j) ≤ taxicab g (part (2 * W) e m)) ∧
      ∀ j < m, taxicab g (part (2 * W) e j) < taxicab g (part (2 * W) e m) := by
  obtain ⟨m, h0, h1, h2, h3⟩ := firstNns_spec N (entry (2 * W) e) (fun i => taxicabDist g (entry (2 * W) e i)) hN
  refine ⟨m, h0, ?_, ?_⟩
  · rw [firstNnsCombTd, h1, entry_eq_part]
  · simp only [taxicabDist_spec, entry_eq_part] at h2 h3
    exact ⟨h2, h3⟩

/-- **C74**, the claim does not hold of first_nns_comb.v: a point with the distance 0 is not chosen. -/
theorem C74_first_fails : ∃ (g : BitVec 15) (e : BitVec (15 * 2)), differing g (part 15 e 0) = 0 ∧ differing g (firstNnsComb 15 2 g e) = 15 := by
  obtain ⟨m, h0, h1, h2, -⟩ := C74_first_is_farthest 15 2 (by omega) 0#15 (0x7fff#15 ++ 0#15)
  have e0 : differing 0#15 (part 15 (0x7fff#15 ++ 0#15) 0) = 0 := by decide +kernel
  have e1 : differing 0#15 (part 15 (0x7fff#15 ++ 0#15) 1) = 15 := by decide +kernel
  refine ⟨0#15, 0x7fff#15 ++ 0#15, e0, ?_⟩
  rw [h1]
  have hm : m = 0 ∨ m = 1 := by omega
  rcases hm with rfl | rfl
  · have := h2 1 (by omega)
    rw [e0, e1] at this
    omega
  · exact e1

/-- **C74**, first_nns_seq.v: the output is 0 in all cycles, whatever the distances. -/
theorem C74_first_seq_zero (W : Nat) (e : List (BitVec W)) (d : List (BitVec (log2 W))) :
    ∀ o ∈ firstNnsSeq W e d, o = 0 := by
  intro o ho
  rw [firstNnsSeq, firstNnsSeq_run] at ho
  exact (List.mem_replicate.mp ho).2

/-- **C74**, first_nns_seq_td.v: the output is 0 in all cycles. -/
theorem C74_first_seq_td_zero (W : Nat) (i : List (BitVec (2 * W) × BitVec (2 * W))) :
    (firstNnsSeqTd W i).length = i.length ∧ ∀ o ∈ firstNnsSeqTd W i, o = 0 := by
  rw [firstNnsSeqTd, firstNnsSeq_run]
  exact ⟨by simp, fun o ho => (List.mem_replicate.mp ho).2⟩

/-! ## Examples -/

example : kNnsSeqTd 2 2 [(0b0000, 0b0101), (0b0101, 0b0101), (0b1111, 0b0101), (0b0100, 0b0101)] =
    [0b00000000, 0b00000101, 0b00000101, 0b01000101] := by decide +kernel

example : differing 0b1010#4 0b0110#4 = 2 ∧ taxicab (W := 2) 0b0011#4 0b1001#4 = 4 := by decide +kernel

example : (0 : Nat) < [((0 : BitVec 15), (1 : BitVec 15))].length := by decide

end TinyGarble.Props.Hdl
