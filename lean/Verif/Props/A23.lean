import Verif.Spec.A23
import Verif.Proof.A23Merge
import Verif.Proof.A23Sum
import Verif.Proof.A23Hamming
import Verif.Proof.A23Matrix
import Verif.Proof.A23Dijkstra

/-!
# C57 to C61: the C programs for the ARM core
-/

namespace TinyGarble.Props
open TinyGarble Spec A23

/-! ## C57: sorting -/

theorem unshare_length {g e : List Word} {n : Nat} (hg : g.length = n) (he : e.length = n) : (unshare g e).length = n := by
  simp [unshare, hg, he]

theorem xorShares_unshare {g e o0 : List Word} {n : Nat} (hg : g.length = n) (he : e.length = n) (ho : o0.length = n) :
    xorShares g e n o0 = some (unshare g e) := by
  rw [xorShares_eq (by omega) (by omega) ho]
  congr 1
  exact List.take_of_length_le (by simp [hg, he])

/-- C57. bubble-sort.c sorts the shared array, for every size. -/
theorem C57_bubble_sort {n : Nat} {g e o0 : List Word} (hg : g.length = n) (he : e.length = n) (ho : o0.length = n) :
    ∃ o, bubbleMain n g e o0 = some o ∧ o.Perm (unshare g e) ∧ Ascending o := by
  have hl := unshare_length hg he
  obtain ⟨a, h1, h2, h3, h4⟩ := bubbleSort_spec (unshare g e)
  rw [hl] at h1 h2 h4
  refine ⟨a, ?_, h3, ?_⟩
  · unfold bubbleMain
    rw [xorShares_unshare hg he ho]; exact h1
  · unfold Ascending
    rw [List.pairwise_iff_getElem]
    intro i j hi hj hij
    rw [val_getElem, val_getElem]
    exact h4 i j hij (by omega)

example : ∃ o, bubbleMain 3 [5, 1, 9] [0, 0xFFFFFFFF, 4] [7, 7, 7] = some o ∧ o = [-2, 5, 13] := ⟨_, by decide +kernel, rfl⟩

/-- C57. merge-sort.c ends, stays inside of its arrays and permutes the shared array. Missing: that the result is sorted, which is
false (`C57_merge_sort_wrong`): the recursive calls overwrite the global variable `m`. -/
theorem C57_merge_sort_partial {n : Nat} {g e o0 : List Word} (hn : 0 < n) (hg : g.length = n) (he : e.length = n)
    (ho : o0.length = n) : ∃ o, mergeMain n g e o0 = some o ∧ o.Perm (unshare g e) := by
  have hl := unshare_length hg he
  obtain ⟨s, h1, h2, -⟩ := mergesort_spec (n - 1) 0 (n - 1) ⟨unshare g e, List.replicate n 0, 0, 0, 0⟩ (by omega) (by omega)
    (by show n - 1 < (unshare g e).length; omega) (by show (List.replicate n (0 : Word)).length = (unshare g e).length; simp [hl])
  refine ⟨s.a, ?_, h2⟩
  unfold mergeMain
  rw [xorShares_unshare hg he ho, Option.bind_eq_bind, Option.bind_some, h1]; rfl

/-- The array `1, …, 1, 0` of 32 elements. -/
def onesZero : List Word := List.replicate 31 1 ++ [0]

/-- C57, false. For the size 32 that merge-sort.c fixes, the result need not be sorted: `1, …, 1, 0` shared with zeros. -/
theorem C57_merge_sort_wrong : ∃ g e : List Word, g.length = 32 ∧ e.length = 32 ∧
    ∀ o0 : List Word, o0.length = 32 → ∃ o, mergeMain 32 g e o0 = some o ∧ ¬ Ascending o := by
  refine ⟨onesZero, List.replicate 32 0, by decide, by decide, fun o0 ho => ?_⟩
  have hu : unshare onesZero (List.replicate 32 0) = onesZero := by decide +kernel
  have hN : (mergesortN 32 0 31 ⟨onesZero, List.replicate 32 0, 0, 0, 0⟩).map (·.a)
      = some (List.replicate 11 1 ++ [0] ++ List.replicate 20 1) := by decide +kernel
  obtain ⟨s, h1, h2⟩ := Option.map_eq_some_iff.mp hN
  refine ⟨s.a, ?_, ?_⟩
  · unfold mergeMain
    rw [xorShares_unshare (n := 32) (by decide) (by decide) ho, hu, Option.bind_eq_bind, Option.bind_some,
      mergesortN_sound _ _ _ _ _ h1]; rfl
  · rw [h2]
    unfold Ascending
    decide +kernel

/-! ## C58: addition and comparison of long numbers -/

/-- C58. sum.c on the ARM core adds two numbers of `n` words. -/
theorem C58_sum_arm {n : Nat} {g e o0 : List Word} (hn : 0 < n) (hg : g.length = n) (he : e.length = n) (ho : o0.length = n) :
    ∃ o, sumArm n g e o0 = some o ∧ o.length = n ∧ number o = (number g + number e) % 2 ^ (32 * n) :=
  sumArm_eq hn hg he ho

example : ∃ o, sumArm 2 [0xFFFFFFFF, 0xFFFFFFFF] [1, 1] [0, 0] = some o ∧ o = [0, 1] ∧ number o = 2 ^ 32 := ⟨_, by decide +kernel, rfl, rfl⟩

/-- C58. Compiled for another processor, sum.c adds the two numbers if no two words overflow as signed numbers. Missing: the other
numbers, for which the behaviour is undefined (`C58_sum_portable_undefined`). -/
theorem C58_sum_portable_partial {n : Nat} {g e o0 : List Word} (hg : g.length = n) (he : e.length = n) (ho : o0.length = n)
    (hs : ∀ i, i < n → FitsInt ((g.getD i 0).toInt + (e.getD i 0).toInt)) :
    ∃ o, sumPortable n g e o0 = some o ∧ o.length = n ∧ number o = (number g + number e) % 2 ^ (32 * n) :=
  sumPortable_eq hg he ho hs

/-- C58, false. If two words overflow as signed numbers, the behaviour is undefined. -/
theorem C58_sum_portable_undefined {n i : Nat} {g e o0 : List Word} (hg : g.length = n) (he : e.length = n) (hi : i < n)
    (h : ¬ FitsInt ((g.getD i 0).toInt + (e.getD i 0).toInt)) : sumPortable n g e o0 = none :=
  sumPortable_none hg he hi h

example : sumPortable 2 [0xFFFFFFFF, 5] [1, 7] [0, 0] = some [0, 13] := by decide +kernel
example : sumPortable 1 [0x7FFFFFFF] [1] [0] = none := by decide +kernel

/-- C58. compare.c on the ARM core writes 1 if the garbler's number is less than the evaluator's, else 0. -/
theorem C58_compare_arm {n : Nat} {g e : List Word} (hg : g.length = n) (he : e.length = n) (w : Word) :
    compareMain compareArm n g e [w] = some [if number g < number e then 1 else 0] := by
  unfold compareMain
  rw [compareArm_eq hg he]; rfl

example : compareMain compareArm 2 [5, 1] [0xFFFFFFFF, 0] [9] = some [0] ∧ compareMain compareArm 2 [5, 0] [4, 1] [9] = some [1] := by
  decide +kernel

/-- C58. Compiled for another processor, compare.c does the same if no word has its highest bit set. Missing: the other numbers, for
which it is false (`C58_compare_portable_wrong`): the words are compared as signed numbers. -/
theorem C58_compare_portable_partial {n : Nat} {g e : List Word} (hg : g.length = n) (he : e.length = n)
    (gp : ∀ w ∈ g, 0 ≤ w.toInt) (ep : ∀ w ∈ e, 0 ≤ w.toInt) (w : Word) :
    compareMain comparePortable n g e [w] = some [if number g < number e then 1 else 0] := by
  unfold compareMain
  rw [comparePortable_eq hg he gp ep]; rfl

example : ∀ w ∈ ([5, 0x7FFFFFFF] : List Word), 0 ≤ w.toInt := by
  intro w hw
  simp only [List.mem_cons, List.not_mem_nil, or_false] at hw
  rcases hw with rfl | rfl <;> decide

/-- C58, false. The garbler's number 1 is less than the evaluator's 2^32 - 1, but the result is 0. -/
theorem C58_compare_portable_wrong : ∃ g e : List Word, g.length = 32 ∧ e.length = 32 ∧ number g < number e
    ∧ ∀ w, compareMain comparePortable 32 g e [w] = some [0] := by
  refine ⟨1 :: List.replicate 31 0, 0xFFFFFFFF :: List.replicate 31 0, by decide, by decide, by decide +kernel, fun w => ?_⟩
  have : comparePortable 32 (1 :: List.replicate 31 0) (0xFFFFFFFF :: List.replicate 31 0) = some 0 := by decide +kernel
  unfold compareMain
  rw [this]; rfl

/-- C58. temp.c adds two numbers of `n` words if the output array is long enough. Missing: the size 1 that temp.c declares
(`C58_temp_out_of_bounds`). -/
theorem C58_temp_partial {n : Nat} {g e o0 : List Word} (hg : g.length = n) (he : e.length = n) (ho : n ≤ o0.length) :
    ∃ o, tempMain n g e o0 = some (o ++ o0.drop n) ∧ o.length = n ∧ number o = (number g + number e) % 2 ^ (32 * n) :=
  tempMain_eq hg he ho

example : tempMain 2 [0xFFFFFFFF, 5] [1, 7] [0, 0, 8] = some [0, 13, 8] := by decide +kernel

/-- C58, false. With the declared sizes (32 words each in, one word out), temp.c writes outside of the output array. -/
theorem C58_temp_out_of_bounds (g e : List Word) (w : Word) : tempMain 32 g e [w] = none := tempMain_none (by simp)

/-! ## C59: Hamming distance -/

/-- C59. hamming.c computes the Hamming distance modulo 256 for every number of words that is a power of two. -/
theorem C59_hamming_mod {m : Nat} {g e : List Word} (hg : g.length = 2 ^ m) (he : e.length = 2 ^ m) (w : Word) :
    hammingMain (2 ^ m) g e [w] = some [BitVec.ofNat 32 (distance g e % 256)] :=
  hammingMain_eq (l := 5 + m) (by rw [Nat.pow_add]) hg he (by simp)

/-- C59. For the size 1 that hamming.c fixes, the result is the Hamming distance. -/
theorem C59_hamming_partial (x y w : Word) : ∃ d, hammingMain 1 [x] [y] [w] = some [d] ∧ d.toNat = ones (x ^^^ y) := by
  have h := C59_hamming_mod (m := 0) (g := [x]) (e := [y]) rfl rfl w
  refine ⟨_, h, ?_⟩
  have h1 : distance [x] [y] = ones (x ^^^ y) := by simp [distance, unshare]
  have h2 : ones (x ^^^ y) ≤ 32 := by rw [ones_eq]; exact cnt_le _ _ _
  rw [h1, BitVec.toNat_ofNat]
  omega

/-- C59, false. For 8 words the result can be 0 for numbers that differ in every bit. -/
theorem C59_hamming_eight_words : ∃ g e : List Word, g.length = 8 ∧ e.length = 8 ∧ distance g e = 256
    ∧ ∀ w, hammingMain 8 g e [w] = some [0] := by
  have hd : distance (List.replicate 8 0) (List.replicate 8 0xFFFFFFFF) = 256 := by decide +kernel
  refine ⟨List.replicate 8 0, List.replicate 8 0xFFFFFFFF, by decide, by decide, hd, fun w => ?_⟩
  have := C59_hamming_mod (m := 3) (g := List.replicate 8 0) (e := List.replicate 8 0xFFFFFFFF) (by decide) (by decide) w
  rw [hd] at this
  exact this

example : hammingMain 1 [0xF0] [0xFF000000] [5] = some [12] := by
  have h := C59_hamming_mod (m := 0) (g := [0xF0]) (e := [0xFF000000]) rfl rfl 5
  have hd : BitVec.ofNat 32 (distance [0xF0] [0xFF000000] % 256) = 12 := by decide +kernel
  rwa [hd] at h

/-! ## C60: shortest paths -/

/-- C60. dijkstra.c computes the lengths of the shortest paths from vertex 0, or 32767 if there is no shorter one, for every number of
vertices and all weights from 0 (no edge) to 2^31 - 1 - 32767. Missing: larger weights (`C60_overflow`). -/
theorem C60_dijkstra_partial {n : Nat} {g e o0 : List Word} (hn : 0 < n) (hg : g.length = n * n) (he : e.length = n * n)
    (ho : o0.length = n)
    (hw : ∀ u < n, ∀ v < n, 0 ≤ entry n (unshare g e) u v ∧ entry n (unshare g e) u v ≤ 2 ^ 31 - 1 - 32767) :
    ∃ dist, dijkstraMain n g e o0 = some dist ∧ dist.length = n
      ∧ ∀ v < n, Shortest n (entry n (unshare g e)) 32767 0 v (dist.getD v 0).toInt := by
  obtain ⟨dist, h1, h2, h3⟩ := dijkstra_spec (graph := unshare g e) hn (unshare_length hg he) ho hw
  refine ⟨dist, ?_, h2, h3⟩
  unfold dijkstraMain
  rw [xorShares_unshare hg he (by simp)]; exact h1

/-- A triangle: 0 → 1 of weight 7, 0 → 2 of weight 2, 2 → 1 of weight 3; vertex 3 is not reachable. -/
def triangle : List Word := [0, 7, 2, 0, 0, 0, 0, 0, 0, 3, 0, 0, 0, 0, 0, 0]

example : (∀ u < 4, ∀ v < 4, 0 ≤ entry 4 (unshare triangle (List.replicate 16 0)) u v
      ∧ entry 4 (unshare triangle (List.replicate 16 0)) u v ≤ 2 ^ 31 - 1 - 32767)
    ∧ dijkstraMain 4 triangle (List.replicate 16 0) [9, 9, 9, 9] = some [0, 5, 2, 32767] := by decide +kernel

/-- C60, false. With a weight of 2^31 - 1 between two vertices that cannot be reached the behaviour is undefined (signed overflow),
for the size that dijkstra.c fixes. -/
theorem C60_overflow : ∃ g e o0 : List Word, g.length = 64 ∧ e.length = 64 ∧ o0.length = 8
    ∧ (∀ u < 8, ∀ v < 8, 0 ≤ entry 8 (unshare g e) u v) ∧ dijkstraMain 8 g e o0 = none := by
  refine ⟨(List.replicate 64 0).set 58 0x7FFFFFFF, List.replicate 64 0, List.replicate 8 0, by decide, by decide, by decide, ?_, ?_⟩
  · decide +kernel
  · decide +kernel

/-! ## C61: products -/

/-- C61. matrix-mul.c multiplies two `n` by `n` matrices of signed numbers, provided that the products and partial sums are
representable. Missing: the other matrices, for which the behaviour is undefined (`C61_matrix_undefined`). -/
theorem C61_matrix_partial {n : Nat} {g e o0 : List Word} (hg : g.length = n * n) (he : e.length = n * n) (ho : o0.length = n * n)
    (h : ∀ i < n, ∀ j < n, RowFits n g e i j n) :
    ∃ o, matrixMain n g e o0 = some o ∧ o.length = n * n
      ∧ ∀ i < n, ∀ j < n, entry n o i j = total (fun k => entry n g i k * entry n e k j) n :=
  matrixMain_some hg he ho h

/-- C61, false. Otherwise the behaviour is undefined. -/
theorem C61_matrix_undefined {n : Nat} {g e o0 : List Word} (hg : g.length = n * n) (he : e.length = n * n) {i j : Nat} (hi : i < n)
    (hj : j < n) (h : ¬ RowFits n g e i j n) : matrixMain n g e o0 = none :=
  matrixMain_none hg he hi hj h

/-- Small entries: everything is representable. -/
theorem C61_small_entries {n : Nat} {g e : List Word} {B : Int} (hB : 0 ≤ B) (hn : n * (B * B) < 2 ^ 31)
    (hg : ∀ i < n, ∀ j < n, -B ≤ entry n g i j ∧ entry n g i j ≤ B) (he : ∀ i < n, ∀ j < n, -B ≤ entry n e i j ∧ entry n e i j ≤ B) :
    ∀ i < n, ∀ j < n, RowFits n g e i j n := by
  intro i hi j hj
  have hprod : ∀ k < n, -(B * B) ≤ entry n g i k * entry n e k j ∧ entry n g i k * entry n e k j ≤ B * B := by
    intro k hk
    obtain ⟨a1, a2⟩ := hg i hi k hk
    obtain ⟨b1, b2⟩ := he k hk j hj
    generalize entry n g i k = x at *
    generalize entry n e k j = y at *
    have h1 : 0 ≤ (B - x) * (B + y) := Int.mul_nonneg (by omega) (by omega)
    have h2 : 0 ≤ (B + x) * (B - y) := Int.mul_nonneg (by omega) (by omega)
    have h3 : 0 ≤ (B - x) * (B - y) := Int.mul_nonneg (by omega) (by omega)
    have h4 : 0 ≤ (B + x) * (B + y) := Int.mul_nonneg (by omega) (by omega)
    rw [Int.sub_mul, Int.mul_add, Int.mul_add] at h1
    rw [Int.add_mul, Int.mul_sub, Int.mul_sub] at h2
    rw [Int.sub_mul, Int.mul_sub, Int.mul_sub] at h3
    rw [Int.add_mul, Int.mul_add, Int.mul_add] at h4
    constructor <;> omega
  have htot : ∀ m ≤ n, -(m * (B * B)) ≤ total (fun k => entry n g i k * entry n e k j) m
      ∧ total (fun k => entry n g i k * entry n e k j) m ≤ m * (B * B) := by
    intro m
    induction m with
    | zero => intro _; simp [total]
    | succ m ih =>
      intro hm
      have h1 := ih (by omega)
      have h2 := hprod m (by omega)
      rw [total, Int.natCast_add, Int.add_mul]
      omega
  have hBB : 0 ≤ B * B := Int.mul_nonneg hB hB
  intro k hk
  have h1 := hprod k hk
  have h2 := htot (k + 1) hk
  have h3 : ((k + 1 : Nat) : Int) * (B * B) ≤ n * (B * B) := Int.mul_le_mul_of_nonneg_right (by omega) hBB
  have h4 : 1 * (B * B) ≤ n * (B * B) := Int.mul_le_mul_of_nonneg_right (by omega) hBB
  unfold FitsInt
  omega

example : matrixMain 2 [1, 2, 3, 4] [5, 6, 7, -8] [0, 0, 0, 0] = some [19, -10, 43, -14] := by decide +kernel
example : ∀ i < 2, ∀ j < 2, RowFits 2 [1, 2, 3, 4] [5, 6, 7, -8] i j 2 :=
  C61_small_entries (B := 10) (by decide) (by decide) (by decide +kernel) (by decide +kernel)
example : matrixMain 1 [0x10000] [0x8000] [0] = none := by decide +kernel

/-- C61. mul.c multiplies two signed numbers if the product is representable. -/
theorem C61_mul_partial (x y w : Word) (h : FitsInt (x.toInt * y.toInt)) :
    ∃ p, mulMain [x] [y] [w] = some [p] ∧ p.toInt = x.toInt * y.toInt := by
  classical
  refine ⟨BitVec.ofInt 32 (x.toInt * y.toInt), ?_, ofInt_fits h⟩
  unfold mulMain
  simp [mulS_eq, h, store]

/-- C61, false. Otherwise the behaviour is undefined. -/
theorem C61_mul_undefined (x y w : Word) (h : ¬ FitsInt (x.toInt * y.toInt)) : mulMain [x] [y] [w] = none := by
  classical
  unfold mulMain
  simp [mulS_eq, h]

example : mulMain [-3] [5] [0] = some [-15] := by decide +kernel

end TinyGarble.Props
