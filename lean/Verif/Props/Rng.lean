import Verif.Proof.Rng
import Verif.Spec.Attack
import Mathlib.Tactic.Ring
import Mathlib.Tactic.LinearCombination
import Mathlib.Algebra.Ring.Parity
import Mathlib.Data.Int.ModEq
import Mathlib.RingTheory.Coprime.Lemmas

/-!
# Properties of the label generator (C41)
-/

namespace TinyGarble.Props
open TinyGarble Proof Spec

theorem lane_ext {a b : Block} (h0 : lane a 0 = lane b 0) (h1 : lane a 1 = lane b 1) (h2 : lane a 2 = lane b 2)
    (h3 : lane a 3 = lane b 3) : a = b := by
  rw [← lanes_lane a, ← lanes_lane b, h0, h1, h2, h3]

theorem stepBack_step (s : Block) : stepBack (randomBlock s) = s := by
  obtain ⟨e0, e1, e2, e3⟩ := randomBlock_lanes s
  unfold stepBack
  rw [e0, e1, e2, e3]
  simp only [BitVec.add_sub_cancel, BitVec.mul_assoc]
  have m1 : (214013#32 * 3115528533#32 : Lane) = 1#32 := by decide
  have m2 : (17405#32 * 2891854165#32 : Lane) = 1#32 := by decide
  have m3 : (69069#32 * 2783094533#32 : Lane) = 1#32 := by decide
  rw [m1, m2, m3]
  simp only [BitVec.mul_one]
  exact lanes_lane s

theorem step_stepBack (s : Block) : randomBlock (stepBack s) = s := by
  obtain ⟨e0, e1, e2, e3⟩ := randomBlock_lanes (stepBack s)
  have l := lane_lanes ((lane s 0 - 2531011#32) * 3115528533#32) ((lane s 1 - 10395331#32) * 2891854165#32)
    ((lane s 2 - 13737667#32) * 3115528533#32) ((lane s 3 - 1#32) * 2783094533#32)
  have m1 : (3115528533#32 * 214013#32 : Lane) = 1#32 := by decide
  have m2 : (2891854165#32 * 17405#32 : Lane) = 1#32 := by decide
  have m3 : (2783094533#32 * 69069#32 : Lane) = 1#32 := by decide
  unfold stepBack at e0 e1 e2 e3 ⊢
  rw [l.1, BitVec.mul_assoc, m1, BitVec.mul_one, BitVec.sub_add_cancel] at e0
  rw [l.2.1, BitVec.mul_assoc, m2, BitVec.mul_one, BitVec.sub_add_cancel] at e1
  rw [l.2.2.1, BitVec.mul_assoc, m1, BitVec.mul_one, BitVec.sub_add_cancel] at e2
  rw [l.2.2.2, BitVec.mul_assoc, m3, BitVec.mul_one, BitVec.sub_add_cancel] at e3
  exact lane_ext e0 e1 e2 e3

/-- C41, bijection: each step of the generator permutes the 128-bit states. -/
theorem C41_step_bijective : Function.Bijective randomBlock :=
  ⟨fun a b h => by rw [← stepBack_step a, ← stepBack_step b, h], fun b => ⟨stepBack b, step_stepBack b⟩⟩

/-- C41, lowest bits: whatever the state, the lowest bits of consecutive values alternate. -/
theorem C41_low_bit_alternates (s : Block) (n : Nat) :
    (randomBlocks s (n + 1)).getLsbD 0 = !(randomBlocks s n).getLsbD 0 := by
  show (randomBlock (randomBlocks s n)).getLsbD 0 = _
  generalize randomBlocks s n = b
  have key : ∀ a : Block, a.getLsbD 0 = decide ((lane a 0).toNat % 2 = 1) := by
    intro a
    rw [lane_toNat, ← BitVec.testBit_toNat, Nat.testBit_zero]
    congr 2
    simp
  rw [key, key, (randomBlock_lanes b).1]
  rw [BitVec.toNat_add, BitVec.toNat_mul]
  have h1 : (214013#32 : Lane).toNat % 2 = 1 := by decide
  have h2 : (2531011#32 : Lane).toNat % 2 = 1 := by decide
  generalize (214013#32 : Lane).toNat = y at h1
  generalize (2531011#32 : Lane).toNat = z at h2
  generalize (lane b 0).toNat = x
  have e : (x * y % 2 ^ 32 + z) % 2 ^ 32 % 2 = (x + 1) % 2 := by
    rw [Nat.mod_mod_of_dvd _ (by decide), Nat.add_mod, Nat.mod_mod_of_dvd _ (by decide), Nat.mul_mod, h1, h2]
    omega
  rw [e]
  by_cases h : x % 2 = 1
  · have h' : ¬ (x + 1) % 2 = 1 := by omega
    rw [decide_eq_true h, decide_eq_false h']; rfl
  · have h' : (x + 1) % 2 = 1 := by omega
    rw [decide_eq_false h, decide_eq_true h']; rfl

/-! ### Period -/

/-- `1 + a + ... + a ^ (n - 1)` -/
def geom (a : Int) : Nat → Int
  | 0 => 0
  | n + 1 => a * geom a n + 1

theorem geom_mul (a : Int) (n : Nat) : (a - 1) * geom a n = a ^ n - 1 := by
  induction n with
  | zero => simp [geom]
  | succ n ih => unfold geom; rw [pow_succ]; linear_combination a * ih

theorem geom_add (a : Int) (m n : Nat) : geom a (m + n) = geom a m + a ^ m * geom a n := by
  induction n with
  | zero => simp [geom]
  | succ n ih =>
    have e : ∀ k, geom a (k + 1) = geom a k + a ^ k := by
      intro k
      induction k with
      | zero => simp [geom]
      | succ k ihk => rw [geom, ihk, pow_succ]; rw [geom] at ihk; linear_combination ihk
    rw [← Nat.add_assoc, e, ih, e, pow_add]; ring

theorem geom_parity {a : Int} (ha : a % 2 = 1) (n : Nat) : geom a n % 2 = n % 2 := by
  induction n with
  | zero => rfl
  | succ n ih =>
    unfold geom
    have : (a * geom a n) % 2 = geom a n % 2 := by rw [Int.mul_emod, ha]; simp
    push_cast
    omega

theorem pow_mod4 {a : Int} (ha : a % 4 = 1) (n : Nat) : a ^ n % 4 = 1 := by
  induction n with
  | zero => simp
  | succ n ih => rw [pow_succ, Int.mul_emod, ih, ha]; rfl

theorem two_pow_dvd_odd_mul {k : Nat} {x y : Int} (hx : x % 2 = 1) : (2 : Int) ^ k ∣ x * y ↔ (2 : Int) ^ k ∣ y := by
  constructor
  · intro h
    have hc : IsCoprime ((2 : Int) ^ k) x := by
      apply IsCoprime.pow_left
      exact ⟨-(x / 2), 1, by omega⟩
    exact hc.dvd_of_dvd_mul_left h
  · intro h; exact Dvd.dvd.mul_left h x

/-- For `a = 1` modulo 4 the sum contains 2 exactly as often as `n` does. -/
theorem geom_dvd {a : Int} (ha : a % 4 = 1) (n k : Nat) : (2 : Int) ^ k ∣ geom a n ↔ (2 : Int) ^ k ∣ (n : Int) := by
  induction n using Nat.strong_induction_on generalizing k with
  | _ n ih =>
    cases k with
    | zero => simp
    | succ k =>
      by_cases hn : n % 2 = 1
      · constructor <;> intro h <;> exfalso
        · have h2 : (2 : Int) ∣ geom a n := Dvd.dvd.trans ⟨2 ^ k, by rw [pow_succ]; ring⟩ h
          have := geom_parity (a := a) (by omega) n
          omega
        · have h2 : (2 : Int) ∣ (n : Int) := Dvd.dvd.trans ⟨2 ^ k, by rw [pow_succ]; ring⟩ h
          omega
      · obtain ⟨m, rfl⟩ : ∃ m, n = m + m := ⟨n / 2, by omega⟩
        by_cases hm : m = 0
        · subst hm; simp [geom]
        · have e : geom a (m + m) = ((1 + a ^ m) / 2) * (2 * geom a m) := by
            have := pow_mod4 ha m
            have h2 : (1 + a ^ m) = 2 * ((1 + a ^ m) / 2) := by omega
            rw [geom_add]
            calc geom a m + a ^ m * geom a m = (1 + a ^ m) * geom a m := by ring
              _ = (2 * ((1 + a ^ m) / 2)) * geom a m := by rw [← h2]
              _ = _ := by ring
          have hodd : ((1 + a ^ m) / 2) % 2 = 1 := by
            have := pow_mod4 ha m
            omega
          rw [e, two_pow_dvd_odd_mul hodd, pow_succ, mul_comm ((2 : Int) ^ k) 2]
          rw [mul_dvd_mul_iff_left (by decide), ih m (by omega) k]
          push_cast
          rw [show (m : Int) + m = 2 * m by ring, mul_dvd_mul_iff_left (by decide)]

/-- Iterating `x * a + c` on 32 bits. -/
def lcg (a c : Lane) (x : Lane) : Nat → Lane
  | 0 => x
  | n + 1 => lcg a c x n * a + c

theorem lcg_closed (a c x : Lane) (n : Nat) :
    (2 : Int) ^ 32 ∣ ((lcg a c x n).toNat : Int) - ((a.toNat : Int) ^ n * x.toNat + c.toNat * geom a.toNat n) := by
  induction n with
  | zero => simp [lcg, geom]
  | succ n ih =>
    obtain ⟨q, hq⟩ := ih
    have e : ((lcg a c x (n + 1)).toNat : Int) = ((lcg a c x n).toNat * a.toNat + c.toNat : Nat) % (2 : Int) ^ 32 := by
      rw [lcg, BitVec.toNat_add, BitVec.toNat_mul]
      push_cast
      norm_num
    have hd := Int.emod_add_mul_ediv ((((lcg a c x n).toNat * a.toNat + c.toNat : Nat)) : Int) ((2 : Int) ^ 32)
    rw [e]
    generalize ((((lcg a c x n).toNat * a.toNat + c.toNat : Nat)) : Int) / (2 : Int) ^ 32 = d at hd
    refine ⟨q * a.toNat - d, ?_⟩
    unfold geom
    push_cast at hd ⊢
    rw [pow_succ]
    linear_combination hd + (a.toNat : Int) * hq

theorem lcg_fix {a c : Lane} (ha : a.toNat % 4 = 1) (hc : c.toNat % 2 = 1) (x : Lane) (d : Nat) :
    lcg a c x d = x ↔ 2 ^ 32 ∣ d := by
  have h := lcg_closed a c x d
  have hl := (lcg a c x d).isLt
  have hx := x.isLt
  have hg := geom_mul a.toNat d
  have e1 : lcg a c x d = x ↔ (2 : Int) ^ 32 ∣ ((lcg a c x d).toNat : Int) - x.toNat := by
    constructor
    · intro h; rw [h]; simp
    · intro h
      apply BitVec.eq_of_toNat_eq
      omega
  have e2 : ((a.toNat : Int) ^ d * x.toNat + c.toNat * geom a.toNat d) - x.toNat
      = (((a.toNat : Int) - 1) * x.toNat + c.toNat) * geom a.toNat d := by
    linear_combination (-(x.toNat : Int)) * hg
  have hodd : (((a.toNat : Int) - 1) * x.toNat + c.toNat) % 2 = 1 := by
    have : (((a.toNat : Int) - 1) * x.toNat) % 2 = 0 := by
      have : ((a.toNat : Int) - 1) % 2 = 0 := by omega
      rw [Int.mul_emod, this]; simp
    omega
  rw [e1]
  have e3 : (2 : Int) ^ 32 ∣ ((lcg a c x d).toNat : Int) - x.toNat
      ↔ (2 : Int) ^ 32 ∣ ((a.toNat : Int) ^ d * x.toNat + c.toNat * geom a.toNat d) - x.toNat := by
    constructor <;> intro h' <;> omega
  rw [e3, e2, two_pow_dvd_odd_mul hodd, geom_dvd (by omega)]
  omega

/-- `n` steps from a state. -/
def advance (s : Block) : Nat → Block
  | 0 => s
  | n + 1 => randomBlock (advance s n)

theorem advance_add (s : Block) (m n : Nat) : advance s (m + n) = advance (advance s m) n := by
  induction n with
  | zero => rfl
  | succ n ih => rw [← Nat.add_assoc, advance, ih, advance]

theorem randomBlocks_eq (s : Block) (n : Nat) : randomBlocks s n = advance s (n + 1) := by
  induction n with
  | zero => rfl
  | succ n ih => rw [randomBlocks, ih, ← advance]

theorem advance_lanes (s : Block) (n : Nat) :
    lane (advance s n) 0 = lcg 214013#32 2531011#32 (lane s 0) n
    ∧ lane (advance s n) 1 = lcg 17405#32 10395331#32 (lane s 1) n
    ∧ lane (advance s n) 2 = lcg 214013#32 13737667#32 (lane s 2) n
    ∧ lane (advance s n) 3 = lcg 69069#32 1#32 (lane s 3) n := by
  induction n with
  | zero => exact ⟨rfl, rfl, rfl, rfl⟩
  | succ n ih =>
    obtain ⟨e0, e1, e2, e3⟩ := randomBlock_lanes (advance s n)
    rw [ih.1] at e0
    rw [ih.2.1] at e1
    rw [ih.2.2.1] at e2
    rw [ih.2.2.2] at e3
    exact ⟨e0, e1, e2, e3⟩

theorem advance_fix (s : Block) (d : Nat) : advance s d = s ↔ 2 ^ 32 ∣ d := by
  obtain ⟨e0, e1, e2, e3⟩ := advance_lanes s d
  constructor
  · intro h
    rw [h] at e0
    exact (lcg_fix (by decide) (by decide) (lane s 0) d).mp e0.symm
  · intro h
    refine lane_ext ?_ ?_ ?_ ?_
    · rw [e0]; exact (lcg_fix (by decide) (by decide) _ d).mpr h
    · rw [e1]; exact (lcg_fix (by decide) (by decide) _ d).mpr h
    · rw [e2]; exact (lcg_fix (by decide) (by decide) _ d).mpr h
    · rw [e3]; exact (lcg_fix (by decide) (by decide) _ d).mpr h

/-- C41, period: whatever the seed, two values of the generator are equal iff their positions differ by a
multiple of 2^32; so 2^32 consecutive labels are distinct, and then they repeat. -/
theorem C41_period (s : Block) (i j : Nat) : randomBlocks s i = randomBlocks s j ↔ i % 2 ^ 32 = j % 2 ^ 32 := by
  have key : ∀ i d, randomBlocks s i = randomBlocks s (i + d) ↔ 2 ^ 32 ∣ d := by
    intro i d
    rw [randomBlocks_eq, randomBlocks_eq, show i + d + 1 = i + 1 + d by omega, advance_add s (i + 1) d, eq_comm]
    exact advance_fix _ d
  rcases Nat.le_total i j with h | h
  · obtain ⟨d, rfl⟩ := Nat.exists_eq_add_of_le h
    rw [key]; omega
  · obtain ⟨d, rfl⟩ := Nat.exists_eq_add_of_le h
    rw [eq_comm, key]; omega

example : randomBlocks (srandSSE 1111#32) 3 ≠ randomBlocks (srandSSE 1111#32) 4 := by decide

end TinyGarble.Props
