import Verif.Props.Rng
import Verif.Model.Protocol

/-!
# C104: the seed of the labels

`main` seeds the generator of the labels with the number of seconds since 1970, as a number of 32 bits (garbled_circuit_main.cpp:140). The full claim:
two executions of the program draw no common block, so that no label of one is a label of the other.
-/

namespace TinyGarble.Props
open TinyGarble Proof

theorem two_pow_dvd_pow_sub {a b : Int} (ha : a % 2 = 1) (hb : b % 2 = 1) (hab : (8 : Int) ∣ a - b) {v d : Nat} (hd : 2 ^ v ∣ d) :
    (2 : Int) ^ (v + 3) ∣ a ^ d - b ^ d := by
  induction v generalizing d with
  | zero => exact ((Int.modEq_iff_dvd.mpr hab).pow d).dvd
  | succ v ih =>
    obtain ⟨m, rfl⟩ := hd
    have h1 := ih (Dvd.intro m rfl : 2 ^ v ∣ 2 ^ v * m)
    have h2 : (2 : Int) ∣ a ^ (2 ^ v * m) + b ^ (2 ^ v * m) := by
      have e1 : (a ^ (2 ^ v * m)) % 2 = 1 := Int.odd_iff.mp ((Int.odd_iff.mpr ha).pow)
      have e2 : (b ^ (2 ^ v * m)) % 2 = 1 := Int.odd_iff.mp ((Int.odd_iff.mpr hb).pow)
      omega
    have e : a ^ (2 ^ (v + 1) * m) - b ^ (2 ^ (v + 1) * m) =
        (a ^ (2 ^ v * m) - b ^ (2 ^ v * m)) * (a ^ (2 ^ v * m) + b ^ (2 ^ v * m)) := by
      rw [show 2 ^ (v + 1) * m = 2 ^ v * m * 2 by ring, pow_mul, pow_mul]
      ring
    rw [e, show v + 1 + 3 = v + 3 + 1 by omega, pow_succ]
    exact mul_dvd_mul h1 h2

theorem two_pow_dvd_geom_sub {a b : Int} (ha : a % 4 = 1) (hb : b % 4 = 1) (hab : (8 : Int) ∣ a - b) {v d : Nat} (hd : 2 ^ v ∣ d) :
    (2 : Int) ^ (v + 2) ∣ geom a d - geom b d := by
  induction v generalizing d with
  | zero =>
    clear hd
    have : ∀ a : Int, a % 4 = 1 → geom a d % 4 = d % 4 := by
      intro a ha
      induction d with
      | zero => rfl
      | succ d ih =>
        unfold geom
        have : (a * geom a d) % 4 = geom a d % 4 := by rw [Int.mul_emod, ha]; omega
        push_cast
        omega
    have h1 := this a ha
    have h2 := this b hb
    show (4 : Int) ∣ _
    omega
  | succ v ih =>
    obtain ⟨m, rfl⟩ := hd
    have h1 := ih (Dvd.intro m rfl : 2 ^ v ∣ 2 ^ v * m)
    have h2 := (geom_dvd hb (2 ^ v * m) v).mpr (by exact_mod_cast (Dvd.intro m rfl : 2 ^ v ∣ 2 ^ v * m))
    have h3 : (2 : Int) ^ (v + 3) ∣ a ^ (2 ^ v * m) - b ^ (2 ^ v * m) :=
      two_pow_dvd_pow_sub (by omega) (by omega) hab (Dvd.intro m rfl : 2 ^ v ∣ 2 ^ v * m)
    have h4 : (2 : Int) ∣ 1 + a ^ (2 ^ v * m) := by
      have e1 : (a ^ (2 ^ v * m)) % 2 = 1 := Int.odd_iff.mp ((Int.odd_iff.mpr (by omega)).pow)
      omega
    have e : geom a (2 ^ (v + 1) * m) - geom b (2 ^ (v + 1) * m) =
        (geom a (2 ^ v * m) - geom b (2 ^ v * m)) * (1 + a ^ (2 ^ v * m)) + geom b (2 ^ v * m) * (a ^ (2 ^ v * m) - b ^ (2 ^ v * m)) := by
      rw [show 2 ^ (v + 1) * m = 2 ^ v * m + 2 ^ v * m by ring, geom_add, geom_add]
      ring
    rw [e]
    refine dvd_add ?_ ?_
    · rw [show v + 1 + 2 = v + 2 + 1 by omega, pow_succ]
      exact mul_dvd_mul h1 h4
    · exact Dvd.dvd.mul_left h3 _

/-- The difference of the second and the fourth lane, if they begin with the same number. -/
theorem lcg_same (x : Lane) {d : Nat} (h : lcg 17405#32 10395331#32 x d = lcg 69069#32 1#32 x d) : 2 ^ 31 ∣ d := by
  have h1 := lcg_closed 17405#32 10395331#32 x d
  have h2 := lcg_closed 69069#32 1#32 x d
  rw [h] at h1
  have e1 : ((17405#32 : Lane).toNat : Int) = 17405 := rfl
  have e2 : ((69069#32 : Lane).toNat : Int) = 69069 := rfl
  have e3 : ((10395331#32 : Lane).toNat : Int) = 10395331 := rfl
  have e4 : ((1#32 : Lane).toNat : Int) = 1 := rfl
  rw [e1, e3] at h1
  rw [e2, e4] at h2
  have h3 : (2 : Int) ^ 32 ∣ ((17405 : Int) ^ d - 69069 ^ d) * x.toNat + 2 * (5197665 * geom 17405 d) + (geom 17405 d - geom 69069 d) := by
    have := dvd_sub h2 h1
    refine this.trans (dvd_of_eq ?_)
    ring
  have step : ∀ v, v ≤ 31 → 2 ^ v ∣ d := by
    intro v
    induction v with
    | zero => exact fun _ => one_dvd d
    | succ v ih =>
      intro hv
      have hd := ih (by omega)
      have p1 : (2 : Int) ^ (v + 2) ∣ ((17405 : Int) ^ d - 69069 ^ d) * x.toNat :=
        Dvd.dvd.mul_right ((pow_dvd_pow 2 (by omega)).trans (two_pow_dvd_pow_sub (by decide) (by decide) (by decide) hd)) _
      have p2 : (2 : Int) ^ (v + 2) ∣ geom 17405 d - geom 69069 d := two_pow_dvd_geom_sub (by decide) (by decide) (by decide) hd
      have p3 : (2 : Int) ^ (v + 2) ∣ (2 : Int) ^ 32 := pow_dvd_pow 2 (by omega)
      have p4 := (Int.dvd_add_right p1).mp ((Int.dvd_add_left p2).mp (p3.trans h3))
      rw [show v + 2 = v + 1 + 1 by omega, pow_succ, mul_comm, mul_dvd_mul_iff_left (by decide), two_pow_dvd_odd_mul (by decide),
        geom_dvd (by decide)] at p4
      exact_mod_cast p4
  exact step 31 (Nat.le_refl _)

/-- After 2^31 steps each lane has changed by 2^31. -/
theorem lcg_half {a c : Lane} (ha : a.toNat % 4 = 1) (hc : c.toNat % 2 = 1) (x : Lane) : lcg a c x (2 ^ 31) = x + 0x80000000#32 := by
  have h := lcg_closed a c x (2 ^ 31)
  have hl := (lcg a c x (2 ^ 31)).isLt
  have hx := x.isLt
  have hg := geom_mul a.toNat (2 ^ 31)
  have g1 : (2 : Int) ^ 31 ∣ geom a.toNat (2 ^ 31) := (geom_dvd (by omega) _ _).mpr (by norm_num)
  have g2 : ¬ (2 : Int) ^ 32 ∣ geom a.toNat (2 ^ 31) := fun hh => by
    have := (geom_dvd (by omega) _ _).mp hh
    norm_num at this
  have e2 : ((a.toNat : Int) ^ (2 ^ 31) * x.toNat + c.toNat * geom a.toNat (2 ^ 31)) - x.toNat
      = (((a.toNat : Int) - 1) * x.toNat + c.toNat) * geom a.toNat (2 ^ 31) := by
    linear_combination (-(x.toNat : Int)) * hg
  have hodd : (((a.toNat : Int) - 1) * x.toNat + c.toNat) % 2 = 1 := by
    have : (((a.toNat : Int) - 1) * x.toNat) % 2 = 0 := by
      have : ((a.toNat : Int) - 1) % 2 = 0 := by omega
      rw [Int.mul_emod, this]; simp
    omega
  have g3 := (two_pow_dvd_odd_mul hodd (k := 31)).mpr g1
  have g4 := mt (two_pow_dvd_odd_mul hodd (k := 32)).mp g2
  rw [← e2] at g3 g4
  generalize (a.toNat : Int) ^ (2 ^ 31) * x.toNat + c.toNat * geom a.toNat (2 ^ 31) = y at h g3 g4
  clear hg g1 g2 e2 hodd
  generalize lcg a c x (2 ^ 31) = z at h hl ⊢
  apply BitVec.eq_of_toNat_eq
  rw [BitVec.toNat_add, show (0x80000000#32 : Lane).toNat = 2 ^ 31 from rfl]
  omega

theorem lane_srand (s : Lane) : lane (srandSSE s) 0 = s + 1#32 ∧ lane (srandSSE s) 1 = s ∧ lane (srandSSE s) 2 = s + 1#32 ∧ lane (srandSSE s) 3 = s :=
  lane_lanes _ _ _ _

theorem srand_half (t : Lane) : advance (srandSSE t) (2 ^ 31) = srandSSE (t + 0x80000000#32) := by
  obtain ⟨e0, e1, e2, e3⟩ := advance_lanes (srandSSE t) (2 ^ 31)
  obtain ⟨l0, l1, l2, l3⟩ := lane_srand t
  obtain ⟨m0, m1, m2, m3⟩ := lane_srand (t + 0x80000000#32)
  rw [lcg_half (by decide) (by decide)] at e0 e1 e2 e3
  refine lane_ext ?_ ?_ ?_ ?_
  · rw [e0, l0, m0, BitVec.add_assoc, BitVec.add_comm 1#32, BitVec.add_assoc]
  · rw [e1, l1, m1]
  · rw [e2, l2, m2, BitVec.add_assoc, BitVec.add_comm 1#32, BitVec.add_assoc]
  · rw [e3, l3, m3]

theorem advance_period (s : Block) {m n : Nat} (h : m % 2 ^ 32 = n % 2 ^ 32) : advance s m = advance s n := by
  rcases Nat.le_total m n with hl | hl
  · obtain ⟨d, rfl⟩ := Nat.exists_eq_add_of_le hl
    rw [advance_add]
    exact ((advance_fix _ d).mpr (by omega)).symm
  · obtain ⟨d, rfl⟩ := Nat.exists_eq_add_of_le hl
    rw [advance_add]
    exact (advance_fix _ d).mpr (by omega)

/-- C104, exactly: block `i` of an execution with the seed `s` is block `j` of an execution with the seed `t` if and only if the seeds are equal and so
are the positions, or both differ by 2^31; positions modulo 2^32. -/
theorem C104_shared_iff (s t : Lane) (i j : Nat) : randomBlocks (srandSSE s) i = randomBlocks (srandSSE t) j ↔
    (s = t ∧ i % 2 ^ 32 = j % 2 ^ 32) ∨ (s = t + 0x80000000#32 ∧ (i + 2 ^ 31) % 2 ^ 32 = j % 2 ^ 32) := by
  rw [randomBlocks_eq, randomBlocks_eq]
  constructor
  · intro h
    obtain ⟨r, hr⟩ : ∃ r, (i + 1 + r) % 2 ^ 32 = 0 := ⟨2 ^ 32 - (i + 1) % 2 ^ 32, by omega⟩
    have h1 : srandSSE s = advance (srandSSE t) (j + 1 + r) := by
      rw [advance_add, ← h, ← advance_add]
      exact ((advance_fix _ _).mpr (Nat.dvd_of_mod_eq_zero hr)).symm
    obtain ⟨-, e1, -, e3⟩ := advance_lanes (srandSSE t) (j + 1 + r)
    obtain ⟨-, l1, -, l3⟩ := lane_srand t
    obtain ⟨-, m1, -, m3⟩ := lane_srand s
    rw [← h1, m1, l1] at e1
    rw [← h1, m3, l3] at e3
    have hd := lcg_same t (e1.symm.trans e3)
    by_cases hp : (j + 1 + r) % 2 ^ 32 = 0
    · left
      refine ⟨?_, by omega⟩
      rw [e1]
      exact (lcg_fix (by decide) (by decide) _ _).mpr (Nat.dvd_of_mod_eq_zero hp)
    · right
      refine ⟨?_, by omega⟩
      have : advance (srandSSE t) (j + 1 + r) = advance (srandSSE t) (2 ^ 31) := advance_period _ (by omega)
      rw [this, srand_half] at h1
      rw [← m1, h1]
      exact (lane_srand _).2.1
  · rintro (⟨rfl, h⟩ | ⟨rfl, h⟩)
    · exact advance_period _ (by omega)
    · rw [← srand_half, ← advance_add]
      exact advance_period _ (by omega)

/-- C104 for executions with different seeds (started in different seconds of the same 136 years) that draw at most 2^31 blocks: no block of one is a
block of the other, and the offsets differ. Missing: executions with the same seed, for which it is false (`C104_false`). -/
theorem C104_runs_partial {s t : Lane} (h : s ≠ t) :
    (∀ i j, i < 2 ^ 31 → j < 2 ^ 31 → randomBlocks (srandSSE s) i ≠ randomBlocks (srandSSE t) j) ∧
    keyOf (randomBlocks (srandSSE s)) ≠ keyOf (randomBlocks (srandSSE t)) ∧
    offsetOf (randomBlocks (srandSSE s)) ≠ offsetOf (randomBlocks (srandSSE t)) := by
  have h1 : ∀ i j, i < 2 ^ 31 → j < 2 ^ 31 → randomBlocks (srandSSE s) i ≠ randomBlocks (srandSSE t) j := by
    intro i j hi hj hh
    rcases (C104_shared_iff s t i j).mp hh with ⟨h', -⟩ | ⟨-, h'⟩
    · exact h h'
    · omega
  refine ⟨h1, h1 1 1 (by decide) (by decide), fun hh => h ?_⟩
  have e : ∀ u : Lane, lane (offsetOf (randomBlocks (srandSSE u))) 1 = u * 17405#32 + 10395331#32 := by
    intro u
    have h1 := (randomBlock_lanes (srandSSE u)).2.1
    rw [(lane_srand u).2.1] at h1
    rw [← h1]
    unfold offsetOf lane randomBlocks
    generalize randomBlock (srandSSE u) = b
    apply BitVec.eq_of_getLsbD_eq
    intro k hk
    rw [BitVec.getLsbD_extractLsb', BitVec.getLsbD_extractLsb', BitVec.getLsbD_or]
    simp
  have hl : s * 17405#32 + 10395331#32 = t * 17405#32 + 10395331#32 := by rw [← e, ← e, hh]
  have hl : s * 17405#32 = t * 17405#32 := by
    rw [← BitVec.add_sub_cancel (s * 17405#32) 10395331#32, hl, BitVec.add_sub_cancel]
  have m : (17405#32 * 2891854165#32 : Lane) = 1#32 := by decide
  have := congrArg (· * 2891854165#32) hl
  simp only [BitVec.mul_assoc, m, BitVec.mul_one] at this
  exact this

example : (1111#32 : Lane) ≠ 1112#32 := by decide

/-- C104, negation: two executions that begin in the same second use the same labels. So an evaluator that takes part in both, with the values 0 and 1
for the same input, gets both labels of that wire, and from them the offset (high-memory mode, any circuit, input `j`). -/
theorem C104_false (c : Circuit) (seed : Lane) (G G' : GEnv) (hG : G.rnd = randomBlocks (srandSSE seed)) (hG' : G'.rnd = randomBlocks (srandSSE seed))
    (j : Nat) : pick (inputLabelsHigh c G.rnd j) 0 0 ^^^ pick (inputLabelsHigh c G'.rnd j) 1 0 = offsetOf G.rnd ∧ offsetOf G.rnd = offsetOf G'.rnd ∧
      keyOf G.rnd = keyOf G'.rnd := by
  have e1 : ∀ l : BlockPair, pick l 0 0 = l.label0 := fun l => rfl
  have e2 : ∀ l : BlockPair, pick l 1 0 = l.label1 := fun l => rfl
  rw [e1, e2, hG, hG']
  refine ⟨?_, rfl, rfl⟩
  unfold inputLabelsHigh mkPair xorBlock
  show _ ^^^ (_ ^^^ _) = _
  rw [BitVec.xor_comm (offsetOf _), ← BitVec.xor_assoc, BitVec.xor_self, BitVec.zero_xor]

example : ∃ G G' : GEnv, G.rnd = randomBlocks (srandSSE 1111#32) ∧ G'.rnd = randomBlocks (srandSSE 1111#32) ∧ G.fan0 0 ≠ G'.fan0 0 :=
  ⟨⟨randomBlocks (srandSSE 1111#32), fun _ => ⟨⟨15, 3, 3⟩, fun _ _ => 0⟩, fun _ => ⟨0, fun _ => 0⟩, fun _ => 7,
      ⟨fun _ => ⟨5#128, 6#128⟩, fun _ => .sec false, fun _ => ⟨7#128, 6#128⟩, fun _ => .sec false, fun _ => 3⟩, fun _ _ _ => 0⟩,
    ⟨randomBlocks (srandSSE 1111#32), fun _ => ⟨⟨15, 3, 3⟩, fun _ _ => 0⟩, fun _ => ⟨0, fun _ => 0⟩, fun _ => 8,
      ⟨fun _ => ⟨5#128, 6#128⟩, fun _ => .sec false, fun _ => ⟨7#128, 6#128⟩, fun _ => .sec false, fun _ => 3⟩, fun _ _ _ => 0⟩,
    rfl, rfl, by decide⟩

/-- C104, negation: the seeds 2^31 apart give the same labels, 2^31 positions later. -/
theorem C104_false_far (t : Lane) (i : Nat) : randomBlocks (srandSSE (t + 0x80000000#32)) i = randomBlocks (srandSSE t) (i + 2 ^ 31) :=
  (C104_shared_iff _ _ _ _).mpr (Or.inr ⟨rfl, rfl⟩)

end TinyGarble.Props
