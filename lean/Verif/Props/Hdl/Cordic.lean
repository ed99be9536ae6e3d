import Verif.Proof.Hdl.CordicRun

/-!
# CORDIC (C84)
-/

namespace TinyGarble.Props.Hdl

open Real TinyGarble.Hdl TinyGarble.Hdl.Cordic TinyGarble.Spec.Hdl TinyGarble.Proof.Hdl TinyGarble.Proof.Hdl.Cordic
open TinyGarble.Proof.Cordic (tab tab_arctan tabVal tabList)

/-- C84: the circuit is done after `FRAC + 1` steps, and then the output does not change any more. -/
theorem C84_terminate (dec frac : ℕ) (mod : Mod) (dir : Dir) (g : BitVec (2 * (dec + frac))) (e : BitVec (dec + frac)) (t : ℕ) :
    ((cordic dec frac mod dir g e t).2 = true ↔ frac + 1 ≤ t)
    ∧ (frac + 1 ≤ t → (cordic dec frac mod dir g e t).1 = (cordic dec frac mod dir g e (frac + 1)).1) := by
  constructor
  · unfold cordic outputs
    rw [decide_eq_true_iff, iter_eq]
    omega
  · intro h
    obtain ⟨k, rfl⟩ := Nat.exists_eq_add_of_le h
    unfold cordic
    rw [regs_done]

/-! ## The tables of the circular functions -/

def T32 (k : ℕ) : ℤ := (cir32.getD k 0 : ℕ)
def T16 (k : ℕ) : ℤ := (cir16.getD k 0 : ℕ)

theorem T32_tab : ∀ k < 32, T32 k = tab k := by decide +kernel

theorem table32 : Table 32 30 T32 16 where
  good := fun k hk => by
    have h := tab_arctan k (by omega)
    rwa [← T32_tab k (by omega)] at h
  alpha := fun t ht => by
    have : ∀ t < 31, alpha 32 .cir t = BitVec.ofInt 32 (T32 t) := by decide +kernel
    exact this t (by omega)
  rest := by decide +kernel
  fits := fun k hk => by
    have : ∀ k < 32, Cordic.rest T32 (30 + 1) 16 (30 + 1 - k) < 2 ^ (32 - 1) := by decide +kernel
    exact this k (by omega)

theorem table16 : Table 16 14 T16 1 where
  good := fun k hk => by
    have h := tab_arctan k (by omega)
    rw [← T32_tab k (by omega)] at h
    have hn : ∀ k < 15, |T32 k - 2 ^ 16 * T16 k| ≤ 2 ^ 15 + 2 ^ 14 := by decide +kernel
    have h1 := hn k (by omega)
    have h2 : |(T32 k : ℝ) - 2 ^ 16 * (T16 k : ℝ)| ≤ 2 ^ 15 + 2 ^ 14 := by exact_mod_cast h1
    obtain ⟨a1, a2⟩ := abs_le.mp h
    obtain ⟨b1, b2⟩ := abs_le.mp h2
    rw [abs_le]
    norm_num at *
    constructor <;> linarith
  alpha := fun t ht => by
    have : ∀ t < 15, alpha 16 .cir t = BitVec.ofInt 16 (T16 t) := by decide +kernel
    exact this t (by omega)
  rest := by decide +kernel
  fits := fun k hk => by
    have : ∀ k < 16, Cordic.rest T16 (14 + 1) 1 (14 + 1 - k) < 2 ^ (16 - 1) := by decide +kernel
    exact this k (by omega)

theorem abs_angle {F : ℕ} {L : ℕ} (w : BitVec L) {b : ℝ} {B : ℤ} (h : |fixedPoint F w| ≤ b) (hb : b * 2 ^ F < B + 1) : |w.toInt| ≤ B := by
  have hp : (0 : ℝ) < 2 ^ F := by positivity
  rw [fixedPoint, abs_div, abs_of_pos hp, div_le_iff₀ hp] at h
  have h1 : (|w.toInt| : ℝ) < B + 1 := lt_of_le_of_lt h hb
  have h2 : |w.toInt| < B + 1 := by exact_mod_cast h1
  omega

theorem scale_error {a x : ℝ} {F : ℕ} {E : ℝ} (h : |a - 2 ^ F * x| ≤ E) : |a / 2 ^ F - x| ≤ E / 2 ^ F := by
  have hp : (0 : ℝ) < 2 ^ F := by positivity
  have e : a / 2 ^ F - x = (a - 2 ^ F * x) / 2 ^ F := by field_simp
  rw [e, abs_div, abs_of_pos hp]
  exact div_le_div_of_nonneg_right h hp.le

/-- The fields of the output. -/
theorem output_fields (dec frac : ℕ) (mod : Mod) (dir : Dir) (g : BitVec (2 * (dec + frac))) (e : BitVec (dec + frac)) (t : ℕ) :
    let o := (cordic dec frac mod dir g e t).1
    let s := regs dec frac mod dir g e t
    o.extractLsb' (2 * (dec + frac)) (dec + frac) = s.x ∧ o.extractLsb' (dec + frac) (dec + frac) = s.y ∧ o.extractLsb' 0 (dec + frac) = s.z := by
  intro o s
  refine ⟨?_, ?_, ?_⟩ <;> apply BitVec.eq_of_getLsbD_eq <;> intro i hi <;>
    simp only [o, s, cordic, outputs, BitVec.getLsbD_extractLsb', BitVec.getLsbD_append, hi, decide_true, Bool.true_and]
  · rw [if_neg (by omega)]
    congr 1
    omega
  · rw [if_pos (by omega), if_neg (by omega)]
    congr 1
    omega
  · rw [if_pos (by omega), if_pos (by omega)]
    congr 1
    omega

/-- C84, circular functions with 2 and 30 bits, the circuit of cordic.dcsh: the vector is rotated by `z` and lengthened. Missing: vectors that
get negative coordinates on the way (`hpos`), for which it is false (`C84_false_rotation`). -/
theorem C84_rotation_partial (g : BitVec (2 * (2 + 30))) (e : BitVec (2 + 30))
    (hz : |fixedPoint 30 e| ≤ 1.743)
    (hpos : ∀ t ≤ 31, 0 ≤ ((cordic 2 30 .cir .rot g e t).1.extractLsb' 64 32).toInt ∧ 0 ≤ ((cordic 2 30 .cir .rot g e t).1.extractLsb' 32 32).toInt)
    (t : ℕ) (ht : 31 ≤ t) :
    let x := fixedPoint 30 (g.extractLsb' 32 32)
    let y := fixedPoint 30 (g.extractLsb' 0 32)
    let z := fixedPoint 30 e
    let o := (cordic 2 30 .cir .rot g e t).1
    |fixedPoint 30 (o.extractLsb' 64 32) - lengthening 31 * (x * cos z - y * sin z)| ≤ 180 / 2 ^ 30
    ∧ |fixedPoint 30 (o.extractLsb' 32 32) - lengthening 31 * (x * sin z + y * cos z)| ≤ 180 / 2 ^ 30
    ∧ |fixedPoint 30 (o.extractLsb' 0 32)| ≤ 16 / 2 ^ 30 := by
  intro x y z o
  have ho : o = (cordic 2 30 .cir .rot g e (30 + 1)).1 := (C84_terminate 2 30 .cir .rot g e t).2 ht
  obtain ⟨o1, o2, o3⟩ := output_fields 2 30 .cir .rot g e (30 + 1)
  rw [← ho] at o1 o2 o3
  have hm : ∀ w : BitVec (2 + 30), 0 ≤ w.toInt → w.getLsbD (2 + 30 - 1) = false := by
    intro w hw
    rw [← BitVec.msb_eq_getLsbD_last, BitVec.msb_eq_toInt, decide_eq_false_iff_not]
    omega
  have hS : Cordic.rest T32 (30 + 1) 16 (30 + 1) = 1871839748 := by decide +kernel
  obtain ⟨h1, h2, h3⟩ := rotation_error (g := g) (e := e) (by decide) table32 (by rw [hS]; exact abs_angle e hz (by norm_num))
    (fun t ht => hm _ (by rw [← (output_fields 2 30 .cir .rot g e t).1]; exact (hpos t ht).1))
    (fun t ht => hm _ (by rw [← (output_fields 2 30 .cir .rot g e t).2.1]; exact (hpos t ht).2)) (by decide)
  have hx : ((g.extractLsb' 32 32).toInt : ℝ) = 2 ^ 30 * x := by simp only [x, fixedPoint]; ring
  have hy : ((g.extractLsb' 0 32).toInt : ℝ) = 2 ^ 30 * y := by simp only [y, fixedPoint]; ring
  refine ⟨?_, ?_, ?_⟩
  · rw [show o.extractLsb' 64 32 = _ from o1]
    refine scale_error (le_trans (le_of_eq ?_) (h1.trans (by norm_num)))
    rw [show ((BitVec.extractLsb' (2 + 30) (2 + 30) g).toInt : ℝ) = 2 ^ 30 * x from hx, show ((BitVec.extractLsb' 0 (2 + 30) g).toInt : ℝ) = 2 ^ 30 * y from hy]
    congr 1
    ring
  · rw [show o.extractLsb' 32 32 = _ from o2]
    refine scale_error (le_trans (le_of_eq ?_) (h2.trans (by norm_num)))
    rw [show ((BitVec.extractLsb' (2 + 30) (2 + 30) g).toInt : ℝ) = 2 ^ 30 * x from hx, show ((BitVec.extractLsb' 0 (2 + 30) g).toInt : ℝ) = 2 ^ 30 * y from hy]
    congr 1
    ring
  · rw [show o.extractLsb' 0 32 = _ from o3, fixedPoint, abs_div, abs_of_pos (show (0 : ℝ) < 2 ^ 30 by positivity)]
    apply div_le_div_of_nonneg_right _ (by positivity)
    exact_mod_cast h3

/-- C84, circular functions with 2 and 14 bits, the defaults of cordic.v. Missing: as before. -/
theorem C84_rotation16_partial (g : BitVec (2 * (2 + 14))) (e : BitVec (2 + 14))
    (hz : |fixedPoint 14 e| ≤ 1.743)
    (hpos : ∀ t ≤ 15, 0 ≤ ((cordic 2 14 .cir .rot g e t).1.extractLsb' 32 16).toInt ∧ 0 ≤ ((cordic 2 14 .cir .rot g e t).1.extractLsb' 16 16).toInt)
    (t : ℕ) (ht : 15 ≤ t) :
    let x := fixedPoint 14 (g.extractLsb' 16 16)
    let y := fixedPoint 14 (g.extractLsb' 0 16)
    let z := fixedPoint 14 e
    let o := (cordic 2 14 .cir .rot g e t).1
    |fixedPoint 14 (o.extractLsb' 32 16) - lengthening 15 * (x * cos z - y * sin z)| ≤ 67 / 2 ^ 14
    ∧ |fixedPoint 14 (o.extractLsb' 16 16) - lengthening 15 * (x * sin z + y * cos z)| ≤ 67 / 2 ^ 14
    ∧ |fixedPoint 14 (o.extractLsb' 0 16)| ≤ 1 / 2 ^ 14 := by
  intro x y z o
  have ho : o = (cordic 2 14 .cir .rot g e (14 + 1)).1 := (C84_terminate 2 14 .cir .rot g e t).2 ht
  obtain ⟨o1, o2, o3⟩ := output_fields 2 14 .cir .rot g e (14 + 1)
  rw [← ho] at o1 o2 o3
  have hm : ∀ w : BitVec (2 + 14), 0 ≤ w.toInt → w.getLsbD (2 + 14 - 1) = false := by
    intro w hw
    rw [← BitVec.msb_eq_getLsbD_last, BitVec.msb_eq_toInt, decide_eq_false_iff_not]
    omega
  have hS : Cordic.rest T16 (14 + 1) 1 (14 + 1) = 28562 := by decide +kernel
  obtain ⟨h1, h2, h3⟩ := rotation_error (g := g) (e := e) (by decide) table16 (by rw [hS]; exact abs_angle e hz (by norm_num))
    (fun t ht => hm _ (by rw [← (output_fields 2 14 .cir .rot g e t).1]; exact (hpos t ht).1))
    (fun t ht => hm _ (by rw [← (output_fields 2 14 .cir .rot g e t).2.1]; exact (hpos t ht).2)) (by decide)
  have hx : ((g.extractLsb' 16 16).toInt : ℝ) = 2 ^ 14 * x := by simp only [x, fixedPoint]; ring
  have hy : ((g.extractLsb' 0 16).toInt : ℝ) = 2 ^ 14 * y := by simp only [y, fixedPoint]; ring
  refine ⟨?_, ?_, ?_⟩
  · rw [show o.extractLsb' 32 16 = _ from o1]
    refine scale_error (le_trans (le_of_eq ?_) (h1.trans (by norm_num)))
    rw [show ((BitVec.extractLsb' (2 + 14) (2 + 14) g).toInt : ℝ) = 2 ^ 14 * x from hx, show ((BitVec.extractLsb' 0 (2 + 14) g).toInt : ℝ) = 2 ^ 14 * y from hy]
    congr 1
    ring
  · rw [show o.extractLsb' 16 16 = _ from o2]
    refine scale_error (le_trans (le_of_eq ?_) (h2.trans (by norm_num)))
    rw [show ((BitVec.extractLsb' (2 + 14) (2 + 14) g).toInt : ℝ) = 2 ^ 14 * x from hx, show ((BitVec.extractLsb' 0 (2 + 14) g).toInt : ℝ) = 2 ^ 14 * y from hy]
    congr 1
    ring
  · rw [show o.extractLsb' 0 16 = _ from o3, fixedPoint, abs_div, abs_of_pos (show (0 : ℝ) < 2 ^ 14 by positivity)]
    apply div_le_div_of_nonneg_right _ (by positivity)
    exact_mod_cast h3

theorem first_angles : 0.076 ≤ arctan (1 / 2 ^ 0) - arctan (1 / 2 ^ 1) - arctan (1 / 2 ^ 2)
    ∧ arctan (1 / 2 ^ 0) + arctan (1 / 2 ^ 1) + arctan (1 / 2 ^ 2) ≤ π / 2 - 0.076 := by
  have h1 := tab_arctan 1 (by decide)
  have h2 := tab_arctan 2 (by decide)
  rw [show tab 1 = 497837829 by decide +kernel] at h1
  rw [show tab 2 = 263043836 by decide +kernel] at h2
  obtain ⟨a1, a2⟩ := abs_le.mp h1
  obtain ⟨b1, b2⟩ := abs_le.mp h2
  have p1 := Real.pi_gt_d6
  rw [show arctan (1 / 2 ^ 0) = π / 4 by rw [pow_zero, div_one, arctan_one]]
  generalize arctan (1 / 2 ^ 1) = u at *
  generalize arctan (1 / 2 ^ 2) = v at *
  norm_num at *
  constructor <;> linarith

/-- The registers stay positive for the vectors on the axis and these angles. -/
theorem stays {frac : ℕ} {g : BitVec (2 * (2 + frac))} {e : BitVec (2 + frac)} {T : ℕ → ℤ} {c R : ℤ} {m : ℝ} (hT : Table (2 + frac) frac T c)
    (hN : frac + 1 ≤ 32) (hz : |e.toInt| ≤ Cordic.rest T (frac + 1) c (frac + 1)) (hR : ∀ k ≤ frac + 1, 4 ≤ k → Cordic.rest T (frac + 1) c (frac + 1 - k) ≤ R)
    (hm0 : 0 ≤ m) (hm : m ≤ 0.076) (h0 : 0 ≤ e.toInt) (hlow : 2 ^ frac * m ≤ e.toInt - R - (frac + 1)) (hhigh : e.toInt + R + (frac + 1) ≤ 2 ^ frac * (π / 2 - m))
    (hy : g.extractLsb' 0 (2 + frac) = 0) (hx0 : 0 ≤ (g.extractLsb' (2 + frac) (2 + frac)).toInt)
    (hx : 1.5 * (frac : ℝ) ≤ (g.extractLsb' (2 + frac) (2 + frac)).toInt * (0.63 * m))
    (hx1 : ((g.extractLsb' (2 + frac) (2 + frac)).toInt : ℝ) * 1.6468 + 1.5 * frac < 2 ^ (2 + frac - 1)) (t : ℕ) (ht : t ≤ frac + 1) :
    (regs 2 frac .cir .rot g e t).x.getLsbD (2 + frac - 1) = false ∧ (regs 2 frac .cir .rot g e t).y.getLsbD (2 + frac - 1) = false := by
  refine holds_of_range (by decide) hT hz (fun t ht => ?_) t ht
  have hi : init g e = ((g.extractLsb' (2 + frac) (2 + frac)).toInt, 0, e.toInt) := by
    unfold init
    rw [hy]
    simp
  rw [hi]
  obtain ⟨f1, f2⟩ := first_angles
  obtain ⟨a, b, c', d⟩ := stay T hN (z0 := e.toInt) hm0
    (fun k hk1 hk => angle_between T hT.good hT.rest hz hR (by linarith) (by linarith) h0 hlow hhigh k hk1 hk) hx0 hx t ht
  refine ⟨⟨a, ?_⟩, b, ?_⟩
  · have := lt_of_le_of_lt c' hx1
    exact_mod_cast this
  · have := lt_of_le_of_lt d hx1
    exact_mod_cast this

/-- C84, sine and cosine: from a vector on the axis and an angle from 0.13 to 1.44 the circuit computes the cosine and the sine. Missing: angles
near 0 and near the right angle and negative angles, for which it is false (`C84_false_rotation`). -/
theorem C84_sine_cosine_partial (g : BitVec (2 * (2 + 30))) (e : BitVec (2 + 30)) (hz0 : 0.13 ≤ fixedPoint 30 e) (hz1 : fixedPoint 30 e ≤ 1.44)
    (hx0 : 1 / 2 ^ 16 ≤ fixedPoint 30 (g.extractLsb' 32 32)) (hx1 : fixedPoint 30 (g.extractLsb' 32 32) ≤ 1.2) (hy : g.extractLsb' 0 32 = 0)
    (t : ℕ) (ht : 31 ≤ t) :
    let x := fixedPoint 30 (g.extractLsb' 32 32)
    let z := fixedPoint 30 e
    let o := (cordic 2 30 .cir .rot g e t).1
    |fixedPoint 30 (o.extractLsb' 64 32) - lengthening 31 * x * cos z| ≤ 180 / 2 ^ 30
    ∧ |fixedPoint 30 (o.extractLsb' 32 32) - lengthening 31 * x * sin z| ≤ 180 / 2 ^ 30 := by
  intro x z o
  have hza : |fixedPoint 30 e| ≤ 1.743 := by
    rw [abs_le]
    constructor <;> norm_num at * <;> linarith
  have hS : Cordic.rest T32 (30 + 1) 16 (30 + 1) = 1871839748 := by decide +kernel
  have hR : ∀ k < 32, 4 ≤ k → Cordic.rest T32 (30 + 1) 16 (30 + 1 - k) ≤ 134118069 := by decide +kernel
  have hp : (0 : ℝ) < 2 ^ 30 := by positivity
  have z0 := hz0
  have z1 := hz1
  have x0 := hx0
  have x1 := hx1
  rw [fixedPoint, le_div_iff₀ hp] at z0 x0
  rw [fixedPoint, div_le_iff₀ hp] at z1 x1
  have hxp : 0 ≤ (g.extractLsb' 32 32).toInt := by
    have : (0 : ℝ) ≤ ((g.extractLsb' 32 32).toInt : ℝ) := le_trans (by positivity) x0
    exact_mod_cast this
  have hzp : 0 ≤ e.toInt := by
    have : (0 : ℝ) ≤ (e.toInt : ℝ) := le_trans (by positivity) z0
    exact_mod_cast this
  have hpi := Real.pi_gt_d6
  have hs := stays (g := g) (e := e) (R := 134118069) (m := 0.005) table32 (by decide) (by rw [hS]; exact abs_angle e hza (by norm_num)) (fun k hk => hR k (by omega))
    (by norm_num) (by norm_num) hzp
    (by
      norm_num at z0 ⊢
      linarith)
    (by
      norm_num at z1 hpi ⊢
      linarith) hy hxp
    (by
      show _ ≤ ((g.extractLsb' 32 32).toInt : ℝ) * _
      norm_num at x0 ⊢
      linarith)
    (by
      show ((g.extractLsb' 32 32).toInt : ℝ) * _ + _ < _
      norm_num at x1 ⊢
      linarith)
  have hm : ∀ w : BitVec (2 + 30), w.getLsbD (2 + 30 - 1) = false → 0 ≤ w.toInt := by
    intro w hw
    rw [← BitVec.msb_eq_getLsbD_last, BitVec.msb_eq_toInt, decide_eq_false_iff_not] at hw
    omega
  obtain ⟨h1, h2, -⟩ := C84_rotation_partial g e hza (fun t ht => by
    obtain ⟨o1, o2, -⟩ := output_fields 2 30 .cir .rot g e t
    obtain ⟨s1, s2⟩ := hs t ht
    refine ⟨?_, ?_⟩
    · show 0 ≤ ((cordic 2 30 .cir .rot g e t).1.extractLsb' (2 * (2 + 30)) (2 + 30)).toInt
      rw [o1]
      exact hm _ s1
    · show 0 ≤ ((cordic 2 30 .cir .rot g e t).1.extractLsb' (2 + 30) (2 + 30)).toInt
      rw [o2]
      exact hm _ s2) t ht
  have hy0 : fixedPoint 30 (g.extractLsb' 0 32) = 0 := by
    rw [hy, fixedPoint]
    simp
  rw [hy0, zero_mul, sub_zero, ← mul_assoc] at h1
  rw [hy0, zero_mul, add_zero, ← mul_assoc] at h2
  exact ⟨h1, h2⟩

/-- C84, sine and cosine, with 2 and 14 bits. Missing: as before. -/
theorem C84_sine_cosine16_partial (g : BitVec (2 * (2 + 14))) (e : BitVec (2 + 14)) (hz0 : 0.15 ≤ fixedPoint 14 e) (hz1 : fixedPoint 14 e ≤ 1.42)
    (hx0 : 0.1 ≤ fixedPoint 14 (g.extractLsb' 16 16)) (hx1 : fixedPoint 14 (g.extractLsb' 16 16) ≤ 1.2) (hy : g.extractLsb' 0 16 = 0)
    (t : ℕ) (ht : 15 ≤ t) :
    let x := fixedPoint 14 (g.extractLsb' 16 16)
    let z := fixedPoint 14 e
    let o := (cordic 2 14 .cir .rot g e t).1
    |fixedPoint 14 (o.extractLsb' 32 16) - lengthening 15 * x * cos z| ≤ 67 / 2 ^ 14
    ∧ |fixedPoint 14 (o.extractLsb' 16 16) - lengthening 15 * x * sin z| ≤ 67 / 2 ^ 14 := by
  intro x z o
  have hza : |fixedPoint 14 e| ≤ 1.743 := by
    rw [abs_le]
    constructor <;> norm_num at * <;> linarith
  have hS : Cordic.rest T16 (14 + 1) 1 (14 + 1) = 28562 := by decide +kernel
  have hR : ∀ k < 16, 4 ≤ k → Cordic.rest T16 (14 + 1) 1 (14 + 1 - k) ≤ 2047 := by decide +kernel
  have hp : (0 : ℝ) < 2 ^ 14 := by positivity
  have z0 := hz0
  have z1 := hz1
  have x0 := hx0
  have x1 := hx1
  rw [fixedPoint, le_div_iff₀ hp] at z0 x0
  rw [fixedPoint, div_le_iff₀ hp] at z1 x1
  have hxp : 0 ≤ (g.extractLsb' 16 16).toInt := by
    have : (0 : ℝ) ≤ ((g.extractLsb' 16 16).toInt : ℝ) := le_trans (by positivity) x0
    exact_mod_cast this
  have hzp : 0 ≤ e.toInt := by
    have : (0 : ℝ) ≤ (e.toInt : ℝ) := le_trans (by positivity) z0
    exact_mod_cast this
  have hpi := Real.pi_gt_d6
  have hs := stays (g := g) (e := e) (R := 2047) (m := 0.023) table16 (by decide) (by rw [hS]; exact abs_angle e hza (by norm_num)) (fun k hk => hR k (by omega))
    (by norm_num) (by norm_num) hzp
    (by
      norm_num at z0 ⊢
      linarith)
    (by
      norm_num at z1 hpi ⊢
      linarith) hy hxp
    (by
      show _ ≤ ((g.extractLsb' 16 16).toInt : ℝ) * _
      norm_num at x0 ⊢
      linarith)
    (by
      show ((g.extractLsb' 16 16).toInt : ℝ) * _ + _ < _
      norm_num at x1 ⊢
      linarith)
  have hm : ∀ w : BitVec (2 + 14), w.getLsbD (2 + 14 - 1) = false → 0 ≤ w.toInt := by
    intro w hw
    rw [← BitVec.msb_eq_getLsbD_last, BitVec.msb_eq_toInt, decide_eq_false_iff_not] at hw
    omega
  obtain ⟨h1, h2, -⟩ := C84_rotation16_partial g e hza (fun t ht => by
    obtain ⟨o1, o2, -⟩ := output_fields 2 14 .cir .rot g e t
    obtain ⟨s1, s2⟩ := hs t ht
    refine ⟨?_, ?_⟩
    · show 0 ≤ ((cordic 2 14 .cir .rot g e t).1.extractLsb' (2 * (2 + 14)) (2 + 14)).toInt
      rw [o1]
      exact hm _ s1
    · show 0 ≤ ((cordic 2 14 .cir .rot g e t).1.extractLsb' (2 + 14) (2 + 14)).toInt
      rw [o2]
      exact hm _ s2) t ht
  have hy0 : fixedPoint 14 (g.extractLsb' 0 16) = 0 := by
    rw [hy, fixedPoint]
    simp
  rw [hy0, zero_mul, sub_zero, ← mul_assoc] at h1
  rw [hy0, zero_mul, add_zero, ← mul_assoc] at h2
  exact ⟨h1, h2⟩

/-! ## Linear functions -/

theorem lin_alpha : ∀ t < 15, alpha 16 .lin t = BitVec.ofInt 16 (2 ^ (14 - t)) := by decide +kernel

theorem lin_run (g : BitVec (2 * (2 + 14))) (e : BitVec (2 + 14)) (hx : 0 ≤ (g.extractLsb' 16 16).toInt) (t : ℕ) (ht : t ≤ 15) :
    let s := regs 2 14 .lin .rot g e t
    let X := (g.extractLsb' 16 16).toInt
    s.x = BitVec.ofInt 16 X
    ∧ ∃ Y Z : ℤ, s.y = BitVec.ofInt 16 Y ∧ s.z = BitVec.ofInt 16 Z ∧ |Z| ≤ 2 ^ (15 - t) ∧ Z < 2 ^ 15
      ∧ |Y * 2 ^ 14 - ((g.extractLsb' 0 16).toInt * 2 ^ 14 + X * (e.toInt - Z))| ≤ (t : ℤ) * 2 ^ 14 := by
  intro s X
  have hX : X < 2 ^ 15 := BitVec.toInt_lt (x := g.extractLsb' 16 16)
  induction t with
  | zero =>
    have h1 : -2 ^ 15 ≤ e.toInt := BitVec.le_toInt e
    have h2 : e.toInt < 2 ^ 15 := BitVec.toInt_lt (x := e)
    refine ⟨(BitVec.ofInt_toInt ..).symm, (g.extractLsb' 0 16).toInt, e.toInt, (BitVec.ofInt_toInt ..).symm, (BitVec.ofInt_toInt ..).symm, ?_, h2, ?_⟩
    · rw [abs_le]
      exact ⟨h1, h2.le⟩
    · rw [sub_self, mul_zero, add_zero, sub_self, abs_zero, Nat.cast_zero, zero_mul]
  | succ t ih =>
    obtain ⟨hsx, Y, Z, hy, hz, hZ, hZ', hYZ⟩ := ih (by omega)
    obtain ⟨e1, e2, e3⟩ := next_eq (mod := .lin) (dir := .rot) (g := g) (e := e) (by decide) t (by omega)
    have hpow : (2 : ℤ) ^ (15 - t) = 2 * 2 ^ (14 - t) := by
      rw [← pow_succ', show 14 - t + 1 = 15 - t by omega]
    have hpos : (0 : ℤ) < 2 ^ (14 - t) := by positivity
    have hle : (2 : ℤ) ^ (14 - t) ≤ 2 ^ 14 := pow_le_pow_right₀ (by norm_num) (by omega)
    obtain ⟨z1, z2⟩ := abs_le.mp hZ
    have hdi : di .rot (regs 2 14 .lin .rot g e t) = decide (Z < 0) := by
      unfold di
      dsimp only
      rw [hz]
      exact msb_ofInt (L := 16) (by decide) (by norm_num at *; omega) (by norm_num at *; omega)
    rw [hdi] at e2 e3
    have hdvd : X * 2 ^ (14 - t) * 2 ^ t = X * 2 ^ 14 := by
      rw [mul_assoc, ← pow_add, show 14 - t + t = 14 by omega]
    have hfl : |X / 2 ^ t * 2 ^ 14 - X * 2 ^ (14 - t)| ≤ 2 ^ 14 := by
      have hpt : (0 : ℤ) < 2 ^ t := by positivity
      have d1 := Int.ediv_mul_le X hpt.ne'
      have d2 := Int.lt_ediv_add_one_mul_self X hpt
      have e14 : (2 : ℤ) ^ 14 = 2 ^ t * 2 ^ (14 - t) := by rw [← pow_add, show t + (14 - t) = 14 by omega]
      rw [e14, abs_le]
      constructor
      · nlinarith
      · nlinarith
    obtain ⟨f1, f2⟩ := abs_le.mp hfl
    obtain ⟨y1, y2⟩ := abs_le.mp hYZ
    have hxs : BitVec.ofInt 16 X >>> t = BitVec.ofInt 16 (X / 2 ^ t) := shift_ofInt hx (lt_trans hX (by norm_num)) t
    refine ⟨?_, ?_⟩
    · refine e1.trans ?_
      rw [show (regs 2 14 .lin .rot g e t).x = _ from hsx]
      exact BitVec.add_zero _
    · by_cases hn : Z < 0
      · rw [decide_eq_true hn, if_pos rfl] at e2 e3
        refine ⟨Y - X / 2 ^ t, Z + 2 ^ (14 - t), ?_, ?_, ?_, ?_, ?_⟩
        · exact e2.trans (by rw [hy, hsx, hxs, ← BitVec.ofInt_neg, ← BitVec.ofInt_add, Int.sub_eq_add_neg])
        · exact e3.trans (by rw [hz, show alpha (2 + 14) .lin t = _ from lin_alpha t (by omega), BitVec.ofInt_add])
        · rw [show 15 - (t + 1) = 14 - t by omega, abs_le]
          omega
        · norm_num at *; omega
        · rw [abs_le]
          push_cast
          constructor <;> nlinarith
      · rw [decide_eq_false hn, if_neg (by decide)] at e2 e3
        refine ⟨Y + X / 2 ^ t, Z - 2 ^ (14 - t), ?_, ?_, ?_, ?_, ?_⟩
        · exact e2.trans (by rw [hy, hsx, hxs, BitVec.ofInt_add])
        · exact e3.trans (by rw [hz, show alpha (2 + 14) .lin t = _ from lin_alpha t (by omega), ← BitVec.ofInt_neg, ← BitVec.ofInt_add, Int.sub_eq_add_neg])
        · rw [show 15 - (t + 1) = 14 - t by omega, abs_le]
          omega
        · norm_num at *; omega
        · rw [abs_le]
          push_cast
          constructor <;> nlinarith

/-- C84, linear functions with 2 and 14 bits: the circuit computes `y + x z`, up to multiples of 4, the range of the numbers. Missing:
negative `x`, for which it is false (`C84_false_linear_negative`). -/
theorem C84_linear_partial (g : BitVec (2 * (2 + 14))) (e : BitVec (2 + 14)) (hx : 0 ≤ (g.extractLsb' 16 16).toInt) (t : ℕ) (ht : 15 ≤ t) :
    let x := fixedPoint 14 (g.extractLsb' 16 16)
    let y := fixedPoint 14 (g.extractLsb' 0 16)
    let z := fixedPoint 14 e
    let o := (cordic 2 14 .lin .rot g e t).1
    o.extractLsb' 32 16 = g.extractLsb' 16 16 ∧ ∃ k : ℤ, |fixedPoint 14 (o.extractLsb' 16 16) + 4 * k - (y + x * z)| ≤ 17 / 2 ^ 14 := by
  intro x y z o
  have ho : o = (cordic 2 14 .lin .rot g e (14 + 1)).1 := (C84_terminate 2 14 .lin .rot g e t).2 ht
  obtain ⟨o1, o2, -⟩ := output_fields 2 14 .lin .rot g e (14 + 1)
  rw [← ho] at o1 o2
  obtain ⟨hsx, Y, Z, hy, -, hZ, -, hYZ⟩ := lin_run g e hx 15 (le_refl _)
  have hX : (g.extractLsb' 16 16).toInt < 2 ^ 15 := BitVec.toInt_lt (x := g.extractLsb' 16 16)
  refine ⟨?_, ?_⟩
  · show o.extractLsb' (2 * (2 + 14)) (2 + 14) = _
    rw [o1]
    exact hsx.trans (BitVec.ofInt_toInt ..)
  · have hY : (o.extractLsb' 16 16).toInt = Y.bmod (2 ^ 16) := by
      show (o.extractLsb' (2 + 14) (2 + 14)).toInt = _
      rw [o2, show (regs 2 14 .lin .rot g e (14 + 1)).y = _ from hy]
      exact BitVec.toInt_ofInt _
    refine ⟨Y.bdiv (2 ^ 16), ?_⟩
    have hb : (Y.bmod (2 ^ 16) : ℤ) + 2 ^ 16 * Y.bdiv (2 ^ 16) = Y := by
      rw [Int.bmod_eq_self_sub_mul_bdiv]
      push_cast
      ring
    have h1 : |Y * 2 ^ 14 - ((g.extractLsb' 0 16).toInt * 2 ^ 14 + (g.extractLsb' 16 16).toInt * e.toInt)| ≤ 17 * 2 ^ 14 := by
      generalize (g.extractLsb' 16 16).toInt = X at *
      generalize (g.extractLsb' 0 16).toInt = A at *
      generalize e.toInt = B at *
      obtain ⟨z1, z2⟩ := abs_le.mp hZ
      obtain ⟨y1, y2⟩ := abs_le.mp hYZ
      norm_num at z1 z2 y1 y2 hX
      have hc : Z = -1 ∨ Z = 0 ∨ Z = 1 := by omega
      rw [abs_le]
      rcases hc with rfl | rfl | rfl <;> constructor <;> norm_num <;> nlinarith
    have h2 : |(Y : ℝ) * 2 ^ 14 - (((g.extractLsb' 0 16).toInt : ℝ) * 2 ^ 14 + ((g.extractLsb' 16 16).toInt : ℝ) * (e.toInt : ℝ))| ≤ 17 * 2 ^ 14 := by
      exact_mod_cast h1
    have h3 : fixedPoint 14 (o.extractLsb' 16 16) + 4 * (Y.bdiv (2 ^ 16) : ℝ) = (Y : ℝ) / 2 ^ 14 := by
      have : (Y : ℝ) = (Y.bmod (2 ^ 16) : ℝ) + 2 ^ 16 * (Y.bdiv (2 ^ 16) : ℝ) := by exact_mod_cast hb.symm
      rw [fixedPoint, hY]
      generalize Y.bmod (2 ^ 16) = a at *
      generalize Y.bdiv (2 ^ 16) = b at *
      rw [this]
      ring
    rw [h3]
    have e3 : (Y : ℝ) / 2 ^ 14 - (y + x * z) =
        ((Y : ℝ) * 2 ^ 14 - (((g.extractLsb' 0 16).toInt : ℝ) * 2 ^ 14 + ((g.extractLsb' 16 16).toInt : ℝ) * (e.toInt : ℝ))) / (2 ^ 14 * 2 ^ 14) := by
      simp only [x, y, z, fixedPoint]
      field_simp
    rw [e3, abs_div, abs_of_pos (show (0 : ℝ) < 2 ^ 14 * 2 ^ 14 by positivity), div_le_div_iff₀ (by positivity) (by positivity)]
    linarith

/-! ## Where it is false -/

/-- The inputs. -/
def input32 (x y : BitVec 32) : BitVec (2 * (2 + 30)) := (x ++ y).setWidth _
def input16 (x y : BitVec 16) : BitVec (2 * (2 + 14)) := (x ++ y).setWidth _

/-- C84 is false: a rotation by 0 of a vector on the axis should lengthen it from 0.607 to 1, but the result is less than 0.7. -/
theorem C84_false_rotation :
    let g := input32 0x26DD3B6A 0
    let o := (cordic 2 30 .cir .rot g 0 31).1
    let x := fixedPoint 30 (g.extractLsb' 32 32)
    let y := fixedPoint 30 (g.extractLsb' 0 32)
    lengthening 31 * (x * cos 0 - y * sin 0) > 0.99 ∧ fixedPoint 30 (o.extractLsb' 64 32) < 0.7 := by
  intro g o x y
  have hg : (g.extractLsb' 32 32).toInt = 652032874 := by decide +kernel
  have hy : (g.extractLsb' 0 32).toInt = 0 := by decide +kernel
  have ho : (o.extractLsb' 64 32).toInt = 738049602 := by decide +kernel
  constructor
  · have h1 : 1.64 ≤ lengthening 31 := by
      have h : lengthening 4 ≤ lengthening 31 := by
        rw [← gain_lengthening, ← gain_lengthening]
        exact gain_mono (by decide)
      have h4 : (1.64 : ℝ) ≤ lengthening 4 := by
        have hsq : lengthening 4 ^ 2 = ∏ j ∈ Finset.range 4, (1 + 1 / 4 ^ j : ℝ) := by
          rw [lengthening, ← Finset.prod_pow]
          exact Finset.prod_congr rfl fun j _ => Real.sq_sqrt (by positivity)
        have h0 : 0 ≤ lengthening 4 := Finset.prod_nonneg fun _ _ => Real.sqrt_nonneg _
        refine (abs_le_of_sq_le_sq' ?_ h0).2
        rw [hsq]
        norm_num [Finset.prod_range_succ]
      exact h4.trans h
    simp only [x, y, fixedPoint, hg, hy, cos_zero, sin_zero]
    norm_num at h1 ⊢
    linarith
  · rw [fixedPoint, ho]
    norm_num

/-- C84 is false: `DIR_VEC` should turn the vector to the axis and add its angle to `z`. The vector (1/4, 0) is turned away from it. -/
theorem C84_false_vectoring :
    let o := (cordic 2 30 .cir .vec (input32 0x10000000 0) 0 31).1
    fixedPoint 30 (o.extractLsb' 32 32) > 0.9 ∧ fixedPoint 30 (o.extractLsb' 0 32) < -1.7 := by
  intro o
  have h1 : (o.extractLsb' 32 32).toInt = 971960466 := by decide +kernel
  have h2 : (o.extractLsb' 0 32).toInt = -1871839732 := by decide +kernel
  rw [fixedPoint, fixedPoint, h1, h2]
  norm_num

/-- C84 is false: with 32 bits, `MOD_LIN` uses the table of the circular functions; 1/2 times 1/4 is not 1/8. -/
theorem C84_false_linear32 :
    let o := (cordic 2 30 .lin .rot (input32 0x20000000 0) 0x10000000 31).1
    fixedPoint 30 (o.extractLsb' 32 32) > 0.21 := by
  intro o
  have h1 : (o.extractLsb' 32 32).toInt = 227604033 := by decide +kernel
  rw [fixedPoint, h1]
  norm_num

/-- C84 is false: `MOD_LIN` with a negative `x`: the result for -1/4 times 1/4 is wrong by 1. -/
theorem C84_false_linear_negative :
    let o := (cordic 2 14 .lin .rot (input16 (-0x1000) 0) 0x1000 15).1
    |fixedPoint 14 (o.extractLsb' 16 16) - (-1 / 4) * (1 / 4)| > 0.9 := by
  intro o
  have h1 : (o.extractLsb' 16 16).toInt = 15365 := by decide +kernel
  rw [fixedPoint, h1]
  norm_num

/-- C84 is false: `MOD_HYP` should compute `x cosh z + y sinh z` and `x sinh z + y cosh z`, up to a factor. For `y = z = 0` both results are equal
and not 0. -/
theorem C84_false_hyperbolic :
    let o := (cordic 2 14 .hyp .rot (input16 0x1000 0) 0 15).1
    fixedPoint 14 (o.extractLsb' 32 16) = fixedPoint 14 (o.extractLsb' 16 16) ∧ fixedPoint 14 (o.extractLsb' 16 16) > 0.07 := by
  intro o
  have h1 : (o.extractLsb' 32 16).toInt = 1186 := by decide +kernel
  have h2 : (o.extractLsb' 16 16).toInt = 1186 := by decide +kernel
  rw [fixedPoint, fixedPoint, h1, h2]
  norm_num

/-- A vector with 0.607 on the axis and an angle of 1/2 as in `C84_sine_cosine_partial`, and inputs as in `C84_linear_partial`. -/
example : (∃ (g : BitVec (2 * (2 + 30))) (e : BitVec (2 + 30)), 0.13 ≤ fixedPoint 30 e ∧ fixedPoint 30 e ≤ 1.44
      ∧ 1 / 2 ^ 16 ≤ fixedPoint 30 (g.extractLsb' 32 32) ∧ fixedPoint 30 (g.extractLsb' 32 32) ≤ 1.2 ∧ g.extractLsb' 0 32 = 0)
    ∧ ∃ g : BitVec (2 * (2 + 14)), 0 ≤ (g.extractLsb' 16 16).toInt ∧ g.extractLsb' 0 16 ≠ 0 := by
  refine ⟨⟨input32 0x26DD3B6A 0, 0x20000000, ?_⟩, input16 5 6, by decide +kernel, by decide +kernel⟩
  have h1 : ((0x20000000 : BitVec (2 + 30))).toInt = 0x20000000 := by decide +kernel
  have h2 : ((input32 0x26DD3B6A 0).extractLsb' 32 32).toInt = 0x26DD3B6A := by decide +kernel
  rw [fixedPoint, fixedPoint, h1, h2]
  refine ⟨by norm_num, by norm_num, by norm_num, by norm_num, by decide +kernel⟩

/-- A run of `C84_rotation_partial` and `C84_rotation16_partial` with two positive coordinates. -/
example : (∀ t < 32, 0 ≤ ((cordic 2 30 .cir .rot (input32 0x10000000 0x8000000) 0x8000000 t).1.extractLsb' 64 32).toInt
      ∧ 0 ≤ ((cordic 2 30 .cir .rot (input32 0x10000000 0x8000000) 0x8000000 t).1.extractLsb' 32 32).toInt)
    ∧ ∀ t < 16, 0 ≤ ((cordic 2 14 .cir .rot (input16 0x1000 0x800) 0x800 t).1.extractLsb' 32 16).toInt
      ∧ 0 ≤ ((cordic 2 14 .cir .rot (input16 0x1000 0x800) 0x800 t).1.extractLsb' 16 16).toInt := by
  constructor <;> decide +kernel

end TinyGarble.Props.Hdl
