import Verif.Proof.Hdl.CordicStay
import Verif.Spec.Hdl.Cordic

/-!
# The run of CORDIC
-/

namespace TinyGarble.Proof.Hdl.Cordic

open Real TinyGarble.Hdl TinyGarble.Hdl.Cordic TinyGarble.Spec.Hdl
open TinyGarble.Proof.Cordic (gain)

theorem gain_lengthening (n : ℕ) : gain n = lengthening n := by
  unfold gain lengthening
  apply Finset.prod_congr rfl
  intro j _
  rw [div_pow, one_pow, ← pow_mul, mul_comm, pow_mul]
  norm_num

theorem msb_range {L : ℕ} (hL : 0 < L) {X : ℤ} (h0 : -2 ^ (L - 1) ≤ X) (h1 : X < 2 ^ L) (hm : (BitVec.ofInt L X).getLsbD (L - 1) = false) :
    0 ≤ X ∧ X < 2 ^ (L - 1) := by
  have hp : (2 : ℤ) ^ L = 2 * 2 ^ (L - 1) := by
    rw [← pow_succ', show L - 1 + 1 = L by omega]
  by_cases h : X < 2 ^ (L - 1)
  · rw [msb_ofInt hL h0 h] at hm
    exact ⟨by simpa using hm, h⟩
  · exfalso
    have e : BitVec.ofInt L X = BitVec.ofInt L (X - 2 ^ L) := by
      apply BitVec.eq_of_toInt_eq
      rw [BitVec.toInt_ofInt, BitVec.toInt_ofInt, show ((X - 2 ^ L : ℤ)) = X - ((2 ^ L : ℕ) : ℤ) by push_cast; ring, Int.sub_bmod_right]
    rw [e, msb_ofInt hL (by omega) (by omega), decide_eq_false_iff_not] at hm
    omega

/-- What is needed of a table. -/
structure Table (L N : ℕ) (T : ℕ → ℤ) (c : ℤ) : Prop where
  good : Good T N (N + 1)
  alpha : ∀ t ≤ N, alpha L .cir t = BitVec.ofInt L (T t)
  rest : ∀ k < N + 1, T k ≤ rest T (N + 1) c (N + 1 - (k + 1))
  fits : ∀ k ≤ N + 1, Cordic.rest T (N + 1) c (N + 1 - k) < 2 ^ (L - 1)

variable {dec frac : ℕ} {g : BitVec (2 * (dec + frac))} {e : BitVec (dec + frac)}

/-- The integers at the start. -/
def init (g : BitVec (2 * (dec + frac))) (e : BitVec (dec + frac)) : ℤ × ℤ × ℤ :=
  ((g.extractLsb' (dec + frac) (dec + frac)).toInt, (g.extractLsb' 0 (dec + frac)).toInt, e.toInt)

theorem holds_start : Holds (regs dec frac .cir .rot g e 0) (init g e) := by
  refine ⟨?_, ?_, ?_⟩ <;> exact (BitVec.ofInt_toInt ..).symm

/-- As long as both registers are positive, the circuit computes with the integers. -/
theorem holds_run (hd : 0 < dec) {T : ℕ → ℤ} {c : ℤ} (hT : Table (dec + frac) frac T c) (hz : |e.toInt| ≤ Cordic.rest T (frac + 1) c (frac + 1))
    (hx : ∀ t ≤ frac + 1, (regs dec frac .cir .rot g e t).x.getLsbD (dec + frac - 1) = false)
    (hy : ∀ t ≤ frac + 1, (regs dec frac .cir .rot g e t).y.getLsbD (dec + frac - 1) = false) (t : ℕ) (ht : t ≤ frac + 1) :
    Holds (regs dec frac .cir .rot g e t) (runInt T (init g e) t)
    ∧ (0 ≤ (runInt T (init g e) t).1 ∧ (runInt T (init g e) t).1 < 2 ^ (dec + frac - 1))
    ∧ (0 ≤ (runInt T (init g e) t).2.1 ∧ (runInt T (init g e) t).2.1 < 2 ^ (dec + frac - 1)) := by
  have hp : (2 : ℤ) ^ (dec + frac) = 2 * 2 ^ (dec + frac - 1) := by
    rw [← pow_succ', show dec + frac - 1 + 1 = dec + frac by omega]
  induction t with
  | zero =>
    have hs : Holds (regs dec frac .cir .rot g e 0) (init g e) := holds_start
    have h1 := hx 0 ht
    have h2 := hy 0 ht
    rw [hs.1] at h1
    rw [hs.2.1] at h2
    have r : ∀ w : BitVec (dec + frac), -2 ^ (dec + frac - 1) ≤ w.toInt ∧ w.toInt < 2 ^ (dec + frac) := by
      intro w
      have a1 := BitVec.le_toInt w
      have a2 := BitVec.toInt_lt (x := w)
      omega
    exact ⟨hs, msb_range (by omega) (r _).1 (r _).2 h1, msb_range (by omega) (r _).1 (r _).2 h2⟩
  | succ t ih =>
    obtain ⟨ih, ihx, ihy⟩ := ih (by omega)
    have hzt := residual T (init g e) hT.rest hz t (by omega)
    have hft := hT.fits t (by omega)
    obtain ⟨z1, z2⟩ := abs_le.mp hzt
    have hs : Holds (regs dec frac .cir .rot g e (t + 1)) (runInt T (init g e) (t + 1)) :=
      holds_step hd t (by omega) (hT.alpha t (by omega)) ih ihx.1 (by omega) ihy.1 (by omega) (by omega) (by omega)
    have h1 := hx (t + 1) ht
    have h2 := hy (t + 1) ht
    rw [hs.1] at h1
    rw [hs.2.1] at h2
    have dx : 0 ≤ (runInt T (init g e) t).1 / 2 ^ t ∧ (runInt T (init g e) t).1 / 2 ^ t ≤ (runInt T (init g e) t).1 :=
      ⟨Int.ediv_nonneg ihx.1 (by positivity), Int.ediv_le_self _ ihx.1⟩
    have dy : 0 ≤ (runInt T (init g e) t).2.1 / 2 ^ t ∧ (runInt T (init g e) t).2.1 / 2 ^ t ≤ (runInt T (init g e) t).2.1 :=
      ⟨Int.ediv_nonneg ihy.1 (by positivity), Int.ediv_le_self _ ihy.1⟩
    have bx : -2 ^ (dec + frac - 1) ≤ (runInt T (init g e) (t + 1)).1 ∧ (runInt T (init g e) (t + 1)).1 < 2 ^ (dec + frac) := by
      simp only [runInt, stepInt]
      split <;> simp only <;> omega
    have by' : -2 ^ (dec + frac - 1) ≤ (runInt T (init g e) (t + 1)).2.1 ∧ (runInt T (init g e) (t + 1)).2.1 < 2 ^ (dec + frac) := by
      simp only [runInt, stepInt]
      split <;> simp only <;> omega
    exact ⟨hs, msb_range (by omega) bx.1 bx.2 h1, msb_range (by omega) by'.1 by'.2 h2⟩

/-- If the integers are positive and small, the circuit computes with them. -/
theorem holds_of_range (hd : 0 < dec) {T : ℕ → ℤ} {c : ℤ} (hT : Table (dec + frac) frac T c) (hz : |e.toInt| ≤ Cordic.rest T (frac + 1) c (frac + 1))
    (h : ∀ t ≤ frac + 1, (0 ≤ (runInt T (init g e) t).1 ∧ (runInt T (init g e) t).1 < 2 ^ (dec + frac - 1))
      ∧ (0 ≤ (runInt T (init g e) t).2.1 ∧ (runInt T (init g e) t).2.1 < 2 ^ (dec + frac - 1))) (t : ℕ) (ht : t ≤ frac + 1) :
    (regs dec frac .cir .rot g e t).x.getLsbD (dec + frac - 1) = false ∧ (regs dec frac .cir .rot g e t).y.getLsbD (dec + frac - 1) = false := by
  have hp : (2 : ℤ) ^ (dec + frac) = 2 * 2 ^ (dec + frac - 1) := by
    rw [← pow_succ', show dec + frac - 1 + 1 = dec + frac by omega]
  have hs : Holds (regs dec frac .cir .rot g e t) (runInt T (init g e) t) := by
    induction t with
    | zero => exact holds_start
    | succ t ih =>
      obtain ⟨ihx, ihy⟩ := h t (by omega)
      have hzt := residual T (init g e) hT.rest hz t (by omega)
      have hft := hT.fits t (by omega)
      obtain ⟨z1, z2⟩ := abs_le.mp hzt
      exact holds_step hd t (by omega) (hT.alpha t (by omega)) (ih (by omega)) ihx.1 (by omega) ihy.1 (by omega) (by omega) (by omega)
  obtain ⟨hx, hy⟩ := h t ht
  rw [hs.1, hs.2.1, msb_ofInt (by omega) (by omega) (by omega), msb_ofInt (by omega) (by omega) (by omega)]
  simp
  omega

/-- The result when both registers stay positive. `2^dec` bounds the numbers. -/
theorem rotation_error (hd : 0 < dec) {T : ℕ → ℤ} {c : ℤ} (hT : Table (dec + frac) frac T c) (hz : |e.toInt| ≤ Cordic.rest T (frac + 1) c (frac + 1))
    (hx : ∀ t ≤ frac + 1, (regs dec frac .cir .rot g e t).x.getLsbD (dec + frac - 1) = false)
    (hy : ∀ t ≤ frac + 1, (regs dec frac .cir .rot g e t).y.getLsbD (dec + frac - 1) = false) :
    let s := regs dec frac .cir .rot g e (frac + 1)
    let x : ℝ := (g.extractLsb' (dec + frac) (dec + frac)).toInt
    let y : ℝ := (g.extractLsb' 0 (dec + frac)).toInt
    let θ : ℝ := fixedPoint frac e
    let E : ℝ := 1.5 * frac + (1.4143 * 2 ^ (dec + frac - 1) + 1.5 * frac) * ((frac + 1 + c) / 2 ^ frac)
    0 ≤ c →
    |(s.x.toInt : ℝ) - lengthening (frac + 1) * (x * cos θ - y * sin θ)| ≤ E ∧ |(s.y.toInt : ℝ) - lengthening (frac + 1) * (x * sin θ + y * cos θ)| ≤ E
    ∧ |s.z.toInt| ≤ c := by
  intro s x y θ E hc
  obtain ⟨hs, rx, ry⟩ := holds_run hd hT hz hx hy (frac + 1) (le_refl _)
  have he := total_error T (init g e) hT.good hT.rest hz
  have hL := le_refl (dec + frac)
  have ex : s.x.toInt = (runInt T (init g e) (frac + 1)).1 := by
    rw [hs.1, BitVec.toInt_ofInt_eq_self (by omega) (by omega) rx.2]
  have ey : s.y.toInt = (runInt T (init g e) (frac + 1)).2.1 := by
    rw [hs.2.1, BitVec.toInt_ofInt_eq_self (by omega) (by omega) ry.2]
  have hzt := residual T (init g e) hT.rest hz (frac + 1) (le_refl _)
  have hft := hT.fits (frac + 1) (le_refl _)
  rw [Nat.sub_self] at hzt hft
  change _ ≤ c at hzt
  change c < _ at hft
  have ez : s.z.toInt = (runInt T (init g e) (frac + 1)).2.2 := by
    obtain ⟨z1, z2⟩ := abs_le.mp hzt
    rw [hs.2.2, BitVec.toInt_ofInt_eq_self (by omega) (by omega) (by omega)]
  -- the length of the exact result
  have hlen : ‖vec T (init g e) 0‖ * gain (frac + 1) ≤ 1.4143 * 2 ^ (dec + frac - 1) + 1.5 * frac := by
    have h1 : ‖ideal T (init g e) (frac + 1)‖ = ‖vec T (init g e) 0‖ * gain (frac + 1) := by
      rw [ideal_eq, norm_mul, norm_mul, Complex.norm_exp_ofReal_mul_I, mul_one, Complex.norm_real, norm_of_nonneg (zero_le_one.trans (one_le_gain _))]
    have h2 := error T (init g e) frac
    have h3 : ‖vec T (init g e) (frac + 1)‖ ≤ 1.4143 * 2 ^ (dec + frac - 1) := by
      have a1 : (0 : ℝ) ≤ ((runInt T (init g e) (frac + 1)).1 : ℝ) := by exact_mod_cast rx.1
      have a2 : ((runInt T (init g e) (frac + 1)).1 : ℝ) ≤ 2 ^ (dec + frac - 1) := by exact_mod_cast rx.2.le
      have b1 : (0 : ℝ) ≤ ((runInt T (init g e) (frac + 1)).2.1 : ℝ) := by exact_mod_cast ry.1
      have b2 : ((runInt T (init g e) (frac + 1)).2.1 : ℝ) ≤ 2 ^ (dec + frac - 1) := by exact_mod_cast ry.2.le
      rw [← abs_of_nonneg (norm_nonneg _), ← abs_of_nonneg (show (0 : ℝ) ≤ 1.4143 * 2 ^ (dec + frac - 1) by positivity)]
      apply sq_le_sq.mp
      rw [← Complex.normSq_eq_norm_sq, Complex.normSq_apply]
      show ((runInt T (init g e) (frac + 1)).1 : ℝ) * ((runInt T (init g e) (frac + 1)).1 : ℝ) + ((runInt T (init g e) (frac + 1)).2.1 : ℝ) * ((runInt T (init g e) (frac + 1)).2.1 : ℝ) ≤ _
      nlinarith
    have h4 : ‖ideal T (init g e) (frac + 1)‖ ≤ ‖vec T (init g e) (frac + 1)‖ + ‖vec T (init g e) (frac + 1) - ideal T (init g e) (frac + 1)‖ := by
      have := norm_sub_le (vec T (init g e) (frac + 1)) (vec T (init g e) (frac + 1) - ideal T (init g e) (frac + 1))
      rwa [sub_sub_cancel] at this
    rw [← h1]
    linarith
  have hE : 1.5 * (frac : ℝ) + ‖vec T (init g e) 0‖ * gain (frac + 1) * ((frac + 1 + c) / 2 ^ frac) ≤ E := by
    have hc' : (0 : ℝ) ≤ c := by exact_mod_cast hc
    have : (0 : ℝ) ≤ (frac + 1 + c) / 2 ^ frac := by positivity
    have := mul_le_mul_of_nonneg_right hlen this
    simp only [E]
    linarith
  have he := he.trans hE
  have hv0 : vec T (init g e) 0 = ⟨x, y⟩ := rfl
  have hθ : (((init g e).2.2 : ℝ) / 2 ^ frac) = θ := rfl
  rw [hθ, hv0] at he
  refine ⟨?_, ?_, ?_⟩
  · have h := (Complex.abs_re_le_norm _).trans he
    rw [Complex.sub_re, Complex.mul_re, Complex.re_ofReal_mul, Complex.im_ofReal_mul, Complex.exp_ofReal_mul_I_re, Complex.exp_ofReal_mul_I_im] at h
    have hv : (vec T (init g e) (frac + 1)).re = (s.x.toInt : ℝ) := by rw [ex]; rfl
    rw [hv] at h
    rw [← gain_lengthening]
    refine le_trans (le_of_eq ?_) h
    congr 1
    ring
  · have h := (Complex.abs_im_le_norm _).trans he
    rw [Complex.sub_im, Complex.mul_im, Complex.re_ofReal_mul, Complex.im_ofReal_mul, Complex.exp_ofReal_mul_I_re, Complex.exp_ofReal_mul_I_im] at h
    have hv : (vec T (init g e) (frac + 1)).im = (s.y.toInt : ℝ) := by rw [ey]; rfl
    rw [hv] at h
    rw [← gain_lengthening]
    refine le_trans (le_of_eq ?_) h
    congr 1
    ring
  · rw [ez]
    exact hzt

end TinyGarble.Proof.Hdl.Cordic
