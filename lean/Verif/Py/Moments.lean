import Mathlib.Probability.Distributions.Gaussian.Real
import Mathlib.MeasureTheory.Integral.Gamma

/-!
# Moments of the normal distribution
-/

namespace Verif.Py
open MeasureTheory ProbabilityTheory Set Real

/-- `∫₀^∞ x^k exp(-x²/(2s²)) dx`. -/
noncomputable def half (k : ℕ) (s : ℝ) : ℝ := ∫ x in Ioi (0 : ℝ), x ^ k * exp (-x ^ 2 / (2 * s ^ 2))

theorem half_eq (k : ℕ) {s : ℝ} (hs : 0 < s) :
    half k s = (1 / (2 * s ^ 2)) ^ (-((k : ℝ) + 1) / 2) * (1 / 2) * Gamma (((k : ℝ) + 1) / 2) := by
  have hb : 0 < 1 / (2 * s ^ 2) := by positivity
  rw [← integral_rpow_mul_exp_neg_mul_rpow (by norm_num : (0 : ℝ) < 2) (lt_of_lt_of_le (by norm_num) (Nat.cast_nonneg k) : (-1 : ℝ) < k) hb]
  unfold half
  apply setIntegral_congr_fun measurableSet_Ioi
  intro x hx
  simp only [rpow_natCast, rpow_ofNat]
  congr 2
  ring

theorem half_succ (k : ℕ) {s : ℝ} (hs : 0 < s) : half (k + 2) s = (k + 1) * s ^ 2 * half k s := by
  have hb : 0 < 1 / (2 * s ^ 2) := by positivity
  have hk : ((k : ℝ) + 1) / 2 ≠ 0 := by positivity
  rw [half_eq _ hs, half_eq _ hs]
  push_cast
  rw [show ((k : ℝ) + 2 + 1) / 2 = ((k : ℝ) + 1) / 2 + 1 by ring, Gamma_add_one hk,
    show -((k : ℝ) + 2 + 1) / 2 = -((k : ℝ) + 1) / 2 - 1 by ring, rpow_sub_one hb.ne']
  field_simp

theorem half_zero {s : ℝ} (hs : 0 < s) : half 0 s = s * √(2 * π) / 2 := by
  have h := integral_gaussian_Ioi (1 / (2 * s ^ 2))
  unfold half
  rw [show π / (1 / (2 * s ^ 2)) = s ^ 2 * (2 * π) by field_simp, Real.sqrt_mul (sq_nonneg s), Real.sqrt_sq hs.le] at h
  rw [← h]
  apply setIntegral_congr_fun measurableSet_Ioi
  intro x _
  simp only [pow_zero, one_mul]
  congr 1
  ring

theorem half_one {s : ℝ} (hs : 0 < s) : half 1 s = s ^ 2 := by
  rw [half_eq _ hs]
  norm_num
  rw [rpow_neg_one]
  field_simp

theorem half_integrable (k : ℕ) {s : ℝ} (hs : 0 < s) :
    IntegrableOn (fun x : ℝ => x ^ k * exp (-x ^ 2 / (2 * s ^ 2))) (Ioi 0) := by
  have hb : 0 < 1 / (2 * s ^ 2) := by positivity
  have h := integrableOn_rpow_mul_exp_neg_mul_sq hb (s := (k : ℝ)) (lt_of_lt_of_le (by norm_num) (Nat.cast_nonneg k))
  refine h.congr_fun (fun x _ => ?_) measurableSet_Ioi
  simp only [rpow_natCast]
  congr 2
  ring

/-- Moments of the standard normal distribution. -/
noncomputable def moment (k : ℕ) : ℝ := ∫ x, x ^ k ∂gaussianReal 0 1

theorem moment_eq (k : ℕ) : moment k = ∫ x : ℝ, (√(2 * π))⁻¹ * (x ^ k * exp (-x ^ 2 / 2)) := by
  unfold moment
  rw [integral_gaussianReal_eq_integral_smul one_ne_zero]
  apply integral_congr_ae
  filter_upwards with x
  simp only [gaussianPDFReal, smul_eq_mul, NNReal.coe_one, mul_one, sub_zero]
  ring

theorem moment_odd (k : ℕ) (hk : Odd k) : moment k = 0 := by
  rw [moment_eq]
  have h := integral_neg_eq_self (fun x : ℝ => (√(2 * π))⁻¹ * (x ^ k * exp (-x ^ 2 / 2))) volume
  have h2 : ∀ x : ℝ, (√(2 * π))⁻¹ * ((-x) ^ k * exp (-(-x) ^ 2 / 2)) = -((√(2 * π))⁻¹ * (x ^ k * exp (-x ^ 2 / 2))) := by
    intro x
    rw [hk.neg_pow, neg_sq]
    ring
  simp only [h2] at h
  rw [integral_neg] at h
  linarith

theorem moment_even (k : ℕ) (hk : Even k) : moment k = (√(2 * π))⁻¹ * (2 * half k 1) := by
  rw [moment_eq, integral_const_mul]
  congr 1
  unfold half
  rw [← integral_comp_abs (f := fun x : ℝ => x ^ k * exp (-x ^ 2 / (2 * 1 ^ 2)))]
  apply integral_congr_ae
  filter_upwards with x
  simp only [hk.pow_abs, sq_abs]
  norm_num

theorem moment_zero : moment 0 = 1 := by simp [moment]

theorem moment_two_add (k : ℕ) (hk : Even k) : moment (k + 2) = (k + 1) * moment k := by
  rw [moment_even _ (by simpa [parity_simps] using hk), moment_even _ hk, half_succ k one_pos]
  ring

theorem moment_one : moment 1 = 0 := moment_odd 1 (by decide)
theorem moment_two : moment 2 = 1 := by rw [moment_two_add 0 (by decide), moment_zero]; norm_num
theorem moment_three : moment 3 = 0 := moment_odd 3 (by decide)
theorem moment_four : moment 4 = 3 := by rw [moment_two_add 2 (by decide), moment_two]; norm_num
theorem moment_five : moment 5 = 0 := moment_odd 5 (by decide)
theorem moment_six : moment 6 = 15 := by rw [moment_two_add 4 (by decide), moment_four]; norm_num

theorem integrable_pow (k : ℕ) : Integrable (fun x : ℝ => x ^ k) (gaussianReal 0 1) := by
  have h := (memLp_id_gaussianReal (μ := 0) (v := 1) (k : NNReal)).integrable_norm_pow'
  have h2 : Integrable (fun x : ℝ => ‖x‖ ^ k) (gaussianReal 0 1) := by simpa using h
  refine (integrable_norm_iff (by fun_prop)).mp ?_
  simpa using h2

/-- The mean of a polynomial of degree 6. -/
theorem integral_poly (c0 c1 c2 c3 c4 c5 c6 : ℝ) :
    ∫ x, (c0 + c1 * x + c2 * x ^ 2 + c3 * x ^ 3 + c4 * x ^ 4 + c5 * x ^ 5 + c6 * x ^ 6) ∂gaussianReal 0 1 =
      c0 + c2 + 3 * c4 + 15 * c6 := by
  have h : ∀ c : ℕ → ℝ, ∫ x, (∑ k ∈ Finset.range 7, c k * x ^ k) ∂gaussianReal 0 1 = ∑ k ∈ Finset.range 7, c k * moment k := by
    intro c
    rw [integral_finsetSum _ fun k _ => (integrable_pow k).const_mul (c k)]
    exact Finset.sum_congr rfl fun k _ => integral_const_mul _ _
  have := h fun k => [c0, c1, c2, c3, c4, c5, c6].getD k 0
  simp only [Finset.sum_range_succ, Finset.sum_range_zero, moment_zero, moment_one, moment_two, moment_three, moment_four,
    moment_five, moment_six] at this
  simp only [List.getD_cons_zero, List.getD_cons_succ, pow_zero, pow_one, mul_one, zero_add] at this
  rw [this]
  ring

end Verif.Py
