import Verif.Stats.Props
import Verif.Py.Normal
import Mathlib.MeasureTheory.Integral.IntervalIntegral.FundThmCalculus
import Mathlib.Analysis.Calculus.Deriv.MeanValue
import Mathlib.Analysis.SpecialFunctions.ExpDeriv
import Mathlib.Analysis.SpecialFunctions.Sqrt

/-!
# The tail of the normal distribution

The density is the derivative of `Phi`; Gordon's inequality; the ratio `Phi (-√(c² + x²)) / Phi (-x)` increases with `x ≥ 0`.
-/

namespace Verif.Stats
open Verif.Py F MeasureTheory ProbabilityTheory Set Filter Topology

/-- The density of the standard normal distribution. -/
noncomputable def dens (x : ℝ) : ℝ := gaussianPDFReal 0 1 x

theorem dens_eq (x : ℝ) : dens x = (√(2 * Real.pi))⁻¹ * Real.exp (-(x ^ 2 / 2)) := by
  simp [dens, gaussianPDFReal, neg_div]

theorem dens_pos (x : ℝ) : 0 < dens x := gaussianPDFReal_pos 0 1 x (by simp)

theorem dens_neg (x : ℝ) : dens (-x) = dens x := by rw [dens_eq, dens_eq, neg_sq]

theorem dens_continuous : Continuous dens := by
  have : dens = fun x => (√(2 * Real.pi))⁻¹ * Real.exp (-(x ^ 2 / 2)) := funext dens_eq
  rw [this]
  fun_prop

theorem dens_deriv (x : ℝ) : HasDerivAt dens (-x * dens x) x := by
  have h : HasDerivAt (fun x : ℝ => -(x ^ 2 / 2)) (-x) x := by
    refine HasDerivAt.congr_deriv ((hasDerivAt_pow 2 x).div_const 2).neg ?_
    norm_num
  have := h.exp.const_mul (√(2 * Real.pi))⁻¹
  have e : dens = fun x => (√(2 * Real.pi))⁻¹ * Real.exp (-(x ^ 2 / 2)) := funext dens_eq
  rw [e]
  exact this.congr_deriv (by ring)

theorem Phi_deriv (x : ℝ) : HasDerivAt Phi (dens x) x := by
  have h1 : ∀ y, Phi y = ∫ t in Iic y, dens t := by
    intro y
    rw [Phi_eq, Measure.real, gaussianReal_apply_eq_integral 0 (by simp), ENNReal.toReal_ofReal]
    · rfl
    · exact setIntegral_nonneg measurableSet_Iic fun t _ => (dens_pos t).le
  have hi : Integrable dens := integrable_gaussianPDFReal 0 1
  have h2 : ∀ y, Phi y = (∫ t in (0 : ℝ)..y, dens t) + Phi 0 := by
    intro y
    rw [← intervalIntegral.integral_Iic_sub_Iic hi.integrableOn hi.integrableOn, h1 y, h1 0]
    ring
  have h3 := (intervalIntegral.integral_hasDerivAt_right (hi.intervalIntegrable (a := 0) (b := x)) (dens_continuous.stronglyMeasurableAtFilter _ _) dens_continuous.continuousAt).add_const (Phi 0)
  have : Phi = fun y => (∫ t in (0 : ℝ)..y, dens t) + Phi 0 := funext h2
  rw [this]
  exact h3

theorem tail_deriv (x : ℝ) : HasDerivAt (fun y => Phi (-y)) (-dens x) x := by
  have := (Phi_deriv (-x)).comp x (hasDerivAt_neg x)
  rw [dens_neg] at this
  exact this.congr_deriv (by ring)

/-- Gordon's inequality. -/
theorem gordon (x : ℝ) : x * dens x < (1 + x ^ 2) * Phi (-x) := by
  have hd : ∀ y : ℝ, HasDerivAt (fun y => Phi (-y) - y * dens y / (1 + y ^ 2)) (-2 * dens y / (1 + y ^ 2) ^ 2) y := by
    intro y
    have hne : (1 + y ^ 2 : ℝ) ≠ 0 := by positivity
    have h1 := (hasDerivAt_id y).mul (dens_deriv y)
    have h2 : HasDerivAt (fun y : ℝ => 1 + y ^ 2) (2 * y) y := by simpa using (hasDerivAt_pow 2 y).const_add 1
    refine HasDerivAt.congr_deriv ((tail_deriv y).sub (h1.div h2 hne)) ?_
    simp only [id, Pi.mul_apply]
    field_simp
    ring
  have hanti : StrictAnti fun y => Phi (-y) - y * dens y / (1 + y ^ 2) := by
    refine strictAnti_of_deriv_neg fun y => ?_
    rw [(hd y).deriv]
    have := dens_pos y
    exact div_neg_of_neg_of_pos (by linarith) (by positivity)
  have hlim : Tendsto (fun y => Phi (-y) - y * dens y / (1 + y ^ 2)) atTop (𝓝 (0 - 0)) := by
    refine (Phi_tendsto_bot.comp tendsto_neg_atTop_atBot).sub ?_
    have hC : Tendsto (fun y : ℝ => dens 0 * y⁻¹) atTop (𝓝 (dens 0 * 0)) := tendsto_inv_atTop_zero.const_mul _
    rw [mul_zero] at hC
    refine tendsto_of_tendsto_of_tendsto_of_le_of_le' tendsto_const_nhds hC ?_ ?_
    · filter_upwards [eventually_gt_atTop 0] with y hy
      have := dens_pos y
      positivity
    · filter_upwards [eventually_gt_atTop 0] with y hy
      have h0 : dens y ≤ dens 0 := by
        rw [dens_eq, dens_eq]
        refine mul_le_mul_of_nonneg_left (Real.exp_le_exp.mpr ?_) (by positivity)
        nlinarith [sq_nonneg y]
      have := dens_pos y
      rw [div_le_iff₀ (by positivity), ← div_eq_mul_inv, div_mul_eq_mul_div, le_div_iff₀ hy]
      nlinarith [mul_nonneg (sub_nonneg.mpr h0) (sq_nonneg y), dens_pos 0]
  rw [sub_zero] at hlim
  have := hanti.antitone.le_of_tendsto hlim (x + 1)
  have h3 := hanti (lt_add_one x)
  dsimp only at this h3
  have h2 : x * dens x / (1 + x ^ 2) < Phi (-x) := by linarith
  rw [div_lt_iff₀ (by positivity)] at h2
  linarith

theorem mills_mono {x y : ℝ} (hxy : x < y) : x * Phi (-x) * Real.exp (x ^ 2 / 2) < y * Phi (-y) * Real.exp (y ^ 2 / 2) := by
  have hd : ∀ y : ℝ, HasDerivAt (fun y => y * Phi (-y) * Real.exp (y ^ 2 / 2)) (((1 + y ^ 2) * Phi (-y) - y * dens y) * Real.exp (y ^ 2 / 2)) y := by
    intro y
    have h2 : HasDerivAt (fun y : ℝ => y ^ 2 / 2) y y := by simpa using (hasDerivAt_pow 2 y).div_const 2
    refine HasDerivAt.congr_deriv (((hasDerivAt_id y).mul (tail_deriv y)).mul h2.exp) ?_
    simp only [id, Pi.mul_apply]
    ring
  refine strictMono_of_deriv_pos (f := fun y => y * Phi (-y) * Real.exp (y ^ 2 / 2)) (fun y => ?_) hxy
  rw [(hd y).deriv]
  exact mul_pos (by linarith [gordon y]) (Real.exp_pos _)

theorem tail_ratio {c : ℝ} (hc : 0 < c) : StrictMonoOn (fun x => Phi (-√(c + x ^ 2)) / Phi (-x)) (Ici 0) := by
  have hd : ∀ x : ℝ, HasDerivAt (fun x => Phi (-√(c + x ^ 2)) / Phi (-x))
      ((-dens (√(c + x ^ 2)) * (x / √(c + x ^ 2)) * Phi (-x) + Phi (-√(c + x ^ 2)) * dens x) / Phi (-x) ^ 2) x := by
    intro x
    have hp : 0 < c + x ^ 2 := by positivity
    have h1 : HasDerivAt (fun x : ℝ => c + x ^ 2) (2 * x) x := by simpa using (hasDerivAt_pow 2 x).const_add c
    have h2 := h1.sqrt hp.ne'
    have h3 := (tail_deriv (√(c + x ^ 2))).comp x h2
    refine HasDerivAt.congr_deriv (h3.div (tail_deriv x) (Phi_pos _).ne') ?_
    have : √(c + x ^ 2) ≠ 0 := (Real.sqrt_pos.mpr hp).ne'
    have := (Phi_pos (-x)).ne'
    simp only [Function.comp]
    field_simp
    ring
  refine strictMonoOn_of_deriv_pos (convex_Ici 0) (fun x _ => (hd x).continuousAt.continuousWithinAt) fun x hx => ?_
  rw [interior_Ici] at hx
  have hx0 : (0 : ℝ) < x := hx
  rw [(hd x).deriv]
  have hP := Phi_pos (-x)
  refine div_pos ?_ (by positivity)
  have hp : 0 < c + x ^ 2 := by positivity
  have hA : 0 < √(c + x ^ 2) := Real.sqrt_pos.mpr hp
  have hle : x < √(c + x ^ 2) := Real.lt_sqrt_of_sq_lt (by linarith)
  have hm := mills_mono hle
  have hs := Real.sq_sqrt hp.le
  rw [dens_eq, dens_eq, hs]
  rw [hs] at hm
  have k : ∀ a b : ℝ, Real.exp (-(a / 2)) = Real.exp (-((a + b) / 2)) * Real.exp (b / 2) := by
    intro a b
    rw [← Real.exp_add]
    congr 1
    ring
  rw [k (c + x ^ 2) (x ^ 2), k (x ^ 2) (c + x ^ 2), _root_.add_comm (x ^ 2) (c + x ^ 2)]
  have hq : 0 < (√(2 * Real.pi))⁻¹ * Real.exp (-((c + x ^ 2 + x ^ 2) / 2)) := by positivity
  have : -((√(2 * Real.pi))⁻¹ * (Real.exp (-((c + x ^ 2 + x ^ 2) / 2)) * Real.exp (x ^ 2 / 2))) * (x / √(c + x ^ 2)) * Phi (-x) +
      Phi (-√(c + x ^ 2)) * ((√(2 * Real.pi))⁻¹ * (Real.exp (-((c + x ^ 2 + x ^ 2) / 2)) * Real.exp ((c + x ^ 2) / 2))) =
      (√(2 * Real.pi))⁻¹ * Real.exp (-((c + x ^ 2 + x ^ 2) / 2)) / √(c + x ^ 2) *
        (√(c + x ^ 2) * Phi (-√(c + x ^ 2)) * Real.exp ((c + x ^ 2) / 2) - x * Phi (-x) * Real.exp (x ^ 2 / 2)) := by
    field_simp
    ring
  rw [this]
  exact mul_pos (div_pos hq hA) (by linarith)

/-- The ratio of the tails in equation (66), above the switch, decreases with the sensitivity `a = √qA`. -/
theorem ratio_above {q a a' : ℝ} (ha : 0 < a) (haa : a < a') (hq : a' ^ 2 ≤ q) :
    Phi (-((q - a' ^ 2) / (2 * a')) - a') / Phi (-((q - a' ^ 2) / (2 * a'))) < Phi (-((q - a ^ 2) / (2 * a)) - a) / Phi (-((q - a ^ 2) / (2 * a))) := by
  have ha' : 0 < a' := ha.trans haa
  have hq0 : 0 < q := lt_of_lt_of_le (by positivity) hq
  have key : ∀ a : ℝ, 0 < a → a ^ 2 ≤ q → -((q - a ^ 2) / (2 * a)) - a = -√(q + ((q - a ^ 2) / (2 * a)) ^ 2) := by
    intro a ha hq
    have : q + ((q - a ^ 2) / (2 * a)) ^ 2 = ((q + a ^ 2) / (2 * a)) ^ 2 := by
      field_simp
      ring
    rw [this, Real.sqrt_sq (by positivity)]
    field_simp
    ring
  have haq : a ^ 2 ≤ q := le_trans (by gcongr) hq
  rw [key a' ha' hq, key a ha haq]
  refine tail_ratio hq0 (mem_Ici.mpr (div_nonneg (by linarith) (by linarith))) (mem_Ici.mpr (div_nonneg (by linarith) (by linarith))) ?_
  rw [div_lt_div_iff₀ (by linarith) (by linarith)]
  nlinarith [mul_pos hq0 (sub_pos.mpr haa), mul_pos (mul_pos ha ha') (sub_pos.mpr haa)]

end Verif.Stats
