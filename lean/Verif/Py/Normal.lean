import Verif.Py.Float

/-! # Facts about the standard normal cumulative distribution function -/

namespace Verif.Py.F
open MeasureTheory ProbabilityTheory Set
open scoped ENNReal

theorem Phi_eq (x : ℝ) : Phi x = (gaussianReal 0 1).real (Iic x) := by
  rw [Phi, cdf_eq_real]

theorem Phi_mono : Monotone Phi := monotone_cdf _

theorem Phi_le_one (x : ℝ) : Phi x ≤ 1 := cdf_le_one _ _

theorem gauss_pos_of_volume_pos {s : Set ℝ} (h : 0 < volume s) : 0 < gaussianReal 0 1 s := by
  rw [pos_iff_ne_zero]
  intro h0
  have := gaussianReal_absolutelyContinuous' 0 (v := 1) (by simp) h0
  rw [this] at h; exact lt_irrefl _ h

theorem Phi_pos (x : ℝ) : 0 < Phi x := by
  rw [Phi_eq, Measure.real]
  refine ENNReal.toReal_pos (ne_of_gt (gauss_pos_of_volume_pos ?_)) (measure_ne_top _ _)
  simp

theorem Phi_nonneg (x : ℝ) : 0 ≤ Phi x := (Phi_pos x).le

theorem Phi_strictMono : StrictMono Phi := by
  intro a b hab
  have h : 0 < (gaussianReal 0 1).real (Ioc a b) := by
    rw [Measure.real]
    refine ENNReal.toReal_pos (ne_of_gt (gauss_pos_of_volume_pos ?_)) (measure_ne_top _ _)
    simp [hab]
  have h2 : (gaussianReal 0 1).real (Iic b) = (gaussianReal 0 1).real (Iic a) + (gaussianReal 0 1).real (Ioc a b) := by
    rw [← Iic_union_Ioc_eq_Iic hab.le, measureReal_union _ measurableSet_Ioc]
    rw [Set.disjoint_left]; intro x hx hx'; exact absurd hx'.1 (not_lt.2 hx)
  rw [Phi_eq, Phi_eq, h2]; linarith

theorem Phi_lt_one (x : ℝ) : Phi x < 1 :=
  lt_of_lt_of_le (Phi_strictMono (lt_add_one x)) (Phi_le_one _)

/-- Shifted normal: `Phi s` as the mass of `(-inf, 0]`. -/
theorem gauss_shift (s : ℝ) (A : Set ℝ) (hA : MeasurableSet A) :
    gaussianReal (-s) 1 A = gaussianReal 0 1 ((fun x => x - s) ⁻¹' A) := by
  have := gaussianReal_map_sub_const (μ := 0) (v := 1) s
  rw [zero_sub] at this
  rw [← this, Measure.map_apply (by fun_prop) hA]

theorem Phi_shift (s : ℝ) : ENNReal.ofReal (Phi s) = gaussianReal (-s) 1 (Iic 0) := by
  rw [gauss_shift _ _ measurableSet_Iic, Phi_eq, ofReal_measureReal]
  congr 1
  ext x; simp

theorem Phi_shift_add (s d : ℝ) (hd : 0 ≤ d) :
    ENNReal.ofReal (Phi (s + d)) = gaussianReal (-s) 1 (Iic 0) + gaussianReal (-s) 1 (Ioc 0 d) := by
  rw [← measure_union _ measurableSet_Ioc, Iic_union_Ioc_eq_Iic hd, gauss_shift _ _ measurableSet_Iic, Phi_eq,
    ofReal_measureReal]
  · congr 1
    ext x; simp [add_comm]
  · rw [Set.disjoint_left]; intro x hx hx'; exact absurd hx'.1 (not_lt.2 hx)

theorem pdf_exchange {s t u w : ℝ} (hst : s ≤ t) (hu : u ≤ 0) (hw : 0 ≤ w) :
    gaussianPDF (-s) 1 u * gaussianPDF (-t) 1 w ≤ gaussianPDF (-t) 1 u * gaussianPDF (-s) 1 w := by
  unfold gaussianPDF
  rw [← ENNReal.ofReal_mul (gaussianPDFReal_nonneg _ _ _), ← ENNReal.ofReal_mul (gaussianPDFReal_nonneg _ _ _)]
  apply ENNReal.ofReal_le_ofReal
  simp only [gaussianPDFReal]
  have hc : 0 ≤ (Real.sqrt (2 * Real.pi * ((1 : NNReal) : ℝ)))⁻¹ := by positivity
  have key : Real.exp (-(u - -s) ^ 2 / (2 * ((1 : NNReal) : ℝ))) * Real.exp (-(w - -t) ^ 2 / (2 * ((1 : NNReal) : ℝ))) ≤
      Real.exp (-(u - -t) ^ 2 / (2 * ((1 : NNReal) : ℝ))) * Real.exp (-(w - -s) ^ 2 / (2 * ((1 : NNReal) : ℝ))) := by
    rw [← Real.exp_add, ← Real.exp_add]
    apply Real.exp_le_exp.2
    simp only [NNReal.coe_one]
    nlinarith [mul_nonneg (sub_nonneg.2 hst) (sub_nonneg.2 (le_trans hu hw))]
  calc _ = (Real.sqrt (2 * Real.pi * ((1 : NNReal) : ℝ)))⁻¹ * (Real.sqrt (2 * Real.pi * ((1 : NNReal) : ℝ)))⁻¹ *
        (Real.exp (-(u - -s) ^ 2 / (2 * ((1 : NNReal) : ℝ))) * Real.exp (-(w - -t) ^ 2 / (2 * ((1 : NNReal) : ℝ)))) := by ring
    _ ≤ (Real.sqrt (2 * Real.pi * ((1 : NNReal) : ℝ)))⁻¹ * (Real.sqrt (2 * Real.pi * ((1 : NNReal) : ℝ)))⁻¹ *
        (Real.exp (-(u - -t) ^ 2 / (2 * ((1 : NNReal) : ℝ))) * Real.exp (-(w - -s) ^ 2 / (2 * ((1 : NNReal) : ℝ)))) :=
        mul_le_mul_of_nonneg_left key (mul_nonneg hc hc)
    _ = _ := by ring

theorem mass_exchange {s t : ℝ} (hst : s ≤ t) (d : ℝ) :
    gaussianReal (-s) 1 (Iic 0) * gaussianReal (-t) 1 (Ioc 0 d) ≤
      gaussianReal (-t) 1 (Iic 0) * gaussianReal (-s) 1 (Ioc 0 d) := by
  have h1 : (1 : NNReal) ≠ 0 := by simp
  rw [gaussianReal_apply _ h1, gaussianReal_apply _ h1, gaussianReal_apply _ h1, gaussianReal_apply _ h1]
  rw [← lintegral_mul_const _ (measurable_gaussianPDF _ _), ← lintegral_mul_const _ (measurable_gaussianPDF _ _)]
  refine setLIntegral_mono' measurableSet_Iic ?_
  intro u hu
  rw [← lintegral_const_mul _ (measurable_gaussianPDF _ _), ← lintegral_const_mul _ (measurable_gaussianPDF _ _)]
  refine setLIntegral_mono' measurableSet_Ioc ?_
  intro w hw
  exact pdf_exchange hst hu hw.1.le

/-- Log-concavity of the normal distribution function in product form. -/
theorem Phi_exchange {s t d : ℝ} (hst : s ≤ t) (hd : 0 ≤ d) : Phi s * Phi (t + d) ≤ Phi (s + d) * Phi t := by
  have h : ENNReal.ofReal (Phi s) * ENNReal.ofReal (Phi (t + d)) ≤ ENNReal.ofReal (Phi (s + d)) * ENNReal.ofReal (Phi t) := by
    rw [Phi_shift_add s d hd, Phi_shift_add t d hd, Phi_shift s, Phi_shift t, mul_add, add_mul,
      mul_comm (gaussianReal (-s) 1 (Iic 0)) (gaussianReal (-t) 1 (Iic 0))]
    gcongr ?_ + ?_
    · rw [mul_comm]
    · rw [mul_comm (gaussianReal (-s) 1 (Ioc 0 d))]
      exact mass_exchange hst d
  rw [← ENNReal.ofReal_mul (Phi_nonneg _), ← ENNReal.ofReal_mul (Phi_nonneg _)] at h
  exact (ENNReal.ofReal_le_ofReal_iff (mul_nonneg (Phi_nonneg _) (Phi_nonneg _))).1 h

/-- `Phi (x - a) / Phi x` does not decrease with `x` for `a ≥ 0`. -/
theorem Phi_ratio_mono {a : ℝ} (ha : 0 ≤ a) {x y : ℝ} (hxy : x ≤ y) :
    Phi (x - a) / Phi x ≤ Phi (y - a) / Phi y := by
  rw [div_le_div_iff₀ (Phi_pos x) (Phi_pos y)]
  have := Phi_exchange (s := x - a) (t := x) (d := y - x) (by linarith) (by linarith)
  rwa [show x + (y - x) = y by ring, show x - a + (y - x) = y - a by ring] at this

/-- Symmetry of the normal distribution. -/
theorem Phi_neg (x : ℝ) : Phi (-x) = 1 - Phi x := by
  have h1 : (1 : NNReal) ≠ 0 := by simp
  have hm : (gaussianReal 0 1).map (fun x : ℝ => -x) = gaussianReal 0 1 := by
    rw [gaussianReal_map_neg, neg_zero]
  have hIci : (fun x : ℝ => -x) ⁻¹' Iic (-x) = Ici x := by
    ext y; simp
  have e1 : Phi (-x) = (gaussianReal 0 1).real (Ici x) := by
    rw [Phi_eq, measureReal_def, measureReal_def, ← hIci]
    conv_lhs => rw [← hm]
    rw [Measure.map_apply (by fun_prop) measurableSet_Iic]
  have := nullSingletonClass_gaussianReal (μ := 0) h1
  have e2 : (gaussianReal 0 1).real (Ici x) = (gaussianReal 0 1).real (Ioi x) := by
    rw [measureReal_def, measureReal_def, measure_congr Ioi_ae_eq_Ici]
  have e3 : (gaussianReal 0 1).real (Ioi x) = 1 - (gaussianReal 0 1).real (Iic x) := by
    rw [← compl_Iic, probReal_compl_eq_one_sub measurableSet_Iic]
  rw [e1, e2, e3, Phi_eq]

theorem Phi_zero : Phi 0 = 1 / 2 := by
  have := Phi_neg 0
  rw [neg_zero] at this
  linarith

theorem Phi_tendsto_bot : Filter.Tendsto Phi Filter.atBot (nhds 0) :=
  tendsto_cdf_atBot (gaussianReal 0 1)

theorem Phi_tendsto_top : Filter.Tendsto Phi Filter.atTop (nhds 1) :=
  tendsto_cdf_atTop (gaussianReal 0 1)

/-- Gaussian decay of the ratio. -/
theorem Phi_ratio_exp {a : ℝ} (ha : 0 ≤ a) (x : ℝ) : Phi (x - a) ≤ Real.exp (a * x - a ^ 2 / 2) * Phi x := by
  have h1 : (1 : NNReal) ≠ 0 := by simp
  have h : ENNReal.ofReal (Phi (x - a)) ≤ ENNReal.ofReal (Real.exp (a * x - a ^ 2 / 2)) * ENNReal.ofReal (Phi x) := by
    rw [Phi_shift, Phi_shift, gaussianReal_apply _ h1, gaussianReal_apply _ h1,
      ← lintegral_const_mul _ (measurable_gaussianPDF _ _)]
    refine setLIntegral_mono' measurableSet_Iic ?_
    intro u hu
    have hu : u ≤ 0 := hu
    unfold gaussianPDF
    rw [← ENNReal.ofReal_mul (Real.exp_nonneg _)]
    apply ENNReal.ofReal_le_ofReal
    simp only [gaussianPDFReal]
    have hc : 0 ≤ (Real.sqrt (2 * Real.pi * ((1 : NNReal) : ℝ)))⁻¹ := by positivity
    have key : Real.exp (-(u - -(x - a)) ^ 2 / (2 * ((1 : NNReal) : ℝ))) ≤
        Real.exp (a * x - a ^ 2 / 2) * Real.exp (-(u - -x) ^ 2 / (2 * ((1 : NNReal) : ℝ))) := by
      rw [← Real.exp_add]
      apply Real.exp_le_exp.2
      simp only [NNReal.coe_one]
      nlinarith [mul_nonneg ha (neg_nonneg.2 hu)]
    calc _ ≤ (Real.sqrt (2 * Real.pi * ((1 : NNReal) : ℝ)))⁻¹ *
          (Real.exp (a * x - a ^ 2 / 2) * Real.exp (-(u - -x) ^ 2 / (2 * ((1 : NNReal) : ℝ)))) :=
          mul_le_mul_of_nonneg_left key hc
      _ = _ := by ring
  rw [← ENNReal.ofReal_mul (Real.exp_nonneg _)] at h
  exact (ENNReal.ofReal_le_ofReal_iff (mul_nonneg (Real.exp_nonneg _) (Phi_nonneg _))).1 h

/-- The ratio `Phi (x - a) / Phi x` is small for small `x`. -/
theorem Phi_ratio_small {a ε : ℝ} (ha : 0 < a) (hε : 0 < ε) : ∃ X, ∀ x ≤ X, Phi (x - a) / Phi x ≤ ε := by
  refine ⟨Real.log ε / a, fun x hx => ?_⟩
  rw [div_le_iff₀ (Phi_pos x)]
  refine (Phi_ratio_exp ha.le x).trans (mul_le_mul_of_nonneg_right ?_ (Phi_nonneg x))
  rw [← Real.le_log_iff_exp_le hε]
  rw [le_div_iff₀ ha] at hx
  nlinarith [sq_nonneg a]

/-- The normal distribution function is continuous. -/
theorem Phi_continuous : Continuous Phi := by
  have h1 : (1 : NNReal) ≠ 0 := by simp
  have := nullSingletonClass_gaussianReal (μ := 0) h1
  rw [continuous_iff_continuousAt]
  intro x
  have hr : ContinuousWithinAt Phi (Ici x) x := (ProbabilityTheory.cdf (gaussianReal 0 1)).right_continuous x
  have hneg : Phi = fun y => 1 - Phi (-y) := by
    funext y
    have := Phi_neg (-y)
    rw [neg_neg] at this
    linarith [Phi_neg y]
  have hl : ContinuousWithinAt Phi (Iic x) x := by
    rw [hneg]
    refine ContinuousWithinAt.sub continuousWithinAt_const ?_
    have hr' : ContinuousWithinAt Phi (Ici (-x)) (-x) :=
      (ProbabilityTheory.cdf (gaussianReal 0 1)).right_continuous (-x)
    refine hr'.comp (t := Ici (-x)) continuous_neg.continuousWithinAt ?_
    intro y hy
    exact neg_le_neg (show y ≤ x from hy)
  have := hl.union hr
  rwa [Iic_union_Ici, continuousWithinAt_univ] at this

end Verif.Py.F
