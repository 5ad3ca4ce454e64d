import Verif.Py.Normal

/-! # The ratio of the normal distribution function and a shifted one is strictly monotonic -/

namespace Verif.Py.F
open MeasureTheory ProbabilityTheory Set
open scoped ENNReal

/-- The mass of an interval under the shifted normal distribution. -/
theorem Phi_mass {a : ℝ} (ha : 0 ≤ a) {s t : ℝ} (hst : s ≤ t) : Real.exp (a * s - a ^ 2 / 2) * (Phi t - Phi s) ≤ Phi (t - a) - Phi (s - a) := by
  have h1 : (1 : NNReal) ≠ 0 := by simp
  have mass : ∀ r, ENNReal.ofReal (Phi (r + (t - s)) - Phi r) = gaussianReal (-r) 1 (Ioc 0 (t - s)) := by
    intro r
    have h := Phi_shift_add r (t - s) (by linarith)
    rw [← Phi_shift] at h
    rw [ENNReal.ofReal_sub _ (Phi_nonneg _), h]
    exact ENNReal.add_sub_cancel_left ENNReal.ofReal_ne_top
  have h : ENNReal.ofReal (Real.exp (a * s - a ^ 2 / 2)) * ENNReal.ofReal (Phi (s + (t - s)) - Phi s) ≤ ENNReal.ofReal (Phi (s - a + (t - s)) - Phi (s - a)) := by
    rw [mass, mass, gaussianReal_apply _ h1, gaussianReal_apply _ h1, ← lintegral_const_mul _ (measurable_gaussianPDF _ _)]
    refine setLIntegral_mono' measurableSet_Ioc ?_
    intro u hu
    have hu : 0 ≤ u := hu.1.le
    unfold gaussianPDF
    rw [← ENNReal.ofReal_mul (Real.exp_nonneg _)]
    apply ENNReal.ofReal_le_ofReal
    simp only [gaussianPDFReal]
    have hc : 0 ≤ (Real.sqrt (2 * Real.pi * ((1 : NNReal) : ℝ)))⁻¹ := by positivity
    have key : Real.exp (a * s - a ^ 2 / 2) * Real.exp (-(u - -s) ^ 2 / (2 * ((1 : NNReal) : ℝ))) ≤ Real.exp (-(u - -(s - a)) ^ 2 / (2 * ((1 : NNReal) : ℝ))) := by
      rw [← Real.exp_add]
      apply Real.exp_le_exp.2
      simp only [NNReal.coe_one]
      nlinarith [mul_nonneg ha hu]
    calc _ = (Real.sqrt (2 * Real.pi * ((1 : NNReal) : ℝ)))⁻¹ * (Real.exp (a * s - a ^ 2 / 2) * Real.exp (-(u - -s) ^ 2 / (2 * ((1 : NNReal) : ℝ)))) := by ring
      _ ≤ _ := mul_le_mul_of_nonneg_left key hc
  rw [show s + (t - s) = t by ring, show s - a + (t - s) = t - a by ring, ← ENNReal.ofReal_mul (Real.exp_nonneg _)] at h
  exact (ENNReal.ofReal_le_ofReal_iff (sub_nonneg.mpr (Phi_mono (by linarith)))).1 h

/-- `Phi (x - a) / Phi x` grows with `x` for `a > 0`. -/
theorem Phi_ratio_strict {a : ℝ} (ha : 0 < a) {x y : ℝ} (hxy : x < y) : Phi (x - a) / Phi x < Phi (y - a) / Phi y := by
  obtain ⟨z, h1, h2⟩ := exists_between hxy
  have m := Phi_mass ha.le h2.le
  have r1 : Phi (x - a) / Phi x ≤ Phi (z - a) / Phi z := Phi_ratio_mono ha.le h1.le
  have r2 : Phi (x - a) / Phi x ≤ Real.exp (a * x - a ^ 2 / 2) := by
    rw [div_le_iff₀ (Phi_pos x)]
    exact Phi_ratio_exp ha.le x
  have r3 : Real.exp (a * x - a ^ 2 / 2) < Real.exp (a * z - a ^ 2 / 2) := Real.exp_lt_exp.mpr (by nlinarith)
  have hm : 0 < Phi y - Phi z := sub_pos.mpr (Phi_strictMono h2)
  rw [le_div_iff₀ (Phi_pos z)] at r1
  rw [lt_div_iff₀ (Phi_pos y)]
  nlinarith

/-- Every number between zero and one is a probability. -/
theorem Phi_surj {p : ℝ} (h0 : 0 < p) (h1 : p < 1) : ∃ t, Phi t = p := by
  obtain ⟨x, hx⟩ := (Phi_tendsto_bot.eventually (gt_mem_nhds h0)).exists
  obtain ⟨y, hy⟩ := (Phi_tendsto_top.eventually (lt_mem_nhds h1)).exists
  obtain ⟨t, -, ht⟩ := intermediate_value_uIcc (Phi_continuous.continuousOn (s := uIcc x y)) (Set.mem_uIcc.mpr (.inl ⟨hx.le, hy.le⟩))
  exact ⟨t, ht⟩

end Verif.Py.F
