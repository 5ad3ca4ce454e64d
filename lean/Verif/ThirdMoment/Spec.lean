import Mathlib.Probability.Distributions.Gaussian.Real

/-!
# Vocabulary for the properties of the third moment expansion
-/

namespace Verif.ThirdMoment
open MeasureTheory ProbabilityTheory

/-- The quadratic function of a standard normal variable has mean `b`, variance `v` and third central moment `m`. -/
def HasMoments (A B C b v m : ℝ) : Prop :=
  ∫ x, (A + B * x + C * x ^ 2) ∂gaussianReal 0 1 = b ∧
  ∫ x, (A + B * x + C * x ^ 2 - b) ^ 2 ∂gaussianReal 0 1 = v ∧
  ∫ x, (A + B * x + C * x ^ 2 - b) ^ 3 ∂gaussianReal 0 1 = m

/-- The covariance of the quadratic functions `B x + C (x² - 1)` and `B' z + C' (z² - 1)` of two standard normal variables with
correlation `r`, written with two independent ones: `z = r x + √(1 - r²) y`. -/
noncomputable def covariance (B C B' C' r : ℝ) : ℝ :=
  ∫ x, ∫ y, (B * x + C * (x ^ 2 - 1)) *
    (B' * (r * x + √(1 - r ^ 2) * y) + C' * ((r * x + √(1 - r ^ 2) * y) ^ 2 - 1)) ∂gaussianReal 0 1 ∂gaussianReal 0 1

/-- A number moved away from zero by `1e-5`. -/
noncomputable def shiftR (c : ℝ) : ℝ := open Classical in if 0 ≤ c then c + 1 / 100000 else c - 1 / 100000

/-- The density of a Gaussian with widths `l` on the left and `u` on the right of zero. -/
noncomputable def bifurcated (u l x : ℝ) : ℝ :=
  2 / (u + l) / √(2 * Real.pi) * (if 0 ≤ x then Real.exp (-x ^ 2 / (2 * u ^ 2)) else Real.exp (-x ^ 2 / (2 * l ^ 2)))

end Verif.ThirdMoment
