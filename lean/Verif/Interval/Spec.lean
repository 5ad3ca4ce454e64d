import Verif.Py.Normal

/-!
# Specification of intervals

Independent of the model.
-/

namespace Verif.Interval
open Verif.Py F

/-- `z` standard deviations to both sides of a normal measurement have the probability `CL`. -/
def Central (CL z : ℝ) : Prop := 0 < z ∧ 2 * Phi (-z) = 1 - CL

/-- Contract of `scipy.stats.chi2.isf(·, df=1)`: the square of a standard normal number exceeds `z²` with probability `2 Φ(-z)`. -/
def ChiSquared (isf : ℝ → F) : Prop := ∀ z, 0 < z → isf (2 * Phi (-z)) = fin (z ^ 2)

end Verif.Interval
