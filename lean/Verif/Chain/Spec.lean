import Verif.Py.Normal
import Mathlib.Algebra.BigOperators.Group.Finset.Basic
import Mathlib.Analysis.SpecialFunctions.Log.Basic

/-!
# Vocabulary: measurements of a signal strength from several bins, and counting experiments

Textbook formulas, independent of the code.
-/

namespace Verif.Chain
open Finset

/-- The bilinear form of the matrix `P`, in `n` dimensions. -/
noncomputable def form (n : ℕ) (P : ℕ → ℕ → ℝ) (x y : ℕ → ℝ) : ℝ := ∑ i ∈ range n, ∑ j ∈ range n, x i * P i j * y j

/-- The precision matrix of independent measurements with uncertainties `σ`. -/
noncomputable def independent (σ : ℕ → ℝ) (i j : ℕ) : ℝ := if i = j then 1 / σ i ^ 2 else 0

/-- The least squares estimate of `mu` from measurements `d` of `mu * s + b` with precision matrix `P`. -/
noncomputable def estimate (n : ℕ) (P : ℕ → ℕ → ℝ) (s b d : ℕ → ℝ) : ℝ := form n P s (fun i => d i - b i) / form n P s s

/-- Its standard deviation. -/
noncomputable def deviation (n : ℕ) (P : ℕ → ℕ → ℝ) (s : ℕ → ℝ) : ℝ := 1 / √(form n P s s)

/-- The test statistic of a counting experiment: `n` events where `b` are expected without signal and `l` (not fewer than the number that fits best,
which with a positive signal is the larger of `n` and `b`) with it. -/
noncomputable def countingStat (n b l : ℝ) : ℝ := 2 * (n * Real.log (max n b / l) - max n b + l)

end Verif.Chain
