import Verif.Chain.ProfileSpec

/-!
# Vocabulary: how far the data are from the expectation without signal, and a bound on statistics
-/

namespace Verif.Reach

/-- Half of the deviance of the observed number `d` for the expected number `l`. -/
noncomputable def deviance (d l : ℝ) : ℝ := d * Real.log (d / l) - d + l

/-- How far the data `D` are from what is expected without signal at the nuisance parameters `θ`: the deviances, and the price of `θ` compared to zero. -/
noncomputable def misfit (n : ℕ) (bin : ℕ → ℝ → ℝ) (pen : (ℕ → ℝ) → ℝ) (D θ : ℕ → ℝ) : ℝ :=
  ∑ i ∈ Finset.range n, deviance (D i) (max (bin i (θ i)) (1 / 10 ^ 20)) + (pen (fun _ => 0) - pen θ)

/-- Statistics from `M` on give levels of at least `CL`. -/
def Excludes (M CL : ℝ) : Prop := CL < 1 ∧ 0 ≤ M ∧ 2 + √(-2 * Real.log (1 - CL)) ≤ √M

end Verif.Reach
