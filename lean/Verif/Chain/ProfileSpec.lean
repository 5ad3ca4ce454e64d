import Verif.Backend.Spec

/-!
# Vocabulary: the profile likelihood of a binned Poisson model with nuisance parameters
-/

namespace Verif.Chain
open Verif.Backend (poissonLog)

/-- The expected number of events in bin `i`: signal of strength `mu`, and background with the nuisance parameter `θ i` of the bin. The code takes
`1e-20` for smaller numbers. -/
noncomputable def expectedIn (s : ℕ → ℝ) (bin : ℕ → ℝ → ℝ) (mu : ℝ) (θ : ℕ → ℝ) (i : ℕ) : ℝ := max (mu * s i + bin i (θ i)) (1 / 10 ^ 20)

/-- The log-likelihood of the data `D` in `n` bins: Poisson terms, and `pen` for the nuisance parameters. -/
noncomputable def logLikelihood (gammaln : ℝ → ℝ) (n : ℕ) (s : ℕ → ℝ) (bin : ℕ → ℝ → ℝ) (pen : (ℕ → ℝ) → ℝ) (D : ℕ → ℝ) (mu : ℝ) (θ : ℕ → ℝ) : ℝ :=
  ∑ i ∈ Finset.range n, poissonLog gammaln (D i) (expectedIn s bin mu θ i) + pen θ

/-- The nuisance parameters for which no background is negative. -/
def Admissible (n : ℕ) (bin : ℕ → ℝ → ℝ) (θ : ℕ → ℝ) : Prop := ∀ i < n, 0 ≤ bin i (θ i)

/-- The largest log-likelihood for the signal strength `mu` is `l`, at `θ`. -/
def ProfileMax {Θ : Type} (ok : Θ → Prop) (L : ℝ → Θ → ℝ) (mu l : ℝ) (θ : Θ) : Prop :=
  ok θ ∧ l = L mu θ ∧ ∀ θ', ok θ' → L mu θ' ≤ l

/-- The largest log-likelihood for signal strengths from `lo` to `hi` is `l`, at the strength `mu`. -/
def GlobalMax {Θ : Type} (ok : Θ → Prop) (L : ℝ → Θ → ℝ) (lo hi mu l : ℝ) : Prop :=
  lo ≤ mu ∧ mu ≤ hi ∧ (∃ θ, ok θ ∧ l = L mu θ) ∧ ∀ mu' θ', lo ≤ mu' → mu' ≤ hi → ok θ' → L mu' θ' ≤ l

end Verif.Chain
