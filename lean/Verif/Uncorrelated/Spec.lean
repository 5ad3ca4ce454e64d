import Verif.Backend.Spec

/-!
# Vocabulary: bins with independent uncertainties of the background

The likelihood of a bin with `d` events, where `x` are expected from the signal and `b ± σ` from the background, after the nuisance parameter has been eliminated. Textbook
formulas, independent of the code.
-/

namespace Verif.Uncorrelated
open Verif.Backend (poissonLog stdLog)

/-- The expected number of events that fits best: the positive solution `r` of `r = x + b + σ² (d / r - 1)`, but not fewer than `x` (the background is not negative) and not fewer than `1e-20` (which the
code takes for smaller numbers). -/
noncomputable def fitted (d b σ x : ℝ) : ℝ := max ((x + b - σ ^ 2 + √((x + b - σ ^ 2) ^ 2 + 4 * σ ^ 2 * d)) / 2) (max x (1 / 10 ^ 20))

/-- The log-likelihood of the bin with this number: the Poisson term, and the standard normal term of the pull of the background (which is zero without uncertainty). -/
noncomputable def binLog (gammaln : ℝ → ℝ) (d b σ x : ℝ) : ℝ := poissonLog gammaln d (fitted d b σ x) + stdLog ((fitted d b σ x - x - b) / σ)

/-- A bin: signal yield, background, its uncertainty, and number of events. -/
structure Bin where
  s : ℝ
  b : ℝ
  σ : ℝ
  d : ℝ

/-- Bins as they occur: nothing is negative, and there is some background. -/
def Bin.Proper (x : Bin) : Prop := 0 ≤ x.s ∧ 1 / 10 ^ 20 ≤ x.b ∧ 0 ≤ x.σ ∧ 0 ≤ x.d

/-- The profile likelihood of bins as a function of the signal strength. -/
noncomputable def profile (gammaln : ℝ → ℝ) (bins : List Bin) (mu : ℝ) : ℝ := (bins.map fun x => binLog gammaln x.d x.b x.σ (mu * x.s)).sum

/-- The bin with the number of events that is expected before the measurement. -/
def Bin.prior (x : Bin) : Bin := { x with d := x.b }

/-- The bin with the number of events that is expected for the signal strength `mu` after the measurement. -/
noncomputable def Bin.asimov (mu : ℝ) (x : Bin) : Bin := { x with d := fitted x.d x.b x.σ (mu * x.s) }

/-- The largest value for strengths from 0 to 10 is that at `best`. -/
def IsBest (P : ℝ → ℝ) (best : ℝ) : Prop := 0 ≤ best ∧ best ≤ 10 ∧ ∀ mu, 0 ≤ mu → mu ≤ 10 → P mu ≤ P best

/-- `q` is the statistic of the signal strength `v` for the log-likelihood `P`: twice the logarithm of the ratio to the largest value for strengths from 0 to 10, or zero if that is beyond `v` (or
smaller). -/
def IsStat (P : ℝ → ℝ) (v q : ℝ) : Prop := ∃ best, IsBest P best ∧ (best ≤ v → q = max (2 * (P best - P v)) 0) ∧ (v < best → q = 0)

/-- `q` is the statistic for the discovery: twice the logarithm of the ratio of the largest value to that without signal. -/
def IsDiscovery (P : ℝ → ℝ) (q : ℝ) : Prop := ∃ best, IsBest P best ∧ q = 2 * (P best - P 0)

end Verif.Uncorrelated
