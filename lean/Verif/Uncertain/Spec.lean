import Verif.Chain.ProfileSpec
import Mathlib.Analysis.SpecialFunctions.Pow.Real

/-!
# Vocabulary: binned Poisson models whose signal is uncertain or has parameters of its own

The parameters `θ` other than the signal strength are, in this order, `p` parameters of the signal, one nuisance parameter of the background for each of `n` bins, and `k` nuisance
parameters of the signal.
-/

namespace Verif.Uncertain
open Verif.Backend (Vec Args at' poissonLog stdLog)
open Verif.Chain (Admissible)

/-- By which factor the uncertainties of the signal change bin `i`: a product of one factor for each source, see `Verif.Synth.factor`. The parameters of the first source begin at `start`. -/
noncomputable def variation (y : Vec) (θ : ℕ → ℝ) (i : ℕ) : ℕ → List Synth.Source → ℝ
  | _, [] => 1
  | start, s :: l => Synth.factor (at' y i) (s.up i) (s.dn i) (θ (if s.shape then start + i else start)) * variation y θ i (start + if s.shape then y.length else 1) l

/-- The events of the signal expected in bin `i` at strength one. -/
noncomputable def signalIn (a : Args) (ss : List Synth.Source) (θ : ℕ → ℝ) (i : ℕ) : ℝ :=
  match a.signal with
  | .array y => at' y i * variation y θ i (a.nsp + a.data.length) ss
  | .function f => at' (f ((List.range a.nsp).map θ)) i

/-- The expected number of events in bin `i`. The code takes `1e-20` for smaller numbers. -/
noncomputable def expectedWith (p : ℕ) (sig : (ℕ → ℝ) → ℕ → ℝ) (bin : ℕ → ℝ → ℝ) (mu : ℝ) (θ : ℕ → ℝ) (i : ℕ) : ℝ :=
  max (mu * sig θ i + bin i (θ (p + i))) (1 / 10 ^ 20)

/-- The log-likelihood of the data `D`: Poisson terms, `pen` for the nuisance parameters of the background and standard normal terms for those of the signal. -/
noncomputable def likelihoodWith (gammaln : ℝ → ℝ) (p n k : ℕ) (sig : (ℕ → ℝ) → ℕ → ℝ) (bin : ℕ → ℝ → ℝ) (pen : (ℕ → ℝ) → ℝ) (D : ℕ → ℝ) (mu : ℝ) (θ : ℕ → ℝ) : ℝ :=
  ∑ i ∈ Finset.range n, poissonLog gammaln (D i) (expectedWith p sig bin mu θ i) + (pen (fun i => θ (p + i)) + ∑ j ∈ Finset.range k, stdLog (θ (p + n + j)))

/-- The sum of the squares of the nuisance parameters of the signal. -/
def pulls (p n k : ℕ) (θ : ℕ → ℝ) : ℝ := ∑ j ∈ Finset.range k, θ (p + n + j) ^ 2

/-- How uncertain the signal of bin `i` is: the sum over the sources of the squares of the logarithms of one plus the larger relative uncertainty. -/
noncomputable def spread (y : Vec) (i : ℕ) (ss : List Synth.Source) : ℝ := (ss.map fun s => Real.log (max 1 (1 + max (s.up i) (s.dn i) / at' y i)) ^ 2).sum

/-- No background is negative, and the parameters of the signal are inside their bounds. -/
def Region (p n : ℕ) (l u : ℕ → ℝ) (bin : ℕ → ℝ → ℝ) (θ : ℕ → ℝ) : Prop := Admissible n bin (fun i => θ (p + i)) ∧ ∀ j < p, l j ≤ θ j ∧ θ j ≤ u j

end Verif.Uncertain
