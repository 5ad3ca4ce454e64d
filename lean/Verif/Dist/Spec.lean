import Verif.Dist.Model
import Verif.Backend.Spec

/-!
# Vocabulary for the properties of the distributions
-/

namespace Verif.Dist
open Verif.Py F
open Verif.Backend (Vec Ext Domain Main mvnLog at')

/-- The logarithm of the density of a normal distribution with this mean and covariance matrix at `x`, in `x.length` dimensions. -/
noncomputable def trueLog (E : Ext) (mean : Vec) (cov : List Vec) (x : Vec) : ℝ :=
  mvnLog x.length (fun i j => at' ((E.inv cov).getD i []) j) (E.logdet cov) fun i => at' x i - at' mean i

/-- The shapes fit: mean, matrix and inverse have the size of the point. -/
structure Shapes (E : Ext) (mean : Vec) (cov : List Vec) (x : Vec) : Prop where
  means : mean.length = x.length
  size : cov.length = x.length
  inv : (E.inv cov).length = x.length
  rows : ∀ r ∈ E.inv cov, r.length = x.length

/-- Contract of scipy: the logarithm of the Poisson probability for integers. `gl` is the logarithm of the gamma function where it is finite. -/
def LogPmf (gl : ℝ → ℝ) (logpmf : ℤ → ℝ → F) : Prop :=
  (∀ (n : ℤ) (l : ℝ), 0 ≤ n → 0 < l → logpmf n l = fin (n * Real.log l - gl (n + 1) - l)) ∧ ∀ (n : ℤ) (l : ℝ), n < 0 → 0 < l → logpmf n l = ninf

/-- Contract of scipy: `gammaln` is infinite at zero and the negative integers. -/
def GammaLn (gl : ℝ → ℝ) (gammaln : ℝ → F) : Prop :=
  (∀ x : ℝ, 0 < x → gammaln x = fin (gl x)) ∧ ∀ n : ℤ, n ≤ 0 → gammaln n = pinf

/-- The probability that a mixture with equal weights has for `x`. -/
noncomputable def average {α : Type} {n : ℕ} (p : Fin n → PMF α) (x : α) : ENNReal := (∑ k, p k x) / n

/-- The values that a thread gets if nothing else runs. -/
noncomputable def alone (E : Ext) (m : Main) (l : List Eval) : List (Except Backend.Err ℝ) := l.map fun e => m.logProb E e.pars e.data

/-- The model is not multivariate normal. -/
def Fresh (m : Main) : Prop := ∀ r c, m ≠ .mvn r c

end Verif.Dist
