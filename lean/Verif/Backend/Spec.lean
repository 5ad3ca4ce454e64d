import Verif.Backend.Model
import Verif.Synth.Spec
import Mathlib.Algebra.BigOperators.Group.Finset.Basic

/-!
# Vocabulary for the properties of the backends
-/

namespace Verif.Backend
open Verif.Py F

/-- Entry `i` of a vector. -/
abbrev at' (v : Vec) (i : ℕ) : ℝ := v.getD i 0

/-- The arguments fit together: one background and one signal yield for each of the observations. -/
def Fits (a : Args) : Prop :=
  a.background.length = a.data.length ∧
  match a.signal with
  | .array y => y.length = a.data.length
  | .function f => ∀ v, (f v).length = a.data.length

/-- The signal uncertainties are those of `ss` (none if there are no modifiers). -/
def Sources (a : Args) (ss : List Synth.Source) : Prop :=
  (a.modifiers = none ∧ ss = []) ∨
    ∃ ms y, a.modifiers = some ms ∧ a.signal = .array y ∧ Synth.DescribesAll y.length ss ms

/-- The number of signal uncertainty parameters: one for each normalisation, one per bin for each shape. -/
def sourceCount (n : ℕ) (ss : List Synth.Source) : ℕ := (ss.map fun s => if s.shape then n else 1).sum

/-- The nominal signal yield of bin `i`. -/
def signalAt (a : Args) (pars : Vec) (i : ℕ) : ℝ :=
  match a.signal with
  | .array y => at' y i
  | .function f => at' (f ((List.range a.nsp).map fun j => at' pars (1 + j))) i

/-- The factor of the signal uncertainties in bin `i`; their parameters follow those of the background. -/
noncomputable def factorAt (a : Args) (ss : List Synth.Source) (pars : Vec) (i : ℕ) : ℝ :=
  match a.signal with
  | .array y => Synth.product y pars i (1 + a.nsp + a.data.length) ss
  | .function _ => 1

/-- The effective standard deviation of Barlow, arXiv:physics/0406120 eq. 18-19, cut off below at `1e-5`. -/
noncomputable def Width (up dn b t w : ℝ) : Prop :=
  0 < w ∧ (1 / 10 ^ 10 ≤ up * dn + (up - dn) * (t - b) → w ^ 2 = up * dn + (up - dn) * (t - b)) ∧
    (up * dn + (up - dn) * (t - b) ≤ 1 / 10 ^ 10 → w = 1 / 10 ^ 5)

/-- `m` is one of the four simplified likelihoods with arguments `a` whose sizes fit; `bin i t` is its expected background in bin
`i` when the nuisance parameter of that bin is `t`. -/
inductive Simplified (a : Args) (m : Model) : (ℕ → ℝ → ℝ) → Prop
  | uncorrelated (sigma : Vec) (h : uncorrelated a sigma = .ok m) (hl : sigma.length = a.data.length) :
      Simplified a m fun i t => at' a.background i + at' sigma i * t
  | correlated (cov : List Vec) (h : correlated a cov = .ok m) (hl : cov.length = a.data.length) :
      Simplified a m fun i t => at' a.background i + √(at' (cov.getD i []) i) * t
  | thirdMoment (A B C : Vec) (corr : List Vec) (h : thirdMoment a A B C corr = .ok m) (hA : A.length = a.data.length)
      (hB : B.length = a.data.length) (hC : C.length = a.data.length) (hc : corr.length = a.data.length) :
      Simplified a m fun i t => at' A i + at' B i * t + at' C i * t ^ 2
  | effectiveSigma (corr : List Vec) (env : List (ℝ × ℝ)) (h : effectiveSigma a corr env = .ok m)
      (w : ℕ → ℝ → ℝ) (hw : ∀ i t, Width |(env.getD i (0, 0)).1| |(env.getD i (0, 0)).2| (at' a.background i) t (w i t)) :
      Simplified a m fun i t => at' a.background i + w i t * t

/-- The three models with a correlated background: correlation matrix `corr` (that of the covariance matrix in the first). -/
inductive WithMatrix (a : Args) (m : Model) : (ℕ → ℝ → ℝ) → List Vec → Prop
  | correlated (cov : List Vec) (h : Backend.correlated a cov = .ok m) (hl : cov.length = a.data.length)
      (hq : ∀ r ∈ cov, r.length = cov.length) :
      WithMatrix a m (fun i t => at' a.background i + √(at' (cov.getD i []) i) * t)
        (cov.mapIdx fun i row => row.mapIdx fun j x => x / (√(at' (cov.getD i []) i) * √(at' (cov.getD j []) j)))
  | thirdMoment (A B C : Vec) (corr : List Vec) (h : Backend.thirdMoment a A B C corr = .ok m) (hA : A.length = a.data.length)
      (hB : B.length = a.data.length) (hC : C.length = a.data.length) (hc : corr.length = a.data.length) :
      WithMatrix a m (fun i t => at' A i + at' B i * t + at' C i * t ^ 2) corr
  | effectiveSigma (corr : List Vec) (env : List (ℝ × ℝ)) (h : Backend.effectiveSigma a corr env = .ok m)
      (w : ℕ → ℝ → ℝ) (hw : ∀ i t, Width |(env.getD i (0, 0)).1| |(env.getD i (0, 0)).2| (at' a.background i) t (w i t)) :
      WithMatrix a m (fun i t => at' a.background i + w i t * t) corr

/-- The positions that a domain covers. -/
def Domain.positions : Domain → List ℕ
  | .slice a n => List.range' a n
  | .index i => [i]

/-- The positions that a constraint term reads. -/
def Pdf.positions : Pdf → List ℕ
  | .normal _ _ d => d.positions
  | .mvn _ _ d => d.positions

/-- `m` is one of the seven models, built from arguments `a` (for the Poisson model, which has fewer arguments, `a` is complemented
by the defaults). -/
inductive Built (a : Args) (m : Model) : Prop
  | simplified (bin : ℕ → ℝ → ℝ) (h : Simplified a m bin)
  | poisson (y : Vec) (sigma : Option Vec) (ha : a.signal = .array y ∧ a.modifiers = none ∧ a.nsp = 0 ∧ a.bounds = none)
      (h : poisson y a.background a.data sigma = .ok m)
  | gaussian (sigma : Vec) (ha : a.modifiers = none) (h : gaussian a sigma = .ok m)
  | multivariate (cov : List Vec) (ha : a.modifiers = none) (h : multivariate a cov = .ok m)

/-- The logarithm of the standard normal density. -/
noncomputable def stdLog (x : ℝ) : ℝ := -x ^ 2 / 2 - Real.log (2 * Real.pi) / 2

/-- The logarithm of the multivariate normal density with mean zero, precision matrix `P` and logarithm of the determinant of the
covariance matrix `l`, in `n` dimensions. -/
noncomputable def mvnLog (n : ℕ) (P : ℕ → ℕ → ℝ) (l : ℝ) (x : ℕ → ℝ) : ℝ :=
  -(∑ i ∈ Finset.range n, ∑ j ∈ Finset.range n, x i * P i j * x j) / 2 - (n * Real.log (2 * Real.pi) + l) / 2

/-- The logarithm of the Poisson probability of `d` with rate `l`, continued to real `d`. -/
noncomputable def poissonLog (gammaln : ℝ → ℝ) (d l : ℝ) : ℝ := d * Real.log l - l - gammaln (d + 1)

end Verif.Backend
