import Verif.Region.Model
import Verif.Interface.Spec
import Verif.Contour.Spec
import Mathlib.Analysis.Calculus.FDeriv.Basic
import Mathlib.Analysis.Normed.Module.FiniteDimension

/-!
# Vocabulary for contours of a statistical model
-/

namespace Verif.Region
open Verif.Py F
open Verif.Config (Bound)
open Verif.Interface (Backend Allowed Satisfies)

/-- All parameters of a model (`N` of them) with the strength (parameter `p`) at one, the others inside their bounds, the constraints satisfied. -/
structure Admissible (B : Backend) (N p : ℕ) (x : List ℝ) : Prop where
  length : x.length = N
  one : x[p]? = some 1
  inside : ∀ (j : ℕ) b y, j ≠ p → (B.config true).bounds[j]? = some b → x[j]? = some y → Allowed b y
  constraints : Satisfies B.constraints x

/-- The negative log-likelihood of the observed data. -/
def nll (B : Backend) (x : List ℝ) : F := neg (B.logpdf .observed none x)

/-- `x` is a best point with strength one, `v` the NLL there. -/
structure Best (B : Backend) (N p : ℕ) (x : List ℝ) (v : ℝ) : Prop where
  admissible : Admissible B N p x
  value : nll B x = fin v
  least : ∀ x', Admissible B N p x' → nll B x' ≠ nan → le (fin v) (nll B x')

/-- Contract of L-BFGS-B: the value that is returned is that of the objective at the point that is returned, which is inside the bounds. -/
def Truthful (L : Lib) : Prop :=
  ∀ k F b x t v, L.lbfgs k F b x = .ok (t, some v) → F.nll (some t) = .ok (some v) ∧ Contour.Inside b t

/-- Contract of an exact L-BFGS-B: if there is a smallest value inside the bounds, it is found. -/
def Finishes (L : Lib) : Prop :=
  ∀ k F b x, (∃ t v, Contour.Inside b t ∧ F.nll (some t) = .ok (some v) ∧ ∀ t' v', Contour.Inside b t' → F.nll (some t') = .ok (some v') → v ≤ v') →
    ∃ t v, L.lbfgs k F b x = .ok (t, some v) ∧ ∀ t' v', Contour.Inside b t' → F.nll (some t') = .ok (some v') → v ≤ v'

/-- Contract of SLSQP: a point reported as a success has as many entries as the start, and is inside the bounds. -/
def Keeps (L : Lib) : Prop :=
  ∀ f init b x, L.slsqp f init b = .ok (x, true) → x.length = init.length ∧ Interface.InBounds b x

/-- `x` has `n` entries inside the bounds, and no such vector has a smaller value. -/
structure Smallest (f : List ℝ → F) (n : ℕ) (b : List Bound) (x : List ℝ) : Prop where
  length : x.length = n
  inside : Interface.InBounds b x
  number : f x ≠ nan
  least : ∀ x', x'.length = n → Interface.InBounds b x' → f x' ≠ nan → le (f x) (f x')

/-- Contract of an exact SLSQP: if there is a smallest value inside the bounds, it is found. -/
def Solves (L : Lib) : Prop :=
  ∀ f init b, (∃ x, Smallest f init.length b x) → ∃ x, L.slsqp f init b = .ok (x, true) ∧ Smallest f init.length b x

/-- No lower bound is `inf`, no upper bound is `-inf`, none is `nan`. -/
def Sane (B : Backend) : Prop :=
  ∀ b ∈ (B.config true).bounds, b.1 ≠ some pinf ∧ b.1 ≠ some nan ∧ b.2 ≠ some ninf ∧ b.2 ≠ some nan

/-- The entries of `x` at the indices `c` are `t`. -/
def Coordinates {k : ℕ} (c : List ℤ) (x : List ℝ) (t : Contour.Vec k) : Prop :=
  c.length = k ∧ ∀ j : Fin k, x[(c.getD j 0).toNat]? = some (t j)

/-- All parameters with the strength (parameter `p`) at one, the parameters `c` at `t` and the others inside their bounds. -/
structure Profiles {k : ℕ} (B : Backend) (N p : ℕ) (c : List ℤ) (t : Contour.Vec k) (x : List ℝ) : Prop where
  length : x.length = N
  one : x[p]? = some 1
  coordinates : Coordinates c x t
  inside : ∀ (j : ℕ) b y, j ≠ p → (j : ℤ) ∉ c → (B.config true).bounds[j]? = some b → x[j]? = some y → Allowed b y

/-- The profile NLL at `t` is `v`: the smallest NLL for the parameters `c` at `t`. -/
def ProfileNll {k : ℕ} (B : Backend) (N p : ℕ) (c : List ℤ) (t : Contour.Vec k) (v : ℝ) : Prop :=
  (∃ x, Profiles B N p c t x ∧ nll B x = fin v) ∧ ∀ x, Profiles B N p c t x → nll B x ≠ nan → le (fin v) (nll B x)

/-- Contract of `autograd.grad`: where a function is differentiable, its gradient. -/
def Differentiates (L : Lib) : Prop :=
  ∀ (n : ℕ) (f : List ℝ → F) (φ : (Fin n → ℝ) → ℝ) (y : Fin n → ℝ) (D : (Fin n → ℝ) →L[ℝ] ℝ), (∀ᶠ z in nhds y, f (List.ofFn z) = fin (φ z)) →
    HasFDerivAt φ D y → L.autograd f (List.ofFn y) = .ok (some (List.ofFn fun j => D (Pi.single j 1)))

/-- The log-likelihood of the observed data is differentiable at `x`. -/
def Smooth (B : Backend) (x : List ℝ) : Prop :=
  ∃ (n : ℕ) (y : Fin n → ℝ) (φ : (Fin n → ℝ) → ℝ), x = List.ofFn y ∧ (∀ᶠ z in nhds y, B.logpdf .observed none (List.ofFn z) = fin (φ z)) ∧ DifferentiableAt ℝ φ y

end Verif.Region
