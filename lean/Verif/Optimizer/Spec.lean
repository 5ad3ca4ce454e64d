import Verif.Optimizer.Model

/-!
# Vocabulary and contracts for the optimiser properties
-/

namespace Verif.Optimizer
open Verif.Py F Verif.Config

/-- The methods of scipy that take constraints into account (scipy_tools.py L52-53, documentation of scipy). The others ignore
constraints with a `RuntimeWarning`, which scipy_tools.py L105 switches off. -/
def constrained : List String := ["SLSQP", "COBYLA", "COBYQA", "trust-constr"]

/-- Contract of `scipy.optimize.minimize`: it reports the value of the objective at the point it returns; when it reports success
and the method takes constraints into account, the equality constraints hold up to `tol`. -/
structure Respects (tol : ℝ) (scipy : Scipy) : Prop where
  value : ∀ k m func x0 b cs, (scipy k m func x0 b cs).value = func (scipy k m func x0 b cs).x
  eq : ∀ k m func x0 b cs, (scipy k m func x0 b cs).success = true → m ∈ constrained → ∀ c ∈ cs, c.isEq = true →
    ∃ r, c.f (scipy k m func x0 b cs).x = fin r ∧ |r| ≤ tol

/-- A minimiser that leaves the masked parameters where they were (up to `tol`) and reports the value of the objective. -/
def Keeps (tol : ℝ) (func : List ℝ → F) (m : Minimizer) : Prop :=
  ∀ init mask b v x, m init mask b = .ok (v, x) → v = func x ∧
    ∀ k : ℕ, mask[k]? = some true → ∃ y w, x[k]? = some y ∧ init[k]? = some w ∧ |y - w| ≤ tol

/-- Every point within the bounds `b` is within the bounds `b'`. -/
def Within (b b' : Bound) : Prop :=
  ∀ v : ℝ, (∀ lo, b.1 = some lo → le lo (fin v)) → (∀ hi, b.2 = some hi → le (fin v) hi) →
    (∀ lo, b'.1 = some lo → le lo (fin v)) ∧ (∀ hi, b'.2 = some hi → le (fin v) hi)

/-- One call of scipy follows another: the first failed and the second starts where it ended. -/
def Follows (a b : Call) : Prop := a.trial.success = false ∧ b.init = a.trial.x

end Verif.Optimizer
