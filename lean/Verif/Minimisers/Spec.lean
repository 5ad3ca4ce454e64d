import Verif.Minimisers.Model
import Verif.Optimizer.Spec

/-!
# Vocabulary and contracts for the minimisers
-/

namespace Verif.Minimisers
open Verif.Py F Verif.Config Verif.Optimizer

/-- What the caller gives for an option, or else the documented default. -/
def given (opts : Opts) (k : String) (default : Val) : Val := (opts.lookup k).getD default

/-- The arguments of `scipy.optimize.minimize` that these options stand for: `method`, `tol`, `maxiter` and `disp` with their defaults, and nothing else. -/
def MeantScipy (opts : Opts) (a : ScipyArgs) : Prop :=
  a.method = given opts "method" (.str "SLSQP") ∧ a.tol = given opts "tol" (.real (1 / 10 ^ 6)) ∧
  a.options "maxiter" = some (given opts "maxiter" (.int 10000)) ∧ a.options "disp" = some (given opts "disp" (.bool false)) ∧
  ∀ k, k ≠ "maxiter" → k ≠ "disp" → a.options k = none

/-- The settings of the `Minuit` object that these options stand for. -/
def MeantMinuit (opts : Opts) (a : MinuitArgs) : Prop :=
  (a.algorithm = .migrad ↔ given opts "method" (.str "migrad") = .str "migrad") ∧ (a.algorithm = .simplex ↔ given opts "method" (.str "migrad") = .str "simplex") ∧
  a.ncall = given opts "maxiter" (.int 10000) ∧ a.disp = given opts "disp" (.int 0) ∧ a.errordef = given opts "errordef" (.real (1 / 2)) ∧
  a.strategy = given opts "strategy" (.int 0) ∧ a.tol = given opts "tol" (.real (1 / 10 ^ 6))

/-- The calls of scipy that the option `ntrials` allows, counted from 0. -/
def Allowed (opts : Opts) (k : ℕ) : Prop :=
  k = 0 ∨ (∃ n : ℤ, opts.lookup "ntrials" = some (.int n) ∧ (k : ℤ) < n) ∨ ∃ r : ℝ, opts.lookup "ntrials" = some (.real r) ∧ (k : ℝ) < r

/-- The two settings differ at most in what the libraries do with other arguments than those meant by the options, or in further calls. -/
structure AgreeOn (opts : Opts) (S S' : Setting) : Prop where
  rest : S' = { S with scipy := S'.scipy, minuit := S'.minuit }
  scipy : ∀ k func a, Allowed opts k → MeantScipy opts a → S.scipy k func a = S'.scipy k func a
  minuit : ∀ func a, MeantMinuit opts a → S.minuit func a = S'.minuit func a

/-- The minimiser is scipy's: nothing else is asked for, or iminuit is not installed. -/
def IsScipy (S : Setting) (opts : Opts) : Prop := Tools.chosen S.iminuit S.lower S.env ((opts.lookup "minimizer").map optionName) = .ok .scipy

/-- The minimiser is Minuit. -/
def IsMinuit (S : Setting) (opts : Opts) : Prop := Tools.chosen S.iminuit S.lower S.env ((opts.lookup "minimizer").map optionName) = .ok .minuit

/-- A value within the bounds of a parameter. -/
def Inside (b : Bound) (v : ℝ) : Prop := (∀ lo, b.1 = some lo → le lo (fin v)) ∧ ∀ hi, b.2 = some hi → le (fin v) hi

/-- Contract of `scipy.optimize.minimize`: the value is that of the objective; when it reports success, the point is within the bounds, and for the methods that take constraints into
account (`Optimizer.constrained`) equality constraints hold up to `tol` and the others are larger than `-tol`. -/
structure ScipyKeeps (tol : ℝ) (lib : ScipyLib) : Prop where
  value : ∀ k func a t, lib k func a = .ok t → t.value = func t.x
  bounds : ∀ k func a t, lib k func a = .ok t → t.success = true → ∀ (i : ℕ) b, a.bounds[i]? = some b → ∀ v, t.x[i]? = some v → Inside b v
  eq : ∀ k func a t m, lib k func a = .ok t → t.success = true → a.method = .str m → m ∈ constrained → ∀ c ∈ a.constraints, c.isEq = true → ∃ r, c.f t.x = fin r ∧ |r| ≤ tol
  ineq : ∀ k func a t m, lib k func a = .ok t → t.success = true → a.method = .str m → m ∈ constrained → ∀ c ∈ a.constraints, c.isEq = false → le (fin (-tol)) (c.f t.x)

/-- Contract of `Minuit`: the value is that of the objective, the point is within the limits, and a fixed parameter keeps its initial value if that is within the limits. (Setting limits moves
an initial value outside of them to the nearest limit, also that of a fixed parameter.) -/
structure MinuitKeeps (lib : MinuitLib) : Prop where
  value : ∀ func a r, lib func a = .ok r → r.1 = func r.2
  length : ∀ func a r, lib func a = .ok r → r.2.length = a.init.length
  limits : ∀ func a r, lib func a = .ok r → ∀ (i : ℕ) b, a.limits[i]? = some b → ∀ v, r.2[i]? = some v → Inside b v
  fixed : ∀ func a r, lib func a = .ok r → ∀ (i : ℕ) b v, a.fixed[i]? = some true → a.init[i]? = some v → a.limits[i]? = some b → Inside b v → r.2[i]? = some v

end Verif.Minimisers
