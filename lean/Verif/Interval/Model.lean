import Verif.Chi2.Model
import Verif.Hypotest.Limit

/-!
# Model of `chi2_test` on top of fits

`HypothesisTestingBase.chi2_test` of `/repo/src/spey/base/hypotest_base.py` L1330-1704 for the parameter of interest (`parameter=None`), with the calls of the fits. The search is `Verif.Chi2.chi2Test`.

Simplification: the values of the profile are those of calls of `likelihood` in the state after `sigma_mu`, and the state after the search is that one, too. The calls change starting points of fits only, on which
fits with exact minimisers do not depend (`Verif.Hypotest.Exact`). A call that raises counts as nan: both scans skip such points.
-/

namespace Verif.Interval
open Verif.Py F Verif.Hypotest Verif.Chi2
open Verif.Interface (MuHat)
open Verif.Stats (Expect)

/-- `nll_fn`, hypotest_base.py L1474-1475. -/
noncomputable def nllFn {σ : Type} (M : Methods σ) (e : Expect) (s : σ) (v : ℝ) : F :=
  match (M.likelihood e none v s).1 with
  | .ok x => x
  | .error _ => nan

/-- `except MethodNotAvailable: sigma = 1.0`, L1477-1480. -/
def orOne {σ : Type} (c : Comp σ F) : Comp σ F := fun s =>
  match c s with
  | (.error (.call .method), s) => (.ok (fin 1), s)
  | r => r

/-- The search, L1596-1704; `none` if it does not end within `fuel` steps. -/
noncomputable def search {σ : Type} (fuel : ℕ) (toms brent : UpperLimit.Solver) (minimize : Minimizer) (thr : F) (M : Methods σ) (e : Expect) (t : LimitType) (P : Problem) (nScan nMulti : ℕ) :
    Comp σ (Option (List F)) := fun s =>
  (match chi2Test fuel toms brent minimize (nllFn M e s) thr t P nScan nMulti with
    | none => .ok none
    | some (.ok l) => .ok (some l)
    | some (.error err) => .error (.limit err), s)

/-- `chi2_test`, L1330-1704, with `parameter=None`. `isf` is `chi2.isf(·, df=1)`, `sigma` is `self.sigma_mu`; `negative` is `allow_negative_signal` (`None` is false, L1466). A dict of best-fit values, which
`maximize_likelihood` does not return here, could not be used as a number. -/
noncomputable def chi2Interval {σ : Type} (fuel : ℕ) (toms brent : UpperLimit.Solver) (minimize : Minimizer) (isf : ℝ → F) (M : Methods σ) (sigma : Expect → ℝ → Comp σ F) (e : Expect) (CL : ℝ)
    (t : LimitType) (negative : Bool) (nScan nMulti : ℕ) : Comp σ (Option (List F)) :=
  open Classical in
  if 0 ≤ CL ∧ CL ≤ 1 then do
    let b ← M.maximize e (negative || decide (t = .twoSided) || decide (t = .left)) none
    match b.1 with
    | .many _ => lift (.error .type)
    | .one muhat => do
      let s ← orOne (sigma e muhat)
      search fuel toms brent minimize (isf (1 - CL)) M e t (poiProblem t negative muhat b.2 s) nScan nMulti
  else lift (.error (.limit .assertion))

end Verif.Interval
