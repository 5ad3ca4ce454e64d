import Verif.Interval.Model
import Verif.Hypotest.Model

/-!
# Model of `chi2_test` for a nuisance parameter

`HypothesisTestingBase.chi2_test` of `/repo/src/spey/base/hypotest_base.py` L1330-1704 with `parameter` given, for a `StatisticalModel`. The search is `Verif.Chi2.chi2Test`, the fits are those of
`Verif.Interface`.

Simplifications: as in `Verif.Interval.Model`, the fits of the search are those in the state after the first fit, and a fit that raises counts as nan. `poi_value` is a number or missing. Suggested bounds
that are not finite count as missing.
-/

namespace Verif.Nuisance
open Verif.Py F Verif.Hypotest Verif.Chi2 Verif.Config
open Verif.Interface (MuHat World Solver)
open Verif.Stats (Expect)

/-- The dict `poi_test`, L1557-1561. -/
def tested (c : ModelConfig) (poiValue : Option ℝ) (idx : ℤ) (val : ℝ) : List (Key × ℝ) :=
  match poiValue with
  | none => [(.index idx, val)]
  | some v => [(.index c.poiIndex, v), (.index idx, val)]

/-- `nll_fn`, L1556-1562. -/
noncomputable def nllFn (S : Solver) (B : Interface.Backend) (g : Bool) (e : Expect) (poiValue : Option ℝ) (idx : ℤ) (w : World) (val : ℝ) : F :=
  match (Interface.likelihood S B (.dict (tested (B.config true) poiValue idx val)) (expectation e) true none false true g none w).1 with
  | .ok (.value v) => v
  | _ => nan

/-- `cfg_lo`, `cfg_hi`, L1542: finite bounds. -/
def finite : Option F → Option ℝ
  | some (fin x) => some x
  | _ => none

/-- `chi2_test(parameter=key, poi_value=poiValue)`, L1330-1704: index of the parameter L1531-1532, fit L1534-1539, value of the parameter L1540, bounds L1542, search. `isf` is `chi2.isf(·, df=1)`. -/
noncomputable def chi2Nuisance (fuel : ℕ) (toms brent : UpperLimit.Solver) (minimize : Minimizer) (isf : ℝ → F) (S : Solver) (B : Interface.Backend) (g : Bool) (e : Expect) (CL : ℝ) (t : LimitType)
    (key : Key) (poiValue : Option ℝ) (nScan nMulti : ℕ) : Comp World (Option (List F)) := fun w =>
  open Classical in
  if 0 ≤ CL ∧ CL ≤ 1 then
    match resolveParameterIndex (Interface.config B true w) key with
    | .error err => (.error (.call (.config err)), w)
    | .ok idx =>
      match Interface.maximize S B true (expectation e) true none (some [key]) (poiValue.map Interface.Poi.float) g none w with
      | (.error err, w) => (.error (.call err), w)
      | (.ok (.one _, _), w) => (.error .type, w)
      | (.ok (.many d, mllhd), w) =>
        match dictGet key d with
        | none => (.error .key, w)
        | some theta =>
          match slot (B.config true).bounds.length idx with
          | none => (.error .index, w)
          | some j =>
            let b := (B.config true).bounds.getD j (none, none)
            match chi2Test fuel toms brent minimize (nllFn S B g e poiValue idx w) (isf (1 - CL)) t (nuisanceProblem theta mllhd (finite b.1) (finite b.2)) nScan nMulti with
            | none => (.ok none, w)
            | some (.ok l) => (.ok (some l), w)
            | some (.error err) => (.error (.limit err), w)
  else (.error (.limit .assertion), w)

end Verif.Nuisance
