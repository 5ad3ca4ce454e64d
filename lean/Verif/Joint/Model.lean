import Verif.Hypotest.Limit
import Verif.Combiner.Model

/-!
# The hypothesis tests of a combination

`UnCorrStatisticsCombiner` (`/repo/src/spey/combiner/uncorrelated_statistics_combiner.py`) inherits the tests of
`/repo/src/spey/base/hypotest_base.py` (`Verif.Hypotest`) and provides the fits for them. `Verif.Combiner` has the arithmetic of one call; here the fits are made
where the code makes them: they may change a state and may raise. Left out: `statistical_model_options`, optimiser arguments, log messages and warnings.
-/

namespace Verif.Joint
open Verif.Py F Verif.Hypotest
open Verif.Interface (MuHat Data World Size)
open Verif.Stats (Expect Calc)
open Classical

/-- What the combination calls of one of its statistical models, with default arguments except for those shown. -/
structure Member (σ : Type) where
  /-- The attribute `analysis`. -/
  name : String
  /-- `backend.config().minimum_poi`. -/
  least : F
  /-- `is_asymptotic_calculator_available` and so on. -/
  available : Calc → Bool
  /-- `likelihood(poi_test, expected, data)`. -/
  likelihood : Expect → Option Data → ℝ → Comp σ F
  /-- `maximize_likelihood(expected)`. -/
  maximize : Expect → Comp σ (MuHat × F)
  /-- `sigma_mu(poi_test, expected)`. -/
  sigma : Expect → ℝ → Comp σ F
  /-- `generate_asimov_data(expected, test_statistic)`. -/
  asimov : Expect → String → Comp σ Data

/-- `spey.optimizer.core.fit` (`/repo/src/spey/optimizer/core.py` L31-141) for a function of one variable that changes a state and may raise, a starting value and a lower and an upper bound:
the value of the function and where. Without fixed parameters `fit` passes its arguments on (`Verif.Optimizer.fit`). -/
abbrev Minimizer (σ : Type) := (ℝ → Comp σ F) → F → F → F → Comp σ (F × ℝ)

/-- Number of the exception `NegativeExpectedYields` among those of `Interface.Err.other`. No code of the repository raises it, plugins may. -/
def negativeYields : ℕ := 1

variable {σ : Type}

/-- The loop of `likelihood`, L452-477. -/
noncomputable def sumLoop (e : Expect) (data : List (String × Data)) (v : ℝ) : F → List (Member σ) → Comp σ F
  | nll, [] => ret nll
  | nll, m :: l => fun s =>
    match m.likelihood e (dictGet m.name data) v s with
    | (.ok x, s) => if isNan (add nll x) then (.ok nan, s) else sumLoop e data v (add nll x) l s
    | (.error (.call (.other n)), s) => if n = negativeYields then (.ok nan, s) else (.error (.call (.other n)), s)
    | (.error r, s) => (.error r, s)

/-- `likelihood(poi_test, expected, data=data)`, L383-479; no data (`None`) and an empty dict are the same. -/
noncomputable def likelihood (ms : List (Member σ)) (e : Expect) (data : List (String × Data)) (v : ℝ) : Comp σ F := sumLoop e data v (fin 0) ms

/-- The loop of `generate_asimov_data`, L541-561. -/
def asimovLoop (e : Expect) (ts : String) : List (String × Data) → List (Member σ) → Comp σ (List (String × Data))
  | d, [] => ret d
  | d, m :: l => do
    let x ← m.asimov e ts
    asimovLoop e ts (dictSet m.name x d) l

/-- `minimum_poi`, L236-248: the largest of the smallest strengths; `max` of nothing is a `ValueError`. -/
noncomputable def minimumPoi : List (Member σ) → Except Hypotest.Err F
  | [] => .error (.call (.other 0))
  | m :: l => .ok (Combiner.pyMaxFrom m.least (l.map Member.least))

/-- The loop over the individual fits, L727-743. A dict cannot be assigned to an entry of an array. -/
noncomputable def individual (e : Expect) : List (Member σ) → Comp σ (List (F × F))
  | [] => ret []
  | m :: l => do
    let r ← m.maximize e
    match r.1 with
    | .many _ => lift (.error .type)
    | .one mu => do
      let s ← m.sigma e mu
      let rest ← individual e l
      ret ((fin mu, s) :: rest)

/-- The starting value, L723-751, when the caller gives none: any exception gives zero. -/
noncomputable def guess (ms : List (Member σ)) (e : Expect) : Comp σ F := fun s =>
  match individual e ms s with
  | (.ok l, s) => (.ok (Combiner.weightedMean l), s)
  | (.error _, s) => (.ok (fin 0), s)

/-- `2.0 * self.likelihood(...)`, L768-777 and L893-901. -/
noncomputable def twiceNll (ms : List (Member σ)) (e : Expect) (data : List (String × Data)) (v : ℝ) : Comp σ F := do
  let l ← likelihood ms e data v
  ret (scale 2 l)

/-- `maximize_likelihood(expected, allow_negative_signal, data)`, L638-788. -/
noncomputable def maximize (fit : Minimizer σ) (ms : List (Member σ)) (e : Expect) (negative : Bool) (data : List (String × Data)) : Comp σ (MuHat × F) := do
  let mu ← guess ms e
  let least ← lift (minimumPoi ms)
  let r ← fit (twiceNll ms e data) mu (if negative then least else fin 0) (Combiner.upper mu)
  ret (.one r.2, scale (1 / 2) r.1)

/-- `asimov_likelihood(poi_test, expected, test_statistics)`, L563-636. -/
noncomputable def asimovLikelihood (ms : List (Member σ)) (e : Expect) (ts : String) (v : ℝ) : Comp σ F := do
  let data ← asimovLoop e ts [] ms
  likelihood ms e data v

/-- `maximize_asimov_likelihood(expected, test_statistics)`, L790-910. -/
noncomputable def maximizeAsimov (fit : Minimizer σ) (ms : List (Member σ)) (e : Expect) (ts : String) : Comp σ (MuHat × F) := do
  let least ← lift (minimumPoi ms)
  let data ← asimovLoop e ts [] ms
  let r ← fit (twiceNll ms e data) (fin 0) (if Interface.mayBeNegative ts then least else fin 0) (fin 10)
  ret (.one r.2, scale (1 / 2) r.1)

/-- The methods that the tests call. Data are a dict for a combination, so that only calls without data make sense for the tests (toys, which would hand over
lists, are not available, L277-290); `fixed_poi_sampler` is not a method of a combination (the base class raises `NotImplementedError`). -/
noncomputable def combined (fit : Minimizer σ) (ms : List (Member σ)) (percentile : List F → F → F) : Methods σ where
  likelihood := fun e d v =>
    match d with
    | none => likelihood ms e [] v
    | some _ => lift (.error .type)
  maximize := fun e negative d =>
    match d with
    | none => maximize fit ms e negative []
    | some _ => lift (.error .type)
  asimovLikelihood := asimovLikelihood ms
  maximizeAsimov := maximizeAsimov fit ms
  sampler := fun _ _ => lift (.error (.call .notImplemented))
  available := fun k =>
    match k with
    | .toy => false
    | k => ms.all fun m => m.available k
  percentile := percentile

/-! ### Members that are models of spey -/

/-- A call that concerns the lists of model `i` only. Models do not share a backend. -/
def focus {α : Type} (i : ℕ) (c : Comp World α) : Comp (ℕ → World) α := fun s => ((c (s i)).1, Function.update s i (c (s i)).2)

/-- `StatisticalModel` number `i` as a member of a combination. `sigma_mu` has the default test statistic `"qtilde"`, `maximize_likelihood` allows negative
signals by default, the gradient is used by default (`g`). -/
noncomputable def member (i : ℕ) (name : String) (S : Interface.Solver) (inv : List (List ℝ) → Except Interface.Err (List (List ℝ))) (B : Interface.Backend)
    (g : Bool) (ntoys : Size) (available : Calc → Bool) (percentile : List F → F → F) : Member (ℕ → World) where
  name := name
  least := (B.config true).minimumPoi
  available := available
  likelihood := fun e d v => focus i ((modelMethods S B g none ntoys available percentile).likelihood e d v)
  maximize := fun e => focus i ((modelMethods S B g none ntoys available percentile).maximize e true none)
  sigma := fun e v => focus i (modelSigma S inv B g ntoys available percentile e v)
  asimov := fun e ts => focus i (ofInterface (Interface.generateAsimov S B (expectation e) ts g none))

end Verif.Joint
