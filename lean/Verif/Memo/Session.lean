import Verif.Memo.Joint
import Verif.Interval.Model

/-!
# Model of sessions with several models and combinations

What a user does with models that have caches (`Verif.Memo.Model`), and with combinations of them (`/repo/src/spey/combiner/uncorrelated_statistics_combiner.py`): calls of the methods of models, and tests
(`/repo/src/spey/base/hypotest_base.py`) of models and combinations, in any order.
-/

namespace Verif.Memo
open Verif.Py F Verif.Config
open Verif.Hypotest (Comp Methods Mu ret exclusion significance poiUpperLimit sigmaMu Finder modelMethods modelSigma)
open Verif.Interface (MuHat World)
open Verif.Stats (Expect Calc)
open Verif.Chi2 (LimitType)

/-- The tests, with their arguments: `exclusion_confidence_level` (hypotest_base.py L902-1133), `significance` (L1135-1197), `poi_upper_limit` (L1199-1328), `chi2_test` (L1330-1704), and the fits below them. -/
inductive Test
  | exclusion (mu : Mu) (e : Expect) (negative : Bool) (kind : Calc)
  | significance (e : Expect)
  | limit (fuel : ℕ) (finder : Finder) (alive : Bool) (e : UpperLimit.Expected) (CL : ℝ) (low hig : Option ℝ) (band : UpperLimit.Band)
  | interval (fuel : ℕ) (toms brent : UpperLimit.Solver) (minimize : Chi2.Minimizer) (isf : ℝ → F) (e : Expect) (CL : ℝ) (t : LimitType) (negative : Bool) (nScan nMulti : ℕ)
  | likelihood (e : Expect) (v : ℝ)
  | fit (e : Expect) (negative : Bool)
  | asimovFit (e : Expect) (ts : String)

/-- Their results. -/
inductive Answer
  | levels (l : Stats.Levels)
  | significance (r : F × F × List F × List F)
  | limit (r : Option UpperLimit.Limit)
  | interval (r : Option (List F))
  | number (x : F)
  | best (r : MuHat × F)

/-- A test of a model or combination with methods `M` and uncertainty `sigma`. -/
noncomputable def Test.run {σ : Type} (M : Methods σ) (sigma : Expect → ℝ → Comp σ F) : Test → Comp σ Answer
  | .exclusion mu e negative kind => do let r ← Hypotest.exclusion M mu e negative kind; ret (.levels r)
  | .significance e => do let r ← Hypotest.significance M e; ret (.significance r)
  | .limit fuel finder alive e CL low hig band => do let r ← poiUpperLimit fuel finder M sigma alive e CL low hig band; ret (.limit r)
  | .interval fuel toms brent minimize isf e CL t negative nScan nMulti => do
    let r ← Interval.chi2Interval fuel toms brent minimize isf M sigma e CL t negative nScan nMulti
    ret (.interval r)
  | .likelihood e v => do let r ← M.likelihood e none v; ret (.number r)
  | .fit e negative => do let r ← M.maximize e negative none; ret (.best r)
  | .asimovFit e ts => do let r ← M.maximizeAsimov e ts; ret (.best r)

/-- What happens in a session: a request to model `i`, a test of model `i`, a test of the combination of some models. -/
inductive Event
  | request (i : ℕ) (r : Request)
  | single (i : ℕ) (t : Test)
  | joint (models : List ℕ) (t : Test)

variable {K : Type} [DecidableEq K]

/-- One event for models with caches; only tests have an answer here. `T` and `pc` are the minimiser and `numpy.percentile` of combinations. -/
noncomputable def Event.run (key : Keys K) (P : ℕ → Piece) (T : F → F → F → Descent) (pc : List F → F → F) : Event → (ℕ → State K) → Option (Except Hypotest.Err Answer) × (ℕ → State K)
  | .request i r, s => (none, Function.update s i (perform key (P i).solver (P i).backend (s i) r))
  | .single i t, s =>
    let r := place i (t.run (memoMethods key (P i).solver (P i).backend (P i).doGrad none (P i).ntoys (P i).available (P i).percentile)
      (memoSigma key (P i).solver (P i).inv (P i).backend (P i).doGrad (P i).ntoys (P i).available (P i).percentile)) s
    (some r.1, r.2)
  | .joint models t, s =>
    let M := Joint.combined (minimizer T) (models.map fun i => memoMember key (P i) i) pc
    let r := t.run M (fun e v => sigmaMu M none (.float v) e "qtilde") s
    (some r.1, r.2)

/-- The answers of a session. -/
noncomputable def session (key : Keys K) (P : ℕ → Piece) (T : F → F → F → Descent) (pc : List F → F → F) : (ℕ → State K) → List Event → List (Option (Except Hypotest.Err Answer))
  | _, [] => []
  | s, ev :: l => (ev.run key P T pc s).1 :: session key P T pc (ev.run key P T pc s).2 l

/-- The answer to one event for new models without caches. -/
noncomputable def Event.alone (P : ℕ → Piece) (T : F → F → F → Descent) (pc : List F → F → F) (w : ℕ → World) : Event → Option (Except Hypotest.Err Answer)
  | .request _ _ => none
  | .single i t => some (t.run (modelMethods (P i).solver (P i).backend (P i).doGrad none (P i).ntoys (P i).available (P i).percentile)
      (modelSigma (P i).solver (P i).inv (P i).backend (P i).doGrad (P i).ntoys (P i).available (P i).percentile) (w i)).1
  | .joint models t =>
    let M := Joint.combined (minimizer T) (models.map fun i => plainMember (P i) i) pc
    some (t.run M (fun e v => sigmaMu M none (.float v) e "qtilde") w).1

end Verif.Memo
