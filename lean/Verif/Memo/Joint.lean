import Verif.Memo.Model
import Verif.Joint.Model

/-!
# Model of combinations of models with caches

`UnCorrStatisticsCombiner` (`/repo/src/spey/combiner/uncorrelated_statistics_combiner.py`, `Verif.Joint`) has no caches of its own; its members have.
-/

namespace Verif.Memo
open Verif.Py F Verif.Config
open Verif.Hypotest (Comp Methods Mu ret lift expectation)
open Verif.Interface (MuHat Data Size World Solver)
open Verif.Stats (Expect Calc)

/-- What one statistical model and its user bring along. -/
structure Piece where
  name : String
  solver : Solver
  inv : List (List ℝ) → Except Interface.Err (List (List ℝ))
  backend : Interface.Backend
  doGrad : Bool
  ntoys : Size
  available : Calc → Bool
  percentile : List F → F → F

/-- A call that concerns model number `i` only, see `Joint.focus`. -/
def place {σ α : Type} (i : ℕ) (c : Comp σ α) : Comp (ℕ → σ) α := fun s => ((c (s i)).1, Function.update s i (c (s i)).2)

/-- `StatisticalModel` number `i` without caches as a member of a combination. -/
noncomputable def plainMember (p : Piece) (i : ℕ) : Joint.Member (ℕ → World) :=
  Joint.member i p.name p.solver p.inv p.backend p.doGrad p.ntoys p.available p.percentile

/-- `StatisticalModel` number `i` with its caches as a member of a combination, see `Joint.member`. -/
noncomputable def memoMember {K : Type} [DecidableEq K] (key : Keys K) (p : Piece) (i : ℕ) : Joint.Member (ℕ → State K) where
  name := p.name
  least := (p.backend.config true).minimumPoi
  available := p.available
  likelihood := fun e d v => place i ((memoMethods key p.solver p.backend p.doGrad none p.ntoys p.available p.percentile).likelihood e d v)
  maximize := fun e => place i ((memoMethods key p.solver p.backend p.doGrad none p.ntoys p.available p.percentile).maximize e true none)
  sigma := fun e v => place i (memoSigma key p.solver p.inv p.backend p.doGrad p.ntoys p.available p.percentile e v)
  asimov := fun e ts => place i (generate key p.solver p.backend 0 ⟨expectation e, ts, p.doGrad, none⟩)

/-- A minimiser that does nothing but ask for values of the function: it gives up, returns the minimum and where, or asks for a value and goes on. -/
inductive Descent
  | stop (r : Except Interface.Err (F × ℝ))
  | eval (x : ℝ) (next : F → Descent)

/-- The minimiser at work on code that may raise. -/
def Descent.run {σ : Type} (f : ℝ → Comp σ F) : Descent → Comp σ (F × ℝ)
  | .stop r => lift (r.mapError .call)
  | .eval x next => do
    let y ← f x
    (next y).run f

/-- `fit` for a combination, see `Joint.Minimizer`, given what the minimiser does for a starting value and two bounds. -/
def minimizer {σ : Type} (T : F → F → F → Descent) : Joint.Minimizer σ := fun f m lo hi => (T m lo hi).run f

end Verif.Memo
