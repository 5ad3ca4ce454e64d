import Verif.Interface.Model

/-!
# Model of `chi2` and `pull`

`/repo/src/spey/base/hypotest_base.py` L474-719. The methods `likelihood` and `maximize_likelihood` that these functions call are
parameters: they take a state and give the state afterwards, since fits may change lists in place (see `World`). `modelQueries`
are those of `StatisticalModel`.
-/

namespace Verif.Interface
open Verif.Py F Verif.Config Verif.Optimizer
open Verif.Backend (Expectation)
open Classical

/-- The queries: `likelihood(..., **likelihood_kwargs)`, `likelihood(..., **mle_kwargs)` and
`maximize_likelihood(allow_negative_signal=..., **mle_kwargs)`, all with the same `expected`, `init_pars` and `par_bounds`. The first
two are negative logarithms. -/
structure Queries (σ : Type) where
  nll : Poi → σ → Except Err F × σ
  fixed : Poi → σ → Except Err F × σ
  best : Bool → σ → Except Err (MuHat × F) × σ

/-- A value of a dict `poi_test`: a number, or a list, tuple or array. -/
inductive Entry
  | number (v : ℝ) | list (l : List ℝ)

/-- The argument `poi_test`: a number, an iterable that is no dict, or a dict. -/
inductive Test
  | float (v : ℝ) | int (n : ℤ) | iter (l : List Poi) | dict (d : List (Key × Entry))

/-- What `chi2` returns: a number or an array. -/
inductive Chi
  | one (v : F) | many (l : List F)

/-- `denominator`, hypotest_base.py L603-618. -/
def denominator {σ : Type} (Q : Queries σ) (negative : Bool) (den : Option Poi) (s : σ) : Except Err F × σ :=
  match den with
  | none =>
    match Q.best negative s with
    | (.error e, s) => (.error e, s)
    | (.ok (_, l), s) => (.ok l, s)
  | some p => Q.fixed p s

/-- The likelihoods of several points, one after the other, hypotest_base.py L623-637 and L644-656. `round32` is the conversion to
`np.float32`. -/
def scan {σ : Type} (round32 : F → F) (Q : Queries σ) : List Poi → σ → Except Err (List F) × σ
  | [], s => (.ok [], s)
  | p :: l, s =>
    match Q.nll p s with
    | (.error e, s) => (.error e, s)
    | (.ok v, s) =>
      match scan round32 Q l s with
      | (.error e, s) => (.error e, s)
      | (.ok vs, s) => (.ok (round32 v :: vs), s)

/-- `scan_list`, hypotest_base.py L639-641. -/
def scanList (d : List (Key × Entry)) : List Key :=
  d.filterMap fun p =>
    match p.2 with
    | .list _ => some p.1
    | .number _ => none

/-- The points of a scan: the entry `k` is replaced by each of the numbers, hypotest_base.py L646-650. The other entries are
numbers. -/
def scanPoints (d : List (Key × Entry)) (k : Key) (values : List ℝ) : List Poi :=
  values.map fun v => .dict (d.map fun p =>
    match p.2 with
    | .number u => (p.1, if p.1 = k then v else u)
    | .list _ => (p.1, v))

/-- `poi_test[k]` if it is a list. -/
def listAt (d : List (Key × Entry)) (k : Key) : List ℝ :=
  match d.find? fun p => p.1 = k with
  | some (_, .list l) => l
  | _ => []

/-- A dict without lists. -/
def numbers (d : List (Key × Entry)) : Poi := .dict (d.filterMap fun p =>
  match p.2 with
  | .number u => some (p.1, u)
  | .list _ => none)

/-- `2.0 * (llhd - denominator)`, hypotest_base.py L669. -/
noncomputable def ratio (l d : F) : F := scale 2 (sub l d)

/-- The result from one likelihood. -/
noncomputable def single {σ : Type} (d : F) (r : Except Err F × σ) : Except Err Chi × σ := (r.1.map fun l => .one (ratio l d), r.2)

/-- The result from several likelihoods. -/
noncomputable def several {σ : Type} (d : F) (r : Except Err (List F) × σ) : Except Err Chi × σ :=
  (r.1.map fun ls => .many (ls.map fun l => ratio l d), r.2)

/-- `chi2`, hypotest_base.py L599-669. -/
noncomputable def chi2 {σ : Type} (round32 : F → F) (Q : Queries σ) (test : Test) (den : Option Poi) (negative : Bool) (s : σ) :
    Except Err Chi × σ :=
  match denominator Q negative den s with
  | (.error e, s) => (.error e, s)
  | (.ok d, s) =>
    match test with
    | .float v => single d (Q.nll (.float v) s)
    | .int n => single d (Q.nll (.int n) s)
    | .iter l => several d (scan round32 Q l s)
    | .dict t =>
      match scanList t with
      | [] => single d (Q.nll (numbers t) s)
      | [k] => several d (scan round32 Q (scanPoints t k (listAt t k)) s)
      | _ => (.error .notImplemented, s)

/-- `np.sign(x)`. -/
noncomputable def sign : F → F
  | nan => nan
  | ninf => fin (-1)
  | pinf => fin 1
  | fin x => fin (if x < 0 then -1 else if 0 < x then 1 else 0)

/-- `pull`, hypotest_base.py L715-719: the numerator uses the same keywords as the fit. A dict, as `poi_test` or as the best fit, cannot be
subtracted: `TypeError`. -/
noncomputable def pull {σ : Type} (Q : Queries σ) (poi : Poi) (negative : Bool) (s : σ) : Except Err F × σ :=
  match Q.best negative s with
  | (.error e, s) => (.error e, s)
  | (.ok (m, l0), s) =>
    match Q.fixed poi s with
    | (.error e, s) => (.error e, s)
    | (.ok l, s) =>
      match m, poi with
      | .one m, .float v => (.ok (mul (sign (fin (m - v))) (sqrt (ratio l l0))), s)
      | .one m, .int n => (.ok (mul (sign (fin (m - n))) (sqrt (ratio l l0))), s)
      | _, _ => (.error .type, s)

/-- What `likelihood` gives without parameters; a pair, which a custom hook may return, cannot be subtracted. -/
def Out.number : Out → Except Err F
  | .value v => .ok v
  | .pair _ _ => .error .type

/-- `likelihood` as a query. `allow_negative_signal` is `True` unless the keywords say something else, statistical_model.py L375-381. -/
noncomputable def likelihoodQuery (S : Solver) (B : Backend) (e : Expectation) (doGrad : Bool) (bounds : Option (List Bound)) (poi : Poi)
    (w : World) : Except Err F × World :=
  match likelihood S B poi e true none false true doGrad bounds w with
  | (.error err, w) => (.error err, w)
  | (.ok o, w) => (o.number, w)

/-- The queries of `StatisticalModel`; `gradL` and `gradM` are the keyword `do_grad` of `likelihood_kwargs` and `mle_kwargs`. -/
noncomputable def modelQueries (S : Solver) (B : Backend) (e : Expectation) (gradL gradM : Bool) (bounds : Option (List Bound)) :
    Queries World where
  nll := likelihoodQuery S B e gradL bounds
  fixed := likelihoodQuery S B e gradM bounds
  best := fun negative w => maximize S B true e negative none none none gradM bounds w

end Verif.Interface
