import Verif.Config.Model

/-!
# Model of the optimiser interface

`ValidateOpts` (`/repo/src/spey/optimizer/__init__.py` L12-62), `fit` (`/repo/src/spey/optimizer/core.py` L31-141) and the two
`minimize` functions (`/repo/src/spey/optimizer/scipy_tools.py` L21-138, `/repo/src/spey/optimizer/minuit_tools.py` L19-118).
`scipy.optimize.minimize` and `Minuit` are parameters. Parameters are real numbers; the objective is a function with values
in `F`; gradients, Hessians, messages, tolerances and logging are left out.
-/

namespace Verif.Optimizer
open Verif.Py F Verif.Config
open Classical

/-! ### `ValidateOpts` -/

/-- `d.pop(k)`. -/
def dictPop {α : Type} (k : String) (d : List (String × α)) : List (String × α) := d.filter (fun p => p.1 ≠ k)

/-- The loop of `__call__`, L56-61, over the keys `ks`. -/
def validateLoop {α : Type} (opts must remove : List String) : List String → List (String × α) → List (String × α)
  | [], d => d
  | k :: ks, d =>
    let d := if k ∉ opts ++ must ++ remove then dictPop k d else d
    let d := if k ∈ remove then dictPop k d else d
    validateLoop opts must remove ks d

/-- `ValidateOpts.__call__`, L40-62; `none` is the `AssertionError`. -/
def validate {α : Type} (opts must remove : List String) (d : List (String × α)) : Option (List (String × α)) :=
  if must.all (fun k => decide (k ∈ d.map Prod.fst)) then some (validateLoop opts must remove (d.map Prod.fst) d) else none

/-! ### `scipy_tools.minimize` -/

/-- What `scipy.optimize.minimize` returns. -/
structure Trial where
  success : Bool
  value : F
  x : List ℝ

/-- A constraint: `fun(x) == 0` or `fun(x) >= 0`. -/
structure Constraint where
  isEq : Bool
  f : List ℝ → F

/-- The constraint that pins a parameter, scipy_tools.py L77-81. -/
def pin (i : ℕ) (v : ℝ) : Constraint where
  isEq := true
  f := fun x => match x[i]? with
    | some y => fin (y - v)
    | none => nan

/-- `scipy.optimize.minimize(func, x0, method=..., bounds=..., constraints=...)`; the first argument counts the calls, so that
the outcome may differ from call to call. -/
abbrev Scipy := ℕ → String → (List ℝ → F) → List ℝ → List Bound → List Constraint → Trial

/-- The added constraints, L88-96: one per entry of the mask that is true (`init[i]` raises if there is none). -/
def pins (init : List ℝ) : ℕ → List Bool → Except Err (List Constraint)
  | _, [] => .ok []
  | i, isfixed :: l =>
    if isfixed then
      match init[i]? with
      | none => .error .index
      | some v => (pins init (i + 1) l).map (fun cs => pin i v :: cs)
    else pins init (i + 1) l

/-- The wider bounds of parameter `i`, L122-126. -/
noncomputable def widen (poi : ℤ) (i : ℕ) (b : Bound) : Except Err Bound :=
  match b with
  | (lo, some hi) =>
    if (i : ℤ) = poi then .ok (lo, some (scale 2 hi))
    else
      match lo with
      | some lo => .ok (some (if lt (scale 10 lo) lo then scale 10 lo else lo), some (scale 10 hi))
      | none => .error .type
  | _ => .error .type

/-- The loop L122-126. -/
noncomputable def widenAll (poi : ℤ) : ℕ → List Bound → Except Err (List Bound)
  | _, [] => .ok []
  | i, b :: l =>
    match widen poi i b with
    | .error e => .error e
    | .ok b' => (widenAll poi (i + 1) l).map (fun l' => b' :: l')

/-- One call of scipy: where it started, and what came out. -/
structure Call where
  init : List ℝ
  bounds : List Bound
  trial : Trial

/-- The loop L98-128 with `left + 1` trials left: the calls of scipy, and the result (or the exception of `widenAll`). -/
noncomputable def retry (run : ℕ → List ℝ → List Bound → Trial) (poi : ℤ) : ℕ → ℕ → List ℝ → List Bound →
    List Call × Except Err Trial
  | left, k, init, bounds =>
    let t := run k init bounds
    match left with
    | 0 => ([⟨init, bounds, t⟩], .ok t)
    | left + 1 =>
      if t.success then ([⟨init, bounds, t⟩], .ok t)
      else
        match widenAll poi 0 bounds with
        | .error e => ([⟨init, bounds, t⟩], .error e)
        | .ok bounds' =>
          let r := retry run poi left (k + 1) t.x bounds'
          (⟨init, bounds, t⟩ :: r.1, r.2)

/-- `minimize` of scipy_tools.py, L21-138. -/
noncomputable def scipyMinimize (scipy : Scipy) (method : String) (ntrials : ℤ) (poi : ℤ) (func : List ℝ → F) (init : List ℝ)
    (fixed : List Bool) (bounds : List Bound) (constraints : List Constraint) : List Call × Except Err Trial :=
  match pins init 0 fixed with
  | .error e => ([], .error e)
  | .ok cs =>
    retry (fun k x b => scipy k method func x b (constraints ++ cs)) poi (max ntrials 1 - 1).toNat 0 init bounds

/-! ### `fit` -/

/-- The minimiser that `fit` calls: with the initial values, the mask and the bounds. -/
abbrev Minimizer := List ℝ → List Bool → List Bound → Except Err (F × List ℝ)

/-- Minuit, minuit_tools.py L68-118: objective, initial values, mask and limits are passed on. -/
abbrev Minuit := (List ℝ → F) → List ℝ → List Bool → List Bound → Except Err (F × List ℝ)

/-- The argument `fixed_poi_value`. -/
inductive FixedPoi
  | none | value (v : ℝ) | dict (d : List (ℤ × ℝ))

/-- The loop of core.py L115-118 (and L119-121 for one index): initial values and mask are changed in place. -/
def setFixed : List ℝ → List Bool → List (ℤ × ℝ) → (List ℝ × List Bool) × Except Err Unit
  | init, mask, [] => ((init, mask), .ok ())
  | init, mask, (i, v) :: l =>
    match slot init.length i with
    | none => ((init, mask), .error .index)
    | some k => setFixed (init.set k v) (mask.set k true) l

/-- The loop L123-126. -/
def setSuggested : ℕ → List Bool → List Bool → Except Err (List Bool)
  | _, mask, [] => .ok mask
  | i, mask, f :: l =>
    if f then (if i < mask.length then setSuggested (i + 1) (mask.set i true) l else .error .index)
    else setSuggested (i + 1) mask l

/-- The bounds, L98-103. -/
noncomputable def fitBounds (c : ModelConfig) (bounds : Option (List Bound)) (fixed : FixedPoi) : Except Err (List Bound) :=
  match bounds with
  | some b => .ok b
  | none =>
    match fixed with
    | .dict d => (fixedPoiBoundsMulti c (some d)).map Prod.snd
    | .value v => (fixedPoiBounds c (some v)).map Prod.snd
    | .none => (fixedPoiBounds c none).map Prod.snd

/-- The pairs of index and value to be fixed. -/
def FixedPoi.pairs (c : ModelConfig) : FixedPoi → List (ℤ × ℝ)
  | .none => []
  | .value v => [(c.poiIndex, v)]
  | .dict d => d

/-- What `fit` leaves behind: the caller's list of initial values (if one was given) and the configuration. -/
structure After where
  initial : Option (List ℝ)
  config : ModelConfig

/-- `fit`, core.py L31-141. `initial` is a list or an array, or missing. The list that is changed in place is the caller's list
if there is one, otherwise the list `suggested_init` of the configuration. -/
noncomputable def fit (minimize : Minimizer) (c : ModelConfig) (initial : Option (List ℝ)) (bounds : Option (List Bound))
    (fixed : FixedPoi) (logpdf : Option (List ℝ → F)) : Except Err (F × List ℝ) × After :=
  let init := initial.getD c.init
  match fitBounds c bounds fixed with
  | .error e => (.error e, ⟨initial, c⟩)
  | .ok b =>
    let s := setFixed init (List.replicate init.length false) (fixed.pairs c)
    let after : After := match initial with
      | some _ => ⟨some s.1.1, c⟩
      | none => ⟨none, { c with init := s.1.1 }⟩
    match s.2 with
    | .error e => (.error e, after)
    | .ok () =>
      match setSuggested 0 s.1.2 (c.fixed.getD []) with
      | .error e => (.error e, after)
      | .ok mask =>
        match minimize s.1.1 mask b with
        | .error e => (.error e, after)
        | .ok (v, x) =>
          (.ok ((match logpdf with
            | none => v
            | some g => g x), x), after)

/-- `_get_minimizer("scipy")` with the options `method` and `ntrials`. -/
noncomputable def scipyMinimizer (scipy : Scipy) (method : String) (ntrials : ℤ) (poi : ℤ) (func : List ℝ → F)
    (constraints : List Constraint) : Minimizer := fun init mask b =>
  (scipyMinimize scipy method ntrials poi func init mask b constraints).2.map (fun t => (t.value, t.x))

end Verif.Optimizer
