import Verif.Optimizer.Model
import Verif.Tools.Model

/-!
# Model of `fit` with its options and both minimisers

`fit` (`/repo/src/spey/optimizer/core.py` L31-141) with the option dictionary, and the two functions `minimize` (`/repo/src/spey/optimizer/scipy_tools.py` L21-138 and
`/repo/src/spey/optimizer/minuit_tools.py` L19-118). The model `Verif.Optimizer` leaves the options out; here they are followed to the libraries. `scipy.optimize.minimize` and
`iminuit.Minuit` are parameters. Gradients, Hessians and logging are left out.
-/

namespace Verif.Minimisers
open Verif.Py F Verif.Config Verif.Optimizer
open Classical

/-- The value of an option. -/
inductive Val
  | str (s : String) | int (n : ℤ) | real (r : ℝ) | bool (b : Bool)

/-- A dictionary of options. Only the values found under the keys matter, not the order. -/
abbrev Opts := List (String × Val)

/-! ### scipy_tools.py -/

/-- The arguments of `scipy.optimize.minimize`, L106-116, apart from the objective. -/
structure ScipyArgs where
  method : Val
  tol : Val
  /-- The dictionary `options`. -/
  options : String → Option Val
  init : List ℝ
  bounds : List Bound
  constraints : List Constraint

/-- `scipy.optimize.minimize`. The first argument counts the calls, as in `Optimizer.Scipy`. It raises for methods it does not know. -/
abbrev ScipyLib := ℕ → (List ℝ → F) → ScipyArgs → Except Err Trial

/-- `_scipy_opts`, L14-16. -/
def scipyOpts : List String := ["method", "maxiter", "disp", "tol", "ntrials"]

/-- `max(options.pop("ntrials", 1), 1)`, L74, as the number of rounds of the loop L98-99. -/
noncomputable def trials : Option Val → Except Err ℕ
  | none => .ok 1
  | some (.int n) => .ok (max n 1).toNat
  | some (.real r) => .ok ⌈max r 1⌉₊
  | some (.bool _) => .ok 1
  | some (.str _) => .error .type

/-- `options.setdefault(k, v)`. -/
def setDefault (k : String) (v : Val) (d : Opts) : Opts := if (d.lookup k).isSome then d else d ++ [(k, v)]

/-- The dictionary that is handed to scipy, L72-78. -/
noncomputable def scipyDict (d : Opts) : Opts :=
  setDefault "disp" (.bool false) (setDefault "maxiter" (.int 10000)
    (dictPop "poi_index" (dictPop "ntrials" (dictPop "tol" (dictPop "method" d)))))

/-- The loop L98-128 with `left + 1` trials left. -/
noncomputable def retry (run : ℕ → List ℝ → List Bound → Except Err Trial) (poi : ℤ) : ℕ → ℕ → List ℝ → List Bound → Except Err Trial
  | left, k, init, bounds =>
    match run k init bounds with
    | .error e => .error e
    | .ok t =>
      match left with
      | 0 => .ok t
      | left + 1 =>
        if t.success then .ok t
        else
          match widenAll poi 0 bounds with
          | .error e => .error e
          | .ok bounds' => retry run poi left (k + 1) t.x bounds'

/-- `minimize` of scipy_tools.py, L21-138. The `AssertionError` of L70 and L72 cannot occur, since `fit` always adds `poi_index`; it is written as `.value`. `fit` gives an integer for
`poi_index`. -/
noncomputable def scipyMinimize (lib : ScipyLib) (func : List ℝ → F) (constraints : List Constraint) (opts : Opts) (init : List ℝ) (mask : List Bool) (bounds : List Bound) :
    Except Err Trial :=
  match validate scipyOpts ["poi_index"] [] opts with
  | none => .error .value
  | some d =>
    match trials (d.lookup "ntrials"), d.lookup "poi_index" with
    | .error e, _ => .error e
    | .ok n, some (.int poi) =>
      match pins init 0 mask with
      | .error e => .error e
      | .ok ps =>
        retry (fun k x b => lib k func ⟨(d.lookup "method").getD (.str "SLSQP"), (d.lookup "tol").getD (.real (1 / 10 ^ 6)), fun o => (scipyDict d).lookup o, x, b, constraints ++ ps⟩)
          poi (n - 1) 0 init bounds
    | _, _ => .error .value

/-! ### minuit_tools.py -/

/-- The two algorithms, L86-89. -/
inductive Algorithm
  | migrad | simplex
  deriving DecidableEq

/-- What is set on the `Minuit` object, L78-89, apart from the objective. -/
structure MinuitArgs where
  algorithm : Algorithm
  ncall : Val
  disp : Val
  errordef : Val
  strategy : Val
  tol : Val
  init : List ℝ
  limits : List Bound
  fixed : List Bool

/-- `iminuit.Minuit`, run with these settings: `fval` and `values`. -/
abbrev MinuitLib := (List ℝ → F) → MinuitArgs → Except Err (F × List ℝ)

/-- `_minuit_opts`, L13-16. -/
def minuitOpts : List String := ["errordef", "maxiter", "disp", "tol", "strategy", "method"]

/-- L86-91: the algorithm of the option `method`. -/
def algorithm : Val → Except Err Algorithm
  | .str s => if s = "migrad" then .ok .migrad else if s = "simplex" then .ok .simplex else .error .value
  | _ => .error .value

/-- `minimize` of minuit_tools.py, L19-118. The arguments `constraints` and `hessian` are not used. -/
noncomputable def minuitMinimize (lib : MinuitLib) (func : List ℝ → F) (_constraints : List Constraint) (opts : Opts) (init : List ℝ) (mask : List Bool) (bounds : List Bound) :
    Except Err (F × List ℝ) :=
  match validate minuitOpts [] ["poi_index"] opts with
  | none => .error .value
  | some d =>
    match algorithm ((d.lookup "method").getD (.str "migrad")) with
    | .error e => .error e
    | .ok a => lib func ⟨a, (d.lookup "maxiter").getD (.int 10000), (d.lookup "disp").getD (.int 0), (d.lookup "errordef").getD (.real (1 / 2)), (d.lookup "strategy").getD (.int 0),
        (d.lookup "tol").getD (.real (1 / 10 ^ 6)), init, bounds, mask⟩

/-! ### core.py -/

/-- The installation: which packages there are, the environment variable `SPEY_OPTIMISER`, `str.lower`, and the two libraries. -/
structure Setting where
  iminuit : Bool
  env : Option String
  lower : String → String
  scipy : ScipyLib
  minuit : MinuitLib

/-- The option `minimizer` as a name; a value that is no text is a name that does not exist. -/
def optionName : Val → String
  | .str s => s
  | _ => ""

/-- The options after `options.pop("minimizer", …)`, L105, and `options.update({"poi_index": …})`, L128. -/
def passedOn (c : ModelConfig) (opts : Opts) : Opts := dictPop "poi_index" (dictPop "minimizer" opts) ++ [("poi_index", .int c.poiIndex)]

/-- The minimiser that `fit` calls, L105-111 and L130-139. The `ValueError` of `_get_minimizer` is `.value`. -/
noncomputable def minimiser (S : Setting) (c : ModelConfig) (func : List ℝ → F) (constraints : List Constraint) (opts : Opts) : Minimizer := fun init mask b =>
  match Tools.chosen S.iminuit S.lower S.env ((opts.lookup "minimizer").map optionName) with
  | .error _ => .error .value
  | .ok .scipy => (scipyMinimize S.scipy func constraints (passedOn c opts) init mask b).map fun t => (t.value, t.x)
  | .ok .minuit => minuitMinimize S.minuit func constraints (passedOn c opts) init mask b

/-- `fit`, core.py L31-141, with its options. -/
noncomputable def fit (S : Setting) (func : List ℝ → F) (c : ModelConfig) (initial : Option (List ℝ)) (bounds : Option (List Bound)) (fixed : FixedPoi)
    (logpdf : Option (List ℝ → F)) (constraints : List Constraint) (opts : Opts) : Except Err (F × List ℝ) × After :=
  Optimizer.fit (minimiser S c func constraints opts) c initial bounds fixed logpdf

end Verif.Minimisers
