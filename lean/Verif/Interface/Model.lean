import Verif.Optimizer.Model
import Verif.UpperLimit.Model
import Verif.Py.Arith
import Verif.Backend.Model

/-!
# Model of `StatisticalModel`

`/repo/src/spey/interface/statistical_model.py`. The backend and the minimiser are parameters. Keyword arguments that are only
passed on to the minimiser, and logging, are left out; so are the caches around `generate_asimov_data` and
`maximize_likelihood` (see `Verif.Cache`). Lists that the code changes in place are part of the state `World`.
-/

namespace Verif.Interface
open Verif.Py F Verif.Config Verif.Optimizer
open Verif.Backend (Expectation)
open Classical

/-- Exceptions: `NotImplementedError`, those of the configuration and of `fit`, `MethodNotAvailable`, `UnknownCrossSection`,
`CombinerNotAvailable`, `AssertionError`, `TypeError`, `UnknownTestStatistics`, and others that a backend may raise. -/
inductive Err
  | notImplemented | config (e : Config.Err) | method | crossSection | combiner | assertion | type | testStatistic
  | limit (e : UpperLimit.Err) | other (n : ℕ)
  deriving DecidableEq

abbrev Data := List ℝ

/-- The argument `poi_test`. -/
inductive Poi
  | float (v : ℝ) | int (n : ℤ) | dict (l : List (Key × ℝ))

/-- What `likelihood` returns, statistical_model.py L569-573. -/
inductive Out
  | value (v : F) | pair (v : F) (x : List ℝ)

/-- The first component of what `maximize_likelihood` returns, statistical_model.py L942-958. -/
inductive MuHat
  | one (v : ℝ) | many (d : List (Key × ℝ))

/-- A backend, `/repo/src/spey/base/backend_base.py`. A method that is not implemented raises `Err.notImplemented`. The hooks
get further arguments for the minimiser, which are left out. -/
structure Backend where
  /-- `config(allow_negative_signal)`. The initial values are ignored here, they are in `World`. -/
  config : Bool → ModelConfig
  /-- `get_objective_function(expected, data, do_grad)`, statistical_model.py L254-306, with the values of the objective. -/
  objective : Bool → Expectation → Option Data → Except Err (List ℝ → F)
  /-- `get_logpdf_func(expected, data)`. -/
  logpdf : Expectation → Option Data → List ℝ → F
  /-- `constraints`; empty if there is no such attribute. -/
  constraints : List Constraint
  expectedData : List ℝ → Except Err Data
  /-- `get_hessian_logpdf_func(expected)`. -/
  hessian : Expectation → Except Err (List ℝ → List (List ℝ))
  /-- `get_sampler(pars)`. -/
  sampler : List ℝ → Except Err (ℕ → List Data)
  negLL : Poi → Expectation → Option Data → Bool → Except Err Out
  minNegLL : Expectation → Bool → Option Data → Option (List Key) → Except Err (MuHat × F)
  asimovNegLL : Poi → Expectation → String → Except Err Out
  minAsimovNegLL : Expectation → String → Option (List Key) → Except Err (MuHat × F)

/-- The lists that calls may change: the list `suggested_init`, which all configurations of a backend share
(`/repo/src/spey/backends/default_pdf/__init__.py` L410-436), and the caller's lists `init_pars` and `constraints`. -/
structure World where
  start : List ℝ
  init : Option (List ℝ)
  constraints : Option (List Constraint)

/-- `backend.config(allow_negative_signal)`. -/
def config (B : Backend) (negative : Bool) (w : World) : ModelConfig := { B.config negative with init := w.start }

/-- The minimiser: objective, whether it comes with a gradient, constraints and index of the POI. -/
abbrev Solver := (List ℝ → F) → Bool → List Constraint → ℤ → Minimizer

/-- One statement after the other: an exception ends the call. -/
def andThen {α β : Type} (r : Except Err α × World) (k : α → World → Except Err β × World) : Except Err β × World :=
  match r with
  | (.error err, w) => (.error err, w)
  | (.ok a, w) => k a w

/-! ### `prepare_for_fit` -/

/-- The dict that is returned, statistical_model.py L425-434. -/
structure Prepared where
  func : List ℝ → F
  doGrad : Bool
  config : ModelConfig
  logpdf : List ℝ → F
  constraints : List Constraint

/-- The loop statistical_model.py L420-423 on lists in memory: `for c in lists[a]: lists[b].append(c)`, from position `i` on. A `for` loop over a list
asks for the length again in each round. `none` if `fuel` rounds are not enough. -/
def appendLoop {α : Type} (a b : ℕ) : ℕ → ℕ → (ℕ → List α) → Option (ℕ → List α)
  | 0, _, _ => none
  | fuel + 1, i, h =>
    match (h a)[i]? with
    | none => some h
    | some c => appendLoop a b fuel (i + 1) (Function.update h b (h b ++ [c]))

/-- The objective and whether it comes with a gradient, statistical_model.py L408-418. -/
def getObjective (B : Backend) (e : Expectation) (data : Option Data) (doGrad : Bool) : Except Err ((List ℝ → F) × Bool) :=
  match B.objective doGrad e data with
  | .ok f => .ok (f, doGrad)
  | .error .notImplemented =>
    match B.objective false e data with
    | .ok f => .ok (f, false)
    | .error err => .error err
  | .error err => .error err

/-- `prepare_for_fit`, statistical_model.py L375-434. Without `constraints` a new list is made. The list of the backend is taken to be another list
than the caller's (see `appendLoop` for the other case). -/
def prepareForFit (B : Backend) (e : Expectation) (data : Option Data) (negative doGrad : Bool) (w : World) :
    Except Err Prepared × World :=
  match getObjective B e data doGrad with
  | .error err => (.error err, w)
  | .ok (f, g) =>
    let w' : World := { w with constraints := w.constraints.map (· ++ B.constraints) }
    (.ok ⟨f, g, config B negative w', B.logpdf e data, w.constraints.getD [] ++ B.constraints⟩, w')

/-- `fit(**fit_opts, initial_parameters=init_pars, bounds=par_bounds, fixed_poi_value=...)`. -/
noncomputable def runFit (S : Solver) (p : Prepared) (bounds : Option (List Bound)) (fixed : FixedPoi)
    (logpdf : Option (List ℝ → F)) (w : World) : Except Err (F × List ℝ) × World :=
  let r := fit (S p.func p.doGrad p.constraints p.config.poiIndex) p.config w.init bounds fixed logpdf
  (r.1.mapError .config, { w with start := r.2.config.init, init := r.2.initial })

/-- `_resolve_poi_test`, statistical_model.py L362-373. -/
def resolvePoi (B : Backend) (w : World) : Poi → Except Err FixedPoi
  | .float v => .ok (.value v)
  | .int n => .ok (.value n)
  | .dict l =>
    match resolvePoiIndices (config B true w) (.dict l) with
    | .error err => .error (.config err)
    | .ok d => .ok (.dict d)

/-! ### Likelihoods -/

/-- `-logpdf if return_nll else np.exp(logpdf)`, statistical_model.py L569 and L941. -/
noncomputable def scaleOut (returnNll : Bool) (logpdf : F) : F := if returnNll then neg logpdf else exp logpdf

/-- The parameters and the log-likelihood at fixed POI, statistical_model.py L551-567. The resolution of `poi_test` takes place before `fit` is
called. -/
noncomputable def profile (S : Solver) (B : Backend) (poi : Poi) (e : Expectation) (data : Option Data) (negative doGrad : Bool)
    (bounds : Option (List Bound)) (w : World) : Except Err (F × List ℝ) × World :=
  match prepareForFit B e data negative doGrad w with
  | (.error err, w) => (.error err, w)
  | (.ok p, w) =>
    match p.config.npar, poi with
    | 1, .float v => (.ok (p.logpdf [v], [v]), w)
    | _, _ =>
      match resolvePoi B w poi with
      | .error err => (.error err, w)
      | .ok f => runFit S p bounds f (some p.logpdf) w

/-- `likelihood`, statistical_model.py L436-573. The keyword `fixed_poi_value` is dropped, L544-549, and is left out here. -/
noncomputable def likelihood (S : Solver) (B : Backend) (poi : Poi) (e : Expectation) (returnNll : Bool) (data : Option Data)
    (returnPars negative doGrad : Bool) (bounds : Option (List Bound)) (w : World) : Except Err Out × World :=
  match B.negLL poi e data returnPars with
  | .ok out => (.ok out, w)
  | .error .notImplemented =>
    let r := profile S B poi e data negative doGrad bounds w
    (r.1.map fun p => if returnPars then .pair (scaleOut returnNll p.1) p.2 else .value (scaleOut returnNll p.1), r.2)
  | .error err => (.error err, w)

/-- `test_statistic in ["q", "qmu"]`. -/
def mayBeNegative (ts : String) : Bool := ts ∈ ["q", "qmu"]

/-- `generate_asimov_data`, statistical_model.py L575-655. -/
noncomputable def generateAsimov (S : Solver) (B : Backend) (e : Expectation) (ts : String) (doGrad : Bool)
    (bounds : Option (List Bound)) (w : World) : Except Err Data × World :=
  match prepareForFit B e none (mayBeNegative ts) doGrad w with
  | (.error err, w) => (.error err, w)
  | (.ok p, w) =>
    match runFit S p bounds (.value (if ts = "q0" then 1 else 0)) (some p.logpdf) w with
    | (.error err, w) => (.error err, w)
    | (.ok (_, x), w) => (B.expectedData x, w)

/-- `asimov_likelihood`, statistical_model.py L657-805. The arguments of the call are evaluated before `likelihood` runs. -/
noncomputable def asimovLikelihood (S : Solver) (B : Backend) (poi : Poi) (e : Expectation) (returnNll : Bool) (ts : String)
    (doGrad : Bool) (bounds : Option (List Bound)) (w : World) : Except Err Out × World :=
  match B.asimovNegLL poi e ts with
  | .ok out => (.ok out, w)
  | .error .notImplemented =>
    andThen (generateAsimov S B e ts doGrad bounds w) fun d w =>
      likelihood S B poi e returnNll (some d) false true doGrad bounds w
  | .error err => (.error err, w)

/-- `x[i]`. -/
def item (x : List ℝ) (i : ℤ) : Except Err ℝ :=
  match slot x.length i with
  | none => .error (.config .index)
  | some j => .ok (x.getD j 0)

/-- One key of `poi_indices`, statistical_model.py L948-957. -/
def readKey (names : Option (List String)) (x : List ℝ) (k : Key) : Except Err ℝ :=
  match resolveKey names k with
  | .error err => .error (.config err)
  | .ok i => item x i

/-- The loop statistical_model.py L948-957. -/
def readKeys (names : Option (List String)) (x : List ℝ) : List (Key × ℝ) → List Key → Except Err (List (Key × ℝ))
  | d, [] => .ok d
  | d, k :: l =>
    match readKey names x k with
    | .error err => .error err
    | .ok v => readKeys names x (dictSet k v d) l

/-- The estimates, statistical_model.py L942-958. -/
def estimates (c : ModelConfig) (x : List ℝ) : Option (List Key) → Except Err MuHat
  | none => (readKey c.names x (.index c.poiIndex)).map .one
  | some ks => (readKeys c.names x [] ks).map .many

/-- The keyword `fixed_poi_value`, statistical_model.py L925-928. -/
def resolveFixed (B : Backend) (w : World) : Option Poi → Except Err FixedPoi
  | none => .ok .none
  | some p => resolvePoi B w p

/-- `maximize_likelihood`, statistical_model.py L807-958. -/
noncomputable def maximize (S : Solver) (B : Backend) (returnNll : Bool) (e : Expectation) (negative : Bool) (data : Option Data)
    (keys : Option (List Key)) (fixed : Option Poi) (doGrad : Bool) (bounds : Option (List Bound)) (w : World) :
    Except Err (MuHat × F) × World :=
  match B.minNegLL e negative data keys with
  | .ok out => (.ok out, w)
  | .error .notImplemented =>
    match resolveFixed B w fixed with
    | .error err => (.error err, w)
    | .ok f =>
      match prepareForFit B e data negative doGrad w with
      | (.error err, w) => (.error err, w)
      | (.ok p, w) =>
        match runFit S p bounds f (some p.logpdf) w with
        | (.error err, w) => (.error err, w)
        | (.ok (l, x), w) => ((estimates (config B true w) x keys).map fun m => (m, scaleOut returnNll l), w)
  | .error err => (.error err, w)

/-- `maximize_asimov_likelihood`, statistical_model.py L960-1109. -/
noncomputable def maximizeAsimov (S : Solver) (B : Backend) (returnNll : Bool) (e : Expectation) (ts : String)
    (keys : Option (List Key)) (doGrad : Bool) (bounds : Option (List Bound)) (w : World) : Except Err (MuHat × F) × World :=
  match B.minAsimovNegLL e ts keys with
  | .ok out => (.ok out, w)
  | .error .notImplemented =>
    andThen (generateAsimov S B e ts doGrad bounds w) fun d w =>
      maximize S B returnNll e (mayBeNegative ts) (some d) keys none doGrad bounds w
  | .error err => (.error err, w)

/-! ### Sampler, uncertainty, combination -/

/-- The argument `size`: an integer, or something else: `None`, or for instance an integer of numpy, which is no `int`. -/
inductive Size
  | int (n : ℕ) | other

/-- What `fixed_poi_sampler` returns: samples, or a function that takes the number of samples. -/
inductive Toys
  | data (l : List Data) | function (f : ℕ → List Data)

/-- `fixed_poi_sampler`, statistical_model.py L1111-1177. The parameters are found as in `likelihood`. -/
noncomputable def fixedPoiSampler (S : Solver) (B : Backend) (poi : Poi) (e : Expectation) (size : Size) (doGrad : Bool)
    (bounds : Option (List Bound)) (w : World) : Except Err Toys × World :=
  match profile S B poi e none true doGrad bounds w with
  | (.error err, w) => (.error err, w)
  | (.ok (_, x), w) =>
    match B.sampler x with
    | .error .notImplemented => (.error .method, w)
    | .error err => (.error err, w)
    | .ok s =>
      match size with
      | .int n => (.ok (.data (s n)), w)
      | .other => (.ok (.function s), w)

/-- `M[i, j]`. -/
def entry (M : List (List ℝ)) (i j : ℤ) : Except Err ℝ :=
  match slot M.length i with
  | none => .error (.config .index)
  | some k =>
    match slot (M.getD k []).length j with
    | none => .error (.config .index)
    | some l => .ok ((M.getD k []).getD l 0)

/-- `sigma_mu_from_hessian`, statistical_model.py L1179-1238. `inv` is `np.linalg.inv`. -/
noncomputable def sigmaMuFromHessian (S : Solver) (inv : List (List ℝ) → Except Err (List (List ℝ))) (B : Backend) (poi : Poi)
    (e : Expectation) (doGrad : Bool) (bounds : Option (List Bound)) (w : World) : Except Err F × World :=
  match B.hessian e with
  | .error .notImplemented => (.error .method, w)
  | .error err => (.error err, w)
  | .ok H =>
    match prepareForFit B e none true doGrad w with
    | (.error err, w) => (.error err, w)
    | (.ok p, w) =>
      match resolvePoi B w poi with
      | .error err => (.error err, w)
      | .ok f =>
        match runFit S p bounds f none w with
        | (.error err, w) => (.error err, w)
        | (.ok (_, x), w) =>
          match inv ((H x).map fun row => row.map fun y => -1 * y) with
          | .error err => (.error err, w)
          | .ok M => ((entry M (config B true w).poiIndex (config B true w).poiIndex).map fun v => sqrt (fin v), w)

/-- `sigma_mu`, `/repo/src/spey/base/hypotest_base.py` L814-900. `hess` is the outcome of `sigma_mu_from_hessian`, `asimov` the
fit of the Asimov data (see `Verif.Stats.Fit`). -/
noncomputable def sigmaMu (hess : Except Err F) (asimov : Stats.Fit) (ts : String) (mu : ℝ) : Except Err F :=
  match hess with
  | .ok s => .ok s
  | .error .method =>
    match Stats.getTestStatistic ts with
    | .error _ => .error .testStatistic
    | .ok f => .ok (if le (asimov.stat f (fin mu)) (fin 0) then fin 1 else div (fin mu) (sqrt (asimov.stat f (fin mu))))
  | .error err => .error err

/-- The attributes of a `StatisticalModel`, `__init__` statistical_model.py L155-168. -/
structure Stat (β : Type) where
  backend : β
  analysis : String
  xsection : F
  ntoys : ℕ

/-- What a combination routine returns: a backend or some other object. -/
inductive Combined (β : Type)
  | backend (b : β) | object

/-- `combine`, statistical_model.py L1240-1274; the new model has the default cross section and number of toys. -/
def combine {β : Type} (routine : β → β → Except Err (Combined β)) (a b : Stat β) : Except Err (Stat β) :=
  match routine a.backend b.backend with
  | .error .notImplemented => .error .combiner
  | .error err => .error err
  | .ok .object => .error .assertion
  | .ok (.backend c) => .ok ⟨c, s!"combine[{a.analysis}, {b.analysis}]", nan, 1000⟩

/-- `__matmul__`, statistical_model.py L1276-1299. -/
def matmul {β : Type} (routine : β → β → Except Err (Combined β)) (a b : Stat β) : Except Err (Stat β) := combine routine a b

/-- `excluded_cross_section`, statistical_model.py L288-320. The fits that the search uses depend on the expectation. `none` means
that the search goes on. -/
noncomputable def excludedCrossSection (fuel : ℕ) (solve : UpperLimit.Solver) (I : UpperLimit.Expected → UpperLimit.Inputs) (xsection : F)
    (e : UpperLimit.Expected) : Option (Except Err F) :=
  if isNan xsection then some (.error .crossSection)
  else
    match UpperLimit.poiUpperLimit fuel solve (I e) e 0.95 none none .nominal with
    | none => none
    | some (.error err) => some (.error (.limit err))
    | some (.ok (.one x)) => some (.ok (mul x xsection))
    | some (.ok (.many _)) => some (.error .type)

/-- `s95exp`, statistical_model.py L322-340, and `s95obs`, L342-360. -/
noncomputable def s95exp (fuel : ℕ) (solve : UpperLimit.Solver) (I : UpperLimit.Expected → UpperLimit.Inputs) (xsection : F) :
    Option (Except Err F) :=
  excludedCrossSection fuel solve I xsection .apriori

noncomputable def s95obs (fuel : ℕ) (solve : UpperLimit.Solver) (I : UpperLimit.Expected → UpperLimit.Inputs) (xsection : F) :
    Option (Except Err F) :=
  excludedCrossSection fuel solve I xsection .observed

/-! ### Available calculators -/

/-- An attribute of a class: a function, or a static method. Functions are known by their identity. -/
inductive Attr
  | function (f : ℕ) | static (f : ℕ)
  deriving DecidableEq

/-- The objects that Python compares: a function, or a method bound to an object. They are equal if they are of the same kind
and both the function and the object are the same. -/
inductive Obj
  | function (f : ℕ) | method (self f : ℕ)
  deriving DecidableEq

/-- A backend class: the attributes that it defines itself, the others come from `BackendBase`. -/
structure Class where
  own : String → Option Attr

/-- `BackendBase.<name>`: a plain function. -/
def baseAttr (base : String → ℕ) (n : String) : Obj := .function (base n)

/-- `self.backend.<name>`, where `self.backend` is the object `o` of the class `c`. -/
def instanceAttr (base : String → ℕ) (c : Class) (o : ℕ) (n : String) : Obj :=
  match c.own n with
  | none => .method o (base n)
  | some (.function f) => .method o f
  | some (.static f) => .function f

/-- `is_asymptotic_calculator_available`, statistical_model.py L215-236. -/
def asymptoticAvailable (base : String → ℕ) (c : Class) (o : ℕ) : Bool :=
  instanceAttr base c o "expected_data" ≠ baseAttr base "expected_data" ∨
    (instanceAttr base c o "asimov_negative_loglikelihood" ≠ baseAttr base "asimov_negative_loglikelihood" ∧
      instanceAttr base c o "minimize_asimov_negative_loglikelihood" ≠ baseAttr base "minimize_asimov_negative_loglikelihood")

/-- `is_toy_calculator_available`, statistical_model.py L238-249. -/
def toyAvailable (base : String → ℕ) (c : Class) (o : ℕ) : Bool :=
  instanceAttr base c o "get_sampler" ≠ baseAttr base "get_sampler"

/-- `available_calculators`, statistical_model.py L265-281 (`is_chi_square_calculator_available` is always true, L251-263). -/
def availableCalculators (base : String → ℕ) (c : Class) (o : ℕ) : List String :=
  (if toyAvailable base c o then ["toy"] else []) ++ (if asymptoticAvailable base c o then ["asymptotic"] else []) ++
    ["chi_square"]

end Verif.Interface
