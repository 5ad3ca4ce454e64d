import Verif.Synth.Model
import Verif.Config.Model
import Mathlib.Analysis.Real.Sqrt
import Mathlib.Analysis.Calculus.Deriv.Basic

/-!
# Model of the default backends

`/repo/src/spey/backends/default_pdf/__init__.py`, `/repo/src/spey/backends/default_pdf/simple_pdf.py` and
`/repo/src/spey/backends/distributions.py`. Arrays are lists of real numbers; numbers that are not finite are outside this model
(`Err.nonfinite`).
-/

namespace Verif.Backend
open Verif.Py F

/-- Exceptions: `ValueError` (also of numpy for shapes that do not fit), `IndexError`, `AssertionError`, `InvalidInput`, and those
of the synthesizer. -/
inductive Err
  | value | index | assertion | input | synth (e : Synth.Err) | nonfinite
  deriving DecidableEq

abbrev Vec := List ℝ

/-- Functions of scipy and numpy that are not modelled: the logarithm of the gamma function, the inverse and the logarithm of the
determinant of a matrix (regular matrices only: numpy raises for singular ones). -/
structure Ext where
  gammaln : ℝ → ℝ
  inv : List Vec → List Vec
  logdet : List Vec → ℝ

/-- A binary operation of numpy on one-dimensional arrays: equal lengths, or one of length one that is repeated. -/
def bcast (f : ℝ → ℝ → ℝ) (a b : Vec) : Except Err Vec :=
  if a.length = b.length then .ok (List.zipWith f a b)
  else
    match a, b with
    | [x], _ => .ok (b.map (f x))
    | _, [y] => .ok (a.map fun x => f x y)
    | _, _ => .error .value

/-- `pars[a : a + n]`: never raises, may be shorter. -/
def slice (pars : Vec) (a n : ℕ) : Vec := (pars.drop a).take n

/-- `pars[i]`. -/
def item (pars : Vec) (i : ℕ) : Except Err ℝ :=
  match pars[i]? with
  | none => .error .index
  | some x => .ok x

/-! ### Distributions (distributions.py) -/

/-- The argument `domain`: a slice, or `np.r_[i]`. -/
inductive Domain
  | slice (start len : ℕ)
  | index (i : ℕ)

/-- `value[self.domain]`. -/
def Domain.get (d : Domain) (pars : Vec) : Except Err Vec :=
  match d with
  | .slice a n => .ok (Backend.slice pars a n)
  | .index i =>
    match item pars i with
    | .error e => .error e
    | .ok x => .ok [x]

/-- A constraint term: `Normal` (L57-98) or `MultivariateNormal` (L101-167) with a constant matrix. -/
inductive Pdf
  | normal (loc scale : Vec) (domain : Domain)
  | mvn (mean : Vec) (cov : List Vec) (domain : Domain)

/-- `-((x - loc)/scale)²/2 - log(scale) - log(2π)/2`, the logarithm of the density of autograd. -/
noncomputable def logNormal (z scale : ℝ) : ℝ := -(z / scale) ^ 2 / 2 - Real.log scale - Real.log (2 * Real.pi) / 2

/-- `logpdf(x, loc, scale)` with arrays, summed. -/
noncomputable def normalLogProb (x loc scale : Vec) : Except Err ℝ := do
  let z ← bcast (fun a b => a - b) x loc
  let l ← bcast logNormal z scale
  return l.sum

def dot (a b : Vec) : ℝ := (List.zipWith (fun x y => x * y) a b).sum

/-- `MultivariateNormal.log_prob`, L154-167: shapes have to fit in the products `var @ inv @ var`. -/
noncomputable def mvnLogProb (E : Ext) (x mean : Vec) (cov : List Vec) : Except Err ℝ := do
  let v ← bcast (fun a b => a - b) x mean
  if v.length ≠ cov.length then .error .value
  else return -(1 / 2) * dot v ((E.inv cov).map (dot · v)) - 1 / 2 * (x.length * Real.log (2 * Real.pi) + E.logdet cov)

/-- `pdf.log_prob(pars).sum()`. -/
noncomputable def Pdf.logProb (E : Ext) (pars : Vec) : Pdf → Except Err ℝ
  | .normal loc scale d => do
    let x ← d.get pars
    normalLogProb x loc scale
  | .mvn mean cov d => do
    let x ← d.get pars
    mvnLogProb E x mean cov

/-- `pdf.expected_data()`, L83-85 and L144-146. -/
def Pdf.expected : Pdf → Vec
  | .normal loc _ _ => loc
  | .mvn mean _ _ => mean

/-- What `pdf.sample(value, sample_size)` reads of the parameters, L87-93 and L148-152; the random numbers are not modelled. -/
def Pdf.sampleArgs (pars : Vec) : Pdf → Except Err Vec
  | .normal _ _ d => d.get pars
  | .mvn _ _ d => d.get pars

/-- `ConstraintModel.log_prob`, L311-324. -/
noncomputable def constraintLogProb (E : Ext) (pars : Vec) : List Pdf → Except Err ℝ
  | [] => .ok 0
  | p :: l => do
    let a ← p.logProb E pars
    let b ← constraintLogProb E pars l
    return a + b

/-- `ConstraintModel.expected_data`, L286-291. -/
def constraintExpected : List Pdf → Except Err Vec
  | [] => .error .index
  | l => .ok (l.flatMap Pdf.expected)

/-- `ConstraintModel.sample`, L293-309, up to the random numbers. -/
def constraintSample (pars : Vec) : List Pdf → Except Err (List Vec)
  | [] => .error .index
  | l => l.mapM (Pdf.sampleArgs pars)

/-- `MainModel`, L170-250, with constant widths: the rate, and the type of the distribution. -/
inductive Main
  | poisson (rate : Vec → Except Err Vec)
  | normal (rate : Vec → Except Err Vec) (scale : Vec)
  | mvn (rate : Vec → Except Err Vec) (cov : List Vec)

def Main.rate : Main → Vec → Except Err Vec
  | .poisson r => r
  | .normal r _ => r
  | .mvn r _ => r

/-- `np.clip(loc, 1e-20, None)`, L33. -/
noncomputable def clip (x : ℝ) : ℝ := max x (1 / 10 ^ 20)

/-- `value * log(loc) - loc - gammaln(value + 1)`, L46-54. -/
noncomputable def logPoisson (E : Ext) (v l : ℝ) : ℝ := v * Real.log l - l - E.gammaln (v + 1)

/-- `MainModel.log_prob`, L237-250. -/
noncomputable def Main.logProb (E : Ext) (m : Main) (pars data : Vec) : Except Err ℝ :=
  match m with
  | .poisson r => do
    let l ← r pars
    let t ← bcast (logPoisson E) data (l.map clip)
    return t.sum
  | .normal r scale => do
    let l ← r pars
    normalLogProb data l scale
  | .mvn r cov => do
    let l ← r pars
    mvnLogProb E data l cov

/-- `MainModel.expected_data`, L215-217. -/
noncomputable def Main.expected (m : Main) (pars : Vec) : Except Err Vec :=
  match m with
  | .poisson r => do
    let l ← r pars
    return l.map clip
  | .normal r _ => r pars
  | .mvn r _ => r pars

/-! ### Backends -/

/-- The argument `signal_yields`. -/
inductive Signal
  | array (y : Vec)
  | function (f : Vec → Vec)

/-- The backend object. `constraint = none` for the backends of simple_pdf.py, which have no constraint model. -/
structure Model where
  data : Vec
  background : Vec
  main : Main
  constraint : Option (List Pdf)
  config : Config.ModelConfig
  /-- The functions that the optimiser keeps non-negative (`self.constraints`). -/
  positivity : List (Vec → Except Err Vec)

/-- The arguments common to all backends. -/
structure Args where
  signal : Signal
  background : Vec
  data : Vec
  modifiers : Option (List Synth.Modifier)
  nsp : ℕ
  bounds : Option (List (Option Config.Bound))

/-- `is_alive`, default_pdf/__init__.py L367-378, simple_pdf.py L223-234. -/
noncomputable def isAlive : Signal → Bool
  | .function _ => true
  | .array y => open Classical in y.any fun s => decide (0 < s)

/-- The smallest element. -/
noncomputable def minimum : Vec → ℝ
  | [] => 0
  | [x] => x
  | x :: l => min x (minimum l)

/-- `minimum_poi`, default_pdf/__init__.py L312-317, simple_pdf.py L197-200: the arrays are indexed with a mask, which has to have
the length of the array. -/
noncomputable def minimumPoi (signal : Signal) (background : Vec) : Except Err F :=
  match signal with
  | .function _ => .ok ninf
  | .array y =>
    if isAlive signal then
      if y.length ≠ background.length then .error .index
      else open Classical in
        .ok (fin (-minimum (((y.zip background).filter fun p => decide (0 < p.1)).map fun p => p.2 / p.1)))
    else .ok ninf

/-- `_sig_par_bounds`, default_pdf/__init__.py L337-347, simple_pdf.py L202-212. -/
def sigBounds (nsp : ℕ) : Option (List (Option Config.Bound)) → Except Err (List Config.Bound)
  | none => .ok (List.replicate nsp (none, none))
  | some l => if l.length ≠ nsp then .error .value else .ok (l.map fun b => b.getD (none, none))

/-- `signal_uncertainty_configuration`, default_pdf/__init__.py L298-310; without modifiers the dict is empty, which every use
reads as no parameters, no constraints and the factor 1. -/
noncomputable def signalUncertainty (a : Args) : Except Err (Option Synth.Config) :=
  match a.modifiers with
  | none => .ok none
  | some ms =>
    match a.signal with
    | .function _ => .error .value
    | .array y =>
      match Synth.synth y ms a.nsp none with
      | .error e => .error (.synth e)
      | .ok c => .ok (some c)

/-- Number of parameters, constraints and names of the signal uncertainties. -/
def uncCount (c : Option Synth.Config) : ℕ := (c.map (·.nParameters)).getD 0
def uncNames (c : Option Synth.Config) : List String := (c.map (·.names)).getD []
def uncPdfs (c : Option Synth.Config) : List Pdf := ((c.map (·.constraint)).getD []).map fun i => .normal [0] [1] (.index i)

/-- A list of finite numbers. -/
def finite : List F → Except Err Vec
  | [] => .ok []
  | fin x :: l =>
    match finite l with
    | .error e => .error e
    | .ok v => .ok (x :: v)
  | _ => .error .nonfinite

/-- The factor `signal_unc(pars)`; 1.0 without modifiers. -/
noncomputable def uncFactor (c : Option Synth.Config) (pars : Vec) : Except Err Vec :=
  match c with
  | none => .ok [1]
  | some c =>
    match c.lambda pars with
    | .error e => .error (.synth e)
    | .ok l => finite l

/-- `_build_signal_evaluator`, default_pdf/__init__.py L380-393. -/
def evaluator (a : Args) (pars : Vec) : Vec :=
  match a.signal with
  | .function f => f (slice pars 1 a.nsp)
  | .array y => y

/-- `_config`, default_pdf/__init__.py L325-365. -/
noncomputable def baseConfig (a : Args) (unc : Option Synth.Config) : Except Err Config.ModelConfig := do
  let m ← minimumPoi a.signal a.background
  let b ← sigBounds a.nsp a.bounds
  return {
    poiIndex := 0
    minimumPoi := m
    init := [1] ++ List.replicate a.nsp 1 ++ List.replicate a.data.length 1 ++ List.replicate (uncCount unc) 1
    bounds := [(some m, some (fin 10))] ++ b ++ List.replicate a.data.length (none, none) ++
      List.replicate (uncCount unc) (none, none)
    names := if 0 < a.nsp ∨ 0 < uncCount unc then
        some (["mu"] ++ (List.range a.nsp).map (fun i => s!"signal_par_{i}") ++
          (List.range a.data.length).map (fun i => s!"theta_bkg_{i}") ++ uncNames unc)
      else none
    fixed := none }

/-- `pars[0] * _sig(pars) * signal_unc(pars)`. -/
noncomputable def signalPart (a : Args) (unc : Option Synth.Config) (pars : Vec) : Except Err Vec := do
  let mu ← item pars 0
  let f ← uncFactor unc pars
  bcast (fun x y => x * y) ((evaluator a pars).map fun s => mu * s) f

/-- The expected background as a function of all parameters, `constraint(pars)` in each backend; `n` is the number of nuisance
parameters it reads and `g` the expression. -/
def backgroundPart (a : Args) (n : ℕ) (g : Vec → Except Err Vec) (pars : Vec) : Except Err Vec := g (slice pars (1 + a.nsp) n)

/-- The four backends of default_pdf/__init__.py: `n` nuisance parameters, background `g`, constraint term `pdf`. The terms of
the rate are added in another order in some of the backends (L522-526, L1251-1256), which has no influence. -/
noncomputable def simplified (a : Args) (n : ℕ) (g : Vec → Except Err Vec) (pdf : Pdf) : Except Err Model := do
  let unc ← signalUncertainty a
  let c ← baseConfig a unc
  return {
    data := a.data
    background := a.background
    main := .poisson fun pars => do
      let b ← backgroundPart a n g pars
      let s ← signalPart a unc pars
      bcast (fun x y => x + y) b s
    constraint := some (pdf :: uncPdfs unc)
    config := c
    positivity := [backgroundPart a n g] }

/-- `A + B * theta`. -/
def linear (A B theta : Vec) : Except Err Vec := do
  let t ← bcast (fun x y => x * y) B theta
  bcast (fun x y => x + y) A t

/-- `UncorrelatedBackground.__init__`, L886-940. -/
noncomputable def uncorrelated (a : Args) (sigma : Vec) : Except Err Model :=
  simplified a sigma.length (linear a.background sigma)
    (.normal (List.replicate a.data.length 0) (List.replicate sigma.length 1) (.slice (1 + a.nsp) sigma.length))

/-- `np.sqrt(np.diag(cov))`, L500, for variances that are not negative. -/
noncomputable def stdevs (cov : List Vec) : Vec := cov.mapIdx fun i row => √(row.getD i 0)

/-- `covariance_to_correlation`, /repo/src/spey/helper_functions.py L45-72, for positive variances (see `Verif.Helpers`). -/
noncomputable def correlations (cov : List Vec) : List Vec :=
  cov.mapIdx fun i row => row.mapIdx fun j x => x / ((stdevs cov).getD i 0 * (stdevs cov).getD j 0)

/-- `CorrelatedBackground.__init__`, default_pdf/__init__.py L1053-1076, with `main_model` and `constraint_model` of the base class, L459-536. -/
noncomputable def correlated (a : Args) (cov : List Vec) : Except Err Model :=
  simplified a cov.length (linear a.background (stdevs cov))
    (.mvn (List.replicate a.data.length 0) (correlations cov) (.slice (1 + a.nsp) cov.length))

/-- `A + B * theta + C * theta²`, L1238-1264. -/
noncomputable def quadratic (A B C theta : Vec) : Except Err Vec := do
  let l ← linear A B theta
  let q ← bcast (fun x y => x * y) C (theta.map fun t => t ^ 2)
  bcast (fun x y => x + y) l q

/-- `ThirdMomentExpansion.__init__`, L1204-1278; `A`, `B`, `C` and `corr` are the results of `third_moment_expansion`
(`Verif.ThirdMoment`). -/
noncomputable def thirdMoment (a : Args) (A B C : Vec) (corr : List Vec) : Except Err Model :=
  simplified a B.length (quadratic A B C)
    (.mvn (List.replicate a.data.length 0) corr (.slice (1 + a.nsp) B.length))

/-- `effective_sigma` for one bin, L1453-1465. -/
noncomputable def effSigma (up dn b theta : ℝ) : ℝ := √(max (up * dn + (up - dn) * (theta - b)) (1 / 10 ^ 10))

/-- `effective_sigma(pars)`: the arrays of uncertainties have the length of the background (asserted). -/
noncomputable def effSigmas (A up dn theta : Vec) : Except Err Vec := do
  let d ← bcast (fun x y => x - y) theta A
  let ud ← bcast (fun x y => x - y) up dn
  let p ← bcast (fun x y => x * y) up dn
  let q ← bcast (fun x y => x * y) ud d
  let s ← bcast (fun x y => x + y) p q
  return s.map fun x => √(max x (1 / 10 ^ 10))

/-- `A + effective_sigma(pars) * theta`, L1467-1477. -/
noncomputable def effective (A up dn theta : Vec) : Except Err Vec := do
  let s ← effSigmas A up dn theta
  linear A s theta

/-- `EffectiveSigma.__init__`, L1397-1481. -/
noncomputable def effectiveSigma (a : Args) (corr : List Vec) (envelopes : List (ℝ × ℝ)) : Except Err Model :=
  if envelopes.length ≠ a.background.length then .error .assertion
  else if corr.length ≠ a.background.length then .error .assertion
  else simplified a a.background.length (effective a.background (envelopes.map fun e => |e.1|) (envelopes.map fun e => |e.2|))
    (.mvn (List.replicate a.data.length 0) corr (.slice (1 + a.nsp) a.background.length))

/-- `SimplePDFBase.__init__`, simple_pdf.py L172-221. -/
noncomputable def simpleConfig (a : Args) : Except Err Config.ModelConfig := do
  let m ← minimumPoi a.signal a.background
  let b ← sigBounds a.nsp a.bounds
  return {
    poiIndex := 0
    minimumPoi := m
    init := [1] ++ List.replicate a.nsp 1
    bounds := [(some m, some (fin 10))] ++ b
    names := some (["mu"] ++ (List.range a.nsp).map (fun i => s!"signal_par_{i}"))
    fixed := none }

/-- `lam` of `SimplePDFBase.main_model`, L303-324: a callable gets all parameters but the first. -/
def simpleRate (a : Args) (pars : Vec) : Except Err Vec := do
  let mu ← item pars 0
  let s := match a.signal with
    | .function f => f (pars.drop 1)
    | .array y => y
  bcast (fun x y => x + y) (s.map fun x => mu * x) a.background

/-- `Poisson.__init__`, L569-614. It takes no modifiers and no signal parameters. -/
noncomputable def poisson (y background data : Vec) (sigma : Option Vec) : Except Err Model := do
  let a : Args := ⟨.array y, background, data, none, 0, none⟩
  let c ← simpleConfig a
  match sigma with
  | none => return ⟨data, background, .poisson (simpleRate a), none, c, []⟩
  | some s =>
    if s.length ≠ data.length then .error .assertion
    else return {
      data := data
      background := background
      main := .poisson fun pars => do
        let r ← simpleRate a pars
        let t ← bcast (fun x y => x * y) (slice pars 1 data.length) s
        bcast (fun x y => x + y) r t
      constraint := none
      config :=
        { c with
          init := List.replicate (data.length + 1) 1
          bounds := [(some c.minimumPoi, some (fin 10))] ++ List.replicate data.length (none, none)
          names := none }
      positivity := [fun pars => do
        let t ← bcast (fun x y => x * y) (slice pars 1 data.length) background
        bcast (fun x y => x + y) background t] }

/-- `Gaussian.__init__`, L669-693, with an array of uncertainties. -/
noncomputable def gaussian (a : Args) (sigma : Vec) : Except Err Model := do
  let c ← simpleConfig a
  return ⟨a.data, a.background, .normal (simpleRate a) sigma, none, c, []⟩

/-- `MultivariateNormal.__init__`, L851-885, with a constant two-dimensional matrix. -/
noncomputable def multivariate (a : Args) (cov : List Vec) : Except Err Model := do
  let c ← simpleConfig a
  if cov.length ≠ a.background.length then .error .input
  else return ⟨a.data, a.background, .mvn (simpleRate a) cov, none, c, []⟩

/-! ### Functions of a backend -/

/-- `ExpectationType` (see `Verif.Expectation`). -/
inductive Expectation
  | apriori | aposteriori | observed
  deriving DecidableEq

/-- The data that a likelihood uses, default_pdf/__init__.py L585-588, L638-641, L683-686, simple_pdf.py L367-370, L414-417,
L456-459. -/
def chosen (b : Model) (e : Expectation) (data : Option Vec) : Vec :=
  match data with
  | some d => d
  | none => if e = .apriori then b.background else b.data

/-- `get_logpdf_func(expected, data)(pars)`, default_pdf/__init__.py L602-646 and simple_pdf.py L381-419. -/
noncomputable def logpdf (E : Ext) (b : Model) (e : Expectation) (data : Option Vec) (pars : Vec) : Except Err ℝ :=
  match b.constraint with
  | none => b.main.logProb E pars (chosen b e data)
  | some c => do
    let m ← b.main.logProb E pars ((chosen b e data).take b.data.length)
    let k ← constraintLogProb E pars c
    return m + k

/-- `get_objective_function(expected, data, do_grad=False)(pars)`, default_pdf/__init__.py L538-600 and simple_pdf.py L328-379. -/
noncomputable def objective (E : Ext) (b : Model) (e : Expectation) (data : Option Vec) (pars : Vec) : Except Err ℝ :=
  match b.constraint with
  | none => do
    let m ← b.main.logProb E pars (chosen b e data)
    return -m
  | some c => do
    let m ← b.main.logProb E pars ((chosen b e data).take b.data.length)
    let k ← constraintLogProb E pars c
    return -m - k

/-- `expected_data(pars, include_auxiliary)`, default_pdf/__init__.py L743-768 and simple_pdf.py L500-512 (where the flag has no
effect). -/
noncomputable def expectedData (b : Model) (pars : Vec) (aux : Bool) : Except Err Vec :=
  match b.constraint with
  | none => b.main.expected pars
  | some c =>
    if aux then do
      let m ← b.main.expected pars
      let k ← constraintExpected c
      return m ++ k
    else b.main.expected pars

/-- `get_sampler(pars)(sample_size, include_auxiliary)`, default_pdf/__init__.py L697-741: the rates and, for auxiliary data, the
parameters that the constraint terms read. The vector passed to them is `pars[1:]`. -/
noncomputable def sampler (b : Model) (pars : Vec) (aux : Bool) : Except Err (Vec × List Vec) := do
  let r ← b.main.expected pars
  match b.constraint with
  | none => return (r, [])
  | some c =>
    if aux then do
      let s ← constraintSample (pars.drop 1) c
      return (r, s)
    else return (r, [])

/-- `config(allow_negative_signal, poi_upper_bound)`, default_pdf/__init__.py L410-436, simple_pdf.py L236-270. -/
noncomputable def configOf (b : Model) (negative : Bool) (upper : ℝ) : Config.ModelConfig :=
  open Classical in
  if negative ∧ upper = 10 then b.config
  else { b.config with bounds := (some (fin 0), some (fin upper)) :: b.config.bounds.drop 1, fixed := none }

/-! ### Derivatives -/

/-- `autograd` computes derivatives of exact functions: the partial derivative with respect to parameter `i`. Where a function
raises, its value here is zero. -/
noncomputable def partialDeriv (f : Vec → ℝ) (i : ℕ) (pars : Vec) : ℝ := deriv (fun t => f (pars.set i t)) (pars.getD i 0)

/-- The value of a function that may raise. -/
def valueOf (f : Vec → Except Err ℝ) (pars : Vec) : ℝ :=
  match f pars with
  | .ok x => x
  | .error _ => 0

/-- `autograd.value_and_grad(f, argnum=0)(pars)`. -/
noncomputable def valueAndGrad (f : Vec → Except Err ℝ) (pars : Vec) : Except Err (ℝ × Vec) :=
  match f pars with
  | .error e => .error e
  | .ok v => .ok (v, (List.range pars.length).map fun i => partialDeriv (valueOf f) i pars)

/-- `autograd.hessian(f, argnum=0)(pars)`. -/
noncomputable def hessianOf (f : Vec → Except Err ℝ) (pars : Vec) : Except Err (List Vec) :=
  match f pars with
  | .error e => .error e
  | .ok _ => .ok ((List.range pars.length).map fun i => (List.range pars.length).map fun j =>
      partialDeriv (partialDeriv (valueOf f) j) i pars)

/-- `spey.math.value_and_grad(model, expected, data)(pars)`, /repo/src/spey/math.py L17-51: the objective with `do_grad=True`. -/
noncomputable def mathValueAndGrad (E : Ext) (b : Model) (e : Expectation) (data : Option Vec) (pars : Vec) :
    Except Err (ℝ × Vec) := valueAndGrad (objective E b e data) pars

/-- `get_hessian_logpdf_func(expected, data)(pars)`, default_pdf/__init__.py L648-695 and simple_pdf.py L421-465. -/
noncomputable def hessianLogpdf (E : Ext) (b : Model) (e : Expectation) (data : Option Vec) (pars : Vec) :
    Except Err (List Vec) := hessianOf (logpdf E b e data) pars

/-- `spey.math.hessian(model, expected, data)(pars)`, math.py L54-92; also the matrix that `sigma_mu_from_hessian` inverts,
interface/statistical_model.py L1234. -/
noncomputable def mathHessian (E : Ext) (b : Model) (e : Expectation) (data : Option Vec) (pars : Vec) : Except Err (List Vec) :=
  match hessianLogpdf E b e data pars with
  | .error e => .error e
  | .ok h => .ok (h.map fun row => row.map fun x => -1 * x)

end Verif.Backend
