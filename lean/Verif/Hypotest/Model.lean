import Verif.Interface.Model
import Verif.UpperLimit.Model

/-!
# Model of the hypothesis tests on top of fits

`_prepare_for_hypotest`, `exclusion_confidence_level` and `significance` of `/repo/src/spey/base/hypotest_base.py` and the test
statistics of `/repo/src/spey/hypothesis_testing/test_statistics.py`, now with the calls of the fits where the code makes them: a call
takes a state, may change it, and may raise. The arithmetic is that of `Verif.Stats`. The fits are parameters (`Methods`);
`modelMethods` are those of `StatisticalModel`. The progress bar and log messages are left out.
-/

namespace Verif.Hypotest
open Verif.Py F Verif.Config Verif.Optimizer
open Verif.Interface (MuHat Data Toys Size World Poi)
open Verif.Stats (Expect Calc Levels)
open Classical

/-- Exceptions: those of the fits, of the tests and of the search for a limit, `IndexError`, `KeyError`, `TypeError`. -/
inductive Err
  | call (e : Interface.Err) | stats (e : Stats.Err) | limit (e : UpperLimit.Err) | index | key | type

/-- Code that reads and changes a state and returns or raises. -/
def Comp (σ α : Type) : Type := σ → Except Err α × σ

/-- `c; return a`. -/
def ret {σ α : Type} (a : α) : Comp σ α := fun s => (.ok a, s)

/-- An expression without effect that may raise. -/
def lift {σ α : Type} (r : Except Err α) : Comp σ α := fun s => (r, s)

/-- One statement after the other: an exception ends the call. -/
def andThen {σ α β : Type} (c : Comp σ α) (k : α → Comp σ β) : Comp σ β := fun s =>
  match c s with
  | (.error e, s) => (.error e, s)
  | (.ok a, s) => k a s

instance {σ : Type} : Monad (Comp σ) where
  pure := ret
  bind := andThen

/-- The argument `poi_test`: a `float`, an `int`, an array with one element, a number of numpy that is neither `float` nor `int`
(for instance `np.float32` or `np.int64`), or a dict. -/
inductive Mu
  | float (v : ℝ) | int (n : ℤ) | array (v : ℝ) | scalar (v : ℝ) | dict (l : List (Key × ℝ))

/-- `float(mu) if isinstance(mu, (float, int)) else mu[0]`, hypotest_base.py L799, L806 and L988. -/
def toFloat : Mu → Except Err ℝ
  | .float v => .ok v
  | .int n => .ok n
  | .array v => .ok v
  | .scalar _ => .error .index
  | .dict l =>
    match dictGet (.index 0) l with
    | some v => .ok v
    | none => .error .key

/-- `muhat > mu`. A dict, on either side, cannot be compared. -/
noncomputable def greater : MuHat → Mu → Except Err Bool
  | .one m, .float v => .ok (v < m)
  | .one m, .int n => .ok (n < m)
  | .one m, .array v => .ok (v < m)
  | .one m, .scalar v => .ok (v < m)
  | _, _ => .error .type

/-- `muhat >= 0.0`. -/
noncomputable def notNegative : MuHat → Except Err Bool
  | .one m => .ok (decide (0 ≤ m))
  | .many _ => .error .type

/-- What the methods of the model give, with the keywords `kwargs` of the call: `likelihood(poi_test, expected, data)` and
`asimov_likelihood(poi_test, expected, test_statistics)` are negative logarithms. -/
structure Methods (σ : Type) where
  likelihood : Expect → Option Data → ℝ → Comp σ F
  maximize : Expect → Bool → Option Data → Comp σ (MuHat × F)
  asimovLikelihood : Expect → String → ℝ → Comp σ F
  maximizeAsimov : Expect → String → Comp σ (MuHat × F)
  /-- `fixed_poi_sampler(poi_test, size=self.ntoys, expected)`. -/
  sampler : Expect → Mu → Comp σ Toys
  available : Calc → Bool
  /-- `numpy.percentile`, see `Stats.empiricDist`. -/
  percentile : List F → F → F

/-! ### Test statistics -/

/-- A test statistic `(mu, muhat, max_logpdf, logpdf)`. -/
abbrev Statistic (σ : Type) := Mu → MuHat → F → (Mu → Comp σ F) → Comp σ F

/-- `qmu_tilde`, test_statistics.py L18-57. -/
noncomputable def qmuTilde {σ : Type} : Statistic σ := fun mu muhat maxLogpdf logpdf => do
  let g ← lift (greater muhat mu)
  if g then ret (fin 0)
  else do
    let l ← logpdf mu
    let g ← lift (notNegative muhat)
    let r ← (if g then ret maxLogpdf else logpdf (.float 0))
    ret (clip0 (scale (-2) (sub l r)))

/-- `qmu`, test_statistics.py L60-83. -/
noncomputable def qmu {σ : Type} : Statistic σ := fun mu muhat maxLogpdf logpdf => do
  let g ← lift (greater muhat mu)
  if g then ret (fin 0)
  else do
    let l ← logpdf mu
    ret (clip0 (scale (-2) (sub l maxLogpdf)))

/-- `q0`, test_statistics.py L120-149. -/
noncomputable def q0 {σ : Type} : Statistic σ := fun _ muhat maxLogpdf logpdf => do
  let g ← lift (notNegative muhat)
  if g then do
    let l ← logpdf (.float 0)
    ret (clip0 (scale (-2) (sub l maxLogpdf)))
  else ret (fin 0)

/-- `get_test_statistic`, test_statistics.py L155-200, for the names that the hypothesis tests use: `"q"`, `"qtilde"`, `"q0"`. -/
noncomputable def getTestStatistic {σ : Type} : String → Except Err (Statistic σ)
  | "q" => .ok qmu
  | "qtilde" => .ok qmuTilde
  | "q0" => .ok q0
  | _ => .error (.stats .unknownTestStatistics)

/-- `compute_teststatistics`, test_statistics.py L203-270. -/
noncomputable def computeTeststatistics {σ : Type} (mu : Mu) (best : MuHat × F) (logpdf : Mu → Comp σ F) (bestA : MuHat × F)
    (logpdfA : Mu → Comp σ F) (ts : String) : Comp σ (F × F × F) := do
  let t ← lift (getTestStatistic ts)
  let q ← t mu best.1 (neg best.2) logpdf
  let qA ← t mu bestA.1 (neg bestA.2) logpdfA
  lift ((Stats.shiftOf ts q qA).mapError .stats)

/-! ### hypotest_base.py -/

/-- `logpdf` with data, hypotest_base.py L983-992, and without, L797-802. -/
noncomputable def logpdf {σ : Type} (M : Methods σ) (e : Expect) (data : Option Data) (mu : Mu) : Comp σ F := do
  let v ← lift (toFloat mu)
  let l ← M.likelihood e data v
  ret (neg l)

/-- `logpdf_asimov`, hypotest_base.py L804-810. -/
noncomputable def logpdfAsimov {σ : Type} (M : Methods σ) (e : Expect) (ts : String) (mu : Mu) : Comp σ F := do
  let v ← lift (toFloat mu)
  let l ← M.asimovLikelihood e ts v
  ret (neg l)

/-- What `_prepare_for_hypotest` returns. -/
structure Prepared (σ : Type) where
  best : MuHat × F
  logpdf : Mu → Comp σ F
  bestA : MuHat × F
  logpdfA : Mu → Comp σ F

/-- `_prepare_for_hypotest`, hypotest_base.py L721-812. -/
noncomputable def prepare {σ : Type} (M : Methods σ) (e : Expect) (ts : String) : Comp σ (Prepared σ) := do
  let best ← M.maximize e (Interface.mayBeNegative ts) none
  let bestA ← M.maximizeAsimov e ts
  ret ⟨best, logpdf M e none, bestA, logpdfAsimov M e ts⟩

/-- `try: ... except AsimovTestStatZero`, hypotest_base.py L1019-1041. -/
def orNotExcluded {σ : Type} (c : Comp σ (List F × List F)) : Comp σ (List F × List F) := fun s =>
  match c s with
  | (.error (.stats .asimovTestStatZero), s) => (.ok ([fin 1], List.replicate 5 (fin 1)), s)
  | r => r

/-- Branch `calculator == "asymptotic"`, hypotest_base.py L1007-1041. -/
noncomputable def asymptotic {σ : Type} (M : Methods σ) (mu : Mu) (e : Expect) (ts : String) : Comp σ (List F × List F) := do
  let p ← prepare M e ts
  orNotExcluded do
    let r ← computeTeststatistics mu p.best p.logpdf p.bestA p.logpdfA ts
    ret (Stats.asymptoticLevel r.2.1 r.2.2 ts)

/-- The test statistic of a toy, hypotest_base.py L1061-1069 and L1071-1079. -/
noncomputable def toyStatistic {σ : Type} (M : Methods σ) (t : Statistic σ) (mu : Mu) (e : Expect) (negative : Bool) (d : Data) :
    Comp σ F := do
  let b ← M.maximize e negative (some d)
  t mu b.1 (neg b.2) (logpdf M e (some d))

/-- The loop over `zip(signal_samples, bkg_samples)`, hypotest_base.py L1060-1081. -/
noncomputable def toyLoop {σ : Type} (M : Methods σ) (t : Statistic σ) (mu : Mu) (e : Expect) (negative : Bool) :
    List Data → List Data → Comp σ (List F × List F)
  | s :: ss, b :: bs => do
    let qs ← toyStatistic M t mu e negative s
    let qb ← toyStatistic M t mu e negative b
    let r ← toyLoop M t mu e negative ss bs
    ret (qs :: r.1, qb :: r.2)
  | _, _ => ret ([], [])

/-- The samples as something to iterate over; a function is not iterable. -/
def samples : Toys → Except Err (List Data)
  | .data l => .ok l
  | .function _ => .error .type

/-- Branch `calculator == "toy"`, hypotest_base.py L1004 and L1043-1092. -/
noncomputable def toy {σ : Type} (M : Methods σ) (mu : Mu) (e : Expect) (negative : Bool) (ts : String) : Comp σ (List F × List F) := do
  let t ← lift (getTestStatistic ts)
  let best ← M.maximize e negative none
  let sig ← M.sampler e mu
  let bkg ← M.sampler e (.float 0)
  let ss ← lift (samples sig)
  let bs ← lift (samples bkg)
  let r ← toyLoop M t mu e negative ss bs
  let q ← t mu best.1 (neg best.2) (logpdf M e none)
  let p := Stats.toyLevel M.percentile r.1 r.2 q ts
  ret (p.1.map clip01, p.2.map clip01)

/-- Branch `calculator == "chi_square"`, hypotest_base.py L1004 and L1094-1123. -/
noncomputable def chiSquare {σ : Type} (M : Methods σ) (mu : Mu) (e : Expect) (negative : Bool) (ts : String) :
    Comp σ (List F × List F) := do
  let t ← lift (getTestStatistic ts)
  let best ← M.maximize e negative none
  let q ← t mu best.1 (neg best.2) (logpdf M e none)
  let null ← logpdf M e none (.float 0)
  let ok ← lift (notNegative best.1)
  let q0 := clip0 (scale (-2) (sub null (if ok ∨ ts = "q" then neg best.2 else null)))
  ret (Stats.asymptoticLevel (sqrt q) (Stats.chiShift ts q q0) ts)

/-- The branches on `calculator`, hypotest_base.py L1007, L1043 and L1094. -/
noncomputable def calculate {σ : Type} (M : Methods σ) (mu : Mu) (e : Expect) (negative : Bool) (ts : String) :
    Calc → Comp σ (List F × List F)
  | .asymptotic => asymptotic M mu e ts
  | .toy => toy M mu e negative ts
  | .chiSquare => chiSquare M mu e negative ts

/-- The result, hypotest_base.py L1125-1133. -/
noncomputable def levels (e : Expect) (p : List F × List F) : Levels :=
  match e with
  | .all => .both (p.1.map (sub (fin 1))) (p.2.map (sub (fin 1)))
  | .observed => .one (p.1.map fun x => if isNan x then fin 0 else sub (fin 1) x)
  | _ => .one (p.2.map fun x => if isNan x then fin 0 else sub (fin 1) x)

/-- `exclusion_confidence_level`, hypotest_base.py L903-1133. -/
noncomputable def exclusion {σ : Type} (M : Methods σ) (mu : Mu) (e : Expect) (negative : Bool) (kind : Calc) : Comp σ Levels :=
  if M.available kind then do
    let p ← calculate M mu e negative (if negative then "q" else "qtilde") kind
    ret (levels e p)
  else lift (.error (.stats .calculatorNotAvailable))

/-- `significance`, hypotest_base.py L1135-1197. -/
noncomputable def significance {σ : Type} (M : Methods σ) (e : Expect) : Comp σ (F × F × List F × List F) := do
  let p ← prepare M e "q0"
  let r ← computeTeststatistics (.float 0) p.best p.logpdf p.bestA p.logpdfA "q0"
  let l := Stats.asymptoticLevel r.2.1 r.2.2 "q0"
  ret (r.2.1, r.1, l.1, l.2)

/-! ### The methods of `StatisticalModel` -/

/-- The string `"all"` reaches the backend; the default backends treat everything but `apriori` as `observed`
(`/repo/src/spey/backends/default_pdf/__init__.py` L584-589, L640-646). -/
def expectation : Expect → Backend.Expectation
  | .observed => .observed
  | .aposteriori => .aposteriori
  | .apriori => .apriori
  | .all => .observed

/-- A call of `StatisticalModel`. -/
def ofInterface {α : Type} (c : World → Except Interface.Err α × World) : Comp World α := fun w =>
  ((c w).1.mapError .call, (c w).2)

/-- A negative log-likelihood as a number; `-out` raises for the pair that a custom hook may return. -/
def number : Interface.Out → Except Err F
  | .value v => .ok v
  | .pair _ _ => .error .type

/-- `poi_test` for `fixed_poi_sampler`. Arrays and numbers of numpy are taken as the number. -/
def toPoi : Mu → Poi
  | .float v => .float v
  | .int n => .int n
  | .array v => .float v
  | .scalar v => .float v
  | .dict l => .dict l

/-- The methods of `StatisticalModel` (`/repo/src/spey/interface/statistical_model.py`); `doGrad` and `bounds` are the keywords `do_grad` and
`par_bounds`. `likelihood` is called without `allow_negative_signal`, whose default is `True`. -/
noncomputable def modelMethods (S : Interface.Solver) (B : Interface.Backend) (doGrad : Bool) (bounds : Option (List Bound))
    (ntoys : Size) (available : Calc → Bool) (percentile : List F → F → F) : Methods World where
  likelihood := fun e d v => do
    let o ← ofInterface (Interface.likelihood S B (.float v) (expectation e) true d false true doGrad bounds)
    lift (number o)
  maximize := fun e negative d =>
    ofInterface (Interface.maximize S B true (expectation e) negative d none none doGrad bounds)
  asimovLikelihood := fun e ts v => do
    let o ← ofInterface (Interface.asimovLikelihood S B (.float v) (expectation e) true ts doGrad bounds)
    lift (number o)
  maximizeAsimov := fun e ts => ofInterface (Interface.maximizeAsimov S B true (expectation e) ts none doGrad bounds)
  sampler := fun e mu => ofInterface (Interface.fixedPoiSampler S B (toPoi mu) (expectation e) ntoys doGrad bounds)
  available := available
  percentile := percentile

end Verif.Hypotest
