import Verif.Hypotest.Model
import Verif.UpperLimit.Spec

/-!
# Model of `poi_upper_limit` and `sigma_mu` on top of fits

`poi_upper_limit` and `sigma_mu` of `/repo/src/spey/base/hypotest_base.py` and
`/repo/src/spey/hypothesis_testing/upper_limits.py`, with the calls of the fits where the code makes them: every value that the
search asks for is a call that may raise or change the state. Loops take the number of steps they may still do and give `none` when it is
used up, as in `Verif.UpperLimit`. Log messages are left out. Signal strengths in the search are floats.
-/

namespace Verif.Hypotest
open Verif.Py F Verif.Config Verif.Optimizer
open Verif.Interface (MuHat World)
open Verif.Stats (Expect Calc Levels)
open Verif.UpperLimit (Trace Expected Band Limit sameSign)
open Classical

/-- The root finder asks for values of the function, one after the other, and ends with a result or an exception. That it ends after finitely
many values is what `maxiter` is for (upper_limits.py L238). -/
inductive Search
  | stop (r : Except UpperLimit.Err ℝ)
  | eval (x : ℝ) (next : F → Search)

/-- The root finder working on code that may raise: the exception ends the search. -/
def Search.run {σ : Type} (f : ℝ → Comp σ F) : Search → Comp σ ℝ
  | .stop r => lift (r.mapError .limit)
  | .eval x next => do
    let y ← f x
    (next y).run f

/-- `scipy.optimize.toms748(f, a, b, ...)`, upper_limits.py L230-239: what it asks for, given the interval. -/
abbrev Finder := ℝ → ℝ → Search

/-- The first loop of `find_root_limits`, upper_limits.py L91-93, with `loc = 0`. -/
noncomputable def lowLoop {σ : Type} (f : ℝ → Comp σ F) (bound : ℝ) : ℕ → Trace → ℝ → Comp σ (Option Trace)
  | 0, _, _ => ret none
  | n + 1, t, low => do
    let y ← f low
    if lt (fin 0) y ∧ bound < low then lowLoop f bound n ((low, y) :: t) (max (low * 0.2) bound)
    else ret (some ((low, y) :: t))

/-- The second loop, upper_limits.py L96-98. -/
noncomputable def highLoop {σ : Type} (f : ℝ → Comp σ F) (bound : ℝ) : ℕ → Trace → ℝ → Comp σ (Option Trace)
  | 0, _, _ => ret none
  | n + 1, t, hig => do
    let y ← f hig
    if lt y (fin 0) ∧ hig < bound then highLoop f bound n ((hig, y) :: t) (min (hig * 5) bound)
    else ret (some ((hig, y) :: t))

/-- `np.sign(low[-1]) * np.sign(hig[-1]) > 0.0` and the root finder, upper_limits.py L219-244. -/
noncomputable def solveIn {σ : Type} (T : Finder) (f : ℝ → Comp σ F) (low hig : Trace) : Comp σ (Option F) :=
  match low.head?, hig.head? with
  | some (a, fa), some (b, fb) =>
    if sameSign fa fb then ret (some pinf)
    else do
      let r ← (T a b).run f
      ret (some (fin r))
  | _, _ => ret none

/-- The body of the loop over `pvalue_idx`, upper_limits.py L209-244. -/
noncomputable def limitAt {σ : Type} (fuel : ℕ) (T : Finder) (f : ℝ → Comp σ F) (lowInit higInit : ℝ) : Comp σ (Option F) := do
  let low ← lowLoop f 1e-10 fuel [] lowInit
  match low with
  | none => ret none
  | some low => do
    let hig ← highLoop f 1e5 fuel [] higInit
    match hig with
    | none => ret none
    | some hig => solveIn T f low hig

/-- The loop over `pvalue_idx`, upper_limits.py L208-244. -/
noncomputable def limitsAt {σ : Type} (fuel : ℕ) (T : Finder) (f : ℕ → ℝ → Comp σ F) (lowInit higInit : ℝ) :
    List ℕ → Comp σ (Option (List F))
  | [] => ret (some [])
  | i :: is => do
    let x ← limitAt fuel T (f i) lowInit higInit
    match x with
    | none => ret none
    | some x => do
      let xs ← limitsAt fuel T f lowInit higInit is
      ret (xs.map (x :: ·))

/-- `except AsimovTestStatZero`, upper_limits.py L197-199. -/
def orZero {σ : Type} (e : Expected) (c : Comp σ (List F)) : Comp σ (List F) := fun s =>
  match c s with
  | (.error (.stats .asimovTestStatZero), s) => (.ok (if e = .observed then [fin 0] else List.replicate 5 (fin 0)), s)
  | r => r

/-- `[1.0 - x for x in compute_asymptotic_confidence_level(...)[0 if expected == ExpectationType.observed else 1]]`, upper_limits.py L191-196. -/
noncomputable def pvalue {σ : Type} (p : Prepared σ) (e : Expected) (poi : ℝ) : Comp σ (List F) := do
  let r ← computeTeststatistics (.float poi) p.best p.logpdf p.bestA p.logpdfA "qtilde"
  let l := Stats.asymptoticLevel r.2.1 r.2.2 "qtilde"
  ret ((if e = .observed then l.1 else l.2).map (sub (fin 1)))

/-- `computer`, upper_limits.py L180-200. -/
noncomputable def computer {σ : Type} (p : Prepared σ) (e : Expected) (CL : ℝ) (idx : ℕ) (poi : ℝ) : Comp σ F := do
  let l ← orZero e (pvalue p e poi)
  match l[idx]? with
  | some x => ret (sub x (fin CL))
  | none => lift (.error .index)

/-- `find_poi_upper_limit`, upper_limits.py L104-245, with `allow_negative_signal=False`. -/
noncomputable def findLimit {σ : Type} (fuel : ℕ) (T : Finder) (p : Prepared σ) (e : Expected) (CL low hig : ℝ) (band : Band) :
    Comp σ (Option Limit) :=
  if band = .unknown then lift (.error (.limit .assertion))
  else do
    let l ← limitsAt fuel T (computer p e CL) low hig (UpperLimit.indexRange e (if e = .observed then .nominal else band))
    ret (l.map UpperLimit.pack)

/-- The best fit as it is used for the starting points, hypotest_base.py L1306: a dict cannot be compared. -/
noncomputable def positivePart : MuHat → Except Err ℝ
  | .one m => .ok (if 0 < m then m else 0)
  | .many _ => .error .type

/-- The starting points, hypotest_base.py L1305-1313; `sigma` is `self.sigma_mu(·, expected=expected)`. With a `sigma_mu` that is not finite the code
goes on with a starting point that is nan or infinite; then it raises or returns infinity, depending on the likelihood there; the model
raises. -/
noncomputable def starts {σ : Type} (sigma : ℝ → Comp σ F) (muhat : MuHat) (low hig : Option ℝ) : Comp σ (ℝ × ℝ) :=
  match low, hig with
  | some l, some h => ret (l, h)
  | l, h => do
    let m ← lift (positivePart muhat)
    let s ← (if |m| ≤ 1e-8 then ret (fin 1) else sigma m)
    match s with
    | fin s => ret (max (UpperLimit.orElse l (m + 1.5 * s)) 1e-10, max (UpperLimit.orElse h (m + 2.5 * s)) 1e-10)
    | _ => lift (.error (.limit .rootFinder))

/-- `poi_upper_limit`, hypotest_base.py L1199-1328. `M` are the methods with the given `optimiser_arguments`, `sigma` is `sigma_mu` without any
(L1308). -/
noncomputable def poiUpperLimit {σ : Type} (fuel : ℕ) (T : Finder) (M : Methods σ) (sigma : Expect → ℝ → Comp σ F) (alive : Bool)
    (e : Expected) (CL : ℝ) (low hig : Option ℝ) (band : Band) : Comp σ (Option Limit) :=
  if 0 ≤ CL ∧ CL ≤ 1 then
    if alive then do
      let p ← prepare M e.toExpect "qtilde"
      let s ← starts (sigma e.toExpect) p.best.1 low hig
      findLimit fuel T p e CL s.1 s.2 (if e = .observed then .nominal else band)
    else lift (((UpperLimit.deadLimit (if e = .observed then .nominal else band)).map some).mapError .limit)
  else lift (.error (.limit .assertion))

/-! ### sigma_mu -/

/-- `mu if isinstance(mu, float) else mu[0]`, hypotest_base.py L892: unlike in the tests (`toFloat`), `int` is not accepted. -/
def toFloatOnly : Mu → Except Err ℝ
  | .float v => .ok v
  | .int _ => .error .type
  | .array v => .ok v
  | .scalar _ => .error .index
  | .dict l =>
    match dictGet (.index 0) l with
    | some v => .ok v
    | none => .error .key

/-- `np.true_divide(poi_test, ·)` needs a number. -/
def numberOf : Mu → Except Err ℝ
  | .float v => .ok v
  | .int n => .ok n
  | .array v => .ok v
  | .scalar v => .ok v
  | .dict _ => .error .type

/-- `if hasattr(self, "sigma_mu_from_hessian"): try: return ... except MethodNotAvailable`, hypotest_base.py L873-882. `none`: there is no such
method. -/
def hessianOr {σ : Type} (hess : Option (Comp σ F)) (c : Comp σ F) : Comp σ F := fun s =>
  match hess with
  | none => c s
  | some h =>
    match h s with
    | (.error (.call .method), s) => c s
    | r => r

/-- The rest of `sigma_mu`, hypotest_base.py L883-900. -/
noncomputable def sigmaAsimov {σ : Type} (M : Methods σ) (mu : Mu) (e : Expect) (ts : String) : Comp σ F := do
  let t ← lift (getTestStatistic ts)
  let b ← M.maximizeAsimov e ts
  let q ← t mu b.1 (neg b.2) fun x => do
    let v ← lift (toFloatOnly x)
    let l ← M.asimovLikelihood e ts v
    ret (neg l)
  if le q (fin 0) then ret (fin 1)
  else do
    let v ← lift (numberOf mu)
    ret (div (fin v) (sqrt q))

/-- `sigma_mu`, hypotest_base.py L814-900. -/
noncomputable def sigmaMu {σ : Type} (M : Methods σ) (hess : Option (Mu → Expect → Comp σ F)) (mu : Mu) (e : Expect) (ts : String) : Comp σ F :=
  hessianOr (hess.map fun h => h mu e) (sigmaAsimov M mu e ts)

/-- `sigma_mu_from_hessian` of `StatisticalModel`, `/repo/src/spey/interface/statistical_model.py` L1179-1238. -/
noncomputable def modelHessian (S : Interface.Solver) (inv : List (List ℝ) → Except Interface.Err (List (List ℝ))) (B : Interface.Backend)
    (doGrad : Bool) (bounds : Option (List Bound)) (mu : Mu) (e : Expect) : Comp World F :=
  ofInterface (Interface.sigmaMuFromHessian S inv B (toPoi mu) (expectation e) doGrad bounds)

/-- `sigma_mu` as `poi_upper_limit` calls it, for a model: `/repo/src/spey/base/hypotest_base.py` L814-900 with the default test statistic. -/
noncomputable def modelSigma (S : Interface.Solver) (inv : List (List ℝ) → Except Interface.Err (List (List ℝ))) (B : Interface.Backend) (doGrad : Bool)
    (ntoys : Interface.Size) (available : Calc → Bool) (percentile : List F → F → F) : Expect → ℝ → Comp World F := fun e m =>
  sigmaMu (modelMethods S B doGrad none ntoys available percentile) (some (modelHessian S inv B doGrad none)) (.float m) e "qtilde"

end Verif.Hypotest
