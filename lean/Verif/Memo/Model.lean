import Verif.Cache.Model
import Verif.Hypotest.Limit

/-!
# Model of `StatisticalModel` with its caches

Three methods of `/repo/src/spey/interface/statistical_model.py` are decorated with
`cache_results(maxsize=128, copy_on_return=True, per_instance=True)`: `generate_asimov_data` (L575), `maximize_likelihood` (L807) and
`maximize_asimov_likelihood` (L960). Here the wrapper of `/repo/src/spey/system/cache.py` (`Verif.Cache`) is put around the methods of `Verif.Interface`,
and the tests of `Verif.Hypotest` run on top. One thread. The keys are a parameter, see `Keys`. `copy.deepcopy` of results is left out: values do not change
here. The arguments `init_pars` and `constraints` are left out.
-/

namespace Verif.Memo
open Verif.Py F Verif.Config Verif.Optimizer
open Verif.Hypotest (Comp Err Methods Mu ret lift number toPoi expectation)
open Verif.Interface (MuHat Data Toys Size World Poi Out Solver)
open Verif.Stats (Expect Calc)

/-- The arguments of `generate_asimov_data`. -/
structure AsimovCall where
  expected : Backend.Expectation
  ts : String
  doGrad : Bool
  bounds : Option (List Bound)

/-- The arguments of `maximize_likelihood`. -/
structure FitCall where
  returnNll : Bool
  expected : Backend.Expectation
  negative : Bool
  data : Option Data
  keys : Option (List Key)
  fixed : Option Poi
  doGrad : Bool
  bounds : Option (List Bound)

/-- The arguments of `maximize_asimov_likelihood`. -/
structure AsimovFitCall where
  returnNll : Bool
  expected : Backend.Expectation
  ts : String
  keys : Option (List Key)
  doGrad : Bool
  bounds : Option (List Bound)

/-- `_build_key`, cache.py L250-258, as a parameter (its model is `Verif.CacheKey`). The number stands for the way in which the same arguments are written: positions or keywords, lists
or arrays, defaults written out or not; the key may depend on it. -/
structure Keys (K : Type) where
  asimov : ℕ → AsimovCall → K
  fit : ℕ → FitCall → K
  asimovFit : ℕ → AsimovFitCall → K

/-- The variables `cache`, `events` and `order` of the three wrappers of one object, cache.py L243-246. -/
structure Store (K : Type) where
  asimov : Cache.Shared K Data := {}
  fit : Cache.Shared K (MuHat × F) := {}
  asimovFit : Cache.Shared K (MuHat × F) := {}

/-- The shared lists (`World`) and the caches of the object. -/
abbrev State (K : Type) := World × Store K

/-- The variables of one wrapper in the store. -/
structure Slot (K V : Type) where
  get : Store K → Cache.Shared K V
  put : Store K → Cache.Shared K V → Store K

def asimovSlot {K : Type} : Slot K Data := ⟨Store.asimov, fun s c => { s with asimov := c }⟩
def fitSlot {K : Type} : Slot K (MuHat × F) := ⟨Store.fit, fun s c => { s with fit := c }⟩
def asimovFitSlot {K : Type} : Slot K (MuHat × F) := ⟨Store.asimovFit, fun s c => { s with asimovFit := c }⟩

/-- `KeyError`, `IndexError`, and `ValueError` (for which the tests have no exception of their own). -/
def internal : Cache.Internal → Hypotest.Err
  | .keyError => .key
  | .indexError => .index
  | .valueError => .type

variable {K : Type} [DecidableEq K]

/-- The wrapper, cache.py L248-303, used by one thread. A wait, which for one thread would not end, is an exception here. -/
def wrapper {V : Type} (slot : Slot K V) (k : K) (f : Comp (State K) V) : Comp (State K) V := fun s =>
  match Cache.enter (slot.get s.2) k with
  | (c, .hit v) => (.ok v, (s.1, slot.put s.2 c))
  | (c, .wait _) => (.error .type, (s.1, slot.put s.2 c))
  | (c, .keyError) => (.error .key, (s.1, slot.put s.2 c))
  | (c, .compute) =>
    match f (s.1, slot.put s.2 c) with
    | (.ok v, s) =>
      match Cache.store (some 128) (slot.get s.2) k v with
      | (c, e, none) => (.ok v, (s.1, slot.put s.2 (Cache.signalEv c e)))
      | (c, _, some i) => (.error (internal i), (s.1, slot.put s.2 c))
    | (.error err, s) =>
      match Cache.abort (slot.get s.2) k with
      | (c, e, none) => (.error err, (s.1, slot.put s.2 (Cache.signalEv c e)))
      | (c, _, some i) => (.error (internal i), (s.1, slot.put s.2 c))

/-- A call that does not use the caches. -/
def onWorld {α : Type} (c : World → Except Interface.Err α × World) : Comp (State K) α := fun s =>
  ((c s.1).1.mapError .call, ((c s.1).2, s.2))

/-- `generate_asimov_data`, statistical_model.py L575-655, with its cache. -/
noncomputable def generate (key : Keys K) (S : Solver) (B : Interface.Backend) (i : ℕ) (c : AsimovCall) : Comp (State K) Data :=
  wrapper asimovSlot (key.asimov i c) (onWorld (Interface.generateAsimov S B c.expected c.ts c.doGrad c.bounds))

/-- `maximize_likelihood`, statistical_model.py L807-958, with its cache. -/
noncomputable def maximize (key : Keys K) (S : Solver) (B : Interface.Backend) (i : ℕ) (c : FitCall) : Comp (State K) (MuHat × F) :=
  wrapper fitSlot (key.fit i c) (onWorld (Interface.maximize S B c.returnNll c.expected c.negative c.data c.keys c.fixed c.doGrad c.bounds))

/-- The body of `maximize_asimov_likelihood`, statistical_model.py L1077-1109: the calls of the other methods go through their caches. -/
noncomputable def asimovFit (key : Keys K) (S : Solver) (B : Interface.Backend) (c : AsimovFitCall) : Comp (State K) (MuHat × F) :=
  match B.minAsimovNegLL c.expected c.ts c.keys with
  | .ok out => ret out
  | .error .notImplemented => do
    let d ← generate key S B 0 ⟨c.expected, c.ts, c.doGrad, c.bounds⟩
    maximize key S B 0 ⟨c.returnNll, c.expected, Interface.mayBeNegative c.ts, some d, c.keys, none, c.doGrad, c.bounds⟩
  | .error err => lift (.error (.call err))

/-- `maximize_asimov_likelihood`, statistical_model.py L960-1109, with its cache. -/
noncomputable def maximizeAsimov (key : Keys K) (S : Solver) (B : Interface.Backend) (i : ℕ) (c : AsimovFitCall) : Comp (State K) (MuHat × F) :=
  wrapper asimovFitSlot (key.asimovFit i c) (asimovFit key S B c)

/-- `asimov_likelihood`, statistical_model.py L657-805, which has no cache, with the cache of `generate_asimov_data`. -/
noncomputable def asimovLikelihood (key : Keys K) (S : Solver) (B : Interface.Backend) (poi : Poi) (e : Backend.Expectation) (returnNll : Bool) (ts : String)
    (doGrad : Bool) (bounds : Option (List Bound)) : Comp (State K) Out :=
  match B.asimovNegLL poi e ts with
  | .ok out => ret out
  | .error .notImplemented => do
    let d ← generate key S B 0 ⟨e, ts, doGrad, bounds⟩
    onWorld (Interface.likelihood S B poi e returnNll (some d) false true doGrad bounds)
  | .error err => lift (.error (.call err))

/-- The methods of `StatisticalModel` as the tests use them, see `Hypotest.modelMethods`, with the caches. -/
noncomputable def memoMethods (key : Keys K) (S : Solver) (B : Interface.Backend) (doGrad : Bool) (bounds : Option (List Bound)) (ntoys : Size) (available : Calc → Bool)
    (percentile : List F → F → F) : Methods (State K) where
  likelihood := fun e d v => do
    let o ← onWorld (Interface.likelihood S B (.float v) (expectation e) true d false true doGrad bounds)
    lift (number o)
  maximize := fun e negative d => maximize key S B 1 ⟨true, expectation e, negative, d, none, none, doGrad, bounds⟩
  asimovLikelihood := fun e ts v => do
    let o ← asimovLikelihood key S B (.float v) (expectation e) true ts doGrad bounds
    lift (number o)
  maximizeAsimov := fun e ts => maximizeAsimov key S B 1 ⟨true, expectation e, ts, none, doGrad, bounds⟩
  sampler := fun e mu => onWorld (Interface.fixedPoiSampler S B (toPoi mu) (expectation e) ntoys doGrad bounds)
  available := available
  percentile := percentile

/-- `sigma_mu` as `poi_upper_limit` calls it, see `Hypotest.modelSigma`, with the caches. -/
noncomputable def memoSigma (key : Keys K) (S : Solver) (inv : List (List ℝ) → Except Interface.Err (List (List ℝ))) (B : Interface.Backend) (doGrad : Bool)
    (ntoys : Size) (available : Calc → Bool) (percentile : List F → F → F) : Expect → ℝ → Comp (State K) F := fun e m =>
  Hypotest.sigmaMu (memoMethods key S B doGrad none ntoys available percentile)
    (some fun mu e => onWorld (Interface.sigmaMuFromHessian S inv B (toPoi mu) (expectation e) doGrad none)) (.float m) e "qtilde"

/-! ### Histories -/

/-- What a user can ask a model for: the methods above, and `cache_clear()` of the three caches (cache.py L305-310). -/
inductive Request
  | generate (i : ℕ) (c : AsimovCall)
  | maximize (i : ℕ) (c : FitCall)
  | maximizeAsimov (i : ℕ) (c : AsimovFitCall)
  | likelihood (poi : Poi) (e : Backend.Expectation) (returnNll : Bool) (data : Option Data) (returnPars negative doGrad : Bool) (bounds : Option (List Bound))
  | asimovLikelihood (poi : Poi) (e : Backend.Expectation) (returnNll : Bool) (ts : String) (doGrad : Bool) (bounds : Option (List Bound))
  | sample (poi : Poi) (e : Backend.Expectation) (size : Size) (doGrad : Bool) (bounds : Option (List Bound))
  | hessian (inv : List (List ℝ) → Except Interface.Err (List (List ℝ))) (poi : Poi) (e : Backend.Expectation) (doGrad : Bool) (bounds : Option (List Bound))
  | clearGenerate | clearMaximize | clearMaximizeAsimov

/-- The state after a request, whether it returned or raised. -/
noncomputable def perform (key : Keys K) (S : Solver) (B : Interface.Backend) (s : State K) : Request → State K
  | .generate i c => (generate key S B i c s).2
  | .maximize i c => (maximize key S B i c s).2
  | .maximizeAsimov i c => (maximizeAsimov key S B i c s).2
  | .likelihood poi e rn d rp n g b => (onWorld (Interface.likelihood S B poi e rn d rp n g b) s).2
  | .asimovLikelihood poi e rn ts g b => (asimovLikelihood key S B poi e rn ts g b s).2
  | .sample poi e size g b => (onWorld (Interface.fixedPoiSampler S B poi e size g b) s).2
  | .hessian inv poi e g b => (onWorld (Interface.sigmaMuFromHessian S inv B poi e g b) s).2
  | .clearGenerate => (s.1, asimovSlot.put s.2 (Cache.clear (asimovSlot.get s.2)))
  | .clearMaximize => (s.1, fitSlot.put s.2 (Cache.clear (fitSlot.get s.2)))
  | .clearMaximizeAsimov => (s.1, asimovFitSlot.put s.2 (Cache.clear (asimovFitSlot.get s.2)))

/-- The state after a history of requests to a new model (with empty caches). -/
noncomputable def after (key : Keys K) (S : Solver) (B : Interface.Backend) (w : World) (l : List Request) : State K :=
  l.foldl (perform key S B) (w, {})

end Verif.Memo
