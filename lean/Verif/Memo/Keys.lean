import Verif.Memo.Spec
import Verif.CacheKey.Spec

/-!
# Model of the keys of the cached methods

`_build_key` (`Verif.CacheKey`) on the signatures of the three cached methods of `/repo/src/spey/interface/statistical_model.py`, as keys of the caches of `Verif.Memo.Model`.
-/

namespace Verif.Memo
open Verif.Py Verif.Config
open Verif.Interface (Poi Data)
open Verif.CacheKey (V T Sig Call DKey)

/-- Members of `ExpectationType` (`/repo/src/spey/utils.py` L8-58): equality and hash are those of the name, so that as part of a key a member is its name. -/
def member : Backend.Expectation → String
  | .observed => "observed"
  | .apriori => "apriori"
  | .aposteriori => "aposteriori"

/-- The signature of `generate_asimov_data`, statistical_model.py L576-583. -/
def asimovSig : Sig := ⟨[⟨"expected", some (.str "observed")⟩, ⟨"test_statistic", some (.str "qtilde")⟩, ⟨"init_pars", some .none⟩, ⟨"par_bounds", some .none⟩], some "kwargs"⟩

/-- The signature of `maximize_likelihood`, statistical_model.py L808-818. -/
def fitSig : Sig := ⟨[⟨"return_nll", some (.bool true)⟩, ⟨"expected", some (.str "observed")⟩, ⟨"allow_negative_signal", some (.bool true)⟩, ⟨"data", some .none⟩, ⟨"init_pars", some .none⟩,
  ⟨"par_bounds", some .none⟩, ⟨"poi_indices", some .none⟩], some "kwargs"⟩

/-- The signature of `maximize_asimov_likelihood`, statistical_model.py L961-970. -/
def asimovFitSig : Sig := ⟨[⟨"return_nll", some (.bool true)⟩, ⟨"expected", some (.str "observed")⟩, ⟨"test_statistics", some (.str "qtilde")⟩, ⟨"init_pars", some .none⟩,
  ⟨"par_bounds", some .none⟩, ⟨"poi_indices", some .none⟩], some "kwargs"⟩

/-! ### How arguments are written -/

/-- `True`, `1` or `1.0`. -/
def IsBool (v : V) (b : Bool) : Prop := v.numVal = some (if b then 1 else 0)

/-- An integer or a float. -/
def IsNum (v : V) (x : ℝ) : Prop := v.numVal = some x

/-- A float; every nan is an object of its own. -/
def IsFloat (v : V) : F → Prop
  | .fin x => IsNum v x
  | .pinf => v = .inf false
  | .ninf => v = .inf true
  | .nan => ∃ i, v = .object i

/-- A list or a tuple. -/
def IsSeq {α : Type} (R : V → α → Prop) (v : V) (l : List α) : Prop := ∃ vs, (v = .list vs ∨ v = .tuple vs) ∧ List.Forall₂ R vs l

/-- `None` or a value. -/
def IsOpt {α : Type} (R : V → α → Prop) (v : V) : Option α → Prop
  | none => v = .none
  | some x => R v x

/-- The pair of a lower and an upper bound, as list or tuple. -/
def IsBound (v : V) (b : Bound) : Prop := ∃ x y, (v = .list [x, y] ∨ v = .tuple [x, y]) ∧ IsOpt IsFloat x b.1 ∧ IsOpt IsFloat y b.2

/-- Data: a list or tuple of numbers, or an array of any type of numbers. -/
def IsData (v : V) (d : Data) : Prop := IsSeq IsNum v d ∨ ∃ dtype, v = .array [d.length] dtype d

/-- An index or a name. -/
def IsKey (v : V) : Key → Prop
  | .index n => IsNum v n
  | .name s => v = .str s

/-- The same as key of a dictionary. -/
def dkey : Key → DKey
  | .index n => Sum.inlₗ n
  | .name s => Sum.inrₗ s

/-- The value of `fixed_poi_value`. -/
def IsPoi (v : V) : Poi → Prop
  | .float x => IsNum v x
  | .int n => IsNum v n
  | .dict l => ∃ items, v = .dict items ∧ List.Forall₂ (fun p (q : Key × ℝ) => p.1 = dkey q.1 ∧ IsNum p.2 q.2) items l

/-- `d.get(k)`. -/
def dget (k : DKey) : List (DKey × V) → Option V
  | [] => none
  | (k', v) :: l => if k = k' then some v else dget k l

/-- The extra keywords: `do_grad`, true if it is not given (statistical_model.py L408), and `fixed_poi_value`. Others (options of the minimisers, `constraints`) are left out in `Verif.Memo`. -/
def IsExtra (v : V) (doGrad : Bool) (fixed : Option Poi) : Prop :=
  ∃ items, v = .dict items ∧ (items.map Prod.fst).Nodup ∧
    (match dget (Sum.inrₗ "do_grad") items with
      | none => doGrad = true
      | some v => IsBool v doGrad) ∧
    match dget (Sum.inrₗ "fixed_poi_value") items with
      | none => fixed = none
      | some v => ∃ p, fixed = some p ∧ IsPoi v p

/-- The Python call `call` of `generate_asimov_data` passes the arguments `c`. -/
def WritesAsimov (call : Call) (c : AsimovCall) : Prop := call.Ok ∧
  ∃ bounds extra, CacheKey.bind asimovSig call = some [("expected", .str (member c.expected)), ("test_statistic", .str c.ts), ("init_pars", .none), ("par_bounds", bounds), ("kwargs", extra)] ∧
    IsOpt (IsSeq IsBound) bounds c.bounds ∧ IsExtra extra c.doGrad none

/-- The Python call `call` of `maximize_likelihood` passes the arguments `c`. -/
def WritesFit (call : Call) (c : FitCall) : Prop := call.Ok ∧
  ∃ nll negative data bounds keys extra, CacheKey.bind fitSig call = some [("return_nll", nll), ("expected", .str (member c.expected)), ("allow_negative_signal", negative), ("data", data),
      ("init_pars", .none), ("par_bounds", bounds), ("poi_indices", keys), ("kwargs", extra)] ∧
    IsBool nll c.returnNll ∧ IsBool negative c.negative ∧ IsOpt IsData data c.data ∧ IsOpt (IsSeq IsBound) bounds c.bounds ∧ IsOpt (IsSeq IsKey) keys c.keys ∧
    IsExtra extra c.doGrad c.fixed

/-- The Python call `call` of `maximize_asimov_likelihood` passes the arguments `c`. -/
def WritesAsimovFit (call : Call) (c : AsimovFitCall) : Prop := call.Ok ∧
  ∃ nll bounds keys extra, CacheKey.bind asimovFitSig call = some [("return_nll", nll), ("expected", .str (member c.expected)), ("test_statistics", .str c.ts),
      ("init_pars", .none), ("par_bounds", bounds), ("poi_indices", keys), ("kwargs", extra)] ∧
    IsBool nll c.returnNll ∧ IsOpt (IsSeq IsBound) bounds c.bounds ∧ IsOpt (IsSeq IsKey) keys c.keys ∧ IsExtra extra c.doGrad none

/-- Calls of `maximize_likelihood` whose `fixed_poi_value` is not a dictionary with several entries. -/
def Simple (c : FitCall) : Prop := ∀ l, c.fixed = some (.dict l) → l.length ≤ 1

/-- Ways of writing all calls, numbered as in `Keys`. -/
structure Spelling where
  asimov : ℕ → AsimovCall → Call
  fit : ℕ → FitCall → Call
  asimovFit : ℕ → AsimovFitCall → Call
  asimov_writes : ∀ i c, WritesAsimov (asimov i c) c
  fit_writes : ∀ i c, Simple c → WritesFit (fit i c) c
  asimovFit_writes : ∀ i c, WritesAsimovFit (asimovFit i c) c

/-- The keys of the code, cache.py L250-258, for calls written in these ways. -/
noncomputable def codeKeys (H : List ℝ → List ℝ) (p : Spelling) : Keys T :=
  ⟨fun i c => CacheKey.callKey H asimovSig (p.asimov i c), fun i c => CacheKey.callKey H fitSig (p.fit i c), fun i c => CacheKey.callKey H asimovFitSig (p.asimovFit i c)⟩

end Verif.Memo
