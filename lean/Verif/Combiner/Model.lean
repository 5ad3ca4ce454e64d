import Verif.Py.Arith
import Verif.Py.Seq
import Verif.Optimizer.Model

/-!
# Model of the combination of uncorrelated analyses

`UnCorrStatisticsCombiner`, `/repo/src/spey/combiner/uncorrelated_statistics_combiner.py`. Statistical models are objects with
an identity (a number) and a changeable attribute `analysis`; combinations are objects with a list of references. What a model
computes is a parameter.
-/

namespace Verif.Combiner
open Verif.Py F
open Classical

/-- Exceptions: `AnalysisQueryError`, `TypeError`, `ValueError`, `IndexError`, `NegativeExpectedYields` and any other exception
of a statistical model. -/
inductive Err
  | query | type | value | index | negativeYields | other
  deriving DecidableEq

/-! ### The list of models -/

/-- A Python object handed to the combination: a statistical model, a combination, or something else. -/
inductive Obj
  | model (m : ℕ) | combiner (c : ℕ) | other
  deriving DecidableEq

/-- All objects: `name m` is the attribute `analysis` of model `m`, `lists[c]` the list `_statistical_models` of combination
`c`. -/
structure Heap where
  name : ℕ → String
  lists : List (List ℕ)

/-- `append`, L175-193, on the list itself. -/
def appendTo (name : ℕ → String) (stack : List ℕ) : Obj → Except Err (List ℕ)
  | .model m => if name m ∈ stack.map name then .error .query else .ok (stack ++ [m])
  | _ => .error .type

/-- `__init__`, L169-173: the arguments are appended one after another. -/
def appendAll (name : ℕ → String) : List ℕ → List Obj → Except Err (List ℕ)
  | stack, [] => .ok stack
  | stack, o :: l =>
    match appendTo name stack o with
    | .error e => .error e
    | .ok stack' => appendAll name stack' l

/-- `remove`, L195-210: the first model of that name is taken out. -/
def removeFrom (name : ℕ → String) (a : String) : List ℕ → Except Err (List ℕ)
  | [] => .error .query
  | m :: l => if name m = a then .ok l else (removeFrom name a l).map (fun l' => m :: l')

/-- `__matmul__`, L912-951: the list of the new combination. -/
def combine (h : Heap) (stack : List ℕ) (o : Obj) : Except Err (List ℕ) :=
  match appendAll h.name [] (stack.map .model) with
  | .error e => .error e
  | .ok new =>
    match o with
    | .model m => appendTo h.name new (.model m)
    | .combiner c =>
      match h.lists[c]? with
      | some l => appendAll h.name new (l.map .model)
      | none => .error .value
    | .other => .error .value

/-- What a user can do: create a combination, append, remove, combine with `@`, and assign to the attribute `analysis` of a
model (statistical_model.py L160-166: a plain slot). -/
inductive Op
  | new (args : List Obj)
  | append (c : ℕ) (o : Obj)
  | remove (c : ℕ) (a : String)
  | matmul (c : ℕ) (o : Obj)
  | rename (m : ℕ) (a : String)

/-- The new list of combination `c`, or the exception. -/
def Heap.put (h : Heap) (c : ℕ) (r : Except Err (List ℕ)) : Heap × Except Err Unit :=
  match r with
  | .error e => (h, .error e)
  | .ok l => ({ h with lists := h.lists.set c l }, .ok ())

/-- A new combination, or the exception. -/
def Heap.create (h : Heap) (r : Except Err (List ℕ)) : Heap × Except Err Unit :=
  match r with
  | .error e => (h, .error e)
  | .ok l => ({ h with lists := h.lists ++ [l] }, .ok ())

/-- One operation; operations on combinations that do not exist do nothing. -/
def step (h : Heap) : Op → Heap × Except Err Unit
  | .new args => h.create (appendAll h.name [] args)
  | .append c o =>
    match h.lists[c]? with
    | none => (h, .ok ())
    | some s => h.put c (appendTo h.name s o)
  | .remove c a =>
    match h.lists[c]? with
    | none => (h, .ok ())
    | some s => h.put c (removeFrom h.name a s)
  | .matmul c o =>
    match h.lists[c]? with
    | none => (h, .ok ())
    | some s => h.create (combine h s o)
  | .rename m a => ({ h with name := Function.update h.name m a }, .ok ())

/-- A history of operations. -/
def run (h : Heap) : List Op → Heap
  | [] => h
  | o :: l => run (step h o).1 l

/-! ### Lookup -/

/-- A key: a Python `int`, a numpy integer, a slice without step, a string. -/
inductive Key
  | int (i : ℤ) | npInt (i : ℤ) | slice (start stop : Option ℤ) | name (a : String)

/-- What `__getitem__` returns: one model or a tuple. -/
inductive Found
  | one (m : ℕ) | tuple (l : List ℕ)
  deriving DecidableEq

/-- A slice bound as a position: negative values count from the end, and the result is kept within the list. -/
def clampSlice (n : ℕ) (i : ℤ) : ℕ := if 0 ≤ i then min i.toNat n else (i + n).toNat

/-- The first model with the given name, L330-332. -/
def findName (name : ℕ → String) (a : String) : List ℕ → Except Err ℕ
  | [] => .error .query
  | m :: l => if name m = a then .ok m else findName name a l

/-- `__getitem__`, L305-333. A numpy integer is neither an `int` nor a `slice`; it is compared with the names and differs from
every string. -/
def getItem (name : ℕ → String) (stack : List ℕ) : Key → Except Err Found
  | .int i =>
    if i < stack.length then
      match slot stack.length i with
      | some k =>
        match stack[k]? with
        | some m => .ok (.one m)
        | none => .error .index
      | none => .error .index
    else .error .query
  | .slice a b =>
    let lo := (a.map (clampSlice stack.length)).getD 0
    let hi := (b.map (clampSlice stack.length)).getD stack.length
    .ok (.tuple ((stack.take hi).drop lo))
  | .name a => (findName name a stack).map .one
  | .npInt _ => .error .query

/-- `np.argmin` for a non-empty list: the first position of the smallest value, or of the first nan. The accumulator is the
best value so far and its position. -/
noncomputable def argminFrom : F → ℕ → ℕ → List F → ℕ
  | _, k, _, [] => k
  | best, k, i, x :: l =>
    if ¬ isNan best ∧ (isNan x ∨ lt x best) then argminFrom x i (i + 1) l else argminFrom best k (i + 1) l

/-- `np.argmin`; `ValueError` for an empty list. -/
noncomputable def argmin : List F → Except Err ℕ
  | [] => .error .value
  | x :: l => .ok (argminFrom x 0 1 l)

/-- `find_most_sensitive`, L364-381; `s95exp` is the expected excluded cross section of a model. `np.argmin` returns a numpy
integer. -/
noncomputable def findMostSensitive (name : ℕ → String) (s95exp : ℕ → F) (stack : List ℕ) : Except Err Found :=
  match argmin (stack.map s95exp) with
  | .error e => .error e
  | .ok k => getItem name stack (.npInt k)

/-- `max(...)` of Python over floats. -/
noncomputable def pyMaxFrom : F → List F → F
  | best, [] => best
  | best, x :: l => pyMaxFrom (if lt best x then x else best) l

/-- `minimum_poi`, L236-248. -/
noncomputable def minimumPoi (least : ℕ → F) (stack : List ℕ) : Except Err F :=
  match stack with
  | [] => .error .value
  | m :: l => .ok (pyMaxFrom (least m) (l.map least))

/-! ### Likelihoods -/

/-- Keyword arguments. -/
abbrev Kwargs (V : Type) := List (String × V)

/-- What a statistical model computes: `likelihood(poi_test, expected, data, **kwargs)` (the negative log-likelihood) and
`generate_asimov_data(expected, test_statistic, **kwargs)`. `D` is the type of data, `V` of other argument values; the
expectation type and the test statistic are fixed. -/
structure Stat (D V : Type) where
  backendType : ℕ → String
  nll : ℕ → ℝ → Option D → Kwargs V → Except Err F
  asimov : ℕ → Kwargs V → Except Err D

variable {D V : Type}

/-- `f(..., **current_kwargs, **kwargs)`: a `TypeError` if a keyword is given twice. -/
noncomputable def mergeKw (named : List String) (a b : Kwargs V) : Except Err (Kwargs V) :=
  if (named ++ a.map Prod.fst ++ b.map Prod.fst).Nodup then .ok (a ++ b) else .error .type

/-- One term of the sum, L455-468: `options` by backend, `data` by analysis name. -/
noncomputable def term (S : Stat D V) (name : ℕ → String) (options : String → Kwargs V) (data : List (String × D)) (kw : Kwargs V)
    (poi : ℝ) (m : ℕ) : Except Err F :=
  match mergeKw ["poi_test", "expected", "data"] (options (S.backendType m)) kw with
  | .error e => .error e
  | .ok k => S.nll m poi (dictGet (name m) data) k

/-- The loop L452-477: `NegativeExpectedYields` gives nan, nan ends the loop, other exceptions propagate. -/
noncomputable def sumLoop (t : ℕ → Except Err F) : F → List ℕ → Except Err F
  | nll, [] => .ok nll
  | nll, m :: l =>
    match t m with
    | .ok x => if isNan (add nll x) then .ok nan else sumLoop t (add nll x) l
    | .error .negativeYields => .ok nan
    | .error e => .error e

/-- The value returned, L479. -/
noncomputable def scaleOut (returnNll : Bool) (nll : F) : F := if returnNll ∨ isNan nll then nll else exp (neg nll)

/-- `likelihood`, L383-479. -/
noncomputable def likelihood (S : Stat D V) (name : ℕ → String) (stack : List ℕ) (poi : ℝ) (returnNll : Bool)
    (data : List (String × D)) (options : String → Kwargs V) (kw : Kwargs V) : Except Err F :=
  (sumLoop (term S name options data kw poi) (fin 0) stack).map (scaleOut returnNll)

/-- The loop of `generate_asimov_data`, L541-561. -/
noncomputable def asimovLoop (S : Stat D V) (name : ℕ → String) (options : String → Kwargs V) (kw : Kwargs V) :
    List (String × D) → List ℕ → Except Err (List (String × D))
  | d, [] => .ok d
  | d, m :: l =>
    match mergeKw ["expected", "test_statistic"] (options (S.backendType m)) kw with
    | .error e => .error e
    | .ok k =>
      match S.asimov m k with
      | .error e => .error e
      | .ok x => asimovLoop S name options kw (dictSet (name m) x d) l

/-- `asimov_likelihood`, L563-636. -/
noncomputable def asimovLikelihood (S : Stat D V) (name : ℕ → String) (stack : List ℕ) (poi : ℝ) (returnNll : Bool)
    (options : String → Kwargs V) (kw : Kwargs V) : Except Err F :=
  match asimovLoop S name options kw [] stack with
  | .error e => .error e
  | .ok d => likelihood S name stack poi returnNll d options kw

/-! ### The combined fit -/

/-- `np.power(s, -2)` (infinite at zero). -/
noncomputable def invSq : F → F
  | fin x => if x = 0 then pinf else fin (1 / x ^ 2)
  | nan => nan
  | _ => fin 0

/-- `mu / np.square(s)`. -/
noncomputable def overSq (mu s : F) : F := div mu (mul s s)

/-- The sum of a list. -/
noncomputable def sumF : List F → F
  | [] => fin 0
  | x :: l => add x (sumF l)

/-- The weighted mean, L745-748, from the pairs `(muhat, sigma)`. -/
noncomputable def weightedMean (l : List (F × F)) : F :=
  mul (div (fin 1) (sumF (l.map (fun p => invSq p.2)))) (sumF (l.map (fun p => overSq p.1 p.2)))

/-- The starting value, L725-751: `initial` is `initial_muhat_value`, `fits` the individual results, `none` if one of them
raised. -/
noncomputable def muInit (initial : Option ℝ) (fits : Option (List (F × F))) : F :=
  match initial with
  | some v => fin v
  | none =>
    match fits with
    | some l => weightedMean l
    | none => fin 0

/-- `max(10.0, mu_init)`. -/
noncomputable def upper (mu : F) : F := if lt (fin 10) mu then mu else fin 10

/-- The bounds of the fit when none are given, L757-765. -/
noncomputable def bounds (least : F) (allowNegative : Bool) (mu : F) : F × F :=
  (if allowNegative then least else fin 0, upper mu)

/-- The objective handed to `fit`, L768-777: twice the combined negative log-likelihood; an exception is nan here. -/
noncomputable def twiceNll (S : Stat D V) (name : ℕ → String) (stack : List ℕ) (data : List (String × D))
    (options : String → Kwargs V) (kw : Kwargs V) (x : List ℝ) : F :=
  match likelihood S name stack (x.headD 0) true data options kw with
  | .ok v => scale 2 v
  | .error _ => nan

/-- `maximize_likelihood`, L638-788, with a finite starting value and the minimiser as a parameter: `(muhat, value)`. -/
noncomputable def maximize (minimize : Optimizer.Minimizer) (least : F) (allowNegative returnNll : Bool) (mu : ℝ) :
    Except Verif.Config.Err (ℝ × F) :=
  let b := bounds least allowNegative (fin mu)
  match (Optimizer.fit minimize
    { poiIndex := 0
      minimumPoi := least
      init := [mu]
      bounds := [(some b.1, some b.2)]
      names := none
      fixed := none } none none .none none).1 with
  | .error e => .error e
  | .ok (v, x) => .ok (x.headD 0, if returnNll then scale (1 / 2) v else exp (scale (-1 / 2) v))

end Verif.Combiner
