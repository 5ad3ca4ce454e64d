import Mathlib.Data.String.Basic
import Mathlib.Data.List.Sort
import Mathlib.Data.Sum.Order
import Mathlib.Data.Real.Basic

/-!
# Model of the cache keys

`_make_token` and `_build_key` of `/repo/src/spey/system/cache.py` and the argument binding in front of them.
-/

namespace Verif.CacheKey

/-- The keys of dictionaries: integers and strings (the types of the keys that spey takes). The order, integers in front of strings, is that of Python on keys of one
kind; Python does not compare an integer and a string, see `sortable`. -/
abbrev DKey := ℤ ⊕ₗ String

/-- Python argument values. Simplified: floats are real numbers and infinities (no nan, one zero), dictionary keys
are integers or strings, sets are left out; `object i` is a hashable object compared by identity (enum members, functions,
models); `unhashable r` is any other unhashable object, with its `repr`. Byte strings are lists of numbers; the numbers are not restricted to 0-255, so that the bytes of an
array of exact numbers can be a list of numbers too. -/
inductive V
  | none
  | bool (b : Bool)
  | int (n : ℤ)
  | float (q : ℝ)
  | inf (negative : Bool)
  | str (s : String)
  | bytes (b : List ℝ)
  | list (l : List V)
  | tuple (l : List V)
  | dict (items : List (DKey × V))
  | array (shape : List ℕ) (dtype : String) (data : List ℝ)
  | object (i : ℕ)
  | unhashable (repr : String)

/-- Tokens, up to Python's `==` on hashable values: `True`, `1` and `1.0` are the same number. -/
inductive T
  | none
  | num (q : ℝ)
  | inf (negative : Bool)
  | str (s : String)
  | bytes (b : List ℝ)
  | tup (l : List T)
  | object (i : ℕ)

/-- `sorted` on pairs whose first components are distinct: only the first components are compared. -/
def sortItems {α : Type} [LinearOrder α] (l : List (α × T)) : List (α × T) := l.mergeSort (fun a b => decide (a.1 ≤ b.1))

/-- `_make_token(k)` for a key of a dictionary. -/
noncomputable def keyT (k : DKey) : T :=
  match ofLex k with
  | .inl n => .num n
  | .inr s => .str s

/-- The tuple `(key_token, value_token)`. -/
noncomputable def pairD (p : DKey × T) : T := .tup [keyT p.1, p.2]

/-- The same for the name of an argument. -/
def pairT (p : String × T) : T := .tup [.str p.1, p.2]

mutual
/-- `_make_token`, cache.py L83-110. `H` is `hashlib.sha256(...).digest()`. -/
noncomputable def token (H : List ℝ → List ℝ) : V → T
  | .array shape dtype data => .tup [.tup (shape.map (fun n : ℕ => T.num (n : ℝ))), .str dtype, .bytes (H data)]
  | .dict items => .tup ((sortItems (tokenItems H items)).map pairD)
  | .list l => .tup (tokenList H l)
  | .tuple l => .tup (tokenList H l)
  | .none => .none
  | .bool b => .num (if b then 1 else 0)
  | .int n => .num (n : ℝ)
  | .float q => .num q
  | .inf b => .inf b
  | .str s => .str s
  | .bytes b => .bytes b
  | .object i => .object i
  | .unhashable r => .str r
/-- `_make_token(item) for item in obj`. -/
noncomputable def tokenList (H : List ℝ → List ℝ) : List V → List T
  | [] => []
  | v :: l => token H v :: tokenList H l
/-- `(_make_token(k), _make_token(v)) for k, v in obj.items()`. -/
noncomputable def tokenItems (H : List ℝ → List ℝ) : List (DKey × V) → List (DKey × T)
  | [] => []
  | (k, v) :: l => (k, token H v) :: tokenItems H l
end

/-- `(_make_token(k), _make_token(v)) for k, v in kwargs.items()`, cache.py L116-118. -/
noncomputable def tokenNames (H : List ℝ → List ℝ) (l : List (String × V)) : List (String × T) := l.map fun p => (p.1, token H p.2)

/-- `_build_key`, cache.py L113-119, unless `sorted` raises. -/
noncomputable def buildKey (H : List ℝ → List ℝ) (args : List V) (kwargs : List (String × V)) : T :=
  .tup [.tup (tokenList H args), .tup ((sortItems (tokenNames H kwargs)).map pairT)]

/-- Whether all keys are integers or all are strings. -/
def oneKind (l : List DKey) : Bool := l.all (fun k => (ofLex k).isLeft) || l.all (fun k => (ofLex k).isRight)

mutual
/-- Whether `_make_token` can sort the keys of all dictionaries in a value, cache.py L97: `sorted` compares an integer with a string if there are both, which raises `TypeError`. -/
def sortable : V → Bool
  | .dict items => oneKind (items.map Prod.fst) && sortableItems items
  | .list l => sortableList l
  | .tuple l => sortableList l
  | _ => true
def sortableList : List V → Bool
  | [] => true
  | v :: l => sortable v && sortableList l
def sortableItems : List (DKey × V) → Bool
  | [] => true
  | (_, v) :: l => sortable v && sortableItems l
end

/-- `_build_key`, cache.py L113-119; `none` is the `TypeError` of `sorted`. -/
noncomputable def tryBuildKey (H : List ℝ → List ℝ) (args : List V) (kwargs : List (String × V)) : Option T :=
  if sortableList args && sortableList (kwargs.map Prod.snd) then some (buildKey H args kwargs) else none

/-- A positional-or-keyword parameter. -/
structure Param where
  name : String
  default : Option V

/-- `inspect.Signature` without `self`: positional-or-keyword parameters and optionally `**varkw`. This is the form of
the three cached methods; `*args` is left out. -/
structure Sig where
  params : List Param
  varkw : Option String

/-- The arguments of a call. -/
structure Call where
  args : List V
  kwargs : List (String × V)

/-- `_sig.bind(*args, **kwargs)` followed by `apply_defaults()` for the parameters; `none` is `TypeError` (multiple
values for a parameter, missing argument). -/
def bindParams : List Param → List V → List (String × V) → Option (List (String × V))
  | [], [], _ => some []
  | [], _ :: _, _ => none
  | p :: ps, a :: as, kw =>
    if p.name ∈ kw.map Prod.fst then none else (bindParams ps as kw).map ((p.name, a) :: ·)
  | p :: ps, [], kw =>
    match (kw.lookup p.name).or p.default with
    | none => none
    | some v => (bindParams ps [] kw).map ((p.name, v) :: ·)

/-- `bind` and `apply_defaults` with the extra keywords: they form the dictionary `**varkw`, or a `TypeError`. -/
def bind (s : Sig) (c : Call) : Option (List (String × V)) :=
  match bindParams s.params c.args c.kwargs with
  | none => none
  | some b =>
    let extra := c.kwargs.filter (fun p => p.1 ∉ s.params.map Param.name)
    match s.varkw with
    | some n => some (b ++ [(n, .dict (extra.map fun p => (Sum.inrₗ p.1, p.2)))])
    | none => if extra.isEmpty then some b else none

/-- The key of a call, cache.py L250-258 (and L412-420), unless `sorted` raises, see `tryCallKey`. -/
noncomputable def callKey (H : List ℝ → List ℝ) (s : Sig) (c : Call) : T :=
  match bind s c with
  | some b => buildKey H [] b
  | none => buildKey H c.args c.kwargs

/-- The key of a call, cache.py L250-258 (and L412-420); `none` is a `TypeError`. The `TypeError` of the first `_build_key` is caught as that of `bind` is. -/
noncomputable def tryCallKey (H : List ℝ → List ℝ) (s : Sig) (c : Call) : Option T :=
  match bind s c with
  | some b =>
    match tryBuildKey H [] b with
    | some k => some k
    | none => tryBuildKey H c.args c.kwargs
  | none => tryBuildKey H c.args c.kwargs

end Verif.CacheKey
