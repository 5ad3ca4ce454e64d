import Mathlib.Data.List.Basic
import Mathlib.Data.Int.Notation

/-!
# Model of `ExpectationType`

`/repo/src/spey/utils.py` L8-58, and the places that ask for the expectation in `/repo/src/spey/hypothesis_testing/upper_limits.py`.
-/

namespace Verif.Expectation

/-- The members, utils.py L31-33. -/
inductive Member
  | apriori | aposteriori | observed
  deriving DecidableEq

/-- `name`, which is also `str(self)` and `repr(self)`, utils.py L35-39. -/
def Member.name : Member → String
  | .apriori => "apriori"
  | .aposteriori => "aposteriori"
  | .observed => "observed"

/-- Python objects: members, strings, booleans, `None`, and objects of another type, such as numbers, lists or numpy booleans,
whose own comparison with a member is not implemented. They are known by a number. -/
inductive Value
  | member (m : Member) | str (s : String) | bool (b : Bool) | none | other (n : ℕ)
  deriving DecidableEq

/-- `ValueError`, `IndexError`. -/
inductive Err
  | value | index
  deriving DecidableEq

/-- `self.__eq__(other)` for members, utils.py L42-45. -/
def memberEq (self other : Member) : Bool := self.name = other.name

/-- `ExpectationType.__eq__`, utils.py L41-56. -/
def enumEq (self : Member) : Value → Except Err Bool
  | .member o => .ok (memberEq self o)
  | .str s => .ok (s = self.name)
  | .bool b => .ok (memberEq self (if b then .apriori else .observed))
  | .none => .ok false
  | .other _ => .error .value

/-- `a == b`. If `a` is not a member, its type does not know members, and Python asks `b.__eq__(a)`. Two objects that are no
members are equal if they are the same here; a boolean and a number are not compared. -/
def pyEq (a b : Value) : Except Err Bool :=
  match a, b with
  | .member m, b => enumEq m b
  | a, .member m => enumEq m a
  | a, b => .ok (a = b)

/-- `a is b`. Equal strings are not always the same object: `same` tells whether they are. -/
def pyIs (same : Bool) (a b : Value) : Bool :=
  match a, b with
  | .str s, .str t => same && s = t
  | a, b => a = b

/-- The hash values that Python chooses: those of strings depend on a random seed. -/
structure Hashes where
  str : String → ℤ
  none : ℤ
  other : ℕ → ℤ

/-- `hash(v)`; `__hash__ = Enum.__hash__`, utils.py L58, is the hash of the name. -/
def hash (H : Hashes) : Value → ℤ
  | .member m => H.str m.name
  | .str s => H.str s
  | .bool b => if b then 1 else 0
  | .none => H.none
  | .other n => H.other n

/-- `d[key]` or `d.get(key)`: the entry whose key is the same object, or has the same hash and is equal. -/
def lookup (H : Hashes) {α : Type} (d : List (Value × α)) (key : Value) : Except Err (Option α) :=
  match d with
  | [] => .ok .none
  | (k, v) :: l =>
    if pyIs true k key then .ok (some v)
    else if hash H k = hash H key then
      match pyEq k key with
      | .error e => .error e
      | .ok true => .ok (some v)
      | .ok false => lookup H l key
    else lookup H l key

/-- The number of p-values that `computer` of `find_poi_upper_limit` picks from, upper_limits.py L191-199:
`0 if expected == ExpectationType.observed else 1`. -/
def pvalueCount (expected : Value) : Except Err ℕ :=
  match pyEq expected (.member .observed) with
  | .error e => .error e
  | .ok b => .ok (if b then 1 else 5)

/-- The index for nominal p-values, upper_limits.py L204: `0 if expected is ExpectationType.observed else 2`. -/
def nominalIndex (expected : Value) : ℕ := if pyIs true expected (.member .observed) then 0 else 2

/-- `pvalue[pvalue_idx]`, upper_limits.py L200, for nominal p-values: which of the p-values is used, and out of how many. -/
def nominalPvalue (expected : Value) : Except Err (ℕ × ℕ) :=
  match pvalueCount expected with
  | .error e => .error e
  | .ok n => if nominalIndex expected < n then .ok (nominalIndex expected, n) else .error .index

end Verif.Expectation
