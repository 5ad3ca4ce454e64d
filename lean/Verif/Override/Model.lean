/-!
# Model of overridden methods with a cache

`_PerInstanceCacheDescriptor` of `/repo/src/spey/system/cache.py` L132-325 in classes that override a method of a base class. The classes of `type(obj).__mro__` that define the method are numbered
from 0, the class of the object or the first of its bases that defines it. `Verif/PerInstance/Model.lean` has one class and many objects, here are many classes and one object.

Simplifications: one thread; keys are the arguments (see `Verif/CacheKey`); the cache never exceeds `maxsize`, so nothing is evicted (see `Verif/Cache` for eviction).
-/

namespace Verif.Override

/-- What a method does with its arguments: return, raise, or pass arguments on to the method of the next class and continue with the result. `super().method(b)` and `Base.method(self, b)`, where `Base`
is the next class that defines the method, are different. -/
inductive Body (α β ε : Type) where
  | done (v : β)
  | raise (e : ε)
  | super (b : α) (k : β → β)
  | base (b : α) (k : β → β)

/-- A method in one class: decorated with `cache_results(per_instance=True)` (L393-396) or not. -/
structure Method (α β ε : Type) where
  cached : Bool
  body : α → Body α β ε

/-- How a call ends. `missing`: `AttributeError`, no further class defines the method. `waits`: `event.wait()` (L275) for an event that only this call could set. `deep`: more nested calls than the
interpreter allows (`RecursionError`). -/
inductive Outcome (β ε : Type) where
  | value (v : β)
  | raised (e : ε)
  | missing
  | waits
  | deep
deriving DecidableEq

/-- One entry of `cache`: `_COMPUTING` or a result, L260-272. -/
inductive Entry (β : Type) where
  | computing
  | result (v : β)

/-- The object. `dict`: whether it has a `__dict__`. `stored`: the wrapper in `obj.__dict__[name]` (L206), by the number of its class. `cache`: the variable `cache` (L243) of the wrapper of each class;
a wrapper that has not been built has an empty one. With `__dict__` a wrapper is built only if none is stored, and without it `_fallback_wrappers` (L185) has one per class, so none is built twice. -/
structure State (α β : Type) where
  dict : Bool
  stored : Option Nat
  cache : Nat → α → Option (Entry β)

/-- What attribute access returns: the bound method of class `j`, or the wrapper of class `j`. -/
inductive Target where
  | plain (j : Nat)
  | wrapper (j : Nat)

variable {α β ε : Type} [DecidableEq α]

/-- `__get__`, L191-224, of the descriptor in class `j`. -/
def descriptor (j : Nat) (s : State α β) : Target × State α β :=
  if s.dict then
    match s.stored with
    | some i => (.wrapper i, s)
    | none => (.wrapper j, { s with stored := some j })
  else (.wrapper j, s)

/-- `super().method` in class `j - 1`, or `obj.method` for `j = 0` without entry in `obj.__dict__`: the attribute of class `j`, where functions bind and descriptors run `__get__`. -/
def lookup (C : List (Method α β ε)) (j : Nat) (s : State α β) : Option (Target × State α β) :=
  (C[j]?).map fun m => if m.cached then descriptor j s else (.plain j, s)

/-- `obj.method`: an entry of `obj.__dict__` comes before functions and before the descriptor, which has no `__set__` (comment in L203-205). -/
def access (C : List (Method α β ε)) (s : State α β) : Option (Target × State α β) :=
  match s.stored with
  | some i => some (.wrapper i, s)
  | none => lookup C 0 s

/-- `cache[key] = e`, `del cache[key]` in the wrapper of class `j`. -/
def put (j : Nat) (a : α) (e : Option (Entry β)) (s : State α β) : State α β :=
  { s with cache := fun i b => if i = j ∧ b = a then e else s.cache i b }

/-- Call of a bound method or of a wrapper, L249-303; the number is the depth of nested calls that is left. -/
def call (C : List (Method α β ε)) : Nat → Target → α → State α β → Outcome β ε × State α β
  | 0, _, _, s => (.deep, s)
  | n + 1, .plain j, a, s =>
    match C[j]? with
    | none => (.missing, s)
    | some m =>
      match m.body a with
      | .done v => (.value v, s)
      | .raise e => (.raised e, s)
      | .super b k =>
        match lookup C (j + 1) s with
        | none => (.missing, s)
        | some (t, s) =>
          match call C n t b s with
          | (.value v, s) => (.value (k v), s)
          | r => r
      | .base b k =>
        match call C n (.plain (j + 1)) b s with
        | (.value v, s) => (.value (k v), s)
        | r => r
  | n + 1, .wrapper j, a, s =>
    match s.cache j a with
    | some (.result v) => (.value v, s)
    | some .computing => (.waits, s)
    | none =>
      match call C n (.plain j) a (put j a (some .computing) s) with
      | (.value v, s) => (.value v, put j a (some (.result v)) s)
      | (.waits, s) => (.waits, s)
      | (r, s) => (r, put j a none s)

/-- `obj.method(a)`. -/
def use (C : List (Method α β ε)) (n : Nat) (a : α) (s : State α β) : Outcome β ε × State α β :=
  match access C s with
  | none => (.missing, s)
  | some (t, s) => call C n t a s

/-- The object after its creation. -/
def fresh (dict : Bool) : State α β := ⟨dict, none, fun _ _ => none⟩

/-- `obj.method(a)` for several arguments, one after the other: how each call ends. -/
def session (C : List (Method α β ε)) (n : Nat) : List α → State α β → List (Outcome β ε)
  | [], _ => []
  | a :: as, s => (use C n a s).1 :: session C n as (use C n a s).2

end Verif.Override
