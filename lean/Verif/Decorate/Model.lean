import Mathlib.Data.List.Basic

/-!
# Model of the choice of cache by `cache_results`

`cache_results` and `_has_self_param` of `/repo/src/spey/system/cache.py` L122-129, L328-503: whether a decorated function gets one cache, or one for every object, and what the ways of calling it do.

Simplifications: one thread and no eviction (`Verif/Cache`); all objects are alive, have an instance dictionary and are not copied (`Verif/PerInstance`); the arguments after the first are represented by their key
(`Verif/CacheKey`).
-/

namespace Verif.Decorate

/-- What the decorator returns: a `_PerInstanceCacheDescriptor` or the function `wrapper`. -/
inductive Decorated
  | descriptor
  | wrapper
  deriving DecidableEq

/-- `_has_self_param`, L122-129; `none` if `inspect.signature` raises. -/
def hasSelfParam : Option (List String) → Bool
  | none => false
  | some [] => false
  | some (p :: _) => p == "self"

/-- `decorator`, L393-396; `@cache_results` and `@cache_results(…)`, L500-503, do the same. -/
def decorate (perInstance : Bool) (params : Option (List String)) : Decorated :=
  if perInstance || hasSelfParam params then .descriptor else .wrapper

/-- Ways of calling with the object `n` as first argument and the key `k` of the others: `obj.m(…)`, `Class.m(obj, …)`, and `m(obj, …)` for a function outside classes. -/
inductive Access (K : Type)
  | method (n : ℕ) (k : K)
  | onClass (n : ℕ) (k : K)
  | direct (n : ℕ) (k : K)

/-- Exceptions: that of the function, and `TypeError` as descriptors are not callable. -/
inductive Err (X : Type)
  | own (x : X)
  | notCallable

/-- The caches of the objects (`cache` of `_build_wrapper`, L243), the one of the function (`cache` of `decorator`, L398), and a clock. -/
structure State (T K R : Type) where
  separate : List ((ℕ × K) × R)
  shared : List ((T × K) × R)
  time : ℕ

variable {T K R X : Type} [DecidableEq T] [DecidableEq K]

/-- A wrapper of the descriptor: L258-303 with `_build_key` of the arguments without the object. Exceptions are not stored. -/
def viaSeparate (fn : ℕ → ℕ → K → Except X R) (s : State T K R) (n : ℕ) (k : K) : State T K R × Except (Err X) R :=
  match s.separate.lookup (n, k) with
  | some r => (s, .ok r)
  | none =>
    match fn n s.time k with
    | .ok r => ({ s with separate := ((n, k), r) :: s.separate }, .ok r)
    | .error x => (s, .error (.own x))

/-- The wrapper of a function: L410-476, the token of the object (`_make_token`, L83-110: the object itself, compared by `==`, or its `repr`) is part of the key. -/
def viaShared (fn : ℕ → ℕ → K → Except X R) (tok : ℕ → ℕ → T) (s : State T K R) (n : ℕ) (k : K) : State T K R × Except (Err X) R :=
  match s.shared.lookup (tok n s.time, k) with
  | some r => (s, .ok r)
  | none =>
    match fn n s.time k with
    | .ok r => ({ s with shared := ((tok n s.time, k), r) :: s.shared }, .ok r)
    | .error x => (s, .error (.own x))

/-- Direct calls of the function: `__get__` with `obj is None`, L192-194, returns it. -/
def plain (fn : ℕ → ℕ → K → Except X R) (s : State T K R) (n : ℕ) (k : K) : State T K R × Except (Err X) R :=
  match fn n s.time k with
  | .ok r => (s, .ok r)
  | .error x => (s, .error (.own x))

/-- One call. `fn n t k` is what the function does for object `n` at time `t`, `tok n t` the token of the object then. -/
def step (d : Decorated) (fn : ℕ → ℕ → K → Except X R) (tok : ℕ → ℕ → T) (s : State T K R) (a : Access K) : State T K R × Except (Err X) R :=
  let r := match d, a with
    | .descriptor, .method n k => viaSeparate fn s n k
    | .descriptor, .onClass n k => plain fn s n k
    | .descriptor, .direct _ _ => (s, .error .notCallable)
    | .wrapper, .method n k => viaShared fn tok s n k
    | .wrapper, .onClass n k => viaShared fn tok s n k
    | .wrapper, .direct n k => viaShared fn tok s n k
  ({ r.1 with time := s.time + 1 }, r.2)

/-- The results of a list of calls, the first first. -/
def run (d : Decorated) (fn : ℕ → ℕ → K → Except X R) (tok : ℕ → ℕ → T) (s : State T K R) : List (Access K) → List (Except (Err X) R)
  | [] => []
  | a :: l => (step d fn tok s a).2 :: run d fn tok (step d fn tok s a).1 l

/-- After decoration. -/
def State.init : State T K R := ⟨[], [], 0⟩

end Verif.Decorate
