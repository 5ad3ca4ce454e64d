/-!
# Model of the per-instance cache descriptor

`_PerInstanceCacheDescriptor` of `/repo/src/spey/system/cache.py` L132-325: where the cached wrapper of an object is
stored and how it is found again. One decorated method. The cache behind one wrapper is a plain map here; eviction and
threads are the subject of `Verif/Cache`.
-/

namespace Verif.PerInstance

variable {K R : Type} [DecidableEq K]

/-- What `_build_wrapper` (L236-325) creates: the closure variable `obj` and the private `cache`. -/
structure Wrapper (K R : Type) where
  owner : Nat
  cache : List (K × R)

/-- A live Python object. `serial` is its identity for the model, `addr` is `id(obj)`; addresses are reused after an
object has died. `held`: the user holds a reference. `attr` is `obj.__dict__.get(name)`, a reference to a wrapper. -/
structure Obj where
  serial : Nat
  addr : Nat
  hasDict : Bool
  weakrefable : Bool
  held : Bool
  attr : Option Nat

/-- Live objects, all wrappers ever built (referred to by position), `_fallback_wrappers` (address to wrapper), a
counter for serial numbers and a clock. -/
structure State (K R : Type) where
  objs : List Obj
  wrappers : List (Wrapper K R)
  fallback : List (Nat × Nat)
  nextSerial : Nat
  time : Nat

/-- The state at the start. -/
def State.init : State K R := ⟨[], [], [], 0, 0⟩

/-- Operations: create an object at a free address, copy an object (`copy.copy` / `copy.deepcopy`: the instance
dictionary is copied, functions in it are shared), drop the user's reference, let the garbage collector free an
object, call the cached method. -/
inductive Op (K : Type)
  | new (addr : Nat) (hasDict weakrefable : Bool)
  | copy (serial : Nat) (addr : Nat)
  | drop (serial : Nat)
  | collect (serial : Nat)
  | call (serial : Nat) (key : K)

/-- The live object with a serial number. -/
def State.find (s : State K R) (n : Nat) : Option Obj := s.objs.find? (fun o => o.serial = n)

/-- Replace an object. -/
def State.modify (s : State K R) (n : Nat) (f : Obj → Obj) : State K R :=
  { s with objs := s.objs.map (fun o => if o.serial = n then f o else o) }

/-- Wrapper `w` has `n` as its closure variable. -/
def State.owned (s : State K R) (w n : Nat) : Bool :=
  match s.wrappers[w]? with
  | some x => x.owner = n
  | none => false

/-- A strong reference to the object other than the user's and its own: a wrapper in `_fallback_wrappers` (the
descriptor lives as long as the class), or a wrapper in another object's `__dict__`. -/
def State.referenced (s : State K R) (n : Nat) : Bool :=
  s.fallback.any (fun p => s.owned p.2 n) ||
  s.objs.any (fun o => o.serial ≠ n && (match o.attr with | some w => s.owned w n | none => false))

/-- `__get__` (L191-207) and `_get_fallback` (L209-225): the wrapper for an object, built if necessary. -/
def State.getWrapper (s : State K R) (o : Obj) : State K R × Nat :=
  if o.hasDict then
    match o.attr with
    | some w => (s, w)
    | none =>
      let w := s.wrappers.length
      ({ (s.modify o.serial (fun o => { o with attr := some w })) with
          wrappers := s.wrappers ++ [⟨o.serial, []⟩] }, w)
  else
    match s.fallback.lookup o.addr with
    | some w => (s, w)
    | none =>
      let w := s.wrappers.length
      ({ s with wrappers := s.wrappers ++ [⟨o.serial, []⟩], fallback := (o.addr, w) :: s.fallback }, w)

/-- Calling a wrapper (L244-303, one thread, no eviction): a stored result, or `fn(obj, key)` with the closure
variable `obj`, stored. `fn n t k` is the result of the method on object `n` at time `t`. -/
def State.invoke (fn : Nat → Nat → K → R) (s : State K R) (w : Nat) (k : K) : State K R × Option R :=
  match s.wrappers[w]? with
  | none => (s, none)
  | some x =>
    match x.cache.lookup k with
    | some r => ({ s with time := s.time + 1 }, some r)
    | none =>
      let r := fn x.owner s.time k
      ({ s with wrappers := s.wrappers.set w { x with cache := (k, r) :: x.cache }, time := s.time + 1 }, some r)

/-- One operation; operations that are not possible (address in use, object gone) leave the state. The result is that
of a call. -/
def step (fn : Nat → Nat → K → R) (s : State K R) : Op K → State K R × Option R
  | .new addr hasDict weakrefable =>
    if s.objs.any (fun o => o.addr = addr) then (s, none)
    else ({ s with objs := ⟨s.nextSerial, addr, hasDict, weakrefable, true, none⟩ :: s.objs,
                   nextSerial := s.nextSerial + 1 }, none)
  | .copy n addr =>
    match s.find n with
    | none => (s, none)
    | some o =>
      if o.held = false ∨ s.objs.any (fun o => o.addr = addr) then (s, none)
      else ({ s with objs := ⟨s.nextSerial, addr, o.hasDict, o.weakrefable, true, o.attr⟩ :: s.objs,
                     nextSerial := s.nextSerial + 1 }, none)
  | .drop n => (s.modify n (fun o => { o with held := false }), none)
  | .collect n =>
    match s.find n with
    | none => (s, none)
    | some o =>
      if o.held ∨ s.referenced n then (s, none)
      else ({ s with
        objs := s.objs.filter (fun o => o.serial ≠ n)
        -- the weak reference callback, L227-234
        fallback := if o.weakrefable && !o.hasDict then s.fallback.filter (fun p => p.1 ≠ o.addr)
          else s.fallback }, none)
  | .call n k =>
    match s.find n with
    | none => (s, none)
    | some o =>
      if o.held then
        let (s', w) := s.getWrapper o
        s'.invoke fn w k
      else (s, none)

/-- A history of operations. -/
def run (fn : Nat → Nat → K → R) (s : State K R) : List (Op K) → State K R
  | [] => s
  | op :: ops => run fn (step fn s op).1 ops

end Verif.PerInstance
