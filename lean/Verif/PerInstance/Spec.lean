import Verif.PerInstance.Model
/-!
# What the per-instance cache should do

A method result belongs to the object the method was called on: calls on `n` only ever return results computed on `n`,
and only ever change what is remembered for `n`.
-/

namespace Verif.PerInstance

variable {K R : Type} [DecidableEq K]

/-- The operation does not copy an object that carries its wrapper in its instance dictionary. -/
def Safe (s : State K R) : Op K → Prop
  | .copy n _ => ∀ o, s.find n = some o → o.attr = none
  | _ => True

/-- States reached by any history of operations. -/
inductive Reach (fn : Nat → Nat → K → R) : State K R → Prop
  | init : Reach fn State.init
  | step {s} (op : Op K) : Reach fn s → Reach fn (step fn s op).1

/-- States reached by histories in which no object carrying a wrapper is copied. -/
inductive SafeReach (fn : Nat → Nat → K → R) : State K R → Prop
  | init : SafeReach fn State.init
  | step {s} (op : Op K) : SafeReach fn s → Safe s op → SafeReach fn (step fn s op).1

/-- The results a user would get from the cache for object `n` (`n.method.get_cache()`), without building anything. -/
def remembered (s : State K R) (n : Nat) : List (K × R) :=
  match s.find n with
  | none => []
  | some o =>
    match (if o.hasDict then o.attr else s.fallback.lookup o.addr) with
    | none => []
    | some w =>
      match s.wrappers[w]? with
      | none => []
      | some x => x.cache

/-- `n` is still in memory. -/
def Alive (s : State K R) (n : Nat) : Prop := ∃ o ∈ s.objs, o.serial = n

/-- The user holds a reference to `n`. -/
def Held (s : State K R) (n : Nat) : Prop := ∃ o ∈ s.objs, o.serial = n ∧ o.held = true

end Verif.PerInstance
