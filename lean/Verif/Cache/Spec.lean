import Verif.Cache.Model

/-!
# Vocabulary for the cache properties

Independent of the helper functions of the model: histories of moves, what a history of observations says, and a
bounded FIFO map.
-/

namespace Verif.Cache
open Verif.Py

variable {K V X : Type} [DecidableEq K]

/-- `s` is the state of the program after the moves `ops`, starting from an empty cache. -/
def After (maxsize : Option Int) (ops : List (Op K V X)) (s : Sys K V X) : Prop :=
  run maxsize init ops = some s

/-- Nobody calls `cache_clear()`. -/
def NoClear (ops : List (Op K V X)) : Prop := Op.clear ∉ ops

/-- Some call of the history uses the key `k`. -/
def Called (ops : List (Op K V X)) (k : K) : Prop := ∃ t, Op.call t k ∈ ops

/-- The keys satisfying `P` are at most `maxsize` many (no condition when there is no `maxsize`). -/
def KeysFit (maxsize : Option Int) (P : K → Prop) : Prop :=
  ∀ n, maxsize = some n → ∀ l : List K, l.Nodup → (∀ k ∈ l, P k) → (l.length : Int) ≤ n

/-- The cache holds the finished result `v` for `k`. -/
def Holds (s : Sys K V X) (k : K) (v : V) : Prop := s.sh.cache.get? k = some (some v)

/-- Thread `t` is running the function for key `k`. -/
def Computing (s : Sys K V X) (t : Nat) (k : K) : Prop := s.thr t = .computing k

/-- Thread `t` is blocked waiting for another thread's result for `k`. -/
def Waiting (s : Sys K V X) (t : Nat) (k : K) : Prop := ∃ e, s.thr t = .waiting k e

/-- Thread `t` is inside a call of the cached function with key `k`. -/
def InCall (s : Sys K V X) (t : Nat) (k : K) : Prop :=
  s.thr t = .computing k ∨ (∃ e, s.thr t = .waiting k e) ∨ s.thr t = .retrying k ∨
    ∃ e r, s.thr t = .signalling e k r

/-- Whatever happens later, thread `t` stays blocked in its call for `k`. -/
def StuckForever (maxsize : Option Int) (s : Sys K V X) (t : Nat) (k : K) : Prop :=
  ∀ more s', run maxsize s more = some s' → Waiting s' t k

/-! ### Infinite executions -/

/-- An infinite execution: states, moves, every step possible. -/
structure Execution (maxsize : Option Int) (K V X : Type) [DecidableEq K] where
  st : Nat → Sys K V X
  op : Nat → Op K V X
  start : st 0 = init
  next : ∀ n, step maxsize (st n) (op n) = some (st (n + 1))

/-- Every function evaluation ends, every thread that can run does so eventually. -/
structure Fair {maxsize : Option Int} (x : Execution maxsize K V X) : Prop where
  ends : ∀ n t k, (x.st n).thr t = .computing k → ∃ m, n ≤ m ∧ ∃ r, x.op m = .complete t r
  signals : ∀ n t e k r, (x.st n).thr t = .signalling e k r → ∃ m, n ≤ m ∧ x.op m = .signal t
  wakes : ∀ n t k e, (x.st n).thr t = .waiting k e → (x.st n).sh.isSet e = true →
    ∃ m, n ≤ m ∧ x.op m = .wake t
  retries : ∀ n t k, (x.st n).thr t = .retrying k → ∃ m, n ≤ m ∧ x.op m = .retry t

/-! ### A bounded FIFO map -/

/-- Contents of a bounded FIFO map, oldest insertion first. -/
abbrev Fifo (K V : Type) := List (K × V)

/-- Keep the `n` youngest entries. -/
def Fifo.trim (n : Option Nat) (l : Fifo K V) : Fifo K V :=
  match n with
  | none => l
  | some n => l.drop (l.length - n)

/-- One call of the ideal cached function: answer from the map, or run the function and remember a success. -/
def Fifo.call (n : Option Nat) (l : Fifo K V) (k : K) (r : Except X V) : Fifo K V × Result V X :=
  match List.lookup k l with
  | some v => (l, .hit v)
  | none =>
    match r with
    | .ok v => (Fifo.trim n (l ++ [(k, v)]), .ran (.ok v))
    | .error x => (l, .ran (.error x))

/-- A history of calls on the ideal cache, with the results shown to the caller. -/
def Fifo.calls (n : Option Nat) : Fifo K V → List (K × Except X V) → Fifo K V × List (Result V X)
  | l, [] => (l, [])
  | l, (k, r) :: cs =>
    let (l', o) := Fifo.call n l k r
    let (l'', os) := Fifo.calls n l' cs
    (l'', o :: os)

/-- The same history on the model of the code. -/
def callsSeq (maxsize : Option Int) : Shared K V → List (K × Except X V) → Shared K V × List (Result V X)
  | s, [] => (s, [])
  | s, (k, r) :: cs =>
    let (s', o) := callSeq maxsize s k r
    let (s'', os) := callsSeq maxsize s' cs
    (s'', o :: os)

end Verif.Cache
