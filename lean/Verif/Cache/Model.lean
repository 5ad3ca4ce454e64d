import Verif.Py.Dict

/-!
# Model of `system/cache.py`

The wrapper returned by `cache_results` (`/repo/src/spey/system/cache.py` L410-475) and the one built by
`_PerInstanceCacheDescriptor._build_wrapper` (L248-303) have the same body. It is modelled as a transition system:
every `with lock:` block is one atomic step, `Event.set()` is a step of its own, the evaluation of the decorated
function happens between two steps and its outcome is chosen by the environment.

Not modelled: the computation of `key` from the arguments (see `Verif.CacheKey`), `copy.deepcopy` of results
(values are immutable here), logging. A call made by the decorated function itself to the cached
function (recursion) is a call of another thread in this model: the steps it can take are the same.
-/

namespace Verif.Cache
open Verif.Py

/-- Exceptions that the cache's own bookkeeping could raise: `events[key]` (L266, L430), `order.remove(key)`
(L287, L457), `order.popleft()` (L297, L469). -/
inductive Internal
  | keyError | valueError | indexError
  deriving DecidableEq, Repr

/-- The closure variables `cache`, `events`, `order` (L243-246, L398-403). A cache value `none` is the sentinel
`_COMPUTING` (L80), `some v` a stored result. Events are numbered in order of creation; `isSet e` is the flag of the
`threading.Event` number `e`, `fresh` the number of the next event. -/
structure Shared (K V : Type) where
  cache  : Dict K (Option V) := []
  order  : List K := []
  events : Dict K Nat := []
  isSet  : Nat → Bool := fun _ => false
  fresh  : Nat := 0

/-- Result of the first lock section. -/
inductive Enter (V : Type)
  | hit (v : V) | wait (e : Nat) | compute | keyError

variable {K V X : Type} [DecidableEq K]

/-- First lock section, L260-272 (and L422-437). -/
def enter (s : Shared K V) (k : K) : Shared K V × Enter V :=
  match s.cache.get? k with
  | some (some v) => (s, .hit v)
  | some none =>
    match s.events.get? k with
    | some e => (s, .wait e)
    | none => (s, .keyError)
  | none =>
    ({ s with events := s.events.set k s.fresh
              cache := s.cache.set k none
              order := s.order ++ [k]
              fresh := s.fresh + 1 }, .compute)

/-- Second lock section, L276-278 (and L442-444): the value if there is one by now. -/
def reread (s : Shared K V) (k : K) : Option V :=
  match s.cache.get? k with
  | some (some v) => some v
  | _ => none

/-- Lock section after an exception of the function, L284-288 (and L454-458). Returns the popped event and the
bookkeeping error if `order.remove` fails. -/
def abort (s : Shared K V) (k : K) : Shared K V × Option Nat × Option Internal :=
  match s.cache.get? k with
  | some none =>
    if k ∈ s.order then
      ({ s with cache := s.cache.erase k, order := s.order.erase k, events := s.events.erase k },
        s.events.get? k, none)
    else
      ({ s with cache := s.cache.erase k }, none, some .valueError)
  | _ => ({ s with events := s.events.erase k }, s.events.get? k, none)

/-- The eviction loop `while len(cache) > maxsize: oldest = order.popleft(); cache.pop(oldest, None)`,
L296-298 (and L468-470). The flag tells that `popleft` raised `IndexError`. -/
def evict (n : Int) : Dict K (Option V) → List K → Dict K (Option V) × List K × Bool
  | c, [] => (c, [], decide ((c.length : Int) > n))
  | c, k :: ks => if (c.length : Int) > n then evict n (c.erase k) ks else (c, k :: ks, false)

/-- Lock section that stores a result, L293-299 (and L464-471). -/
def store (maxsize : Option Int) (s : Shared K V) (k : K) (v : V) :
    Shared K V × Option Nat × Option Internal :=
  let c := s.cache.set k (some v)
  match maxsize with
  | none => ({ s with cache := c, events := s.events.erase k }, s.events.get? k, none)
  | some n =>
    match evict n c s.order with
    | (c', o', false) =>
      ({ s with cache := c', order := o', events := s.events.erase k }, s.events.get? k, none)
    | (c', o', true) => ({ s with cache := c', order := o' }, none, some .indexError)

/-- `cache_clear()`, L305-310 (and L478-483): note that no event is set. -/
def clear (s : Shared K V) : Shared K V :=
  { s with cache := [], order := [], events := [] }

/-- `evt.set()` if an event was popped, L289-290, L300-301 (and L459-460, L472-473). -/
def signalEv (s : Shared K V) : Option Nat → Shared K V
  | none => s
  | some e => { s with isSet := fun e' => if e' = e then true else s.isSet e' }

/-- `cache_info()["size"]`, L312-315. -/
def size (s : Shared K V) : Nat := s.cache.length

/-- Where a thread is inside the wrapper. -/
inductive Thr (K V X : Type)
  | idle                                                   -- outside the wrapper
  | computing (k : K)                                      -- running the function, L282 / L451
  | waiting (k : K) (e : Nat)                              -- in `event.wait()`, L275 / L441
  | retrying (k : K)                                       -- about to recurse, L279 / L447
  | signalling (e : Option Nat) (k : K) (r : Except X V)   -- past the last lock section, before `evt.set()`

/-- What an observer of the program sees. -/
inductive Obs (K V X : Type)
  | started (t : Nat) (k : K)                -- the decorated function is invoked
  | computed (t : Nat) (k : K) (v : V)       -- it returned `v`
  | raised (t : Nat) (k : K) (x : X)         -- it raised `x`
  | returned (t : Nat) (k : K) (v : V)       -- a call of the cached function returned `v`
  | failed (t : Nat) (k : K) (x : X)         -- a call of the cached function raised `x`
  | internal (t : Nat) (k : K) (i : Internal) -- a call failed inside the cache
  | cleared
  deriving DecidableEq

/-- Whole program: shared cache, threads and the history (newest event first). -/
structure Sys (K V X : Type) where
  sh  : Shared K V := {}
  thr : Nat → Thr K V X := fun _ => .idle
  log : List (Obs K V X) := []

/-- Moves of the program. -/
inductive Op (K V X : Type)
  | call (t : Nat) (k : K)                  -- idle thread `t` calls the cached function
  | complete (t : Nat) (r : Except X V)     -- the function run by `t` ends, then `t` runs its final lock section
  | signal (t : Nat)                        -- `evt.set()` and leave the wrapper
  | wake (t : Nat)                          -- `event.wait()` ends, second lock section
  | retry (t : Nat)                         -- recursive `wrapper(*args)`: first lock section again
  | clear                                   -- some thread calls `cache_clear()`

/-- Update one thread. -/
def setThr (thr : Nat → Thr K V X) (t : Nat) (x : Thr K V X) : Nat → Thr K V X :=
  fun t' => if t' = t then x else thr t'

/-- First lock section run by thread `t` for key `k` (from a call or the recursion). -/
def doEnter (s : Sys K V X) (t : Nat) (k : K) : Sys K V X :=
  match enter s.sh k with
  | (sh, .hit v) => { sh := sh, thr := setThr s.thr t .idle, log := .returned t k v :: s.log }
  | (sh, .wait e) => { s with sh := sh, thr := setThr s.thr t (.waiting k e) }
  | (sh, .compute) => { sh := sh, thr := setThr s.thr t (.computing k), log := .started t k :: s.log }
  | (sh, .keyError) =>
    { sh := sh, thr := setThr s.thr t .idle, log := .internal t k .keyError :: s.log }

/-- Final lock section of the computing thread. -/
def doComplete (maxsize : Option Int) (s : Sys K V X) (t : Nat) (k : K) (r : Except X V) : Sys K V X :=
  let res := match r with
    | .ok v => store maxsize s.sh k v
    | .error _ => abort s.sh k
  let log := (match r with
    | .ok v => Obs.computed t k v
    | .error x => Obs.raised t k x) :: s.log
  match res with
  | (sh, e, none) => { sh := sh, thr := setThr s.thr t (.signalling e k r), log := log }
  | (sh, _, some i) => { sh := sh, thr := setThr s.thr t .idle, log := .internal t k i :: log }

/-- One step; `none` if the move is not possible in this state. -/
def step (maxsize : Option Int) (s : Sys K V X) : Op K V X → Option (Sys K V X)
  | .call t k =>
    match s.thr t with
    | .idle => some (doEnter s t k)
    | _ => none
  | .retry t =>
    match s.thr t with
    | .retrying k => some (doEnter s t k)
    | _ => none
  | .complete t r =>
    match s.thr t with
    | .computing k => some (doComplete maxsize s t k r)
    | _ => none
  | .signal t =>
    match s.thr t with
    | .signalling e k (.ok v) =>
      some { sh := signalEv s.sh e, thr := setThr s.thr t .idle, log := .returned t k v :: s.log }
    | .signalling e k (.error x) =>
      some { sh := signalEv s.sh e, thr := setThr s.thr t .idle, log := .failed t k x :: s.log }
    | _ => none
  | .wake t =>
    match s.thr t with
    | .waiting k e =>
      if s.sh.isSet e then
        match reread s.sh k with
        | some v => some { s with thr := setThr s.thr t .idle, log := .returned t k v :: s.log }
        | none => some { s with thr := setThr s.thr t (.retrying k) }
      else none
    | _ => none
  | .clear => some { s with sh := clear s.sh, log := .cleared :: s.log }

/-- Run a list of moves; `none` if one of them is not possible. -/
def run (maxsize : Option Int) : Sys K V X → List (Op K V X) → Option (Sys K V X)
  | s, [] => some s
  | s, op :: ops =>
    match step maxsize s op with
    | some s' => run maxsize s' ops
    | none => none

/-- The program at the start: empty cache (L243-246, L398-403), no thread inside the wrapper. -/
def init : Sys K V X := {}

/-! ### Single-threaded use -/

/-- What one call shows to a single-threaded caller. -/
inductive Result (V X : Type)
  | hit (v : V)            -- returned without running the function
  | ran (r : Except X V)   -- the function ran with this outcome
  | stuck                  -- `event.wait()` on an event nobody will set
  | internal (i : Internal)

/-- A complete call by the only thread: first lock section, function (whose outcome would be `r`), last lock section,
L248-303 / L410-475 without interleaving. -/
def callSeq (maxsize : Option Int) (s : Shared K V) (k : K) (r : Except X V) :
    Shared K V × Result V X :=
  match enter s k with
  | (s1, .hit v) => (s1, .hit v)
  | (s1, .wait _) => (s1, .stuck)
  | (s1, .keyError) => (s1, .internal .keyError)
  | (s1, .compute) =>
    match r with
    | .ok v =>
      match store maxsize s1 k v with
      | (s2, e, none) => (signalEv s2 e, .ran r)
      | (s2, _, some i) => (s2, .internal i)
    | .error _ =>
      match abort s1 k with
      | (s2, e, none) => (signalEv s2 e, .ran r)
      | (s2, _, some i) => (s2, .internal i)

end Verif.Cache
