import Verif.Logger.Model

/-!
# What logging programs are supposed to do
-/

namespace Verif.Logger

/-- Programs that log, raise, catch and use the context managers, but do not change the logger otherwise. -/
def Plain : Prog → Prop
  | .skip => True
  | .log _ => True
  | .raise _ => True
  | .seq p q => Plain p ∧ Plain q
  | .attempt p q => Plain p ∧ Plain q
  | .capture _ _ p => Plain p
  | .disable _ p => Plain p
  | _ => False

/-- The handlers are different objects, which exist. -/
def Sound (w : World) : Prop := w.handlers.Nodup ∧ ∀ h ∈ w.handlers, h < w.next

/-- The settings of the logger are the same. -/
structure SameSettings (w w' : World) : Prop where
  level : w'.level = w.level
  propagate : w'.propagate = w.propagate
  handlers : w'.handlers = w.handlers
  rootLevel : w'.rootLevel = w.rootLevel
  rootHandlers : w'.rootHandlers = w.rootHandlers
  disable : w'.disable = w.disable

/-- The distinct messages of a list, in the order in which they occur first. -/
def firsts : List String → List String
  | [] => []
  | m :: l => m :: (firsts l).filter (· ≠ m)

/-- What a program does inside a capture with level `l` when `logging.disable(d)` is in force: the messages it logs for this capture,
the lines that captures inside it have written, and how it ends. A record is logged if its level is at least that of the capture,
above `d`, and, should the level of the capture be 0, at least that of the root logger. A capture that ends without an exception
writes its distinct messages to its stream. -/
def meaning (broken : ℕ → Bool) (root : ℕ) : ℕ → ℕ → Prog → List String × List (ℕ × String) × Outcome
  | l, d, .log r => (if l ≤ r.level ∧ d < r.level ∧ (l = 0 → root ≤ r.level) then [(colored r).msg] else [], [], .ok)
  | _, _, .raise e => ([], [], .raised e)
  | l, d, .seq p q =>
    match meaning broken root l d p with
    | (ms, ls, .ok) =>
      match meaning broken root l d q with
      | (ms', ls', o) => (ms ++ ms', ls ++ ls', o)
    | (ms, ls, .raised e) => (ms, ls, .raised e)
  | l, d, .attempt p q =>
    match meaning broken root l d p with
    | (ms, ls, .ok) => (ms, ls, .ok)
    | (ms, ls, .raised _) =>
      match meaning broken root l d q with
      | (ms', ls', o) => (ms ++ ms', ls ++ ls', o)
  | _, d, .capture l s p =>
    match meaning broken root l d p with
    | (ms, ls, .ok) =>
      if ms = [] then ([], ls, .ok)
      else if broken s then ([], ls, .raised streamError)
      else ([], ls ++ (firsts ms).map fun m => (s, m), .ok)
    | (_, ls, .raised e) => ([], ls, .raised e)
  | l, _, .disable d p => meaning broken root l d p
  | _, _, _ => ([], [], .ok)

end Verif.Logger
