import Mathlib.Data.List.Basic
import Mathlib.Logic.Function.Basic

/-!
# Model of `system/logger.py`

`/repo/src/spey/system/logger.py` and the part of Python's `logging` that it uses. There are two loggers, "Spey" and its parent, the
root logger. Messages without arguments (`record.args` empty) are modelled: no `%` formatting takes place.
-/

namespace Verif.Logger

/-- A log record: its level, the place in the source as it is shown for DEBUG records, and the message. -/
structure Record where
  level : ℕ
  place : String
  msg : String
  deriving DecidableEq

/-- The colour and the heading, logger.py L23-37. -/
def heading (level : ℕ) (place : String) : String :=
  if 40 ≤ level then "\x1b[31mSpey - ERROR: "
  else if 30 ≤ level then "\x1b[35mSpey - WARNING: "
  else if 20 ≤ level then "\x1b[0mSpey: "
  else if 10 ≤ level then s!"\x1b[36mSpey - DEBUG ({place}): "
  else "\x1b[0mSpey: "

/-- `ColoredFormatter.format`, logger.py L22-40: what is shown is also stored in `record.msg`. -/
def colored (r : Record) : Record := { r with msg := heading r.level r.place ++ r.msg ++ "\x1b[0m" }

/-- The formatter of a handler. -/
inductive Formatter
  | plain | colored

/-- `handler.format(record)`: what is shown, and the record afterwards. -/
def Formatter.format (f : Formatter) (r : Record) : String × Record :=
  match f with
  | .plain => (r.msg, r)
  | .colored => ((Logger.colored r).msg, Logger.colored r)

/-- Where a handler puts its messages: a stream, or its list of distinct messages, logger.py L111-124. -/
inductive Target
  | stream (s : ℕ) | dedup

structure Handler where
  level : ℕ
  formatter : Formatter
  target : Target

/-- The state of Python's `logging`: the level, the propagation flag and the handlers of the logger "Spey", the level and the
handlers of the root logger, the threshold of `logging.disable`; the handler objects, known by number, of which `next` exist; the
messages that the objects of `_DedupHandler` have collected (`records`; the set `seen_messages` has the same elements); and all
lines written so far, with their stream. Stream 0 is the standard error stream. -/
structure World where
  level : ℕ
  propagate : Bool
  handlers : List ℕ
  rootLevel : ℕ
  rootHandlers : List ℕ
  disable : ℕ
  next : ℕ
  object : ℕ → Handler
  collected : ℕ → List String
  out : List (ℕ × String)
  /-- Streams that raise an exception when they are written to. -/
  broken : ℕ → Bool

/-- `getEffectiveLevel`: level 0 means the level of the parent. -/
def effectiveLevel (w : World) : ℕ := if w.level = 0 then w.rootLevel else w.level

/-- `isEnabledFor(level)`. -/
def enabled (w : World) (level : ℕ) : Prop := w.disable < level ∧ effectiveLevel w ≤ level

instance (w : World) (level : ℕ) : Decidable (enabled w level) := by unfold enabled; infer_instance

/-- `_DedupHandler.emit`, logger.py L115-124. -/
def collect (l : List String) (m : String) : List String := if m ∈ l then l else l ++ [m]

/-- `handler.handle(record)`. A `StreamHandler` whose stream fails reports that and goes on. -/
def handle (w : World) (h : ℕ) (r : Record) : World × Record :=
  if (w.object h).level ≤ r.level then
    match (w.object h).formatter.format r with
    | (line, r') =>
      match (w.object h).target with
      | .stream s => (if w.broken s then w else { w with out := w.out ++ [(s, line)] }, r')
      | .dedup => ({ w with collected := Function.update w.collected h (collect (w.collected h) line) }, r')
  else (w, r)

/-- The loop over handlers of `callHandlers`. All handlers get the same record. -/
def handleAll (w : World) (hs : List ℕ) (r : Record) : World × Record :=
  match hs with
  | [] => (w, r)
  | h :: l =>
    match handle w h r with
    | (w', r') => handleAll w' l r'

/-- `Logger.callHandlers`: the own handlers, then those of the parent; without any handler a warning goes to the error stream. -/
def callHandlers (w : World) (r : Record) : World :=
  match handleAll w w.handlers r with
  | (w1, r1) =>
    if w.propagate then
      if w.handlers = [] ∧ w.rootHandlers = [] then
        if 30 ≤ r.level then { w with out := w.out ++ [(0, r.msg)] } else w
      else (handleAll w1 w.rootHandlers r1).1
    else if w.handlers = [] then
      if 30 ≤ r.level then { w with out := w.out ++ [(0, r.msg)] } else w
    else w1

/-- `log.info(...)` and the like. -/
def emit (w : World) (r : Record) : World := if enabled w r.level then callHandlers w r else w

/-- `addHandler`: a handler that is there already is not added. -/
def addHandler (w : World) (h : ℕ) : World := if h ∈ w.handlers then w else { w with handlers := w.handlers ++ [h] }

/-- `removeHandler`. -/
def removeHandler (w : World) (h : ℕ) : World := { w with handlers := w.handlers.erase h }

/-- How a block of statements ends. -/
inductive Outcome
  | ok | raised (e : ℕ)
  deriving DecidableEq

/-- The exception of a stream that cannot be written. -/
def streamError : ℕ := 0

/-- `for m in records: stream.write(m + "\n")`, logger.py L147-148. -/
def writeAll (w : World) (s : ℕ) : List String → Outcome × World
  | [] => (.ok, w)
  | m :: l => if w.broken s then (.raised streamError, w) else writeAll { w with out := w.out ++ [(s, m)] } s l

/-- Programs that use the logger: messages, exceptions, `try`-`except`, the two context managers, and changes of the logger. -/
inductive Prog
  | skip
  | log (r : Record)
  | raise (e : ℕ)
  | seq (p q : Prog)
  | attempt (p q : Prog)
  | capture (level stream : ℕ) (p : Prog)
  | disable (level : ℕ) (p : Prog)
  | setLevel (level : ℕ)
  | setPropagate (b : Bool)
  | addHandler (h : ℕ)
  | removeHandler (h : ℕ)

/-- `capture_logs` up to `try`, logger.py L110-142: the new handler has number `w.next`. -/
def enterCapture (w : World) (level : ℕ) : World :=
  let h := w.next
  let w1 : World := { w with
    next := w.next + 1
    object := Function.update w.object h ⟨level, .colored, .dedup⟩
    collected := Function.update w.collected h [] }
  let w2 := w1.handlers.foldl removeHandler w1
  { addHandler w2 h with level := level, propagate := false }

/-- The `finally` block, logger.py L153-159; `before` is the state when the context manager was entered. -/
def leaveCapture (before w : World) : World :=
  let w1 := removeHandler w before.next
  before.handlers.foldl addHandler { w1 with level := before.level, propagate := before.propagate }

/-- Run a program. The context manager `disable_logging` is logger.py L74-88, `capture_logs` L91-159; `stream.flush()` changes
nothing here. -/
def exec : Prog → World → Outcome × World
  | .skip, w => (.ok, w)
  | .log r, w => (.ok, emit w r)
  | .raise e, w => (.raised e, w)
  | .seq p q, w =>
    match exec p w with
    | (.ok, w1) => exec q w1
    | (.raised e, w1) => (.raised e, w1)
  | .attempt p q, w =>
    match exec p w with
    | (.ok, w1) => (.ok, w1)
    | (.raised _, w1) => exec q w1
  | .capture l s p, w =>
    match exec p (enterCapture w l) with
    | (.ok, w1) =>
      match writeAll w1 s (w1.collected w.next) with
      | (o, w2) => (o, leaveCapture w w2)
    | (.raised e, w1) => (.raised e, leaveCapture w w1)
  | .disable l p, w =>
    match exec p { w with disable := l } with
    | (o, w1) => (o, { w1 with disable := w.disable })
  | .setLevel l, w => (.ok, { w with level := l })
  | .setPropagate b, w => (.ok, { w with propagate := b })
  | .addHandler h, w => (.ok, addHandler w h)
  | .removeHandler h, w => (.ok, removeHandler w h)

/-! ### `init` -/

/-- `for hdlr in SpeyLogger.handlers: SpeyLogger.removeHandler(hdlr)`, logger.py L65-66: the list is changed while the loop goes
over it by position. The list gets shorter in each round. -/
def removeLoop (i : ℕ) (l : List ℕ) : List ℕ :=
  if h : i < l.length then removeLoop (i + 1) (l.erase l[i]) else l
  termination_by l.length - i
  decreasing_by
    have := List.length_erase_of_mem (List.getElem_mem h)
    omega

/-- `init`, logger.py L43-71. `logging.StreamHandler()` writes to the error stream and has level 0. -/
def init (w : World) (stream : ℕ) : World :=
  { w with
    next := w.next + 2
    object := Function.update (Function.update w.object w.next ⟨0, .colored, .stream 0⟩) (w.next + 1) ⟨0, .colored, .stream stream⟩
    rootHandlers := w.rootHandlers ++ [w.next]
    handlers := removeLoop 0 w.handlers ++ [w.next + 1]
    propagate := false }

end Verif.Logger
