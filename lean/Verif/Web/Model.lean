import Mathlib.Data.Rat.Defs
import Mathlib.Algebra.Order.Ring.Rat
import Mathlib.Data.List.Sort
import Mathlib.Logic.Function.Basic

/-!
# Model of the update check

`/repo/src/spey/system/webutils.py` L85-176. Times are in seconds. A file name `pypi_latest_{timestamp}.json` is a number here: the
order of the numbers is the order of the names, which for the timestamps that the code writes is the order in time.
-/

namespace Verif.Web

/-- Any exception that `except Exception` catches. -/
inductive Err
  | failed
  deriving DecidableEq

/-- A file of the directory: its name, the outcome of `stat().st_mtime`, and the outcome of reading and decoding it. A decoded file
is `None` for the JSON text `null`. -/
structure File (α : Type) where
  name : ℕ
  stat : Except Err ℚ
  read : Except Err (Option α)

/-- `~/.spey`: `none` if there is no such directory. -/
abbrev Fs (α : Type) := Option (List (File α))

/-- `_CACHE_MAX_AGE_SECONDS`, webutils.py L86. -/
def maxAge : ℚ := 86400

/-- How one round of the loop ends: `return data`, or `break`. -/
inductive Step (α : Type)
  | ret (d : Option α) | stop

/-- The body of the loop, webutils.py L101-111. -/
def tryFile {α : Type} (now : ℚ) (f : File α) : Except Err (Step α) :=
  match f.stat with
  | .error e => .error e
  | .ok m =>
    if now - m ≤ maxAge then
      match f.read with
      | .error e => .error e
      | .ok d => .ok (.ret d)
    else .ok .stop

/-- The loop, webutils.py L99-113. -/
def scan {α : Type} (now : ℚ) : List (File α) → Option α
  | [] => none
  | f :: l =>
    match tryFile now f with
    | .error _ => scan now l
    | .ok (.ret d) => d
    | .ok .stop => none

/-- `sorted(..., reverse=True)`. -/
def sorted {α : Type} (l : List (File α)) : List (File α) := l.mergeSort fun a b => decide (b.name ≤ a.name)

/-- `_load_cached_pypi_info`, webutils.py L89-116. `access` tells whether the directory can be looked at and listed. -/
def load {α : Type} (now : ℚ) (access : Bool) (fs : Fs α) : Option α :=
  match fs with
  | none => none
  | some l => if access then scan now (sorted l) else none

/-- How `write_text` ends: well; with an exception before the file is opened; with an exception later, with a truncated file. -/
inductive Write
  | ok | nothing | truncated
  deriving DecidableEq

/-- What happens while a result is saved: whether the directory can be made, how writing ends, whether the directory can be listed,
and which files can be deleted; the name from the clock and the time at which the file is written. -/
structure Saving where
  mkdir : Bool
  write : Write
  glob : Bool
  unlink : ℕ → Bool
  name : ℕ
  mtime : ℚ

/-- The file that `write_text` leaves behind. -/
def written {α : Type} (s : Saving) (info : Option α) (l : List (File α)) : List (File α) :=
  match s.write with
  | .ok => ⟨s.name, .ok s.mtime, .ok info⟩ :: l.filter fun f => f.name ≠ s.name
  | .nothing => l
  | .truncated => ⟨s.name, .ok s.mtime, .error .failed⟩ :: l.filter fun f => f.name ≠ s.name

/-- The loop that removes the other files, webutils.py L143-151. -/
def removed {α : Type} (s : Saving) (l : List (File α)) : List (File α) :=
  if s.glob then l.filter fun f => f.name = s.name ∨ s.unlink f.name = false else l

/-- `_save_pypi_info`, webutils.py L119-151. -/
def save {α : Type} (s : Saving) (info : Option α) (fs : Fs α) : Fs α :=
  if s.mkdir then some (removed s (written s info (fs.getD []))) else fs

/-- One check: the time, whether the directory can be looked at, the reply of the server (its status, and the outcome of decoding
it) and how saving goes. -/
structure Env (α : Type) where
  now : ℚ
  access : Bool
  reply : Except Err (ℕ × Except Err (Option α))
  saving : Saving

/-- The request, webutils.py L163-173. The status is not looked at. -/
def request {α : Type} (e : Env α) : Except Err (Option α) :=
  match e.reply with
  | .error err => .error err
  | .ok (_, j) => j

/-- `_get_pypi_info`, webutils.py L154-176: the result, the directory afterwards, and whether a request was made. -/
def get {α : Type} (e : Env α) (fs : Fs α) : Option α × Fs α × Bool :=
  match load e.now e.access fs with
  | some d => (some d, fs, false)
  | none =>
    match request e with
    | .error _ => (none, fs, true)
    | .ok info => (info, save e.saving info fs, true)

/-- Several checks, one after the other: results, directory, requests made. -/
def run {α : Type} : List (Env α) → Fs α → List (Option α × Bool) × Fs α
  | [], fs => ([], fs)
  | e :: es, fs =>
    match get e fs with
    | (r, fs1, q) =>
      match run es fs1 with
      | (rs, fs2) => ((r, q) :: rs, fs2)

/-! ### Several processes -/

/-- Where a process is in `_save_pypi_info`, after the directory was made: before writing, before listing the directory, deleting the
files that it has seen, or done. Writing, listing and each deletion are single steps here. -/
inductive Pc
  | write | list | unlink (rest : List ℕ) | done
  deriving DecidableEq

/-- The processes have names for their files, `name i`; the state is the set of file names and the position of each process. -/
structure State where
  files : List ℕ
  pc : ℕ → Pc

/-- One step of process `i`, webutils.py L136-151. -/
def step (name : ℕ → ℕ) (σ : State) (i : ℕ) : State :=
  match σ.pc i with
  | .write => ⟨if name i ∈ σ.files then σ.files else name i :: σ.files, Function.update σ.pc i .list⟩
  | .list => ⟨σ.files, Function.update σ.pc i (.unlink (σ.files.filter fun n => n ≠ name i))⟩
  | .unlink [] => ⟨σ.files, Function.update σ.pc i .done⟩
  | .unlink (n :: r) => ⟨σ.files.filter (fun m => m ≠ n), Function.update σ.pc i (.unlink r)⟩
  | .done => σ

/-- The processes take steps in the order of the schedule. -/
def runAll (name : ℕ → ℕ) (σ : State) (schedule : List ℕ) : State := schedule.foldl (step name) σ

end Verif.Web
