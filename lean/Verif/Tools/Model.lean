import Mathlib.Data.List.Defs
import Mathlib.Data.Int.Notation

/-!
# Model of the tools around the models

`/repo/src/spey/__init__.py` (settings, messages, citations), the choice of the minimiser in `/repo/src/spey/optimizer/core.py`, `warning_tracker` of
`/repo/src/spey/system/exceptions.py`, and `get_bibtex` and `check_updates` of `/repo/src/spey/system/webutils.py`.
-/

namespace Verif.Tools

/-- Exceptions: `ValueError`, `KeyError`, and the `ConnectionError` of webutils.py L22-23. -/
inductive Err
  | value | key | connection
  deriving DecidableEq

/-! ### The minimiser -/

/-- The two functions `minimize`, scipy_tools.py L21 and minuit_tools.py L19. -/
inductive Min
  | scipy | minuit
  deriving DecidableEq

/-- `set_optimiser`, __init__.py L463-497: the value of the environment variable `SPEY_OPTIMISER` after the call. `iminuit`: `find_spec` finds the package. -/
def setOptimiser (iminuit : Bool) (env : Option String) (name : String) : Option String :=
  if name ∈ ["minuit", "iminuit"] then if iminuit then some "minuit" else env
  else if name = "scipy" then some "scipy" else env

/-- core.py L105-110: the name of the minimiser. `option` is the argument `minimizer` of the call, `lower` is `str.lower`. -/
def minimizerName (lower : String → String) (env option : Option String) : String :=
  let n := option.getD (lower (env.getD "scipy"))
  if n ∉ ["scipy", "minuit"] then "scipy" else n

/-- `_get_minimizer`, core.py L15-28. -/
def getMinimizer (iminuit : Bool) (name : String) : Except Err Min :=
  if name = "scipy" then .ok .scipy
  else if name = "minuit" then if iminuit then .ok .minuit else .ok .scipy
  else .error .value

/-- The minimiser of `fit`, core.py L105-111 and L130. -/
def chosen (iminuit : Bool) (lower : String → String) (env option : Option String) : Except Err Min := getMinimizer iminuit (minimizerName lower env option)

/-! ### Messages -/

/-- One call of a function with `lru_cache(n)`: whether the function runs, and the keys in the cache, the latest used first. -/
def lru {κ : Type} [DecidableEq κ] (n : ℕ) (cache : List κ) (k : κ) : Bool × List κ :=
  if k ∈ cache then (false, k :: cache.erase k) else (true, (k :: cache).take n)

/-- `log_once`, __init__.py L445-460: calls with these pairs of message and type, the first one first. For each call, whether the message is written. -/
def logOnce {κ : Type} [DecidableEq κ] : List κ → List κ → List Bool
  | _, [] => []
  | cache, k :: l => (lru 10 cache k).1 :: logOnce (lru 10 cache k).2 l

/-- What happens inside a function with `@warning_tracker`: warnings, and calls of further such functions. `ok` says whether such a call returns; if not, it raises an
exception, which the caller may catch. Warnings are those that pass the filters. -/
inductive Trace
  | done
  | warn (w : String) (rest : Trace)
  | call (body : Trace) (ok : Bool) (rest : Trace)

/-- `warning_tracker`, exceptions.py L23-36: the messages written so far, and the warnings in the list `w` of the function itself, L28. The loop over the list, L30-33, is not
reached if the function raises. -/
def track : Trace → List String × List String
  | .done => ([], [])
  | .warn w rest => ((track rest).1, w :: (track rest).2)
  | .call body ok rest => ((track body).1 ++ (if ok then (track body).2 else []) ++ (track rest).1, (track rest).2)

/-- The messages of a call of a function with the decorator. -/
def logged (body : Trace) (ok : Bool) : List String := (track (.call body ok .done)).1

/-! ### Citations -/

/-- The reply to a request: status and text, no connection (one of the three exceptions of webutils.py L72-76), or any other exception. -/
inductive Reply
  | answer (status : ℤ) (text : String)
  | noConnection
  | failure

/-- webutils.py L54-59. -/
def homeLoc (home : String) : Option String :=
  if home = "inspire/arxiv" then some "https://inspirehep.net/api/arxiv/"
  else if home = "inspire/doi" then some "https://inspirehep.net/api/doi/"
  else if home = "doi" then some "https://doi.org/"
  else if home = "zenodo" then some "https://zenodo.org/api/records/"
  else none

/-- `get_bibtex`, webutils.py L26-82. An unknown home leads to a `KeyError` inside the block, which L80 catches. -/
def getBibtex (net : String → Reply) (home id : String) : Except Err String :=
  match homeLoc home with
  | none => .ok ""
  | some url =>
    match net (url ++ id) with
    | .answer status text => if 200 ≤ status ∧ status ≤ 299 then .ok text else .ok ""
    | .noConnection => .error .connection
    | .failure => .ok ""

/-- The dictionary `out`, __init__.py L395. -/
structure Entries where
  inspire : List String
  doi : List String
  zenodo : List String
  deriving DecidableEq

/-- __init__.py L399-404; the flag says whether there was a connection all the time. `indent` is `textwrap.indent` with four blanks. -/
def arxivLoop (indent : String → String) (get : String → String → Except Err String) : List String → Entries → Entries × Bool
  | [], out => (out, true)
  | i :: l, out =>
    match get "inspire/arxiv" i with
    | .error _ => (out, false)
    | .ok t => arxivLoop indent get l (if t ≠ "" then { out with inspire := out.inspire ++ [indent t] } else out)

/-- __init__.py L405-415. -/
def doiLoop (indent : String → String) (get : String → String → Except Err String) : List String → Entries → Entries × Bool
  | [], out => (out, true)
  | i :: l, out =>
    match get "inspire/doi" i with
    | .error _ => (out, false)
    | .ok t =>
      if t = "" then
        match get "doi" i with
        | .error _ => (out, false)
        | .ok u => doiLoop indent get l (if u ≠ "" then { out with doi := out.doi ++ [u] } else out)
      else doiLoop indent get l { out with inspire := out.inspire ++ [indent t] }

/-- __init__.py L416-421. -/
def zenodoLoop (indent : String → String) (get : String → String → Except Err String) : List String → Entries → Entries × Bool
  | [], out => (out, true)
  | i :: l, out =>
    match get "zenodo" i with
    | .error _ => (out, false)
    | .ok t => zenodoLoop indent get l (if t ≠ "" then { out with zenodo := out.zenodo ++ [indent t] } else out)

/-- `get_backend_bibtex`, __init__.py L394-427, once the metadata are known. -/
def backendBibtex (indent : String → String) (net : String → Reply) (arxiv doi zenodo : List String) : Entries :=
  let (out, ok) := arxivLoop indent (getBibtex net) arxiv ⟨[], [], []⟩
  if ok then
    let (out, ok) := doiLoop indent (getBibtex net) doi out
    if ok then (zenodoLoop indent (getBibtex net) zenodo out).1 else out
  else out

/-- The rest of the pattern in __init__.py L435 after `@software{`: the shortest group that is not empty, has no line break and is followed by `,` and a line break. `acc` is the
group so far. -/
def lazyGroup (acc : List Char) : List Char → Option (List Char)
  | [] => none
  | c :: t =>
    if acc ≠ [] ∧ [',', '\n'].isPrefixOf (c :: t) then some acc
    else if c = '\n' then none
    else lazyGroup (acc ++ [c]) t

/-- `re.search` of __init__.py L435: the group of the first match. -/
def search : List Char → Option (List Char)
  | [] => none
  | c :: t =>
    if "@software{".toList.isPrefixOf (c :: t) then
      match lazyGroup [] ((c :: t).drop 10) with
      | some g => some g
      | none => search t
    else search t

/-- `str.replace` for a text that is not empty; `skip` letters belong to the last occurrence. -/
def replaceFrom (old new : List Char) : ℕ → List Char → List Char
  | _, [] => []
  | skip + 1, _ :: t => replaceFrom old new skip t
  | 0, c :: t => if old.isPrefixOf (c :: t) then new ++ replaceFrom old new (old.length - 1) t else c :: replaceFrom old new 0 t

/-- __init__.py L435-437. -/
def rename (zenodo : List Char) : List Char :=
  match search zenodo with
  | some g => replaceFrom g "spey_zenodo".toList 0 zenodo
  | none => zenodo

/-- `cite`, __init__.py L430-442. -/
def cite (net : String → Reply) : List Char :=
  match getBibtex net "inspire/arxiv" "2307.06996" with
  | .error _ => []
  | .ok arxiv =>
    match getBibtex net "zenodo" "10156353" with
    | .error _ => []
    | .ok zenodo => arxiv.toList ++ "\n\n".toList ++ rename zenodo.toList

/-! ### Updates -/

/-- What `semantic_version` does: `none` stands for a `ValueError`. -/
structure Semver (V : Type) where
  version : String → Option V
  spec : String → Option (V → Bool)
  lt : V → V → Bool
  beta : V → Bool

/-- The answer of the package index: none, something that has no such entries (an exception), or the two entries; `none` stands for a missing or empty one. -/
inductive Info
  | missing
  | malformed
  | of (version requires : Option String)

/-- The four warnings of `check_updates`. -/
inductive Msg
  | prerelease | newer | unstable | python
  deriving DecidableEq

/-- `check_updates`, webutils.py L206-240: the warnings. All exceptions end the function silently, L239. -/
def checkUpdates {V : Type} (S : Semver V) (python current : String) : Info → List Msg
  | .missing => []
  | .malformed => []
  | .of version requires =>
    match S.version python with
    | none => []
    | some py =>
      match version with
      | none => []
      | some new =>
        match requires.bind S.spec with
        | none => []
        | some req =>
          match S.version current with
          | none => []
          | some cur =>
            if S.beta cur then .prerelease :: if req py then [] else [.python]
            else
              match S.version new with
              | none => []
              | some v => (if S.lt cur v then [.newer] else if S.lt v cur then [.unstable] else []) ++ if req py then [] else [.python]

/-! ### Settings of the environment -/

/-- The levels of `set_log_level`, __init__.py L73-78. -/
inductive Level
  | error | warning | info | debug
  deriving DecidableEq

/-- `log_dict[level]`, __init__.py L73-79. -/
def logLevel (n : ℤ) : Except Err Level :=
  if n = 0 then .ok .error else if n = 1 then .ok .warning else if n = 2 then .ok .info else if n = 3 then .ok .debug else .error .key

/-- The level after the import of the package, __init__.py L50 and L500-501. `toInt` is `int` on strings, `none` stands for a `ValueError`. -/
def importLevel (toInt : String → Option ℤ) (env : Option String) : Except Err Level :=
  match env with
  | none => .ok .info
  | some s =>
    match toInt s with
    | none => .error .value
    | some n => if 0 ≤ n then logLevel n else .ok .info

end Verif.Tools
