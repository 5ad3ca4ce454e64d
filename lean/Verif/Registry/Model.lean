import Verif.Py.Seq

/-!
# Model of the registry of backends

`/repo/src/spey/__init__.py` L96-366 and `statistical_model_wrapper`, `/repo/src/spey/interface/statistical_model.py`
L1302-1400. Classes are objects with an identity (a number) and changeable attributes; the registry maps names to entry points
of installed packages or to classes.
-/

namespace Verif.Registry
open Verif.Py

/-- Exceptions: `AssertionError`, `AbstractModel`, `MissingMetaData`, `ValueError`, `PluginError`, `AttributeError` and any
other exception (import of a plug-in, constructor of a converter, ill-formed version specification). -/
inductive Err
  | assertion | abstract | missingMeta | value | plugin | attribute | other
  deriving DecidableEq

/-- The attributes of a class the registry looks at. `none` means that the attribute does not exist. `name` and
`spey_requires` are strings here (the code accepts any object). `load` is an attribute of that name that can be called
without arguments, given by what it returns (a class, by its number); the base classes `BackendBase` and `ConverterBase`
(base/backend_base.py L31-692) have none. `init` says whether the constructor without arguments succeeds. -/
structure Cls where
  isBackend : Bool
  isConverter : Bool
  abstractMethods : List String
  name : Option String
  requires : Option String
  author : Option String
  version : Option String
  doi : List String
  arXiv : List String
  zenodo : List String
  load : Option ℕ
  init : Except Err Unit

/-- A value of the dict `_backend_entries`: an entry point, by what its method `load` does, or a class. -/
inductive Entry
  | point (load : Except Err ℕ)
  | cls (c : ℕ)

/-- All classes and the dict `_backend_entries`, L122. -/
structure World where
  classes : ℕ → Cls
  entries : List (String × Entry)

/-- `Version(__version__) in SimpleSpec(spec)`, L188 and L289: the package `semantic_version` is a parameter; parsing may
raise. -/
abbrev Spec := String → Except Err Bool

/-- The checks of `register_backend` from L171 to L192, in order. The result is the name. The name `__unknown_model__` only
causes a log message, L185-186. -/
def checkRegister (spec : Spec) (w : World) (c : ℕ) : Except Err String :=
  if ¬ ((w.classes c).isBackend ∨ (w.classes c).isConverter) then .error .assertion
  else if (w.classes c).abstractMethods ≠ [] then .error .abstract
  else
    match (w.classes c).requires, (w.classes c).name with
    | some req, some name =>
      if name ∈ w.entries.map Prod.fst then .error .value
      else
        match spec req with
        | .error e => .error e
        | .ok false => .error .plugin
        | .ok true => .ok name
    | _, _ => .error .missingMeta

/-- `register_backend`, L131-196. -/
def register (spec : Spec) (w : World) (c : ℕ) : World × Except Err ℕ :=
  match checkRegister spec w c with
  | .error e => (w, .error e)
  | .ok name => ({ w with entries := dictSet name (.cls c) w.entries }, .ok c)

/-- `dict.update` with the pairs of `found` in order. -/
def update (d : List (String × Entry)) : List (String × Entry) → List (String × Entry)
  | [] => d
  | (k, v) :: found => update (dictSet k v d) found

/-- `reset_backend_entries`, L126-128, and `_get_backend_entrypoints`, L117-119. `found` are the entry points that the scan
finds, in any order; a name may occur twice, then the last one stays. -/
def reset (w : World) (found : List (String × Except Err ℕ)) : World :=
  { w with entries := update w.entries (found.map fun p => (p.1, .point p.2)) }

/-- `backend.load()`: an entry point loads its object; a class only has the method if it defines one itself. -/
def load (w : World) : Entry → Except Err ℕ
  | .point r => r
  | .cls c =>
    match (w.classes c).load with
    | none => .error .attribute
    | some r => .ok r

/-- The object wrapped by `statistical_model_wrapper`: a class or a new instance of a converter. -/
inductive Wrapped
  | cls (c : ℕ)
  | instance (c : ℕ)
  deriving DecidableEq

/-- The attribute `name` is set if it is missing or empty, otherwise it has to agree, L282-287. -/
def identify (w : World) (name : String) (c : ℕ) : World × Except Err Unit :=
  match (w.classes c).name with
  | none => ({ w with classes := Function.update w.classes c { w.classes c with name := some name } }, .ok ())
  | some n =>
    if n = "" then
      ({ w with classes := Function.update w.classes c { w.classes c with name := some name } }, .ok ())
    else if n = name then (w, .ok ()) else (w, .error .assertion)

/-- The checks of `get_backend` after L287: version, abstract methods, kind, and the instance of a converter. `issubclass` of
L302 raises `TypeError` if the loaded object is not a class; here every loaded object is one. -/
def finish (spec : Spec) (w : World) (req : String) (c : ℕ) : Except Err Wrapped :=
  match spec req with
  | .error e => .error e
  | .ok false => .error .plugin
  | .ok true =>
    if (w.classes c).abstractMethods ≠ [] then .error .abstract
    else if (w.classes c).isConverter then
      match (w.classes c).init with
      | .error e => .error e
      | .ok () => .ok (.instance c)
    else .ok (.cls c)

/-- `get_backend`, L269-311. The test `isinstance(backend, (BackendBase, ConverterBase))`, L274, is false for every value of
the dict: entry points and classes are no instances of these classes. So `load` is always called. -/
def getBackend (spec : Spec) (w : World) (name : String) : World × Except Err Wrapped :=
  match dictGet name w.entries with
  | none => (w, .error .plugin)
  | some entry =>
    match load w entry with
    | .error e => (w, .error e)
    | .ok c =>
      match (w.classes c).requires with
      | none => (w, .error .assertion)
      | some req =>
        match identify w name c with
        | (w', .error e) => (w', .error e)
        | (w', .ok ()) => (w', finish spec w' req c)

/-- The dict returned by `get_backend_metadata`. -/
structure Meta where
  name : String
  author : String
  version : String
  requires : String
  doi : List String
  arXiv : List String
  zenodo : List String
  deriving DecidableEq

/-- `get_backend_metadata`, L314-366. -/
def getMetadata (w : World) (name : String) : Except Err Meta :=
  match dictGet name w.entries with
  | none => .error .plugin
  | some entry =>
    match load w entry with
    | .error e => .error e
    | .ok c =>
      match (w.classes c).requires with
      | none => .error .attribute
      | some req => .ok
        { name := (w.classes c).name.getD "__unknown_model__"
          author := (w.classes c).author.getD "__unknown_author__"
          version := (w.classes c).version.getD "__unknown_version__"
          requires := req
          doi := (w.classes c).doi
          arXiv := (w.classes c).arXiv
          zenodo := (w.classes c).zenodo }

/-- What can happen: registrations, scans of the system, look-ups, and changes of the attributes of a class by the user. -/
inductive Op
  | register (c : ℕ)
  | reset (found : List (String × Except Err ℕ))
  | get (name : String)
  | edit (c : ℕ) (new : Cls)

def step (spec : Spec) (w : World) : Op → World
  | .register c => (register spec w c).1
  | .reset found => reset w found
  | .get name => (getBackend spec w name).1
  | .edit c new => { w with classes := Function.update w.classes c new }

def run (spec : Spec) (w : World) : List Op → World
  | [] => w
  | o :: l => run spec (step spec w o) l

end Verif.Registry
