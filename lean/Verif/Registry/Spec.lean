import Verif.Registry.Model

/-!
# Vocabulary for the properties of the registry
-/

namespace Verif.Registry
open Verif.Py

/-- A class that may be registered under `name`: a concrete backend or converter with the mandatory metadata, a name that is
not taken, and a requirement which the running version meets. -/
structure Admissible (spec : Spec) (w : World) (c : ℕ) (name : String) : Prop where
  kind : (w.classes c).isBackend = true ∨ (w.classes c).isConverter = true
  concrete : ∀ m, m ∉ (w.classes c).abstractMethods
  named : (w.classes c).name = some name
  free : ∀ e, (name, e) ∉ w.entries
  requires : ∃ req, (w.classes c).requires = some req ∧ spec req = .ok true

/-- The class `c` is what stands behind `name`: an entry point that loads `c`. -/
def Installed (w : World) (name : String) (c : ℕ) : Prop := (name, Entry.point (.ok c)) ∈ w.entries

/-- Names in the registry are unique. -/
def Unique (w : World) : Prop := (w.entries.map Prod.fst).Nodup

/-- The history registered the class `c` successfully under `name` at some moment, being admissible then. -/
def WasRegistered (spec : Spec) (w : World) (ops : List Op) (name : String) (c : ℕ) : Prop :=
  ∃ before after, ops = before ++ Op.register c :: after ∧ Admissible spec (run spec w before) c name

end Verif.Registry
