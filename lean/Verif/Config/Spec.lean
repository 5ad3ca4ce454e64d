import Verif.Config.Model

/-!
# Vocabulary for the model configuration properties
-/

namespace Verif.Config
open Verif.Py F

/-- `lo <= v <= hi`. -/
def Contains (b : Bound) (v : ℝ) : Prop := ∃ lo hi, b = (some lo, some hi) ∧ le lo (fin v) ∧ le (fin v) hi

/-- `lo < v < hi`. -/
def StrictlyContains (b : Bound) (v : ℝ) : Prop := ∃ lo hi, b = (some lo, some hi) ∧ lt lo (fin v) ∧ lt (fin v) hi

/-- The bounds are an interval, `lo <= hi`. -/
def Proper (b : Bound) : Prop := ∃ lo hi, b = (some lo, some hi) ∧ le lo hi

/-- The parameter a key stands for: an index stands for itself, a name for the first position where it occurs. -/
def Denotes (names : Option (List String)) : Key → ℤ → Prop
  | .index j, i => j = i
  | .name s, i => ∃ l, names = some l ∧ ∃ k : ℕ, i = k ∧ l[k]? = some s ∧ ∀ m < k, l[m]? ≠ some s

/-- The name `s` after the renaming `map`, all names being replaced at once. -/
def renamed (map : List (String × String)) (s : String) : String :=
  match map.find? (fun p => p.1 == s) with
  | some p => p.2
  | none => s

end Verif.Config
