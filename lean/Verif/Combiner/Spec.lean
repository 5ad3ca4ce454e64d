import Verif.Combiner.Model
import Mathlib.Algebra.BigOperators.Group.List.Basic

/-!
# Vocabulary for the properties of combinations
-/

namespace Verif.Combiner
open Verif.Py F

/-- Operations of the combination itself: everything but assigning to the attribute `analysis`. -/
def Op.keepsNames : Op → Prop
  | .rename _ _ => False
  | _ => True

/-- The models that a history tries to append to combination `c`, in order. -/
def appended (c : ℕ) : List Op → List ℕ
  | [] => []
  | .append c' (.model m) :: l => if c' = c then m :: appended c l else appended c l
  | _ :: l => appended c l

/-- All combinations have pairwise distinct analysis names. -/
def Distinct (h : Heap) : Prop := ∀ l ∈ h.lists, (l.map h.name).Nodup

/-- Nothing is passed twice. -/
def NoClash {V : Type} (named : List String) (a b : Kwargs V) : Prop := (named ++ a.map Prod.fst ++ b.map Prod.fst).Nodup

/-- The members that an operand of `@` stands for. -/
def Members (h : Heap) (o : Obj) (l : List ℕ) : Prop :=
  (∃ c, o = .combiner c ∧ h.lists[c]? = some l) ∨ ∃ m, o = .model m ∧ l = [m]

end Verif.Combiner
