import Verif.Expectation.Model

/-!
# Vocabulary for the comparison of expectation types
-/

namespace Verif.Expectation

/-- The expectation that a value stands for: a member itself, its name, or a boolean (`True`: before the fit, `False`: observed).
Any other string and `None` stand for nothing. -/
def Denotes : Value → Member → Prop
  | .member a, m => a = m
  | .str s, m => s = m.name
  | .bool b, m => (b = true ∧ m = .apriori) ∨ (b = false ∧ m = .observed)
  | .none, _ => False
  | .other _, _ => False

/-- A member or a string. -/
def Named : Value → Prop
  | .member _ => True
  | .str _ => True
  | _ => False

end Verif.Expectation
