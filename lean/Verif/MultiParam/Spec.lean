import Verif.MultiParam.Model

/-!
# Vocabulary for `chi2_test`
-/

namespace Verif.MultiParam
open Verif.Py F

variable {σ : Type}

/-- The same models with other limits. -/
def relimit (f : List ℝ → Comp σ F) (t : Template σ) : Template σ :=
  ⟨t.number, fun x s => match t.call x s with
    | (.error e, s) => (.error e, s)
    | (.ok m, s) => (.ok ⟨f x, m.chi2⟩, s)⟩

/-- The model that the documentation of the search asks for: one with the least expected limit. -/
def Most (limits : List F) (i : ℕ) : Prop := ∃ v : ℝ, limits[i]? = some (fin v) ∧ ∀ (j : ℕ) (u : ℝ), limits[j]? = some (fin u) → v ≤ u

end Verif.MultiParam
