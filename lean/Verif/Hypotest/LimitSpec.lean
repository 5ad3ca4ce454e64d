import Verif.Hypotest.Limit
import Verif.Hypotest.Spec

/-!
# Vocabulary for the properties of `poi_upper_limit` on top of fits
-/

namespace Verif.Hypotest
open Verif.Py F
open Verif.UpperLimit (Expected)

/-- What the root finder gives for a function. -/
def Search.value (f : ℝ → F) : Search → Except UpperLimit.Err ℝ
  | .stop r => r
  | .eval x next => (next (f x)).value f

/-- The root finder for functions. -/
def Finder.solver (T : Finder) : UpperLimit.Solver := fun f a b => (T a b).value f

/-- Whenever `exclusion_confidence_level(mu, expected)` is called, it returns, and entry `i` of the result is `x`. -/
def Reported {σ : Type} (I : σ → Prop) (M : Methods σ) (e : Expected) (i : ℕ) (mu : ℝ) (x : F) : Prop :=
  ∃ l, Ends I (exclusion M (.float mu) e.toExpect false .asymptotic) (.ok (.one l)) ∧ l[i]? = some x

end Verif.Hypotest
