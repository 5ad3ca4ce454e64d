import Verif.Interface.Spec

/-!
# Vocabulary: profile likelihoods of several fixed parameters

Independent of the model of `chi2_test`.
-/

namespace Verif.Nuisance
open Verif.Py F Verif.Config
open Verif.Interface (Allowed Satisfies)

/-- Points with `N` coordinates where the parameters in `fix` have the given values, the others are inside their bounds, and all constraints hold. -/
structure Admissible (N : ℕ) (bounds : List Bound) (cs : List Optimizer.Constraint) (fix : List (ℕ × ℝ)) (x : List ℝ) : Prop where
  length : x.length = N
  fixed : ∀ q ∈ fix, x[q.1]? = some q.2
  inside : ∀ (j : ℕ) b y, (∀ q ∈ fix, q.1 ≠ j) → bounds[j]? = some b → x[j]? = some y → Allowed b y
  constraints : Satisfies cs x

/-- `l` is the smallest value of `f` on the points in `A`. -/
def Smallest (f : List ℝ → F) (A : List ℝ → Prop) (l : F) : Prop := ∃ x, A x ∧ l = f x ∧ ∀ x', A x' → f x' ≠ nan → le l (f x')

end Verif.Nuisance
