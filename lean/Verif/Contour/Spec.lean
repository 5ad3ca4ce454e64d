import Verif.Contour.Find
import Verif.Contour.Indices
import Verif.Contour.Whiten

/-!
# Vocabulary for contours
-/

namespace Verif.Contour

/-- The parameters are within their bounds. -/
def Inside {k : ℕ} (b : Bounds k) (t : Vec k) : Prop :=
  ∀ i, (∀ lo, (b i).1 = some lo → lo ≤ t i) ∧ ∀ hi, (b i).2 = some hi → t i ≤ hi

/-- The function has the value `T` at the point, up to the tolerance. -/
def OnLevel {k : ℕ} (F : Target k) (T tol : ℝ) (t : Vec k) : Prop := ∃ v, F.nll (some t) = .ok (some v) ∧ |v - T| < tol

/-- The gradient vanishes at the point, up to rounding. -/
def Flat {k : ℕ} (F : Target k) (t : Vec k) : Prop := ∃ g, F.grad (some t) = .ok (some g) ∧ g ⬝ᵥ g < 1e-20

/-- `t'` is the next point of Newton's method for `NLL = T` along the gradient. -/
def NewtonStep {k : ℕ} (F : Target k) (T : ℝ) (t t' : Vec k) : Prop :=
  ∃ v g, F.nll (some t) = .ok (some v) ∧ F.grad (some t) = .ok (some g) ∧ g ⬝ᵥ g ≠ 0 ∧ ∀ i, t' i = t i - (v - T) / (g ⬝ᵥ g) * g i

/-- `t'` is reached from `t` after so many steps, none of which was made from a point on the level. -/
inductive NewtonSteps {k : ℕ} (F : Target k) (T tol : ℝ) : ℕ → Vec k → Vec k → Prop
  | zero (t) : NewtonSteps F T tol 0 t t
  | succ (t t' t'' n) : ¬ OnLevel F T tol t → NewtonStep F T t t' → NewtonSteps F T tol n t' t'' → NewtonSteps F T tol (n + 1) t t''

/-- Brent's method: a root that it returns lies in the bracket. -/
def BrentInBracket (brent : Brent) : Prop :=
  ∀ f lo hi r, brent f lo hi = .ok (r, true) → min lo hi ≤ r ∧ r ≤ max lo hi

/-- Brent's method: a root that it returns for a continuous function with a change of sign is within `xtol + rtol * |r|` of an exact
one. -/
def BrentAccurate (brent : Brent) : Prop :=
  ∀ (f : ℝ → Except Err Num) (g : ℝ → ℝ) lo hi r, (∀ x, f x = .ok (some (g x))) → Continuous g → g lo * g hi < 0 →
    brent f lo hi = .ok (r, true) → ∃ z, g z = 0 ∧ |r - z| ≤ 1e-12 + 1e-12 * |r|

/-- A schedule of `n` jobs: the pool fails, or every job is finished. -/
def Valid (n : ℕ) : Option (List ℕ) → Prop
  | none => True
  | some order => ∀ i < n, i ∈ order

end Verif.Contour
