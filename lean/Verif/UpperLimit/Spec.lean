import Verif.UpperLimit.Model
import Verif.Stats.Spec

/-!
# Vocabulary for the upper limit properties
-/

namespace Verif.UpperLimit
open Verif.Py F Verif.Stats

/-- The result of a search that may go on: it has ended with `r`. -/
def EndsWith {α : Type} (g : ℕ → Option α) (r : α) : Prop := ∃ N, ∀ n, N ≤ n → g n = some r

/-- The search never ends. -/
def NeverEnds {α : Type} (g : ℕ → Option α) : Prop := ∀ n, g n = none

/-- Contract of the root finder: a result comes from an interval with a sign change, lies in it, and within `tol` of it there
are a point where the function is not positive and a point where it is not negative, both in the interval. -/
structure Sound (tol : ℝ → ℝ) (solve : Solver) : Prop where
  inside : ∀ f a b r, solve f a b = .ok r → a < b ∧ a ≤ r ∧ r ≤ b
  below : ∀ f a b r, solve f a b = .ok r → ∃ x, a ≤ x ∧ x ≤ b ∧ |x - r| ≤ tol r ∧ le (f x) (fin 0)
  above : ∀ f a b r, solve f a b = .ok r → ∃ x, a ≤ x ∧ x ≤ b ∧ |x - r| ≤ tol r ∧ le (fin 0) (f x)

/-- Contract of the root finder: it succeeds for a finite function on an interval whose end points have values of opposite
sign (or zero). -/
def Succeeds (solve : Solver) : Prop :=
  ∀ (f : ℝ → F) (a b : ℝ), a < b → (∀ x, a ≤ x → x ≤ b → Stats.Finite (f x)) → (le (f a) (fin 0) ∧ le (fin 0) (f b) ∨ le (fin 0) (f a) ∧ le (f b) (fin 0)) →
    ∃ r, solve f a b = .ok r

/-- `ExpectationType` as argument of `exclusion_confidence_level`. -/
def Expected.toExpect : Expected → Expect
  | .observed => .observed
  | .aposteriori => .aposteriori
  | .apriori => .apriori

/-- Entry `i` of `exclusion_confidence_level(mu, expected, allow_negative_signal)` (asymptotic calculator) is `x`. -/
def Level (B : Backend) (e : Expected) (allowNegative : Bool) (i : ℕ) (mu : ℝ) (x : F) : Prop :=
  ∃ l, exclusionConfidenceLevel B (fin mu) e.toExpect allowNegative .asymptotic = .ok (.one l) ∧ l[i]? = some x

/-- The band entries that `expected_pvalue` stands for. -/
def Entries (e : Expected) (band : Band) : List ℕ :=
  match e, band with
  | .observed, _ => [0]
  | _, .nominal => [2]
  | _, .sigma1 => [1, 2, 3]
  | _, .sigma2 => [0, 1, 2, 3, 4]
  | _, .unknown => []

/-- The numbers in a returned limit. -/
def Limit.values : Limit → List F
  | .one x => [x]
  | .many l => l

/-- One number for one entry, a list otherwise. -/
def Limit.Shaped (n : ℕ) : Limit → Prop
  | .one _ => n = 1
  | .many l => n ≠ 1 ∧ l.length = n

/-- The exclusion level reaches `CL` within `t` of `mu`: somewhere there it is at most, somewhere at least `CL`. -/
def Reaches (level : ℝ → F → Prop) (CL t mu : ℝ) : Prop :=
  (∃ x r, |x - mu| ≤ t ∧ level x (fin r) ∧ r ≤ CL) ∧ (∃ y r, |y - mu| ≤ t ∧ level y (fin r) ∧ CL ≤ r)

end Verif.UpperLimit
