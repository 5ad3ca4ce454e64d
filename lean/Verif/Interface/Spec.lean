import Verif.Interface.Model
import Verif.Optimizer.Spec
import Verif.UpperLimit.Spec
import Mathlib.Algebra.BigOperators.Group.Finset.Basic

/-!
# Vocabulary for the properties of `StatisticalModel`
-/

namespace Verif.Interface
open Verif.Py F Verif.Config Verif.Optimizer
open Verif.Backend (Expectation)

/-- The backend computes nothing itself: all four hooks raise `NotImplementedError` (as those of `BackendBase` do). -/
structure Fallback (B : Backend) : Prop where
  negLL : ∀ poi e d r, B.negLL poi e d r = .error .notImplemented
  minNegLL : ∀ e n d k, B.minNegLL e n d k = .error .notImplemented
  asimovNegLL : ∀ poi e ts, B.asimovNegLL poi e ts = .error .notImplemented
  minAsimovNegLL : ∀ e ts k, B.minAsimovNegLL e ts k = .error .notImplemented

/-- Contract of the minimiser: it leaves masked parameters where they were (up to `tol`), reports the value of the objective, and
returns as many parameters as it got. -/
structure Honest (tol : ℝ) (S : Solver) : Prop where
  keeps : ∀ f g cs poi, Keeps tol f (S f g cs poi)
  length : ∀ f g cs poi init mask b v x, S f g cs poi init mask b = .ok (v, x) → x.length = init.length

/-- A value is inside the bounds of one parameter. -/
def Allowed (b : Bound) (y : ℝ) : Prop := (∀ l, b.1 = some l → le l (fin y)) ∧ (∀ h, b.2 = some h → le (fin y) h)

/-- All parameters are inside their bounds. -/
def InBounds (b : List Bound) (x : List ℝ) : Prop := ∀ (k : ℕ) c y, b[k]? = some c → x[k]? = some y → Allowed c y

/-- All constraints hold. -/
def Satisfies (cs : List Constraint) (x : List ℝ) : Prop :=
  ∀ c ∈ cs, (c.isEq = true → c.f x = fin 0) ∧ (c.isEq = false → le (fin 0) (c.f x))

/-- Contract of the minimiser: the result is inside the bounds. -/
def Inside (S : Solver) : Prop :=
  ∀ f g cs poi init mask b v x, S f g cs poi init mask b = .ok (v, x) → InBounds b x

/-- Contract of the minimiser: the result satisfies the constraints. -/
def Constrained (S : Solver) : Prop :=
  ∀ f g cs poi init mask b v x, S f g cs poi init mask b = .ok (v, x) → Satisfies cs x

/-- Contract of a global minimiser: nowhere inside the bounds and constraints is the objective smaller, as long as masked
parameters keep their values. -/
def Optimal (S : Solver) : Prop :=
  ∀ f g cs poi init mask b v x, S f g cs poi init mask b = .ok (v, x) → ∀ x' : List ℝ, x'.length = init.length →
    (∀ k : ℕ, mask[k]? = some true → x'[k]? = init[k]?) → InBounds b x' → Satisfies cs x' → f x' ≠ nan →
      le (f x) (f x')

/-- The objective of the backend is the negative log-likelihood. -/
def Consistent (B : Backend) : Prop := ∀ g e d f, B.objective g e d = .ok f → ∀ x, f x = neg (B.logpdf e d x)

/-- A minimiser whose result depends on the start only through the masked parameters (as that of an exact global search does). -/
def StartFree (S : Solver) : Prop :=
  ∀ f g cs poi (init init' : List ℝ) (mask : List Bool) b, init.length = init'.length →
    (∀ k : ℕ, mask[k]? = some true → init[k]? = init'[k]?) → S f g cs poi init mask b = S f g cs poi init' mask b

/-- The likelihood that belongs to a negative log-likelihood. -/
noncomputable def Out.exponential : Out → Out
  | .value v => .value (exp (neg v))
  | .pair v x => .pair (exp (neg v)) x

/-- The index that `poi_test` fixes and its value: for a number, the POI. -/
def Poi.Number (v : ℝ) : Poi → Prop
  | .float u => u = v
  | .int n => (n : ℝ) = v
  | .dict _ => False

/-- The parameter that a key means: by position (from the end if negative), or by the first occurrence of its name. -/
def Means (names : Option (List String)) (n : ℕ) : Key → ℕ → Prop
  | .index i, j => ((0 ≤ i ∧ i = j) ∨ (i < 0 ∧ i + n = j)) ∧ j < n
  | .name s, j => ∃ l, names = some l ∧ l[j]? = some s ∧ (∀ k < j, l[k]? ≠ some s) ∧ j < n

/-- `d` is a dictionary with exactly the keys `ks`. -/
def HasKeys (d : List (Key × ℝ)) (ks : List Key) : Prop := (d.map Prod.fst).Nodup ∧ ∀ k, k ∈ d.map Prod.fst ↔ k ∈ ks

/-- Entry of a table. -/
abbrev tab (M : List (List ℝ)) (i j : ℕ) : ℝ := (M.getD i []).getD j 0

/-- `n` rows of length `n`. -/
def Square (n : ℕ) (M : List (List ℝ)) : Prop := M.length = n ∧ ∀ r ∈ M, r.length = n

/-- Contract of `np.linalg.inv`: for a square matrix the result is a square matrix of the same size, and their product is the unit
matrix. -/
def Inverts (inv : List (List ℝ) → Except Err (List (List ℝ))) : Prop :=
  ∀ n M N, Square n M → inv M = .ok N → Square n N ∧
    ∀ i < n, ∀ j < n, ∑ k ∈ Finset.range n, tab M i k * tab N k j = if i = j then 1 else 0

/-- The quadratic form of a table. -/
noncomputable def form (n : ℕ) (M : List (List ℝ)) (x : ℕ → ℝ) : ℝ :=
  ∑ i ∈ Finset.range n, ∑ j ∈ Finset.range n, x i * tab M i j * x j

/-- A class overrides a method of `BackendBase`. -/
def Overrides (c : Class) (n : String) : Prop := (c.own n).isSome

/-- What the documentation of `is_asymptotic_calculator_available` says. -/
def AsymptoticPossible (c : Class) : Prop :=
  Overrides c "expected_data" ∨
    (Overrides c "asimov_negative_loglikelihood" ∧ Overrides c "minimize_asimov_negative_loglikelihood")

/-- The functions of a class are not those of `BackendBase`. -/
def Fresh (base : String → ℕ) (c : Class) : Prop :=
  ∀ n m a, c.own n = some a → a ≠ .function (base m) ∧ a ≠ .static (base m)

/-- The class has the function of `BackendBase` itself as a static method: the only way for the comparison of the code to see that it is the same. -/
def Same (base : String → ℕ) (c : Class) (n : String) : Prop := c.own n = some (.static (base n))

/-- `f` applied `n` times. -/
def times {α : Type} (f : α → α) : ℕ → α → α
  | 0, a => a
  | n + 1, a => times f n (f a)

/-- `n` copies of a list after one another. -/
def copies {α : Type} (n : ℕ) (l : List α) : List α := (List.replicate n l).flatten

end Verif.Interface
