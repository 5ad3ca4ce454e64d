import Verif.Chain.ProfileSpec

/-!
# Vocabulary: backgrounds that are linear in correlated nuisance parameters

Textbook formulas, independent of the code.
-/

namespace Verif.Linear
open Finset Verif.Chain

/-- Backgrounds `b` with uncertainties `σ`. -/
def linear (b σ : ℕ → ℝ) (i : ℕ) (t : ℝ) : ℝ := b i + σ i * t

/-- `P` is the profile likelihood: the largest log-likelihood for each signal strength that is not negative. -/
def Profile {Θ : Type} (ok : Θ → Prop) (L : ℝ → Θ → ℝ) (P : ℝ → ℝ) : Prop := ∀ mu, 0 ≤ mu → ∃ θ, ProfileMax ok L mu (P mu) θ

/-- Events and background, in total. -/
noncomputable def total (n : ℕ) (b D : ℕ → ℝ) : ℝ := ∑ i ∈ range n, (D i + b i)

/-- No bin has only a tiny number of events (less than about `1e-19` of all events and background) that is not negligible, where what is expected may become smaller than the smallest number `1e-20` that
the code distinguishes from zero. -/
def Clear (n : ℕ) (b D : ℕ → ℝ) : Prop := ∀ i < n, D i ≤ 1 / 10 ^ 20 ∨ 16 / 10 ^ 20 * (1 + total n b D) < D i * b i

/-- A constraint of `n` nuisance parameters: strictly concave, and zero is the best value. -/
structure Bowl (n : ℕ) (pen : (ℕ → ℝ) → ℝ) : Prop where
  concave : ∀ (θ θ' : ℕ → ℝ) (p p' : ℝ), 0 ≤ p → 0 ≤ p' → p + p' = 1 → p * pen θ + p' * pen θ' ≤ pen fun i => p * θ i + p' * θ' i
  strict : ∀ (θ θ' : ℕ → ℝ), (∃ i < n, θ i ≠ θ' i) → 1 / 2 * pen θ + 1 / 2 * pen θ' < pen fun i => 1 / 2 * θ i + 1 / 2 * θ' i
  centre : ∀ θ, pen θ ≤ pen fun _ => 0

end Verif.Linear
