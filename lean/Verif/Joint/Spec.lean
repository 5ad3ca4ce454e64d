import Verif.Chain.ProfileSpec
import Verif.Hypotest.Spec
import Verif.Joint.Model

/-!
# Vocabulary: the joint likelihood of independent measurements of one signal strength
-/

namespace Verif.Joint
open Verif.Py F Verif.Hypotest
open Verif.Stats (Expect)

/-- The likelihood of one measurement. -/
structure Part where
  /-- The nuisance parameters that are allowed. -/
  ok : (ℕ → ℝ) → Prop
  /-- The log-likelihood of data, as a function of the signal strength and the nuisance parameters. -/
  log : (ℕ → ℝ) → ℝ → (ℕ → ℝ) → ℝ
  /-- The data that were measured (or that replace them before the measurement). -/
  data : ℕ → ℝ
  /-- The data that are expected. -/
  expected : ℝ → (ℕ → ℝ) → ℕ → ℝ

/-- The joint log-likelihood of the data `D i` of measurement `i < n`: a sum, with one signal strength and with nuisance parameters `θ i` for each measurement. -/
noncomputable def jointLog (n : ℕ) (P : ℕ → Part) (D : ℕ → ℕ → ℝ) (mu : ℝ) (θ : ℕ → ℕ → ℝ) : ℝ := ∑ i ∈ Finset.range n, (P i).log (D i) mu (θ i)

/-- The nuisance parameters of all measurements are allowed. -/
def jointOk (n : ℕ) (P : ℕ → Part) (θ : ℕ → ℕ → ℝ) : Prop := ∀ i < n, (P i).ok (θ i)

/-- `x` is where `g` is smallest between `lo` and `hi`. -/
def Smallest (g : ℝ → ℝ) (lo hi x : ℝ) : Prop := lo ≤ x ∧ x ≤ hi ∧ ∀ y, lo ≤ y → y ≤ hi → g x ≤ g y

/-- Contract of a minimiser of one variable: from every starting value it finds a smallest value inside the bounds if there is one and the function can be
computed everywhere inside. -/
def Reliable {σ : Type} (fit : Minimizer σ) : Prop :=
  ∀ (I : σ → Prop) (f : ℝ → Comp σ F) (g : ℝ → ℝ) (start lo hi : ℝ), (∀ v, lo ≤ v → v ≤ hi → Ends I (f v) (.ok (fin (g v)))) →
    (∃ x, Smallest g lo hi x) → ∃ x, Smallest g lo hi x ∧ Ends I (fit f (fin start) (fin lo) (fin hi)) (.ok (fin (g x), x))

/-! ### Independent measurements `x i ± σ i` of one number -/

/-- Their weighted mean. -/
noncomputable def pooled (n : ℕ) (x σ : ℕ → ℝ) : ℝ := (∑ i ∈ Finset.range n, x i / σ i ^ 2) / ∑ i ∈ Finset.range n, 1 / σ i ^ 2

/-- Its standard deviation. -/
noncomputable def pooledDeviation (n : ℕ) (σ : ℕ → ℝ) : ℝ := 1 / √(∑ i ∈ Finset.range n, 1 / σ i ^ 2)

end Verif.Joint
