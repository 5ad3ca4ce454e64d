import Verif.Hypotest.Spec
import Verif.Interface.Spec

/-!
# Vocabulary: profile likelihood, maximum and Asimov data of a model
-/

namespace Verif.Hypotest
open Verif.Py F Verif.Config
open Verif.Interface (Data Allowed InBounds Satisfies mayBeNegative)
open Verif.Backend (Expectation)

/-- `l` is the smallest negative log-likelihood of the data `d` with the POI (parameter `k` of `N`) at `v`, the other parameters inside their
bounds, which may depend on `negative`. -/
def ProfileAt (B : Interface.Backend) (N k : ℕ) (negative : Bool) (e : Expectation) (d : Option Data) (v : ℝ) (l : F) (x : List ℝ) : Prop :=
  x.length = N ∧ x[k]? = some v ∧ l = neg (B.logpdf e d x) ∧
    ∀ x' : List ℝ, x'.length = N → x'[k]? = some v →
      (∀ (j : ℕ) b y, j ≠ k → (B.config negative).bounds[j]? = some b → x'[j]? = some y → Allowed b y) → Satisfies B.constraints x' →
      B.logpdf e d x' ≠ nan → le l (neg (B.logpdf e d x'))

/-- `l` is the smallest negative log-likelihood of the data `d` inside the bounds, with the POI at `m`. -/
def MaximumAt (B : Interface.Backend) (N k : ℕ) (negative : Bool) (e : Expectation) (d : Option Data) (m : ℝ) (l : F) : Prop :=
  ∃ x : List ℝ, x.length = N ∧ x[k]? = some m ∧ InBounds (B.config negative).bounds x ∧ l = neg (B.logpdf e d x) ∧
    ∀ x' : List ℝ, x'.length = N → InBounds (B.config negative).bounds x' → Satisfies B.constraints x' → B.logpdf e d x' ≠ nan →
      le l (neg (B.logpdf e d x'))

/-- `d` are the expected data at the best point with the POI at zero (at one for the discovery test). -/
def AsimovData (B : Interface.Backend) (N k : ℕ) (e : Expectation) (ts : String) (d : Data) : Prop :=
  ∃ l x, ProfileAt B N k (mayBeNegative ts) e none (if ts = "q0" then 1 else 0) l x ∧ B.expectedData x = .ok d

end Verif.Hypotest
