import Verif.Py.Float

/-!
# Vocabulary for the hypothesis test properties

Independent of the model: what a probability, an ordered list, a likelihood with a maximum and equation (66) of
arXiv:1007.1727 are.
-/

namespace Verif.Stats
open Verif.Py F

/-- A number in `[0, 1]` (in particular neither nan nor infinite). -/
def IsProb (x : F) : Prop := ∃ r : ℝ, x = fin r ∧ 0 ≤ r ∧ r ≤ 1

/-- Neither nan nor infinite. -/
def Finite (x : F) : Prop := ∃ r : ℝ, x = fin r

/-- Consecutive (and hence all) entries never decrease; false if an entry is nan. -/
def Ascending (l : List F) : Prop := l.Pairwise le

/-- Consecutive (and hence all) entries never increase; false if an entry is nan. -/
def Descending (l : List F) : Prop := l.Pairwise (fun a b => le b a)

/-- A real valued log-likelihood as a function on floats. -/
noncomputable def lift (ℓ : ℝ → ℝ) : F → F
  | fin x => fin (ℓ x)
  | _ => nan

/-- `ℓ` has its maximum at `x`. -/
def MaximumAt (ℓ : ℝ → ℝ) (x : ℝ) : Prop := ∀ y, ℓ y ≤ ℓ x

/-- Equation (66) of arXiv:1007.1727 minus its offset: the shift for `q_mu_tilde`. -/
noncomputable def eq66 (q qA : ℝ) : ℝ :=
  if q ≤ qA then Real.sqrt q - Real.sqrt qA else (q - qA) / (2 * Real.sqrt qA)

/-- What a test of the discovery reports for the expected and the observed significance `ZA` and `Z`: both, the tail probability of `Z`, and those of the expected
significances two and one standard deviations above `ZA`, at it, and as far below. -/
noncomputable def discovery (ZA Z : ℝ) : F × F × List F × List F :=
  (fin ZA, fin Z, [fin (1 - Phi Z)], [2, 1, 0, -1, -2].map fun n => fin (1 - Phi (ZA + n)))

/-- The names that `get_test_statistic` documents, together with the aliases of its source and `qmu_left`. -/
def knownNames : List String := ["q", "qmu", "qtilde", "qmutilde", "q0", "qmu_left"]

/-- Linear interpolation between the order statistics of a sorted sample: `numpy.percentile` at `100 * p` with
`method="linear"`. -/
noncomputable def linearPercentile (sorted : List ℝ) (p : ℝ) : ℝ :=
  let x := (sorted.length - 1 : ℝ) * p
  let i := ⌊x⌋₊
  sorted.getD i 0 + (x - i) * (sorted.getD (i + 1) 0 - sorted.getD i 0)

end Verif.Stats
