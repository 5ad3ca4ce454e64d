import Verif.Chi2.Model
import Verif.UpperLimit.Spec

/-!
# Vocabulary for the confidence interval properties
-/

namespace Verif.Chi2
open Verif.Py F Verif.UpperLimit

/-- The profile chi-square `2 (NLL(x) - NLL_min)`. -/
noncomputable def chi2At (nll : ℝ → F) (m : F) (x : ℝ) : F := scale 2 (sub (nll x) m)

/-- The profile chi-square crosses (or touches) the threshold within `t` of `x`. -/
def Crosses (nll : ℝ → F) (m thr : F) (t x : ℝ) : Prop :=
  (∃ y, |y - x| ≤ t ∧ le (chi2At nll m y) thr) ∧ (∃ y, |y - x| ≤ t ∧ le thr (chi2At nll m y))

/-- The minimum the interval refers to: the fitted one, or a lower value of the profile itself. -/
def Anchor (nll : ℝ → F) (P : Problem) (m : F) (ref : ℝ) : Prop :=
  (m = P.mllhd ∧ ref = P.reference) ∨ (m = nll ref ∧ lt m P.mllhd ∧ P.scanLo ≤ ref ∧ ref ≤ P.scanHi)

/-- Contract of the bounded minimiser: it reports a value of the function at a point of the interval. -/
def Honest (minimize : Minimizer) : Prop :=
  ∀ nll a b v x, minimize nll a b = some (v, x) → v = nll x ∧ a ≤ x ∧ x ≤ b

/-- Ascending, with gaps. -/
def Ascending (l : List ℝ) : Prop := l.Pairwise (fun a b => max 1e-10 (1e-8 * |b|) < b - a)

end Verif.Chi2
