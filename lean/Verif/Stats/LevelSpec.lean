import Verif.Stats.Model
import Verif.Stats.Spec

/-!
# The reported levels as functions of the two statistics

Independent of the calculators: the asymptotic formulae, and what it means that one answer excludes no more than another.
-/

namespace Verif.Stats
open Verif.Py F

/-- No entry of the first list is above that of the second, and all are numbers. -/
def Below (l l' : List F) : Prop := List.Forall₂ (fun x y => ∃ a b : ℝ, x = fin a ∧ y = fin b ∧ a ≤ b) l l'

/-- The same for the answers of `exclusion_confidence_level`. -/
def NotAbove : Levels → Levels → Prop
  | .one l, .one l' => Below l l'
  | .both l k, .both l' k' => Below l l' ∧ Below k k'
  | _, _ => False

/-- All numbers of the first are smaller than those of the second. -/
def Less (l l' : List F) : Prop := List.Forall₂ (fun x y => ∃ a b : ℝ, x = fin a ∧ y = fin b ∧ a < b) l l'

/-- The same for the answers of `exclusion_confidence_level`. -/
def AllLess : Levels → Levels → Prop
  | .one l, .one l' => Less l l'
  | .both l k, .both l' k' => Less l l' ∧ Less k k'
  | _, _ => False

open Classical in
/-- The observed level, `1 - CLs`, for the statistic `q` of the data and `qA` of the Asimov data (equation (66) of arXiv:1007.1727; for the statistic `q`, which allows negative
signals, without the switch). Nothing is excluded if no sensitivity is left. -/
noncomputable def observedOf (neg : Bool) (q qA : ℝ) : ℝ :=
  if neg = false ∧ qA = 0 ∧ 0 < q then 0 else
    1 - Phi (-(if neg then √q - √qA else eq66 q qA) - √qA) / Phi (-(if neg then √q - √qA else eq66 q qA))

/-- The expected levels: the data are -2, -1, 0, 1 and 2 standard deviations above the expectation without signal. -/
noncomputable def expectedOf (qA : ℝ) : List F := [-2, -1, 0, 1, 2].map fun n => fin (1 - Phi (n - √qA) / Phi n)

/-- The levels that are reported. -/
noncomputable def levelsOf (e : Expect) (neg : Bool) (q qA : ℝ) : Levels :=
  match e with
  | .observed => .one [fin (observedOf neg q qA)]
  | .all => .both [fin (observedOf neg q qA)] (expectedOf qA)
  | _ => .one (expectedOf qA)

end Verif.Stats
