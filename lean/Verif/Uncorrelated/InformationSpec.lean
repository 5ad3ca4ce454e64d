import Verif.Uncorrelated.Spec

/-!
# Vocabulary: the information in counts

Textbook formula, independent of the code.
-/

namespace Verif.Uncorrelated

/-- The observed information of bins with independent counts at the strength `mu`: the sum of `d s² / (mu s + b)²`. -/
noncomputable def information (bins : List Bin) (mu : ℝ) : ℝ := (bins.map fun x => x.d * x.s ^ 2 / (mu * x.s + x.b) ^ 2).sum

end Verif.Uncorrelated
