import Verif.Contour.Model
import Mathlib.Data.List.Sort

/-!
# Model of the search for basins

`/repo/src/spey/multiparameter/contour.py` L670-689 and L981-1092.
-/

namespace Verif.Contour

noncomputable section

/-- A starting value for a parameter, contour.py L1037-1048, for a uniform number `u` in `[0, 1)`: `rng.uniform(a, b)` is
`a + (b - a) * u`. -/
def startValue (lo hi : Option ℝ) (primary span u : ℝ) : ℝ :=
  match lo, hi with
  | some lo, some hi => lo + (hi - lo) * u
  | some lo, none => lo + (0 + (span - 0) * u)
  | none, some hi => hi - (0 + (span - 0) * u)
  | none, none => primary + (-span + (span - -span) * u)

/-- A starting point, contour.py L1035-1048, for the uniform numbers `u`. -/
def startPoint {k : ℕ} (b : Bounds k) (primary : Vec k) (span : ℝ) (u : Vec k) : Vec k :=
  fun j => startValue (b j).1 (b j).2 (primary j) span (u j)

/-- `_sp_minimize(..., method="L-BFGS-B")` with the bounds, from a starting point: the point and its value, `none` if the value is not
finite. -/
abbrev Minimiser (k : ℕ) := Vec k → Except Err (Vec k × Option ℝ)

/-- The candidates from the random starts, contour.py L1034-1071. -/
def polish {k : ℕ} (minimise : Minimiser k) : List (Vec k) → List (Vec k × ℝ)
  | [] => []
  | x :: l =>
    match minimise x with
    | .error _ => polish minimise l
    | .ok (_, none) => polish minimise l
    | .ok (t, some v) => (t, v) :: polish minimise l

/-- The loop that drops duplicates, contour.py L1075-1083. -/
def dedup {k : ℕ} (tol : ℝ) (unique : List (Vec k × ℝ)) : List (Vec k × ℝ) → List (Vec k × ℝ)
  | [] => unique
  | x :: l =>
    if unique.all fun y => decide (¬ norm (x.1 - y.1) < tol) then dedup tol (unique ++ [x]) l else dedup tol unique l

/-- `_find_basins_contour_subspace`, contour.py L1029-1092, for the starting points `starts`. -/
def basins {k : ℕ} (minimise : Minimiser k) (tol : ℝ) (primary : Vec k × ℝ) (starts : List (Vec k)) : List (Vec k × ℝ) :=
  dedup tol [] ((primary :: polish minimise starts).mergeSort fun a b => decide (a.2 ≤ b.2))

/-- The uniform numbers for one starting point, in the order of the parameters. -/
def uniforms {k : ℕ} (G : Gen k) : ℕ → G.State → List ℝ × G.State
  | 0, s => ([], s)
  | n + 1, s => ((G.uniform s).1 :: (uniforms G n (G.uniform s).2).1, (uniforms G n (G.uniform s).2).2)

/-- The starting points, contour.py L1033-1048. -/
def startPoints {k : ℕ} (G : Gen k) (b : Bounds k) (primary : Vec k) (span : ℝ) : ℕ → G.State → List (Vec k) × G.State
  | 0, s => ([], s)
  | n + 1, s =>
    (startPoint b primary span (fun j => (uniforms G k s).1.getD j 0) ::
      (startPoints G b primary span n (uniforms G k s).2).1, (startPoints G b primary span n (uniforms G k s).2).2)

/-- `threshold = nll_min + delta`, contour.py L677-678; `quantile` is `chi2_dist.ppf(confidence_level, df=k)`. -/
def threshold (nllMin quantile : ℝ) : ℝ := nllMin + quantile

/-- The basins below the level, contour.py L684-689. -/
def activeBasins {k : ℕ} (T : ℝ) (best : Vec k × ℝ) (bs : List (Vec k × ℝ)) : List (Vec k × ℝ) :=
  match bs.filter fun b => decide (b.2 ≤ T + 1e-6) with
  | [] => [best]
  | l => l

end

end Verif.Contour
