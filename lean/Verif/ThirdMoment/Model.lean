import Verif.Py.Arith
import Mathlib.Analysis.SpecialFunctions.Trigonometric.Arctan

/-!
# Model of the third moment expansion

`/repo/src/spey/backends/default_pdf/third_moment.py`. The moments given by the user are finite numbers, one bin at a time; the
intermediate results may be infinite or nan as in numpy.
-/

namespace Verif.ThirdMoment
open Verif.Py F Classical MeasureTheory

/-- `np.sign`. -/
noncomputable def sign (x : ℝ) : F := if 0 < x then fin 1 else if x < 0 then fin (-1) else fin 0

/-- `np.arctan`. -/
noncomputable def arctan : F → F
  | nan => nan
  | ninf => fin (-(Real.pi / 2))
  | fin x => fin (Real.arctan x)
  | pinf => fin (Real.pi / 2)

/-- `np.cos`. -/
noncomputable def cos : F → F
  | fin x => fin (Real.cos x)
  | _ => nan

/-- `abs`. -/
noncomputable def abs : F → F
  | nan => nan
  | fin x => fin |x|
  | _ => pinf

/-- The expression of L191-199, for one bin: `v` is the diagonal entry of the covariance matrix, `m` the third moment. -/
noncomputable def rawC (v m : ℝ) : F :=
  mul (mul (neg (sign m)) (sqrt (fin (2 * v))))
    (cos (add (fin (4 * Real.pi / 3)) (mul (fin (1 / 3)) (arctan (sqrt (sub (div (fin (8 * v ^ 3)) (fin (m ^ 2))) (fin 1)))))))

/-- `C`, L191-201: nan is replaced by zero. -/
noncomputable def coefC (v m : ℝ) : F := if isNan (rawC v m) then fin 0 else rawC v m

/-- `B`, L204. -/
noncomputable def coefB (v m : ℝ) : F := sqrt (sub (fin v) (mul (fin 2) (mul (coefC v m) (coefC v m))))

/-- `A`, L208; `b` is the expectation value. -/
noncomputable def coefA (b v m : ℝ) : F := sub (fin b) (coefC v m)

/-- `eps`, L212. -/
noncomputable def eps : ℝ := 1 / 100000

/-- `C[i] + eps if C[i] >= 0 else C[i] - eps`, L217-218. -/
noncomputable def shift (c : F) : F := if le (fin 0) c then add c (fin eps) else sub c (fin eps)

/-- The entry computed for one pair of bins, L217-226: `ci`, `cj`, `bi`, `bj` are the coefficients, `s` is
`covariance_matrix[i, j]`. -/
noncomputable def entry (ci cj bi bj : F) (s : ℝ) : F :=
  div (div (sub (sqrt (abs (add (mul (mul bi bj) (mul bi bj)) (mul (mul (fin 8) (mul (shift ci) (shift cj))) (fin s)))))
    (mul bi bj)) (fin 4)) (mul (shift ci) (shift cj))

/-- `corr[i, j] = x`. -/
def put (t : ℕ → ℕ → F) (i j : ℕ) (x : F) : ℕ → ℕ → F := fun a b => if a = i ∧ b = j then x else t a b

/-- The body of the two loops, L217-229; `f i j` is the entry. -/
def body (f : ℕ → ℕ → F) (i : ℕ) (t : ℕ → ℕ → F) (j : ℕ) : ℕ → ℕ → F :=
  if i ≠ j then put (put t i j (f i j)) j i (f i j) else put t i j (f i j)

/-- The two loops over `n` bins, L214-229, starting from zeros. -/
def loop (f : ℕ → ℕ → F) (n : ℕ) : ℕ → ℕ → F :=
  (List.range n).foldl (fun t i => (List.range n).foldl (body f i) t) fun _ _ => fin 0

/-- The correlation matrix, L212-229, for `n` bins with covariance matrix `cov` and third moments `m`. -/
noncomputable def correlation (n : ℕ) (cov : ℕ → ℕ → ℝ) (m : ℕ → ℝ) : ℕ → ℕ → F :=
  loop (fun i j => entry (coefC (cov i i) (m i)) (coefC (cov j j) (m j)) (coefB (cov i i) (m i)) (coefB (cov j j) (m j))
    (cov i j)) n

/-- `norm.pdf(x, 0.0, s)` of scipy for positive `s`. -/
noncomputable def pdf (s x : ℝ) : ℝ := Real.exp (-(x / s) ^ 2 / 2) / (√(2 * Real.pi) * s)

/-- `compute_x3BifurgatedGaussian`, L309-315. -/
noncomputable def integrand (u l x : ℝ) : ℝ :=
  if 0 ≤ x then 2 / (u + l) * u * x ^ 3 * pdf u x else 2 / (u + l) * l * x ^ 3 * pdf l x

/-- One bin of `compute_third_moments`, L318-323. `integrate.quad` is taken to return the value of the integral; for a zero
uncertainty `norm.pdf` is nan. -/
noncomputable def thirdMoment (u l : ℝ) : F :=
  if |u| = 0 ∨ |l| = 0 then nan else fin (∫ x, integrand |u| |l| x)

end Verif.ThirdMoment
