import Verif.Contour.Model
import Mathlib.LinearAlgebra.Matrix.NonsingularInverse

/-!
# Model of the whitening matrix

`/repo/src/spey/multiparameter/contour.py` L1095-1206.
-/

namespace Verif.Contour

open Matrix

noncomputable section

open scoped Classical in
/-- The curvature for the contour parameters, contour.py L1157-1178: the block of the contour parameters, or the Schur complement if
there are profile parameters. `np.linalg.solve` raises for a singular matrix, and then the block is used. -/
def information {n k m : ℕ} (H : Matrix (Fin n) (Fin n) ℝ) (c : Fin k → Fin n) (p : Fin m → Fin n) : Matrix (Fin k) (Fin k) ℝ :=
  if m = 0 then -H.submatrix c c
  else if IsUnit (-H.submatrix p p).det then
    -H.submatrix c c - (-H.submatrix c p) * ((-H.submatrix p p)⁻¹ * (-H.submatrix p c))
  else -H.submatrix c c

/-- `np.linalg.eigh`: eigenvalues and eigenvectors. -/
abbrev Eigh (k : ℕ) := Matrix (Fin k) (Fin k) ℝ → Except Err (Vec k × Matrix (Fin k) (Fin k) ℝ)

/-- `np.linalg.cholesky`: `none` for `LinAlgError`. -/
abbrev Cholesky (k : ℕ) := Matrix (Fin k) (Fin k) ℝ → Option (Matrix (Fin k) (Fin k) ℝ)

/-- The regularised curvature, contour.py L1190-1191: `(V * np.maximum(w, reg)) @ V.T`. -/
def regularised {k : ℕ} (w : Vec k) (V : Matrix (Fin k) (Fin k) ℝ) (reg : ℝ) : Matrix (Fin k) (Fin k) ℝ :=
  (Matrix.of fun i j => V i j * max (w j) reg) * Vᵀ

/-- `_build_whitener`, contour.py L1155-1206: `L` and `L^{-T}`. The Hessian is that of the logarithm of the likelihood. -/
def whitener {n k m : ℕ} (eigh : Eigh k) (cholesky : Cholesky k) (hessian : Except Err (Matrix (Fin n) (Fin n) ℝ))
    (c : Fin k → Fin n) (p : Fin m → Fin n) (reg : ℝ) :
    Except Err (Matrix (Fin k) (Fin k) ℝ × Matrix (Fin k) (Fin k) ℝ) :=
  match hessian with
  | .error _ => .ok (1, 1)
  | .ok H =>
    match eigh (information H c p) with
    | .error e => .error e
    | .ok (w, V) =>
      match cholesky (regularised w V reg) with
      | none => .ok (1, 1)
      | some L => .ok (L, (L⁻¹)ᵀ)

end

end Verif.Contour
