import Verif.Contour.Spec
import Mathlib.LinearAlgebra.Matrix.Notation
import Mathlib.Data.Matrix.Mul

/-!
# Property C94: whitening
-/

namespace Verif.Contour

open Matrix

/-- `np.linalg.eigh`: an orthogonal matrix of eigenvectors. -/
def EighCorrect {k : ℕ} (eigh : Eigh k) : Prop :=
  ∀ G w V, eigh G = .ok (w, V) → Vᵀ * V = 1 ∧ V * Vᵀ = 1 ∧ (Gᵀ = G → G = V * Matrix.diagonal w * Vᵀ)

/-- `np.linalg.cholesky`: a lower triangular factor with a positive diagonal, which is invertible. -/
def CholeskyCorrect {k : ℕ} (cholesky : Cholesky k) : Prop := ∀ G L, cholesky G = some L → Gᵀ = G → L * Lᵀ = G ∧ IsUnit L.det

/-- The quadratic form of a matrix. -/
def quadratic {k : ℕ} (G : Matrix (Fin k) (Fin k) ℝ) (x : Vec k) : ℝ := x ⬝ᵥ G.mulVec x

theorem regularised_eq {k : ℕ} (w : Vec k) (V : Matrix (Fin k) (Fin k) ℝ) (reg : ℝ) :
    regularised w V reg = V * Matrix.diagonal (fun j => max (w j) reg) * Vᵀ := by
  unfold regularised
  congr 1
  ext i j
  simp [Matrix.mul_diagonal]

theorem regularised_symm {k : ℕ} (w : Vec k) (V : Matrix (Fin k) (Fin k) ℝ) (reg : ℝ) : (regularised w V reg)ᵀ = regularised w V reg := by
  rw [regularised_eq, Matrix.transpose_mul, Matrix.transpose_mul, Matrix.transpose_transpose, Matrix.diagonal_transpose, Matrix.mul_assoc]

/-- What the whitening amounts to when nothing fails. -/
theorem whitener_ok {n k m : ℕ} (eigh : Eigh k) (cholesky : Cholesky k) (H : Matrix (Fin n) (Fin n) ℝ) (c : Fin k → Fin n)
    (p : Fin m → Fin n) (reg : ℝ) (w : Vec k) (V L : Matrix (Fin k) (Fin k) ℝ) (he : eigh (information H c p) = .ok (w, V))
    (hc : cholesky (regularised w V reg) = some L) : whitener eigh cholesky (.ok H) c p reg = .ok (L, (L⁻¹)ᵀ) := by
  simp only [whitener, he, hc]

/-- C94. In the whitened coordinates the regularised curvature is that of a sphere, and `L^T (theta - anchor)` gives them back. -/
theorem C94_sphere {n k m : ℕ} (eigh : Eigh k) (cholesky : Cholesky k) (hch : CholeskyCorrect cholesky)
    (H : Matrix (Fin n) (Fin n) ℝ) (c : Fin k → Fin n) (p : Fin m → Fin n) (reg : ℝ) (w : Vec k) (V L : Matrix (Fin k) (Fin k) ℝ)
    (hei : eigh (information H c p) = .ok (w, V)) (hc : cholesky (regularised w V reg) = some L) :
    ∃ M, whitener eigh cholesky (.ok H) c p reg = .ok (L, M) ∧ ∀ φ anchor,
      quadratic (regularised w V reg) (toTheta anchor M φ - anchor) = φ ⬝ᵥ φ ∧ Lᵀ.mulVec (toTheta anchor M φ - anchor) = φ := by
  obtain ⟨h1, h2⟩ := hch _ _ hc (regularised_symm w V reg)
  refine ⟨(L⁻¹)ᵀ, whitener_ok eigh cholesky H c p reg w V L hei hc, fun φ anchor => ?_⟩
  have hsub : toTheta anchor (L⁻¹)ᵀ φ - anchor = (L⁻¹)ᵀ.mulVec φ := by unfold toTheta; rw [add_sub_cancel_left]
  have hinv : Lᵀ.mulVec ((L⁻¹)ᵀ.mulVec φ) = φ := by
    rw [Matrix.mulVec_mulVec, ← Matrix.transpose_mul, Matrix.nonsing_inv_mul L h2, Matrix.transpose_one, Matrix.one_mulVec]
  rw [hsub]
  refine ⟨?_, hinv⟩
  unfold quadratic
  rw [← h1, ← Matrix.mulVec_mulVec, Matrix.dotProduct_mulVec, ← Matrix.mulVec_transpose, hinv]

/-- C94. If all eigenvalues of the curvature are at least `reg`, the regularisation changes nothing, so that the contour of a quadratic
NLL is a sphere in whitened space. -/
theorem C94_regular {k : ℕ} (eigh : Eigh k) (he : EighCorrect eigh) (G : Matrix (Fin k) (Fin k) ℝ) (hG : Gᵀ = G) (reg : ℝ) (w : Vec k)
    (V : Matrix (Fin k) (Fin k) ℝ) (hei : eigh G = .ok (w, V)) (hw : ∀ j, reg ≤ w j) : regularised w V reg = G := by
  rw [regularised_eq, show (fun j => max (w j) reg) = w from funext fun j => max_eq_left (hw j)]
  exact ((he G w V hei).2.2 hG).symm

/-- C94. The regularised curvature is at least `reg` in every direction, so that no direction is flat or a saddle. -/
theorem C94_floor {k : ℕ} (eigh : Eigh k) (he : EighCorrect eigh) (G : Matrix (Fin k) (Fin k) ℝ) (reg : ℝ) (w : Vec k)
    (V : Matrix (Fin k) (Fin k) ℝ) (hei : eigh G = .ok (w, V)) (x : Vec k) : reg * (x ⬝ᵥ x) ≤ quadratic (regularised w V reg) x := by
  obtain ⟨_, h2, _⟩ := he G w V hei
  have hx : x ⬝ᵥ x = Vᵀ.mulVec x ⬝ᵥ Vᵀ.mulVec x := by
    have : x ⬝ᵥ (V * Vᵀ).mulVec x = Vᵀ.mulVec x ⬝ᵥ Vᵀ.mulVec x := by
      rw [← Matrix.mulVec_mulVec, Matrix.dotProduct_mulVec, ← Matrix.mulVec_transpose]
    rw [h2, Matrix.one_mulVec] at this
    exact this
  have hq : quadratic (regularised w V reg) x = ∑ j, max (w j) reg * (Vᵀ.mulVec x j * Vᵀ.mulVec x j) := by
    unfold quadratic
    rw [regularised_eq, Matrix.mul_assoc, ← Matrix.mulVec_mulVec, Matrix.dotProduct_mulVec, ← Matrix.mulVec_transpose,
      ← Matrix.mulVec_mulVec, dotProduct]
    refine Finset.sum_congr rfl fun j _ => ?_
    rw [Matrix.mulVec_diagonal]
    ring
  rw [hq, hx, dotProduct, Finset.mul_sum]
  exact Finset.sum_le_sum fun j _ => mul_le_mul_of_nonneg_right (le_max_right _ _) (mul_self_nonneg _)

/-- Eigenvalues 1 and 4 of a diagonal matrix, and its factor. -/
example : ∃ (eigh : Eigh 2) (cholesky : Cholesky 2), EighCorrect eigh ∧ CholeskyCorrect cholesky ∧
    eigh (Matrix.diagonal ![1, 4]) = .ok (![1, 4], 1) ∧ cholesky (regularised ![1, 4] 1 1e-6) = some (Matrix.diagonal ![1, 2]) := by
  classical
  refine ⟨fun G => if G = Matrix.diagonal ![1, 4] then .ok (![1, 4], 1) else .error .value,
    fun G => if G = Matrix.diagonal ![1, 4] then some (Matrix.diagonal ![1, 2]) else none, ?_, ?_, by simp, ?_⟩
  · intro G w V h
    by_cases hG : G = Matrix.diagonal ![1, 4]
    · simp only [if_pos hG, Except.ok.injEq, Prod.mk.injEq] at h
      obtain ⟨rfl, rfl⟩ := h
      simp [hG]
    · simp [if_neg hG] at h
  · intro G L h _
    by_cases hG : G = Matrix.diagonal ![1, 4]
    · simp only [if_pos hG, Option.some.injEq] at h
      subst h
      rw [hG]
      refine ⟨?_, by simp [Matrix.det_diagonal, Fin.prod_univ_two]⟩
      rw [Matrix.diagonal_transpose, Matrix.diagonal_mul_diagonal]
      congr 1
      funext i
      fin_cases i <;> simp; norm_num
    · simp [if_neg hG] at h
  · refine if_pos ?_
    rw [regularised_eq]
    simp only [Matrix.one_mul, Matrix.transpose_one, Matrix.mul_one]
    congr 1
    funext i
    fin_cases i <;> simp <;> norm_num

/-! ### Profile parameters -/

/-- The quadratic form in the contour and the profile parameters. -/
def jointQuadratic {k m : ℕ} (A : Matrix (Fin k) (Fin k) ℝ) (B : Matrix (Fin k) (Fin m) ℝ) (D : Matrix (Fin m) (Fin m) ℝ) (x : Vec k)
    (y : Fin m → ℝ) : ℝ := x ⬝ᵥ A.mulVec x + 2 * (x ⬝ᵥ B.mulVec y) + y ⬝ᵥ D.mulVec y

/-- C94. With profile parameters, the curvature is that of the quadratic form minimised over them: the Hessian is symmetric, and the
block of the profile parameters is positive semidefinite and invertible. -/
theorem C94_profiled {n k m : ℕ} (hm : m ≠ 0) (H : Matrix (Fin n) (Fin n) ℝ) (hH : Hᵀ = H) (c : Fin k → Fin n) (p : Fin m → Fin n)
    (hpp : IsUnit (-H.submatrix p p).det) (hpos : ∀ y, 0 ≤ y ⬝ᵥ (-H.submatrix p p).mulVec y) (x : Vec k) :
    (∀ y, quadratic (information H c p) x ≤ jointQuadratic (-H.submatrix c c) (-H.submatrix c p) (-H.submatrix p p) x y) ∧
      ∃ y, quadratic (information H c p) x = jointQuadratic (-H.submatrix c c) (-H.submatrix c p) (-H.submatrix p p) x y := by
  have hinfo : information H c p =
      -H.submatrix c c - (-H.submatrix c p) * ((-H.submatrix p p)⁻¹ * (-H.submatrix p c)) := by
    unfold information
    rw [if_neg hm, if_pos hpp]
  have hBt : -H.submatrix p c = (-H.submatrix c p)ᵀ := by
    rw [Matrix.transpose_neg, Matrix.transpose_submatrix, hH]
  have hDt : (-H.submatrix p p)ᵀ = -H.submatrix p p := by
    rw [Matrix.transpose_neg, Matrix.transpose_submatrix, hH]
  rw [hinfo, hBt]
  generalize -H.submatrix c c = A at *
  generalize -H.submatrix c p = B at *
  generalize hD : -H.submatrix p p = D at *
  obtain ⟨b, hb⟩ : ∃ b, b = Bᵀ.mulVec x := ⟨_, rfl⟩
  obtain ⟨z, hz⟩ : ∃ z, z = D⁻¹.mulVec b := ⟨_, rfl⟩
  have hDz : D.mulVec z = b := by rw [hz, Matrix.mulVec_mulVec, Matrix.mul_nonsing_inv D hpp, Matrix.one_mulVec]
  have hxB : ∀ y, x ⬝ᵥ B.mulVec y = b ⬝ᵥ y := by
    intro y; rw [Matrix.dotProduct_mulVec, ← Matrix.mulVec_transpose, hb]
  have hyD : ∀ y, z ⬝ᵥ D.mulVec y = b ⬝ᵥ y := by
    intro y; rw [Matrix.dotProduct_mulVec, ← Matrix.mulVec_transpose, hDt, hDz]
  have hq : quadratic (A - B * (D⁻¹ * Bᵀ)) x = x ⬝ᵥ A.mulVec x - b ⬝ᵥ z := by
    unfold quadratic
    rw [Matrix.sub_mulVec, dotProduct_sub, ← Matrix.mulVec_mulVec, hxB, ← Matrix.mulVec_mulVec, ← hb, ← hz]
  have hsq : ∀ y, jointQuadratic A B D x y = quadratic (A - B * (D⁻¹ * Bᵀ)) x + (y + z) ⬝ᵥ D.mulVec (y + z) := by
    intro y
    have hyz : y ⬝ᵥ D.mulVec z = b ⬝ᵥ y := by rw [hDz, dotProduct_comm]
    rw [hq, jointQuadratic, hxB, Matrix.mulVec_add, add_dotProduct, dotProduct_add, dotProduct_add, hyD, hyz, hDz, dotProduct_comm z b]
    ring
  refine ⟨fun y => ?_, -z, ?_⟩
  · rw [hsq]
    linarith [hpos (y + z)]
  · rw [hsq, neg_add_cancel, zero_dotProduct, add_zero]

/-- One contour and one profile parameter with the curvature `[[2, 1], [1, 1]]`: the profiled curvature is 1. -/
example : information (-!![2, 1; 1, 1] : Matrix (Fin 2) (Fin 2) ℝ) (![0] : Fin 1 → Fin 2) (![1] : Fin 1 → Fin 2) = 1 ∧
    IsUnit (-(-!![2, 1; 1, 1] : Matrix (Fin 2) (Fin 2) ℝ).submatrix (![1] : Fin 1 → Fin 2) ![1]).det ∧
    ∀ y : Fin 1 → ℝ, 0 ≤ y ⬝ᵥ (-(-!![2, 1; 1, 1] : Matrix (Fin 2) (Fin 2) ℝ).submatrix (![1] : Fin 1 → Fin 2) ![1]).mulVec y := by
  have h1 : -(-!![2, 1; 1, 1] : Matrix (Fin 2) (Fin 2) ℝ).submatrix (![1] : Fin 1 → Fin 2) ![1] = 1 := by
    ext i j
    fin_cases i; fin_cases j
    show -(-(1 : ℝ)) = 1
    norm_num
  refine ⟨?_, ?_, fun y => ?_⟩
  · unfold information
    rw [if_neg (by norm_num), h1, if_pos (by simp), inv_one, Matrix.one_mul]
    ext i j
    fin_cases i; fin_cases j
    rw [Matrix.sub_apply, Matrix.mul_apply, Fin.sum_univ_one]
    show -(-(2 : ℝ)) - -(-(1 : ℝ)) * -(-(1 : ℝ)) = 1
    norm_num
  · rw [h1]; simp
  · rw [h1, Matrix.one_mulVec, dotProduct]
    exact Finset.sum_nonneg fun i _ => mul_self_nonneg _

/-! ### What the documentation says -/

/-- C94 fails for the formula of the documentation, `phi = L (theta - anchor)`: with `theta = anchor + L^{-T} phi` it does not give
`phi` back, unless the factor happens to be symmetric. -/
theorem C94_docs_fails : ∃ (L : Matrix (Fin 2) (Fin 2) ℝ) (φ anchor : Vec 2), IsUnit L.det ∧
    L.mulVec (toTheta anchor (L⁻¹)ᵀ φ - anchor) ≠ φ := by
  refine ⟨!![1, 0; 1, 1], ![0, 1], 0, by simp [Matrix.det_fin_two], ?_⟩
  have hinv : (!![1, 0; 1, 1] : Matrix (Fin 2) (Fin 2) ℝ)⁻¹ = !![1, 0; -1, 1] := by
    refine Matrix.inv_eq_right_inv ?_
    ext i j
    fin_cases i <;> fin_cases j <;> simp [Matrix.mul_apply, Fin.sum_univ_two]
  rw [hinv]
  intro h
  have := congrFun h 0
  simp [toTheta, Matrix.mulVec, dotProduct, Fin.sum_univ_two, Matrix.transpose] at this

/-- C94 fails for the fallback: the docstring promises the identity if any computation fails, but an exception of `eigh`, as for a
Hessian with `nan`, is not caught. -/
theorem C94_eigh_fails {n k m : ℕ} (eigh : Eigh k) (cholesky : Cholesky k) (H : Matrix (Fin n) (Fin n) ℝ) (c : Fin k → Fin n)
    (p : Fin m → Fin n) (reg : ℝ) (e : Err) (h : eigh (information H c p) = .error e) :
    whitener eigh cholesky (.ok H) c p reg = .error e := by
  simp only [whitener, h]

/-- C94. The other failures do give the identity. -/
theorem C94_identity {n k m : ℕ} (eigh : Eigh k) (cholesky : Cholesky k) (hessian : Except Err (Matrix (Fin n) (Fin n) ℝ))
    (c : Fin k → Fin n) (p : Fin m → Fin n) (reg : ℝ)
    (h : (∃ e, hessian = .error e) ∨ ∃ H w V, hessian = .ok H ∧ eigh (information H c p) = .ok (w, V) ∧ cholesky (regularised w V reg) = none) :
    whitener eigh cholesky hessian c p reg = .ok (1, 1) := by
  rcases h with ⟨e, rfl⟩ | ⟨H, w, V, rfl, h1, h2⟩
  · rfl
  · simp only [whitener, h1, h2]

example : whitener (fun _ => .ok (0, 1)) (fun _ => none) (.ok (0 : Matrix (Fin 1) (Fin 1) ℝ)) (id : Fin 1 → Fin 1) (Fin.elim0 : Fin 0 → Fin 1) 0 =
    .ok (1, 1) :=
  C94_identity _ _ _ _ _ _ (.inr ⟨0, 0, 1, rfl, rfl, rfl⟩)

end Verif.Contour
