import Verif.ThirdMoment.Props
import Verif.Backend.Props

/-!
# Property C142: the expansion without skewness

`/repo/src/spey/backends/default_pdf/third_moment.py` L60-61: "When m3 = 0 for all bins the expansion reduces identically to the standard simplified likelihood (`CorrelatedBackground`)".
-/

namespace Verif.ThirdMoment
open Verif.Py F

/-- What `third_moment_expansion(b, cov, m, True)` returns, third_moment.py L188-233, as the lists that `ThirdMomentExpansion` of default_pdf/__init__.py L1229-1231 goes on with, when all entries are
finite. -/
structure Returns (b : Backend.Vec) (cov : List Backend.Vec) (m : ℕ → ℝ) (A B C : Backend.Vec) (corr : List Backend.Vec) : Prop where
  lenA : A.length = b.length
  lenB : B.length = b.length
  lenC : C.length = b.length
  lenCorr : corr.length = b.length
  rows : ∀ r ∈ corr, r.length = b.length
  coefA : ∀ i < b.length, ThirdMoment.coefA (b.getD i 0) ((cov.getD i []).getD i 0) (m i) = fin (A.getD i 0)
  coefB : ∀ i < b.length, ThirdMoment.coefB ((cov.getD i []).getD i 0) (m i) = fin (B.getD i 0)
  coefC : ∀ i < b.length, ThirdMoment.coefC ((cov.getD i []).getD i 0) (m i) = fin (C.getD i 0)
  corr : ∀ i < b.length, ∀ j < b.length, correlation b.length (fun i j => (cov.getD i []).getD j 0) m i j = fin ((corr.getD i []).getD j 0)

theorem getD_range {n i : ℕ} (f : ℕ → ℝ) (hi : i < n) : ((List.range n).map f).getD i 0 = f i := by simp [hi]

/-- The arrays and loops always end with such lists when no variance is negative. -/
theorem returns_exists (b : Backend.Vec) (cov : List Backend.Vec) (m : ℕ → ℝ) (hv : ∀ i < b.length, 0 ≤ (cov.getD i []).getD i 0) :
    ∃ A B C corr, Returns b cov m A B C corr := by
  have h : ∀ i, ∃ x : ℝ × ℝ × ℝ, i < b.length → ThirdMoment.coefA (b.getD i 0) ((cov.getD i []).getD i 0) (m i) = fin x.1 ∧
      ThirdMoment.coefB ((cov.getD i []).getD i 0) (m i) = fin x.2.1 ∧ ThirdMoment.coefC ((cov.getD i []).getD i 0) (m i) = fin x.2.2 := by
    intro i
    by_cases hi : i < b.length
    · obtain ⟨A, B, C, h1, h2, h3, -⟩ := coef_all (b.getD i 0) (hv i hi) (m i)
      exact ⟨(A, B, C), fun _ => ⟨h1, h2, h3⟩⟩
    · exact ⟨0, fun h => absurd h hi⟩
  choose x hx using h
  have hc : ∀ i j, ∃ r : ℝ, i < b.length → j < b.length → correlation b.length (fun i j => (cov.getD i []).getD j 0) m i j = fin r := by
    intro i j
    by_cases hi : i < b.length
    · by_cases hj : j < b.length
      · obtain ⟨-, h2, h3⟩ := hx _ (max_lt hi hj)
        obtain ⟨-, h2', h3'⟩ := hx _ ((min_le_left i j).trans_lt hi)
        refine ⟨entryR (x (max i j)).2.2 (x (min i j)).2.2 (x (max i j)).2.1 (x (min i j)).2.1 ((cov.getD (max i j) []).getD (min i j) 0), fun _ _ => ?_⟩
        unfold correlation
        rw [loop_apply _ _ _ _ hi hj, h2, h3, h2', h3', entry_fin]
      · exact ⟨0, fun _ h => absurd h hj⟩
    · exact ⟨0, fun h => absurd h hi⟩
  choose r hr using hc
  refine ⟨(List.range b.length).map fun i => (x i).1, (List.range b.length).map fun i => (x i).2.1, (List.range b.length).map fun i => (x i).2.2,
    (List.range b.length).map fun i => (List.range b.length).map (r i), by simp, by simp, by simp, by simp, by simp, ?_, ?_, ?_, ?_⟩
  · intro i hi; rw [getD_range _ hi, (hx i hi).1]
  · intro i hi; rw [getD_range _ hi, (hx i hi).2.1]
  · intro i hi; rw [getD_range _ hi, (hx i hi).2.2]
  · intro i hi j hj
    have : ((List.range b.length).map fun i => (List.range b.length).map (r i)).getD i [] = (List.range b.length).map (r i) := by simp [hi]
    rw [this, getD_range _ hj, hr i j hi hj]

theorem add_zeros (l z : Backend.Vec) (h : z = List.replicate l.length 0) : Backend.bcast (fun x y => x + y) l z = .ok l := by
  subst h
  unfold Backend.bcast
  rw [if_pos (by simp)]
  congr 1
  apply List.ext_getElem <;> simp

theorem zeros_of (l : Backend.Vec) (n : ℕ) (hn : l.length = n) (h : ∀ x ∈ l, x = 0) : l = List.replicate n 0 := List.eq_replicate_iff.mpr ⟨hn, h⟩

/-- `A + B * theta + 0 * theta²` is `A + B * theta`, also where numpy raises. -/
theorem quadratic_zero (A B t : Backend.Vec) (h : A.length = B.length) :
    Backend.quadratic A B (List.replicate B.length 0) t = Backend.linear A B t := by
  unfold Backend.quadratic
  by_cases e1 : B.length = t.length
  · have hl : Backend.linear A B t = .ok (List.zipWith (fun x y => x + y) A (List.zipWith (fun x y => x * y) B t)) := by
      unfold Backend.linear Backend.bcast
      rw [if_pos e1]
      simp only [Backend.ok_bind]
      rw [if_pos (by simp [h, e1])]
    have hq : Backend.bcast (fun x y => x * y) (List.replicate B.length 0) (t.map fun t => t ^ 2) = .ok (List.replicate B.length 0) := by
      unfold Backend.bcast
      rw [if_pos (by simp [e1])]
      congr 1
      apply List.ext_getElem <;> simp [e1]
    rw [hl, hq, Backend.ok_bind, Backend.ok_bind, add_zeros]
    simp [h, e1]
  · match B, h with
    | [x], h =>
      obtain ⟨a, rfl⟩ := List.length_eq_one_iff.mp h
      have e2 : ¬ [a].length = t.length := by simpa using e1
      have hl : Backend.linear [a] [x] t = .ok (t.map fun t => a + x * t) := by
        unfold Backend.linear Backend.bcast
        rw [if_neg e1]
        simp only [Backend.ok_bind]
        rw [if_neg (by simpa using e2), List.map_map]
        rfl
      have hq : Backend.bcast (fun x y => x * y) (List.replicate [x].length 0) (t.map fun t => t ^ 2) = .ok (List.replicate t.length 0) := by
        unfold Backend.bcast
        rw [if_neg (by simpa using e1)]
        simp only [List.length_cons, List.length_nil, List.replicate]
        congr 1
        apply List.ext_getElem <;> simp
      rw [hl, hq, Backend.ok_bind, Backend.ok_bind, add_zeros]
      simp
    | [], h =>
      match t with
      | [] => simp at e1
      | [y] =>
        have : A = [] := List.length_eq_zero_iff.mp h
        subst this
        simp [Backend.linear, Backend.bcast, Backend.ok_bind]
      | y :: y' :: t => simp [Backend.linear, Backend.bcast]; rfl
    | x :: x' :: B, h =>
      match t with
      | [] => simp [Backend.linear, Backend.bcast]; rfl
      | [y] =>
        have hl : Backend.linear A (x :: x' :: B) [y] = .ok (List.zipWith (fun x y => x + y) A ((x :: x' :: B).map fun x => x * y)) := by
          unfold Backend.linear Backend.bcast
          rw [if_neg (by simp)]
          simp only [Backend.ok_bind]
          rw [if_pos (by simpa using h)]
        have hq : Backend.bcast (fun x y => x * y) (List.replicate (x :: x' :: B).length 0) ([y].map fun t => t ^ 2) = .ok (List.replicate (x :: x' :: B).length 0) := by
          unfold Backend.bcast
          rw [if_neg (by simp)]
          simp [List.replicate_succ]
        rw [hl, hq, Backend.ok_bind, Backend.ok_bind, add_zeros]
        simp [h]
      | y :: y' :: t =>
        have hl : Backend.bcast (fun x y => x * y) (x :: x' :: B) (y :: y' :: t) = .error .value := by
          unfold Backend.bcast
          rw [if_neg e1]
        unfold Backend.linear
        rw [hl]
        rfl

/-- One entry of the matrix without skewness. -/
theorem entry_close (s t c : ℝ) (hs : 0 < s) (ht : 0 < t) (hc : |c| ≤ s * t) (hq : 8 / 10 ^ 10 ≤ s * t) :
    |entryR 0 0 s t c - c / (s * t)| ≤ 8 / 10 ^ 10 / (s * t) := by
  have hB : 0 < s * t := mul_pos hs ht
  obtain ⟨h1, h2⟩ := abs_le.mp hc
  have hz : shiftR 0 * shiftR 0 = 1 / 10 ^ 10 := by unfold shiftR; norm_num
  unfold entryR
  rw [hz]
  generalize s * t = B at *
  have hD : 0 ≤ B ^ 2 + 8 * (1 / 10 ^ 10) * c := by nlinarith
  rw [abs_of_nonneg hD]
  have hsq := Real.sq_sqrt hD
  have hup : √(B ^ 2 + 8 * (1 / 10 ^ 10) * c) ≤ B + 4 * (1 / 10 ^ 10) := by
    rw [Real.sqrt_le_left (by positivity)]
    nlinarith
  have hlo : B - 8 * (1 / 10 ^ 10) ≤ √(B ^ 2 + 8 * (1 / 10 ^ 10) * c) := by
    apply Real.le_sqrt_of_sq_le
    nlinarith
  generalize √(B ^ 2 + 8 * (1 / 10 ^ 10) * c) = w at *
  have hr : (w - B) / 4 / (1 / 10 ^ 10) - c / B = -(2 / 10 ^ 10 * ((w - B) / 4 / (1 / 10 ^ 10)) ^ 2 / B) := by
    field_simp
    nlinarith
  have hr1 : (w - B) / 4 / (1 / 10 ^ 10) ≤ 2 := by rw [div_le_iff₀ (by norm_num)]; linarith
  have hr2 : -2 ≤ (w - B) / 4 / (1 / 10 ^ 10) := by rw [le_div_iff₀ (by norm_num)]; linarith
  rw [hr, abs_neg, abs_of_nonneg (by positivity)]
  apply div_le_div_of_nonneg_right _ hB.le
  nlinarith

/-- C142: without skewness, and for bins whose skewness is ignored, the coefficients are those of `CorrelatedBackground`, and with the correlation matrix of the covariance matrix the model would be
that model: the same rates, positivity constraints, parameters and constraint terms, and the same exceptions. Missing: the matrix, which is only close to the correlation matrix. -/
theorem C142_reduces_partial (a : Backend.Args) (cov : List Backend.Vec) (m : ℕ → ℝ) (A B C : Backend.Vec) (corr : List Backend.Vec)
    (h : Returns a.background cov m A B C corr) (hl : cov.length = a.background.length) (hv : ∀ i < cov.length, 0 ≤ (cov.getD i []).getD i 0)
    (hm : ∀ i < cov.length, m i = 0 ∨ 8 * (cov.getD i []).getD i 0 ^ 3 < m i ^ 2) :
    A = a.background ∧ B = Backend.stdevs cov ∧ C = List.replicate cov.length 0 ∧
      Backend.thirdMoment a A B C (Backend.correlations cov) = Backend.correlated a cov := by
  have hs : (Backend.stdevs cov).length = cov.length := by simp [Backend.stdevs]
  have key := fun i (hi : i < a.background.length) => C49_symmetric (a.background.getD i 0) ((cov.getD i []).getD i 0) (m i) (hv i (hl ▸ hi)) (hm i (hl ▸ hi)).symm
  have hA : A = a.background := by
    apply List.ext_getElem h.lenA
    intro i h1 h2
    have := (h.coefA i h2).symm.trans (key i h2).1
    simpa [h1, h2] using this
  have hB : B = Backend.stdevs cov := by
    apply List.ext_getElem (by rw [h.lenB, hs, hl])
    intro i h1 h2
    have h3 : i < a.background.length := by rw [← h.lenB]; exact h1
    have := (h.coefB i h3).symm.trans (key i h3).2.1
    simp [h1, hl ▸ h3, Backend.stdevs] at this ⊢
    exact this
  have hC : C = List.replicate cov.length 0 := by
    apply List.ext_getElem (by rw [h.lenC, hl]; simp)
    intro i h1 h2
    have h3 : i < a.background.length := by rw [← h.lenC]; exact h1
    have := (h.coefC i h3).symm.trans (key i h3).2.2.1
    simpa [h1] using this
  refine ⟨hA, hB, hC, ?_⟩
  subst hA hB hC
  unfold Backend.thirdMoment Backend.correlated
  rw [hs]
  congr 1
  funext t
  have := quadratic_zero a.background (Backend.stdevs cov) t (by rw [hs, hl])
  rwa [hs] at this

/-- C142, the matrix: if the variances are positive, no covariance is larger than the product of the standard deviations, and these products are at least 8e-10, the entries differ from the
correlations by at most 8e-10 over the product. Missing: products of standard deviations of that size or smaller, for which the matrix may not even be positive (`C142_definite_fails`). -/
theorem C142_matrix_partial (b : Backend.Vec) (cov : List Backend.Vec) (m : ℕ → ℝ) (A B C : Backend.Vec) (corr : List Backend.Vec)
    (h : Returns b cov m A B C corr) (hm : ∀ i < b.length, m i = 0 ∨ 8 * (cov.getD i []).getD i 0 ^ 3 < m i ^ 2)
    (hv : ∀ i < b.length, 0 < (cov.getD i []).getD i 0)
    (i j : ℕ) (hi : i < b.length) (hj : j ≤ i) (hc : |(cov.getD i []).getD j 0| ≤ √((cov.getD i []).getD i 0) * √((cov.getD j []).getD j 0))
    (hq : 8 / 10 ^ 10 ≤ √((cov.getD i []).getD i 0) * √((cov.getD j []).getD j 0)) :
    (corr.getD i []).getD j 0 = (corr.getD j []).getD i 0 ∧
    |(corr.getD i []).getD j 0 - (cov.getD i []).getD j 0 / (√((cov.getD i []).getD i 0) * √((cov.getD j []).getD j 0))| ≤
      8 / 10 ^ 10 / (√((cov.getD i []).getD i 0) * √((cov.getD j []).getD j 0)) := by
  have hji := hj
  have hj' : j < b.length := hji.trans_lt hi
  have hk := fun i (hi : i < b.length) => C49_symmetric 0 ((cov.getD i []).getD i 0) (m i) (hv i hi).le (hm i hi).symm
  have h1 := h.corr i hi j hj'
  have h2 := h.corr j hj' i hi
  rw [(C49_correlation_symmetric b.length _ (fun i j => (cov.getD i []).getD j 0) m j i hj' hi).1, h1] at h2
  refine ⟨by simpa using h2, ?_⟩
  unfold correlation at h1
  rw [loop_apply _ _ _ _ hi hj', max_eq_left hji, min_eq_right hji, (hk i hi).2.1, (hk i hi).2.2.1, (hk j hj').2.1, (hk j hj').2.2.1, entry_fin] at h1
  have h1 := F.fin.inj h1
  rw [← h1]
  exact entry_close _ _ _ (Real.sqrt_pos.mpr (hv i hi)) (Real.sqrt_pos.mpr (hv j hj')) hc hq

/-- Two bins with variances 4 and 9 and covariance 3: the entries are those of the correlation matrix up to 2e-10. -/
example : ∃ A B C corr, Returns [10, 20] [[4, 3], [3, 9]] (fun _ => 0) A B C corr ∧ A = [10, 20] ∧ B = [√4, √9] ∧ |(corr.getD 1 []).getD 0 0 - 1 / 2| ≤ 2 / 10 ^ 10 := by
  obtain ⟨A, B, C, corr, h⟩ := returns_exists [10, 20] [[4, 3], [3, 9]] (fun _ => 0) (by intro i hi; simp at hi; interval_cases i <;> simp)
  let a : Backend.Args := ⟨.array [1, 2], [10, 20], [12, 18], none, 0, none⟩
  obtain ⟨hA, hB, -, -⟩ := C142_reduces_partial a [[4, 3], [3, 9]] (fun _ => 0) A B C corr h rfl (by intro i hi; simp at hi; interval_cases i <;> simp) (by simp)
  refine ⟨A, B, C, corr, h, hA, by rw [hB]; simp [Backend.stdevs], ?_⟩
  have e : √(9 : ℝ) * √4 = 6 := by
    rw [show (9 : ℝ) = 3 ^ 2 by norm_num, show (4 : ℝ) = 2 ^ 2 by norm_num, Real.sqrt_sq (by norm_num), Real.sqrt_sq (by norm_num)]; norm_num
  have := (C142_matrix_partial [10, 20] [[4, 3], [3, 9]] (fun _ => 0) A B C corr h (by simp) (by intro i hi; simp at hi; interval_cases i <;> simp) 1 0 (by simp) (by norm_num)
    (by simp [e]; norm_num) (by simp [e]; norm_num)).2
  simp only [List.getD_cons_succ, List.getD_cons_zero, e] at this
  norm_num at this ⊢
  linarith

/-- C142 is false for small uncertainties: for two bins with variances 9e-10 and covariance -7e-10, a proper covariance matrix, the entries of the computed matrix are -1 off the diagonal and less than
1 on it, so that the constraint term is no distribution: it grows without limit when both parameters do. The matrix is never that of `CorrelatedBackground` (`C49_unit_diagonal_fails`). -/
theorem C142_definite_fails :
    let cov : ℕ → ℕ → ℝ := fun i j => if i = j then 9 / 10 ^ 10 else -(7 / 10 ^ 10)
    (∀ x y : ℝ, x ≠ 0 ∨ y ≠ 0 → 0 < cov 0 0 * x ^ 2 + 2 * cov 0 1 * (x * y) + cov 1 1 * y ^ 2) ∧
    ∃ r : ℝ, r < 1 ∧ correlation 2 cov (fun _ => 0) 0 0 = fin r ∧ correlation 2 cov (fun _ => 0) 1 1 = fin r ∧
      correlation 2 cov (fun _ => 0) 0 1 = fin (-1) ∧ correlation 2 cov (fun _ => 0) 1 0 = fin (-1) := by
  intro cov
  have hk := C49_symmetric 0 (9 / 10 ^ 10) 0 (by norm_num) (Or.inr rfl)
  have h9 : √(9 / 10 ^ 10 : ℝ) * √(9 / 10 ^ 10) = 9 / 10 ^ 10 := Real.mul_self_sqrt (by norm_num)
  have hz : shiftR 0 * shiftR 0 = 1 / 10 ^ 10 := by unfold shiftR; norm_num
  have ho : entryR 0 0 √(9 / 10 ^ 10) √(9 / 10 ^ 10) (-(7 / 10 ^ 10)) = -1 := by
    unfold entryR
    rw [h9, hz, show ((9 : ℝ) / 10 ^ 10) ^ 2 + 8 * (1 / 10 ^ 10) * -(7 / 10 ^ 10) = (5 / 10 ^ 10) ^ 2 by norm_num, abs_of_nonneg (by positivity), Real.sqrt_sq (by positivity)]
    norm_num
  obtain ⟨r, hr, -, hr1⟩ := C49_unit_diagonal_fails 2 cov (fun _ => 0) 0 (by norm_num) (by simp [cov])
  refine ⟨fun x y hxy => ?_, r, hr1, hr, ?_, ?_, ?_⟩
  · simp only [cov]
    norm_num
    have : 0 < x ^ 2 + y ^ 2 := by
      rcases hxy with h | h
      · positivity
      · positivity
    nlinarith [sq_nonneg (x - y), sq_nonneg (x + y)]
  · rw [← hr]
    unfold correlation
    rw [loop_apply _ _ _ _ (by norm_num) (by norm_num), loop_apply _ _ _ _ (by norm_num) (by norm_num)]
    simp [cov]
  · unfold correlation
    rw [loop_apply _ _ _ _ (by norm_num) (by norm_num)]
    simp only [cov, Nat.max_def, Nat.min_def]
    rw [if_pos trivial, if_neg (by decide), hk.2.1, hk.2.2.1, entry_fin, ho]
  · unfold correlation
    rw [loop_apply _ _ _ _ (by norm_num) (by norm_num)]
    simp only [cov, Nat.max_def, Nat.min_def]
    rw [if_pos trivial, if_neg (by decide), hk.2.1, hk.2.2.1, entry_fin, ho]

end Verif.ThirdMoment
