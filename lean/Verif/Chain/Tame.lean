import Verif.Chain.Existence
import Mathlib.Analysis.Real.Pi.Bounds

/-!
# The constraint terms of spey
-/

namespace Verif.Chain
open Verif.Py F
open Verif.Backend (Vec Args Model Ext at' stdLog mvnLog Width WithMatrix)
open Finset (range)

theorem stdLog_falls (n : ℕ) (θ : ℕ → ℝ) : ∑ i ∈ range n, stdLog (θ i) ≤ 0 - 1 / 2 * ∑ i ∈ range n, θ i ^ 2 := by
  rw [zero_sub, Finset.mul_sum, ← Finset.sum_neg_distrib]
  refine Finset.sum_le_sum fun i _ => ?_
  unfold stdLog
  have : 0 ≤ Real.log (2 * Real.pi) := Real.log_nonneg (by nlinarith [Real.pi_gt_three])
  linarith

theorem independent_tame {n : ℕ} {bin : ℕ → ℝ → ℝ} (h1 : ∀ i < n, Continuous (bin i)) (h2 : ∃ θ, Admissible n bin θ) :
    Tame n bin fun θ => ∑ i ∈ range n, stdLog (θ i) where
  background := h1
  constraint := by unfold stdLog; fun_prop
  few := fun θ θ' h => Finset.sum_congr rfl fun i hi => by rw [h i (Finset.mem_range.mp hi)]
  falls := ⟨0, 1 / 2, by norm_num, stdLog_falls n⟩
  feasible := h2

/-- The quadratic form of a matrix is positive. -/
def Positive (n : ℕ) (P : ℕ → ℕ → ℝ) : Prop := ∀ x : ℕ → ℝ, (∃ i < n, x i ≠ 0) → 0 < ∑ i ∈ range n, ∑ j ∈ range n, x i * P i j * x j

theorem positive_bound {n : ℕ} {P : ℕ → ℕ → ℝ} (h : Positive n P) :
    ∃ c : ℝ, 0 < c ∧ ∀ x : ℕ → ℝ, c * ∑ i ∈ range n, x i ^ 2 ≤ ∑ i ∈ range n, ∑ j ∈ range n, x i * P i j * x j := by
  rcases Nat.eq_zero_or_pos n with rfl | hn
  · exact ⟨1, one_pos, fun x => by simp⟩
  let q : (Fin n → ℝ) → ℝ := fun x => ∑ i ∈ range n, ∑ j ∈ range n, extend n x i * P i j * extend n x j
  have he : ∀ i, Continuous fun x : Fin n → ℝ => extend n x i := fun i => (continuous_apply i).comp (extend_continuous n)
  have hq : Continuous q := continuous_finsetSum _ fun i _ => continuous_finsetSum _ fun j _ => ((he i).mul continuous_const).mul (he j)
  have hs : Continuous fun x : Fin n → ℝ => ∑ j, x j ^ 2 := continuous_finsetSum _ fun j _ => (continuous_apply j).pow 2
  have hcomp : IsCompact {x : Fin n → ℝ | ∑ j, x j ^ 2 = 1} := by
    refine (isCompact_Icc (a := fun _ => (-1 : ℝ)) (b := fun _ => 1)).of_isClosed_subset (isClosed_eq hs continuous_const) fun x hx => ?_
    have h3 : ∀ j, |x j| ≤ 1 := by
      intro j
      have h4 : x j ^ 2 ≤ 1 := (Finset.single_le_sum (f := fun j => x j ^ 2) (fun i _ => sq_nonneg (x i)) (Finset.mem_univ j)).trans (le_of_eq hx)
      exact abs_le_one_iff_mul_self_le_one.mpr (by nlinarith)
    exact ⟨fun j => (abs_le.mp (h3 j)).1, fun j => (abs_le.mp (h3 j)).2⟩
  obtain ⟨z, hz, hmin⟩ := hcomp.exists_isMinOn ⟨fun j => if j = ⟨0, hn⟩ then 1 else 0, by simp⟩ hq.continuousOn
  have hz1 : ∑ j, z j ^ 2 = 1 := hz
  have hz0 : 0 < q z := by
    apply h
    by_contra hno
    push_neg at hno
    have : ∑ j, z j ^ 2 = 0 := by
      rw [← extend_sum]
      exact Finset.sum_eq_zero fun i hi => by rw [hno i (Finset.mem_range.mp hi)]; norm_num
    linarith
  refine ⟨q z, hz0, fun x => ?_⟩
  rcases (Finset.sum_nonneg fun i (_ : i ∈ range n) => sq_nonneg (x i)).eq_or_lt with h0 | h0
  · rw [← h0, mul_zero]
    have : ∀ i ∈ range n, x i = 0 := fun i hi => by
      have := (Finset.sum_eq_zero_iff_of_nonneg fun i _ => sq_nonneg (x i)).mp h0.symm i hi
      exact pow_eq_zero_iff (two_ne_zero) |>.mp this
    exact (Finset.sum_eq_zero fun i hi => Finset.sum_eq_zero fun j _ => by rw [this i hi]; ring).ge
  · obtain ⟨r, hr⟩ : ∃ r, r = √(∑ i ∈ range n, x i ^ 2) := ⟨_, rfl⟩
    have hr0 : 0 < r := hr ▸ Real.sqrt_pos.mpr h0
    have hr2 : r ^ 2 = ∑ i ∈ range n, x i ^ 2 := by rw [hr]; exact Real.sq_sqrt h0.le
    have h5 : ∑ j : Fin n, (x j / r) ^ 2 = 1 := by
      simp_rw [div_pow]
      rw [← Finset.sum_div, hr2, Finset.sum_range]
      exact div_self (by rw [← Finset.sum_range fun i => x i ^ 2]; exact h0.ne')
    have h6 : q z ≤ q fun j => x j / r := hmin h5
    have h7 : (q fun j => x j / r) = (∑ i ∈ range n, ∑ j ∈ range n, x i * P i j * x j) / r ^ 2 := by
      rw [Finset.sum_div]
      refine Finset.sum_congr rfl fun i hi => ?_
      rw [Finset.sum_div]
      refine Finset.sum_congr rfl fun j hj => ?_
      rw [extend_restrict (fun k => x k / r) (Finset.mem_range.mp hi), extend_restrict (fun k => x k / r) (Finset.mem_range.mp hj)]
      field_simp
    rw [h7, le_div_iff₀ (by positivity), hr2] at h6
    exact h6

theorem matrix_tame {n : ℕ} {bin : ℕ → ℝ → ℝ} (h1 : ∀ i < n, Continuous (bin i)) (h2 : ∃ θ, Admissible n bin θ) {P : ℕ → ℕ → ℝ} (hP : Positive n P)
    (l : ℝ) : Tame n bin (mvnLog n P l) where
  background := h1
  constraint := by unfold mvnLog; fun_prop
  few := fun θ θ' h => by
    unfold mvnLog
    congr 3
    refine Finset.sum_congr rfl fun i hi => Finset.sum_congr rfl fun j hj => ?_
    rw [h i (Finset.mem_range.mp hi), h j (Finset.mem_range.mp hj)]
  falls := by
    obtain ⟨c, hc, h⟩ := positive_bound hP
    refine ⟨-(n * Real.log (2 * Real.pi) + l) / 2, c / 2, by linarith, fun θ => ?_⟩
    unfold mvnLog
    have := h θ
    linarith
  feasible := h2

/-- The effective standard deviation is continuous. -/
theorem width_continuous {up dn b : ℝ} {w : ℝ → ℝ} (h : ∀ t, Width up dn b t (w t)) : Continuous w := by
  have : w = fun t => √(max (up * dn + (up - dn) * (t - b)) (1 / 10 ^ 10)) := by
    ext t
    obtain ⟨h1, h2, h3⟩ := h t
    rcases le_total (1 / 10 ^ 10) (up * dn + (up - dn) * (t - b)) with hle | hle
    · rw [max_eq_left hle, ← h2 hle, Real.sqrt_sq h1.le]
    · rw [max_eq_right hle, h3 hle]
      have : (1 : ℝ) / 10 ^ 10 = (1 / 10 ^ 5) ^ 2 := by norm_num
      rw [this, Real.sqrt_sq (by positivity)]
  rw [this]
  fun_prop

theorem matrix_continuous {a : Args} {m : Backend.Model} {bin : ℕ → ℝ → ℝ} {corr : List Vec} (h : WithMatrix a m bin corr) (i : ℕ) : Continuous (bin i) := by
  cases h with
  | correlated cov h hl hq => fun_prop
  | thirdMoment A B C corr h hA hB hC hc => fun_prop
  | effectiveSigma corr env h w hw =>
    have := width_continuous (hw i)
    fun_prop

end Verif.Chain
