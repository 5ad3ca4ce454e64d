import Verif.Reach.Spec
import Verif.Reach.Levels
import Verif.Chain.ProfileProps
import Verif.Uncorrelated.LimitProps

/-!
# Lemmas: bounds on the statistics of binned likelihoods
-/

namespace Verif.Reach
open Verif.Py F Verif.Chain Verif.Hypotest
open Verif.Backend (poissonLog stdLog mvnLog)

/-! ## Poisson terms -/

theorem deviance_eq {d l : ℝ} (hl : 0 < l) : deviance d l = d * Real.log d - d - (d * Real.log l - l) := by
  unfold deviance
  rcases eq_or_ne d 0 with rfl | hd
  · simp
  · rw [Real.log_div hd hl.ne']; ring

theorem deviance_nonneg {d l : ℝ} (hd : 0 ≤ d) (hl : 0 < l) : 0 ≤ deviance d l := by
  rcases hd.eq_or_lt with rfl | hd
  · simp [deviance, hl.le]
  · have := Real.add_one_le_exp (Real.log (l / d))
    rw [Real.exp_log (div_pos hl hd)] at this
    have h2 : Real.log (d / l) = -Real.log (l / d) := by rw [← Real.log_inv, inv_div]
    unfold deviance
    rw [h2]
    have h3 : d * (l / d) = l := by field_simp
    nlinarith

/-- A large expectation is far from the data. -/
theorem deviance_large {d l : ℝ} (hd : 0 ≤ d) (hl : 0 < l) : l / 2 - d * Real.log 2 ≤ deviance d l := by
  have h1 := deviance_nonneg hd (half_pos hl)
  rw [deviance_eq (half_pos hl), Real.log_div hl.ne' (by norm_num)] at h1
  rw [deviance_eq hl]
  linarith

/-- The Poisson term for a smaller expectation is not much larger. -/
theorem poisson_less (γ : ℝ → ℝ) {d l l' : ℝ} (hd : 0 ≤ d) (hl : 0 < l) (hll : l ≤ l') : poissonLog γ d l - poissonLog γ d l' ≤ l' - l := by
  unfold poissonLog
  have := mul_le_mul_of_nonneg_left (Real.log_le_log hl hll) hd
  linarith

section
variable {γ : ℝ → ℝ} {n : ℕ} {s : ℕ → ℝ} {bin : ℕ → ℝ → ℝ} {pen : (ℕ → ℝ) → ℝ} {D : ℕ → ℝ}

theorem expectedIn_pos (mu : ℝ) (θ : ℕ → ℝ) (i : ℕ) : 0 < expectedIn s bin mu θ i := lt_of_lt_of_le (by positivity) (le_max_right _ _)

/-- Less signal is not much more likely. -/
theorem less_signal (hD : ∀ i < n, 0 ≤ D i) (hs : ∀ i < n, 0 ≤ s i) {u v : ℝ} (huv : u ≤ v) (θ : ℕ → ℝ) :
    logLikelihood γ n s bin pen D u θ - logLikelihood γ n s bin pen D v θ ≤ (v - u) * ∑ i ∈ Finset.range n, s i := by
  unfold logLikelihood
  rw [add_sub_add_right_eq_sub, ← Finset.sum_sub_distrib, Finset.mul_sum]
  refine Finset.sum_le_sum fun i hi => ?_
  have hi := Finset.mem_range.mp hi
  have hvu := mul_le_mul_of_nonneg_right huv (hs i hi)
  have hle : expectedIn s bin u θ i ≤ expectedIn s bin v θ i := by unfold expectedIn; exact max_le_max_right _ (by linarith)
  refine (poisson_less γ (hD i hi) (expectedIn_pos u θ i) hle).trans ?_
  have : expectedIn s bin v θ i ≤ expectedIn s bin u θ i + (v - u) * s i := by
    unfold expectedIn
    refine max_le ?_ ?_
    · have := le_max_left (u * s i + bin i (θ i)) (1 / 10 ^ 20)
      linarith
    · have := le_max_right (u * s i + bin i (θ i)) (1 / 10 ^ 20)
      have : 0 ≤ (v - u) * s i := mul_nonneg (by linarith) (hs i hi)
      linarith
  linarith

/-- The likelihood of perfect agreement. -/
noncomputable def saturated (γ : ℝ → ℝ) (n : ℕ) (pen : (ℕ → ℝ) → ℝ) (D : ℕ → ℝ) : ℝ :=
  ∑ i ∈ Finset.range n, (D i * Real.log (D i) - D i - γ (D i + 1)) + pen fun _ => 0

theorem likelihood_eq (mu : ℝ) (θ : ℕ → ℝ) : logLikelihood γ n s bin pen D mu θ =
    saturated γ n pen D - (∑ i ∈ Finset.range n, deviance (D i) (expectedIn s bin mu θ i) + (pen (fun _ => 0) - pen θ)) := by
  have : ∑ i ∈ Finset.range n, poissonLog γ (D i) (expectedIn s bin mu θ i) =
      ∑ i ∈ Finset.range n, (D i * Real.log (D i) - D i - γ (D i + 1)) - ∑ i ∈ Finset.range n, deviance (D i) (expectedIn s bin mu θ i) := by
    rw [← Finset.sum_sub_distrib]
    refine Finset.sum_congr rfl fun i _ => ?_
    rw [deviance_eq (expectedIn_pos mu θ i)]
    unfold poissonLog
    ring
  unfold logLikelihood saturated
  rw [this]
  ring

theorem misfit_eq (θ : ℕ → ℝ) : misfit n bin pen D θ = ∑ i ∈ Finset.range n, deviance (D i) (expectedIn s bin 0 θ i) + (pen (fun _ => 0) - pen θ) := by
  unfold misfit expectedIn
  simp

theorem likelihood_zero (θ : ℕ → ℝ) : logLikelihood γ n s bin pen D 0 θ = saturated γ n pen D - misfit n bin pen D θ := by
  rw [likelihood_eq, ← misfit_eq]

variable (hpen : ∀ θ, pen θ ≤ pen fun _ => 0)
include hpen

theorem deviance_le (hD : ∀ i < n, 0 ≤ D i) (mu : ℝ) (θ : ℕ → ℝ) {j : ℕ} (hj : j < n) :
    deviance (D j) (expectedIn s bin mu θ j) ≤ ∑ i ∈ Finset.range n, deviance (D i) (expectedIn s bin mu θ i) :=
  Finset.single_le_sum (f := fun i => deviance (D i) (expectedIn s bin mu θ i)) (fun i hi => deviance_nonneg (hD i (Finset.mem_range.mp hi)) (expectedIn_pos mu θ i)) (Finset.mem_range.mpr hj)

/-- Much signal is unlikely. -/
theorem much_signal (hD : ∀ i < n, 0 ≤ D i) {v : ℝ} {θ : ℕ → ℝ} (hok : Admissible n bin θ) {j : ℕ} (hj : j < n) :
    logLikelihood γ n s bin pen D v θ ≤ saturated γ n pen D - (v * s j / 2 - D j * Real.log 2) := by
  rw [likelihood_eq]
  have h1 := deviance_le (s := s) hpen hD v θ hj (bin := bin)
  have h2 := deviance_large (hD j hj) (expectedIn_pos (s := s) (bin := bin) v θ j)
  have h3 : v * s j ≤ expectedIn s bin v θ j := le_trans (by linarith [hok j hj]) (le_max_left _ _)
  linarith [hpen θ]

theorem misfit_price (hD : ∀ i < n, 0 ≤ D i) (θ : ℕ → ℝ) : (pen fun _ => 0) - pen θ ≤ misfit n bin pen D θ := by
  have : 0 ≤ ∑ i ∈ Finset.range n, deviance (D i) (max (bin i (θ i)) (1 / 10 ^ 20)) :=
    Finset.sum_nonneg fun i hi => deviance_nonneg (hD i (Finset.mem_range.mp hi)) (lt_of_lt_of_le (by positivity) (le_max_right _ _))
  unfold misfit
  linarith

theorem misfit_nonneg (hD : ∀ i < n, 0 ≤ D i) (θ : ℕ → ℝ) : 0 ≤ misfit n bin pen D θ := by
  linarith [hpen θ, misfit_price (bin := bin) hpen hD θ]

/-- The expectation of one bin is not much more than the data. -/
theorem expected_le (hD : ∀ i < n, 0 ≤ D i) (θ : ℕ → ℝ) {j : ℕ} (hj : j < n) : expectedIn s bin 0 θ j ≤ 2 * misfit n bin pen D θ + 2 * (D j * Real.log 2) := by
  have h1 := deviance_le (s := s) hpen hD 0 θ hj (bin := bin)
  have h2 := deviance_large (hD j hj) (expectedIn_pos (s := s) (bin := bin) 0 θ j)
  rw [misfit_eq (s := s)]
  linarith [hpen θ]

omit hpen in
/-- The Asimov data agree with the parameters from which they are. -/
theorem misfit_asimov (θ : ℕ → ℝ) : misfit n bin pen (expectedIn s bin 0 θ) θ = (pen fun _ => 0) - pen θ := by
  rw [misfit_eq (s := s), Finset.sum_eq_zero, _root_.zero_add]
  intro i _
  unfold deviance
  rw [div_self (expectedIn_pos 0 θ i).ne', Real.log_one]
  ring

end

/-! ## Statistics -/

/-- The statistic of two fits. -/
structure Stat (v best l lv q : ℝ) : Prop where
  below : best ≤ v → q = max (2 * (l - lv)) 0
  beyond : v < best → q = 0

theorem Stat.nonneg {v best l lv q : ℝ} (h : Stat v best l lv q) : 0 ≤ q := by
  rcases le_or_gt best v with k | k
  · rw [h.below k]; exact le_max_right _ _
  · rw [h.beyond k]

theorem stat_exists {v best l lv : ℝ} (hb : 0 ≤ best) (l0 : F) : ∃ q, Stat v best l lv q ∧ (fitOf v best (fin (-l)) (fin (-lv)) l0).stat Stats.qmuTilde (fin v) = fin q := by
  rcases le_or_gt best v with h | h
  · refine ⟨max (2 * (l - lv)) 0, ⟨fun _ => rfl, fun h' => absurd h (not_le.mpr h')⟩, ?_⟩
    simp only [Stats.Fit.stat, Stats.qmuTilde, fitOf, lt, le, not_lt.mpr h, hb, if_false, if_true, neg, sub, add, scale, clip0]
    congr 2
    ring
  · refine ⟨0, ⟨fun h' => absurd h (not_lt.mpr h'), fun _ => rfl⟩, ?_⟩
    simp [Stats.Fit.stat, Stats.qmuTilde, fitOf, lt, h]

theorem stat_small {Θ : Type} {ok : Θ → Prop} {L : ℝ → Θ → ℝ} {v best l lv q c : ℝ} {θ : Θ} (h : Stat v best l lv q) (h1 : GlobalMax ok L 0 10 best l) (h2 : ProfileMax ok L v lv θ)
    (hc : 0 ≤ c) (hL : ∀ u θ, 0 ≤ u → u ≤ v → ok θ → L u θ - L v θ ≤ c) : q ≤ 2 * c := by
  obtain ⟨h3, h4, ⟨θ', h5, rfl⟩, -⟩ := h1
  rcases le_or_gt best v with k | k
  · rw [h.below k]
    refine max_le ?_ (by linarith)
    have := hL best θ' h3 k h5
    have := h2.2.2 θ' h5
    linarith
  · rw [h.beyond k]; linarith

theorem stat_large {Θ : Type} {ok : Θ → Prop} {L : ℝ → Θ → ℝ} {v best l lv q a b : ℝ} {θ θ' : Θ} (hv : 10 ≤ v) (h : Stat v best l lv q) (h1 : GlobalMax ok L 0 10 best l)
    (h2 : ProfileMax ok L v lv θ) (hok : ok θ') (ha : a ≤ L 0 θ') (hb : ∀ θ, ok θ → L v θ ≤ b) : 2 * (a - b) ≤ q := by
  rw [h.below (h1.2.1.trans hv)]
  refine le_trans ?_ (le_max_left _ _)
  have := h1.2.2.2 0 θ' le_rfl (by norm_num) hok
  have := hb θ h2.1
  have := h2.2.1
  linarith

/-! ## Constraint terms -/

theorem pen_le {E : Backend.Ext} {a : Backend.Args} {m : Backend.Model} {bin pen} (h : Nuisance E a m bin pen) (θ : ℕ → ℝ) : pen θ ≤ pen fun _ => 0 := by
  cases h with
  | uncorrelated sigma h hl =>
    refine Finset.sum_le_sum fun i _ => ?_
    unfold stdLog
    nlinarith [sq_nonneg (θ i)]
  | matrix _ corr h hi1 hi2 hP =>
    unfold mvnLog
    have : 0 ≤ ∑ i ∈ Finset.range a.data.length, ∑ j ∈ Finset.range a.data.length, θ i * Backend.at' ((E.inv corr).getD i []) j * θ j := by
      by_cases hz : ∃ i < a.data.length, θ i ≠ 0
      · exact (hP θ hz).le
      · push Not at hz
        refine (Finset.sum_eq_zero fun i hi => ?_).ge
        simp [hz i (Finset.mem_range.mp hi)]
    simp only [zero_mul, mul_zero, Finset.sum_const_zero, neg_zero, zero_div]
    linarith

end Verif.Reach
