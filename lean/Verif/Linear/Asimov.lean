import Verif.Linear.Lemmas

/-!
# Lemmas: the Asimov data of linear backgrounds
-/

namespace Verif.Linear
open Finset Verif.Chain
open Verif.Backend (poissonLog)

theorem total_congr {n : ℕ} {b D D' : ℕ → ℝ} (h : ∀ i < n, D i = D' i) : total n b D = total n b D' := sum_congr rfl fun i hi => by rw [h i (mem_range.mp hi)]

theorem clear_congr {n : ℕ} {b D D' : ℕ → ℝ} (h : ∀ i < n, D i = D' i) (hc : Clear n b D) : Clear n b D' := by
  intro i hi
  have := hc i hi
  rwa [total_congr h, h i hi] at this

/-- Zero fits best if what is expected without signal is measured. -/
theorem prior_best (γ : ℝ → ℝ) {n : ℕ} (s : ℕ → ℝ) {b : ℕ → ℝ} (σ : ℕ → ℝ) {pen : (ℕ → ℝ) → ℝ} (hb : ∀ i < n, 1 / 10 ^ 20 ≤ b i) (hpen : Bowl n pen) :
    ProfileMax (Admissible n (linear b σ)) (logLikelihood γ n s (linear b σ) pen b) 0 (logLikelihood γ n s (linear b σ) pen b 0 fun _ => 0) fun _ => 0 := by
  refine ⟨fun i hi => ?_, rfl, fun θ hθ => ?_⟩
  · unfold linear
    linarith [hb i hi, (by norm_num : (0 : ℝ) < 1 / 10 ^ 20)]
  · unfold logLikelihood
    refine add_le_add (sum_le_sum fun i hi => ?_) (hpen.centre θ)
    have hbi := hb i (mem_range.mp hi)
    have h0 : expectedIn s (linear b σ) 0 (fun _ => 0) i = b i := by
      unfold expectedIn linear
      rw [zero_mul, zero_add, mul_zero, add_zero, max_eq_left hbi]
    rw [h0]
    have hp := expectedIn_pos s (linear b σ) 0 θ i
    have hb0 : 0 < b i := lt_of_lt_of_le (by norm_num) hbi
    have hl := Uncorrelated.log_le hp hb0
    generalize expectedIn s (linear b σ) 0 θ i = r at *
    unfold poissonLog
    have : b i * (r / b i - 1) = r - b i := by field_simp
    nlinarith [mul_le_mul_of_nonneg_left hl hb0.le]

/-- With signal, what is expected without signal is described less well. -/
theorem prior_strict (γ : ℝ → ℝ) {n : ℕ} {s : ℕ → ℝ} {b : ℕ → ℝ} (σ : ℕ → ℝ) {pen : (ℕ → ℝ) → ℝ} (hb : ∀ i < n, 1 / 10 ^ 20 ≤ b i) (hs : ∃ i < n, 0 < s i) (hpen : Bowl n pen) {mu : ℝ} (hmu : 0 < mu)
    (θ : ℕ → ℝ) : logLikelihood γ n s (linear b σ) pen b mu θ < logLikelihood γ n s (linear b σ) pen b 0 fun _ => 0 := by
  have h0 : ∀ i < n, expectedIn s (linear b σ) 0 (fun _ => 0) i = b i := by
    intro i hi
    unfold expectedIn linear
    rw [zero_mul, zero_add, mul_zero, add_zero, max_eq_left (hb i hi)]
  have hle : ∀ (d r : ℝ), 0 < d → 0 < r → poissonLog γ d r ≤ poissonLog γ d d ∧ (r ≠ d → poissonLog γ d r < poissonLog γ d d) := by
    intro d r hd hr
    have e : d * (r / d - 1) = r - d := by field_simp
    have hq : Real.log (r / d) = Real.log r - Real.log d := Real.log_div hr.ne' hd.ne'
    refine ⟨?_, fun hne => ?_⟩
    · have := Real.log_le_sub_one_of_pos (div_pos hr hd)
      unfold poissonLog
      nlinarith [mul_le_mul_of_nonneg_left this hd.le]
    · have := Real.log_lt_sub_one_of_pos (div_pos hr hd) (fun h => hne ((div_eq_one_iff_eq hd.ne').mp h))
      unfold poissonLog
      nlinarith [mul_lt_mul_of_pos_left this hd]
  have hb0 : ∀ i < n, 0 < b i := fun i hi => lt_of_lt_of_le (by norm_num) (hb i hi)
  unfold logLikelihood
  by_cases hz : ∃ i < n, θ i ≠ 0
  · refine add_lt_add_of_le_of_lt (sum_le_sum fun i hi => ?_) ?_
    · rw [h0 i (mem_range.mp hi)]
      exact (hle _ _ (hb0 i (mem_range.mp hi)) (expectedIn_pos _ _ _ _ i)).1
    · have h1 := hpen.strict θ (fun _ => 0) hz
      have h2 := hpen.centre fun i => 1 / 2 * θ i + 1 / 2 * 0
      linarith
  · push Not at hz
    refine add_lt_add_of_lt_of_le (sum_lt_sum (fun i hi => ?_) ?_) (hpen.centre θ)
    · rw [h0 i (mem_range.mp hi)]
      exact (hle _ _ (hb0 i (mem_range.mp hi)) (expectedIn_pos _ _ _ _ i)).1
    · obtain ⟨i, hi, hsi⟩ := hs
      refine ⟨i, mem_range.mpr hi, ?_⟩
      rw [h0 i hi]
      refine (hle _ _ (hb0 i hi) (expectedIn_pos _ _ _ _ i)).2 (ne_of_gt ?_)
      unfold expectedIn linear
      rw [hz i hi, mul_zero, add_zero]
      exact lt_of_lt_of_le (by nlinarith) (le_max_left _ _)

theorem clear_prior {γ : ℝ → ℝ} {n : ℕ} {s b : ℕ → ℝ} {σ : ℕ → ℝ} {pen : (ℕ → ℝ) → ℝ} (hs : ∀ i < n, 0 ≤ s i) (hb : ∀ i < n, 1 / 10 ^ 20 ≤ b i) (hc : Clear n b b) (hpen : Bowl n pen)
    {l : ℝ} {θ : ℕ → ℝ} (h : ProfileMax (Admissible n (linear b σ)) (logLikelihood γ n s (linear b σ) pen b) 0 l θ) : Clear n b (expectedIn s (linear b σ) 0 θ) := by
  have hb0 : ∀ i < n, 0 ≤ b i := fun i hi => le_trans (by norm_num) (hb i hi)
  have hu := best_unique ⟨hs, hb0, hb0⟩ hc hpen le_rfl h (prior_best γ s σ hb hpen)
  refine clear_congr (fun i hi => ?_) hc
  unfold expectedIn linear
  rw [zero_mul, zero_add, hu i hi, mul_zero, add_zero, max_eq_left (hb i hi)]

section
variable {γ : ℝ → ℝ} {n : ℕ} {s b σ D : ℕ → ℝ} {pen : (ℕ → ℝ) → ℝ} (hs : ∀ i < n, 0 ≤ s i) (hD : ∀ i < n, 1 ≤ D i) (hb : ∀ i < n, 1 / 10 ^ 8 * (1 + total n b D) ≤ b i)

theorem total_pos (hD : ∀ i < n, 1 ≤ D i) (hb : ∀ i < n, 0 ≤ b i) : 0 ≤ total n b D := sum_nonneg fun i hi => by linarith [hD i (mem_range.mp hi), hb i (mem_range.mp hi)]

include hs hD hb

theorem clear_counts (h0 : ∀ i < n, 0 ≤ b i) : Clear n b D := by
  intro i hi
  have hT := total_pos hD h0
  have h1 := hD i hi
  have h2 := hb i hi
  exact .inr (by nlinarith)

/-- No more events are expected than there are events and background. -/
theorem total_asimov (h0 : ∀ i < n, 0 ≤ b i) (hpen : Bowl n pen) {l : ℝ} {θ : ℕ → ℝ} (h : ProfileMax (Admissible n (linear b σ)) (logLikelihood γ n s (linear b σ) pen D) 0 l θ) :
    total n b (expectedIn s (linear b σ) 0 θ) ≤ 3 * total n b D := by
  have hT := total_pos hD h0
  have hY : Yields n s b D := ⟨hs, h0, fun i hi => by linarith [hD i hi]⟩
  have hc := clear_counts hs hD hb h0
  have hbig : ∀ i < n, 1 / 10 ^ 20 ≤ b i := fun i hi => by linarith [hb i hi]
  have hr : ∀ i < n, 1 / 10 ^ 20 ≤ linear b σ i (θ i) := by
    intro i hi
    rcases best_seen hY hc hpen le_rfl h hi with h1 | h1
    · linarith [hD i hi]
    · simpa using h1
  have e0 : ∀ i < n, expectedIn s (linear b σ) 0 θ i = linear b σ i (θ i) := fun i hi => by
    unfold expectedIn
    rw [zero_mul, zero_add, max_eq_left (hr i hi)]
  have e1 : ∀ i < n, expectedIn s (linear b σ) 0 (fun j => 1 / 2 * θ j) i = 1 / 2 * linear b σ i (θ i) + 1 / 2 * b i := fun i hi => by
    have h1 := hr i hi
    have h2 := hbig i hi
    unfold expectedIn linear at *
    rw [zero_mul, zero_add, max_eq_left (by linarith)]
    ring
  have hn := h.2.2 (fun j => 1 / 2 * θ j) fun i hi => by
    have h1 := h.1 i hi
    have h2 := h0 i hi
    unfold linear at *
    linarith
  have hp : pen θ ≤ pen fun j => 1 / 2 * θ j := by
    have h1 := hpen.concave θ (fun _ => 0) (1 / 2) (1 / 2) (by norm_num) (by norm_num) (by norm_num)
    simp only [mul_zero, add_zero] at h1
    linarith [hpen.centre θ]
  rw [h.2.1] at hn
  unfold logLikelihood at hn
  have step : ∑ i ∈ range n, (poissonLog γ (D i) (expectedIn s (linear b σ) 0 θ i) + (expectedIn s (linear b σ) 0 θ i / 2 - (D i + b i / 2))) ≤
      ∑ i ∈ range n, poissonLog γ (D i) (expectedIn s (linear b σ) 0 (fun j => 1 / 2 * θ j) i) := by
    refine sum_le_sum fun i hi => ?_
    rw [mem_range] at hi
    rw [e0 i hi, e1 i hi]
    have hpos : 0 < linear b σ i (θ i) := lt_of_lt_of_le (by norm_num) (hr i hi)
    have k := log_ratio hpos (by norm_num : (0 : ℝ) < 1 / 2) (by linarith [h0 i hi] : 1 / 2 * linear b σ i (θ i) ≤ 1 / 2 * linear b σ i (θ i) + 1 / 2 * b i)
    unfold poissonLog
    nlinarith [hD i hi]
  rw [sum_add_distrib, sum_sub_distrib] at step
  have hT2 : total n b (expectedIn s (linear b σ) 0 θ) = ∑ i ∈ range n, expectedIn s (linear b σ) 0 θ i + ∑ i ∈ range n, b i := sum_add_distrib
  have hT3 : total n b D = ∑ i ∈ range n, D i + ∑ i ∈ range n, b i := sum_add_distrib
  have h3 : ∑ i ∈ range n, (D i + b i / 2) = ∑ i ∈ range n, D i + (∑ i ∈ range n, b i) / 2 := by rw [sum_add_distrib, sum_div]
  rw [← sum_div, h3] at step
  have hbs : 0 ≤ ∑ i ∈ range n, b i := sum_nonneg fun i hi => h0 i (mem_range.mp hi)
  have hds : 0 ≤ ∑ i ∈ range n, D i := sum_nonneg fun i hi => by linarith [hD i (mem_range.mp hi)]
  linarith

theorem clear_asimov (h0 : ∀ i < n, 0 ≤ b i) (hpen : Bowl n pen) {l : ℝ} {θ : ℕ → ℝ} (h : ProfileMax (Admissible n (linear b σ)) (logLikelihood γ n s (linear b σ) pen D) 0 l θ) :
    Clear n b (expectedIn s (linear b σ) 0 θ) := by
  intro i hi
  have hT := total_pos hD h0
  have hY : Yields n s b D := ⟨hs, h0, fun i hi => by linarith [hD i hi]⟩
  have h1 := best_rate hY hpen le_rfl h hi
  have h2 := total_asimov hs hD hb h0 hpen h
  have h3 := hb i hi
  refine .inr ?_
  have h4 : 1 / (16 * 10 ^ 8) ≤ expectedIn s (linear b σ) 0 θ i := by
    refine le_trans ?_ h1
    rw [div_le_div_iff₀ (by norm_num) (by linarith)]
    nlinarith [hD i hi]
  nlinarith

end

end Verif.Linear
