import Verif.Linear.Spec
import Verif.Uncorrelated.Lemmas
import Verif.Chain.ProfileProps

/-!
# Lemmas: profile likelihoods of linear backgrounds are concave
-/

namespace Verif.Linear
open Finset Verif.Chain
open Verif.Backend (poissonLog)
open Verif.Uncorrelated (Concave)

/-- What is needed of the yields. -/
structure Yields (n : ℕ) (s b D : ℕ → ℝ) : Prop where
  signal : ∀ i < n, 0 ≤ s i
  background : ∀ i < n, 0 ≤ b i
  data : ∀ i < n, 0 ≤ D i

theorem total_nonneg {n : ℕ} {s b D : ℕ → ℝ} (h : Yields n s b D) : 0 ≤ total n b D :=
  sum_nonneg fun i hi => add_nonneg (h.data i (mem_range.mp hi)) (h.background i (mem_range.mp hi))

theorem le_total {n : ℕ} {s b D : ℕ → ℝ} (h : Yields n s b D) {i : ℕ} (hi : i < n) : D i + b i ≤ total n b D :=
  single_le_sum (f := fun i => D i + b i) (fun i hi => add_nonneg (h.data i (mem_range.mp hi)) (h.background i (mem_range.mp hi))) (mem_range.mpr hi)

theorem expectedIn_pos (s : ℕ → ℝ) (bin : ℕ → ℝ → ℝ) (mu : ℝ) (θ : ℕ → ℝ) (i : ℕ) : 0 < expectedIn s bin mu θ i := lt_of_lt_of_le (by norm_num) (le_max_right _ _)

theorem log_ratio {x y c : ℝ} (hx : 0 < x) (hc : 0 < c) (h : c * x ≤ y) : 1 - 1 / c ≤ Real.log y - Real.log x := by
  have h1 : Real.log (c * x) ≤ Real.log y := Real.log_le_log (mul_pos hc hx) h
  rw [Real.log_mul hc.ne' hx.ne'] at h1
  have h2 := Real.one_sub_inv_le_log_of_pos hc
  rw [← one_div] at h2
  linarith

/-- The nuisance parameters that fit best do not make the expected number of events in a bin with events arbitrarily small. -/
theorem best_rate {γ : ℝ → ℝ} {n : ℕ} {s b σ D : ℕ → ℝ} {pen : (ℕ → ℝ) → ℝ} (hY : Yields n s b D) (hpen : Bowl n pen) {mu l : ℝ} (hmu : 0 ≤ mu) {θ : ℕ → ℝ}
    (h : ProfileMax (Admissible n (linear b σ)) (logLikelihood γ n s (linear b σ) pen D) mu l θ) {i : ℕ} (hi : i < n) :
    D i * b i / (16 * (1 + total n b D)) ≤ expectedIn s (linear b σ) mu θ i := by
  obtain ⟨hok, hl, hbest⟩ := h
  by_contra hlt
  push Not at hlt
  have hT := total_nonneg hY
  have hDi := le_total hY hi
  have hb := hY.background i hi
  have hT1 : 0 < 1 + total n b D := by linarith
  have hd : 0 < D i := by
    rcases (hY.data i hi).eq_or_lt with h0 | h0
    · rw [← h0, zero_mul, zero_div] at hlt
      exact absurd (expectedIn_pos s (linear b σ) mu θ i) (by linarith)
    · exact h0
  set t := D i / (4 * (1 + total n b D)) with ht
  have t0 : 0 < t := div_pos hd (by linarith)
  have t1 : t ≤ 1 / 4 := by
    rw [ht, div_le_div_iff₀ (by linarith) (by norm_num)]
    linarith
  have hlt' : expectedIn s (linear b σ) mu θ i < t * b i / 4 := by
    have : D i * b i / (16 * (1 + total n b D)) = t * b i / 4 := by rw [ht]; field_simp; norm_num
    rwa [this] at hlt
  have hok' : Admissible n (linear b σ) fun j => (1 - t) * θ j := by
    intro j hj
    have := hok j hj
    unfold linear at this ⊢
    nlinarith [hY.background j hj, mul_nonneg t0.le (hY.background j hj), mul_nonneg (by linarith : (0 : ℝ) ≤ 1 - t) this]
  have hnew := hbest _ hok'
  have hp : pen θ ≤ pen fun j => (1 - t) * θ j := by
    have h1 := hpen.concave θ (fun _ => 0) (1 - t) t (by linarith) t0.le (by ring)
    simp only [mul_zero, add_zero] at h1
    have h2 := hpen.centre θ
    nlinarith
  have step : ∀ j ∈ range n, (if j = i then 3 / 4 * D i else 0) - 2 * t * (D j + b j) ≤ poissonLog γ (D j) (expectedIn s (linear b σ) mu (fun j => (1 - t) * θ j) j) -
      poissonLog γ (D j) (expectedIn s (linear b σ) mu θ j) := by
    intro j hj
    rw [mem_range] at hj
    have hR := expectedIn_pos s (linear b σ) mu θ j
    have k1 : (1 - t) * expectedIn s (linear b σ) mu θ j ≤ expectedIn s (linear b σ) mu (fun j => (1 - t) * θ j) j := by
      unfold expectedIn linear
      rw [mul_max_of_nonneg _ _ (by linarith : (0 : ℝ) ≤ 1 - t)]
      refine max_le_max ?_ (by nlinarith [(by norm_num : (0 : ℝ) < 1 / 10 ^ 20)])
      nlinarith [mul_nonneg t0.le (hY.background j hj), mul_nonneg t0.le (mul_nonneg hmu (hY.signal j hj))]
    have k2 : expectedIn s (linear b σ) mu (fun j => (1 - t) * θ j) j ≤ expectedIn s (linear b σ) mu θ j + t * b j := by
      have ho := hok j hj
      have hbj := mul_nonneg t0.le (hY.background j hj)
      unfold expectedIn linear at *
      refine max_le ?_ (by linarith [le_max_right (mu * s j + (b j + σ j * θ j)) (1 / 10 ^ 20)])
      have := le_max_left (mu * s j + (b j + σ j * θ j)) (1 / 10 ^ 20)
      nlinarith [mul_nonneg t0.le ho]
    have k3 : -2 * t ≤ Real.log (expectedIn s (linear b σ) mu (fun j => (1 - t) * θ j) j) - Real.log (expectedIn s (linear b σ) mu θ j) := by
      refine le_trans ?_ (log_ratio hR (by linarith) k1)
      have : 1 / (1 - t) ≤ 1 + 2 * t := by
        rw [div_le_iff₀ (by linarith)]
        nlinarith
      linarith
    unfold poissonLog
    have hD := hY.data j hj
    have hB := hY.background j hj
    split
    · next e =>
      subst e
      have k4 : (4 : ℝ) * expectedIn s (linear b σ) mu θ j ≤ expectedIn s (linear b σ) mu (fun j => (1 - t) * θ j) j := by
        have ho := hok j hj
        refine le_trans (by linarith : _ ≤ t * b j) (le_trans ?_ (le_max_left _ _))
        unfold linear at *
        nlinarith [mul_nonneg hmu (hY.signal j hj), mul_nonneg (by linarith : (0 : ℝ) ≤ 1 - t) ho]
      have k5 := log_ratio hR (by norm_num) k4
      nlinarith [mul_le_mul_of_nonneg_left k5 hD, mul_nonneg t0.le hD, mul_nonneg t0.le hB]
    · nlinarith [mul_le_mul_of_nonneg_left k3 hD, mul_nonneg t0.le hD, mul_nonneg t0.le hB]
  have hsum := sum_le_sum step
  rw [sum_sub_distrib, sum_sub_distrib, sum_ite_eq' (range n) i, if_pos (mem_range.mpr hi), ← mul_sum] at hsum
  rw [hl] at hnew
  unfold logLikelihood at hnew
  have h2 : 2 * t * total n b D < D i / 2 + D i / 4 := by
    have : 2 * t * total n b D ≤ 2 * t * (1 + total n b D) := by nlinarith
    have e : 2 * t * (1 + total n b D) = D i / 2 := by rw [ht]; field_simp; norm_num
    linarith
  unfold total at h2
  linarith

/-- So where `Clear` holds, bins with events are never expected to be empty. -/
theorem best_seen {γ : ℝ → ℝ} {n : ℕ} {s b σ D : ℕ → ℝ} {pen : (ℕ → ℝ) → ℝ} (hY : Yields n s b D) (hc : Clear n b D) (hpen : Bowl n pen) {mu l : ℝ} (hmu : 0 ≤ mu) {θ : ℕ → ℝ}
    (h : ProfileMax (Admissible n (linear b σ)) (logLikelihood γ n s (linear b σ) pen D) mu l θ) {i : ℕ} (hi : i < n) :
    D i ≤ 1 / 10 ^ 20 ∨ 1 / 10 ^ 20 ≤ mu * s i + linear b σ i (θ i) := by
  refine (hc i hi).imp_right fun hc => ?_
  have h1 := best_rate hY hpen hmu h hi
  have hT1 : 0 < 1 + total n b D := by linarith [total_nonneg hY]
  have h2 : 1 / 10 ^ 20 < D i * b i / (16 * (1 + total n b D)) := by
    rw [lt_div_iff₀ (by linarith)]
    linarith
  rcases le_max_iff.mp (h2.le.trans h1) with h3 | -
  · exact h3
  · rcases max_choice (mu * s i + linear b σ i (θ i)) (1 / 10 ^ 20) with h3 | h3
    · rw [← h3]
      exact le_max_right _ _
    · have h4 := h2.trans_le h1
      unfold expectedIn at h4
      rw [h3] at h4
      exact absurd h4 (lt_irrefl _)

/-- The Poisson term, as a function of the expected number of events. -/
theorem rate_concave (γ : ℝ → ℝ) {d r r' p p' : ℝ} (hd : 0 ≤ d) (hp : 0 ≤ p) (hp' : 0 ≤ p') (he : p + p' = 1) (h : d ≤ 1 / 10 ^ 20 ∨ (1 / 10 ^ 20 ≤ r ∧ 1 / 10 ^ 20 ≤ r')) :
    p * poissonLog γ d (max r (1 / 10 ^ 20)) + p' * poissonLog γ d (max r' (1 / 10 ^ 20)) ≤ poissonLog γ d (max (p * r + p' * r') (1 / 10 ^ 20)) := by
  have hm : (0 : ℝ) < max r (1 / 10 ^ 20) := lt_of_lt_of_le (by norm_num) (le_max_right _ _)
  have hm' : (0 : ℝ) < max r' (1 / 10 ^ 20) := lt_of_lt_of_le (by norm_num) (le_max_right _ _)
  have hlog := Uncorrelated.log_concave hm hm' hp hp' he
  have hmix : p * poissonLog γ d (max r (1 / 10 ^ 20)) + p' * poissonLog γ d (max r' (1 / 10 ^ 20)) ≤ poissonLog γ d (p * max r (1 / 10 ^ 20) + p' * max r' (1 / 10 ^ 20)) := by
    unfold poissonLog
    have : p * γ (d + 1) + p' * γ (d + 1) = γ (d + 1) := by rw [← add_mul, he, one_mul]
    nlinarith [mul_le_mul_of_nonneg_left hlog hd]
  refine hmix.trans ?_
  have hle : max (p * r + p' * r') (1 / 10 ^ 20) ≤ p * max r (1 / 10 ^ 20) + p' * max r' (1 / 10 ^ 20) := by
    refine max_le (by nlinarith [mul_le_mul_of_nonneg_left (le_max_left r (1 / 10 ^ 20)) hp, mul_le_mul_of_nonneg_left (le_max_left r' (1 / 10 ^ 20)) hp']) ?_
    calc (1 : ℝ) / 10 ^ 20 = p * (1 / 10 ^ 20) + p' * (1 / 10 ^ 20) := by rw [← add_mul, he, one_mul]
      _ ≤ _ := add_le_add (mul_le_mul_of_nonneg_left (le_max_right _ _) hp) (mul_le_mul_of_nonneg_left (le_max_right _ _) hp')
  rcases h with h | ⟨h, h'⟩
  · have h0 : (0 : ℝ) < max (p * r + p' * r') (1 / 10 ^ 20) := lt_of_lt_of_le (by norm_num) (le_max_right _ _)
    have h1 : d ≤ max (p * r + p' * r') (1 / 10 ^ 20) := h.trans (le_max_right _ _)
    have h2 := Uncorrelated.log_le (h0.trans_le hle) h0
    generalize max (p * r + p' * r') (1 / 10 ^ 20) = x at *
    generalize p * max r (1 / 10 ^ 20) + p' * max r' (1 / 10 ^ 20) = y at *
    unfold poissonLog
    have h3 : d * (y / x - 1) ≤ y - x := by
      rw [div_sub_one h0.ne', ← mul_div_assoc, div_le_iff₀ h0]
      nlinarith
    nlinarith [mul_le_mul_of_nonneg_left h2 hd]
  · rw [max_eq_left h, max_eq_left h', max_eq_left]
    nlinarith

section
variable {γ : ℝ → ℝ} {n : ℕ} {s b σ D : ℕ → ℝ} {pen : (ℕ → ℝ) → ℝ} (hY : Yields n s b D) (hc : Clear n b D) (hpen : Bowl n pen)
include hY hc hpen

/-- Between the best values for two signal strengths. -/
theorem mixed {x x' p p' l l' : ℝ} (hx : 0 ≤ x) (hx' : 0 ≤ x') (hp : 0 ≤ p) (hp' : 0 ≤ p') (he : p + p' = 1) {θ θ' : ℕ → ℝ}
    (hθ : ProfileMax (Admissible n (linear b σ)) (logLikelihood γ n s (linear b σ) pen D) x l θ) (hθ' : ProfileMax (Admissible n (linear b σ)) (logLikelihood γ n s (linear b σ) pen D) x' l' θ') :
    Admissible n (linear b σ) (fun i => p * θ i + p' * θ' i) ∧
    p * (l - pen θ) + p' * (l' - pen θ') + pen (fun i => p * θ i + p' * θ' i) ≤ logLikelihood γ n s (linear b σ) pen D (p * x + p' * x') fun i => p * θ i + p' * θ' i := by
  constructor
  · intro i hi
    have h1 := hθ.1 i hi
    have h2 := hθ'.1 i hi
    unfold linear at *
    have : b i = p * b i + p' * b i := by rw [← add_mul, he, one_mul]
    nlinarith [mul_nonneg hp h1, mul_nonneg hp' h2]
  · rw [hθ.2.1, hθ'.2.1]
    unfold logLikelihood
    have h2 : ∑ i ∈ range n, (p * poissonLog γ (D i) (expectedIn s (linear b σ) x θ i) + p' * poissonLog γ (D i) (expectedIn s (linear b σ) x' θ' i)) ≤
        ∑ i ∈ range n, poissonLog γ (D i) (expectedIn s (linear b σ) (p * x + p' * x') (fun i => p * θ i + p' * θ' i) i) := by
      refine sum_le_sum fun i hi => ?_
      rw [mem_range] at hi
      have := rate_concave γ (hY.data i hi) hp hp' he ((best_seen hY hc hpen hx hθ hi).elim .inl fun k => (best_seen hY hc hpen hx' hθ' hi).imp_right fun k' => ⟨k, k'⟩)
      refine this.trans (le_of_eq ?_)
      unfold expectedIn linear
      congr 2
      have : b i = p * b i + p' * b i := by rw [← add_mul, he, one_mul]
      linarith
    rw [sum_add_distrib, ← mul_sum, ← mul_sum] at h2
    linarith

/-- Profile likelihoods of linear backgrounds are concave. -/
theorem profile_concave {P : ℝ → ℝ} (h : Profile (Admissible n (linear b σ)) (logLikelihood γ n s (linear b σ) pen D) P) : Concave P := by
  intro x x' p p' hx hx' hp hp' he
  obtain ⟨θ, hθ⟩ := h x hx
  obtain ⟨θ', hθ'⟩ := h x' hx'
  obtain ⟨θ'', -, -, hbest⟩ := h (p * x + p' * x') (by nlinarith)
  obtain ⟨k1, k2⟩ := mixed hY hc hpen hx hx' hp hp' he hθ hθ'
  linarith [hbest _ k1, hpen.concave θ θ' p p' hp hp' he]

/-- The nuisance parameters that fit best are unique. -/
theorem best_unique {x l l' : ℝ} (hx : 0 ≤ x) {θ θ' : ℕ → ℝ} (hθ : ProfileMax (Admissible n (linear b σ)) (logLikelihood γ n s (linear b σ) pen D) x l θ)
    (hθ' : ProfileMax (Admissible n (linear b σ)) (logLikelihood γ n s (linear b σ) pen D) x l' θ') : ∀ i < n, θ i = θ' i := by
  by_contra hne
  push Not at hne
  obtain ⟨k1, k2⟩ := mixed hY hc hpen hx hx (by norm_num : (0 : ℝ) ≤ 1 / 2) (by norm_num : (0 : ℝ) ≤ 1 / 2) (by norm_num) hθ hθ'
  have e : 1 / 2 * x + 1 / 2 * x = x := by ring
  rw [e] at k2
  have h1 := hθ.2.2 _ k1
  have h2 := hθ'.2.2 _ k1
  linarith [hpen.strict θ θ' hne]

end

/-- Quadratic constraints. -/
theorem bowl_form {n : ℕ} {P : ℕ → ℕ → ℝ} (hP : Positive n P) (K : ℝ) {pen : (ℕ → ℝ) → ℝ} (h : ∀ θ, pen θ = K - (∑ i ∈ range n, ∑ j ∈ range n, θ i * P i j * θ j) / 2) : Bowl n pen := by
  have hn : ∀ x : ℕ → ℝ, 0 ≤ ∑ i ∈ range n, ∑ j ∈ range n, x i * P i j * x j := by
    intro x
    by_cases hx : ∃ i < n, x i ≠ 0
    · exact (hP x hx).le
    · push Not at hx
      exact (sum_eq_zero fun i hi => sum_eq_zero fun j _ => by rw [hx i (mem_range.mp hi), zero_mul, zero_mul]).ge
  have key : ∀ (θ θ' : ℕ → ℝ) (p p' : ℝ), p + p' = 1 → ∑ i ∈ range n, ∑ j ∈ range n, (p * θ i + p' * θ' i) * P i j * (p * θ j + p' * θ' j) =
      p * (∑ i ∈ range n, ∑ j ∈ range n, θ i * P i j * θ j) + p' * (∑ i ∈ range n, ∑ j ∈ range n, θ' i * P i j * θ' j) -
        p * p' * ∑ i ∈ range n, ∑ j ∈ range n, (θ i - θ' i) * P i j * (θ j - θ' j) := by
    intro θ θ' p p' he
    obtain rfl : p' = 1 - p := by linarith
    simp only [mul_sum, ← sum_add_distrib, ← sum_sub_distrib]
    exact sum_congr rfl fun i _ => sum_congr rfl fun j _ => by ring
  refine ⟨fun θ θ' p p' hp hp' he => ?_, fun θ θ' hne => ?_, fun θ => ?_⟩
  · rw [h, h, h, key θ θ' p p' he]
    have : p * K + p' * K = K := by rw [← add_mul, he, one_mul]
    nlinarith [mul_nonneg (mul_nonneg hp hp') (hn fun i => θ i - θ' i)]
  · rw [h, h, h, key θ θ' _ _ (by norm_num)]
    have := hP (fun i => θ i - θ' i) (by
      obtain ⟨i, hi, hd⟩ := hne
      exact ⟨i, hi, sub_ne_zero.mpr hd⟩)
    linarith
  · rw [h, h]
    simp only [zero_mul, mul_zero, sum_const_zero]
    linarith [hn θ]

theorem bowl_nuisance {E : Backend.Ext} {a : Backend.Args} {m : Backend.Model} {bin : ℕ → ℝ → ℝ} {pen : (ℕ → ℝ) → ℝ} (h : Nuisance E a m bin pen) : Bowl a.data.length pen := by
  cases h with
  | uncorrelated sigma h hl =>
    refine bowl_form (P := fun i j => if i = j then 1 else 0) ?_ (-(a.data.length * (Real.log (2 * Real.pi) / 2))) fun θ => ?_
    · intro x hx
      obtain ⟨i, hi, hne⟩ := hx
      have e : ∀ k ∈ range a.data.length, ∑ j ∈ range a.data.length, x k * (if k = j then 1 else 0) * x j = x k ^ 2 := by
        intro k hk
        simp only [mul_ite, mul_one, mul_zero, ite_mul, zero_mul]
        rw [sum_ite_eq (range a.data.length) k, if_pos hk]
        ring
      rw [sum_congr rfl e]
      exact sum_pos' (fun j _ => sq_nonneg _) ⟨i, mem_range.mpr hi, by positivity⟩
    · have e : ∀ k ∈ range a.data.length, ∑ j ∈ range a.data.length, θ k * (if k = j then 1 else 0) * θ j = θ k ^ 2 := by
        intro k hk
        simp only [mul_ite, mul_one, mul_zero, ite_mul, zero_mul]
        rw [sum_ite_eq (range a.data.length) k, if_pos hk]
        ring
      rw [sum_congr rfl e]
      unfold Backend.stdLog
      rw [sum_sub_distrib, sum_const, card_range, nsmul_eq_mul, ← sum_div, sum_neg_distrib]
      ring
  | matrix _ corr h hi1 hi2 hP =>
    refine bowl_form hP (-((a.data.length * Real.log (2 * Real.pi) + E.logdet corr) / 2)) fun θ => ?_
    unfold Backend.mvnLog
    ring

end Verif.Linear
