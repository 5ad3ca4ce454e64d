import Verif.ThirdMoment.Model
import Verif.ThirdMoment.Spec
import Verif.Py.Moments

/-!
# Lemmas on the third moment expansion
-/

namespace Verif.ThirdMoment
open Verif.Py F Classical MeasureTheory ProbabilityTheory

/-! ### Coefficients -/

/-- The root of the cubic equation: with `φ ∈ [0, π/2)`, `cos(4π/3 + φ/3)` lies between -1/2 and 0. -/
theorem cos_third {φ : ℝ} (h0 : 0 ≤ φ) (h1 : φ ≤ Real.pi / 2) :
    Real.cos (4 * Real.pi / 3 + 1 / 3 * φ) ≤ 0 ∧ -(1 / 2) ≤ Real.cos (4 * Real.pi / 3 + 1 / 3 * φ) ∧
    4 * Real.cos (4 * Real.pi / 3 + 1 / 3 * φ) ^ 3 - 3 * Real.cos (4 * Real.pi / 3 + 1 / 3 * φ) = Real.cos φ := by
  have hpi := Real.pi_pos
  have e : Real.cos (4 * Real.pi / 3 + 1 / 3 * φ) = -Real.cos (Real.pi / 3 + 1 / 3 * φ) := by
    rw [show 4 * Real.pi / 3 + 1 / 3 * φ = (Real.pi / 3 + 1 / 3 * φ) + Real.pi by ring, Real.cos_add_pi]
  refine ⟨?_, ?_, ?_⟩
  · rw [e]
    have : 0 ≤ Real.cos (Real.pi / 3 + 1 / 3 * φ) := Real.cos_nonneg_of_mem_Icc ⟨by linarith, by linarith⟩
    linarith
  · rw [e]
    have : Real.cos (Real.pi / 3 + 1 / 3 * φ) ≤ Real.cos (Real.pi / 3) :=
      Real.cos_le_cos_of_nonneg_of_le_pi (by linarith) (by linarith) (by linarith)
    rw [Real.cos_pi_div_three] at this
    linarith
  · rw [← Real.cos_three_mul, show 3 * (4 * Real.pi / 3 + 1 / 3 * φ) = φ + 2 * Real.pi + 2 * Real.pi by ring,
      Real.cos_add_two_pi, Real.cos_add_two_pi]

/-- The angle of eq. 2.9. -/
noncomputable def angle (v m : ℝ) : ℝ := Real.arctan (√(8 * v ^ 3 / m ^ 2 - 1))

theorem angle_mem (v m : ℝ) : 0 ≤ angle v m ∧ angle v m ≤ Real.pi / 2 :=
  ⟨Real.arctan_nonneg.mpr (Real.sqrt_nonneg _), (Real.arctan_lt_pi_div_two _).le⟩

theorem v_pos {v m : ℝ} (hm : m ≠ 0) (h : m ^ 2 ≤ 8 * v ^ 3) : 0 < v := by
  have : 0 < m ^ 2 := by positivity
  by_contra hv
  have : v ^ 3 ≤ 0 := by
    have hv := not_lt.mp hv
    nlinarith [mul_nonneg (neg_nonneg.mpr hv) (sq_nonneg v)]
  linarith

theorem cos_angle {v m : ℝ} (hm : m ≠ 0) (h : m ^ 2 ≤ 8 * v ^ 3) : Real.cos (angle v m) * (2 * v * √(2 * v)) = |m| := by
  have hv := v_pos hm h
  have hm2 : 0 < m ^ 2 := by positivity
  have h1 : 0 ≤ 8 * v ^ 3 / m ^ 2 - 1 := by
    rw [sub_nonneg, le_div_iff₀ hm2]
    linarith
  unfold angle
  rw [Real.cos_arctan, Real.sq_sqrt h1, add_sub_cancel, Real.sqrt_div (by positivity), Real.sqrt_sq_eq_abs,
    show 8 * v ^ 3 = (2 * v) ^ 2 * (2 * v) by ring, Real.sqrt_mul (by positivity), Real.sqrt_sq (by positivity)]
  have : 0 < √(2 * v) := Real.sqrt_pos.mpr (by positivity)
  field_simp

/-- The coefficient of eq. 2.9. -/
noncomputable def realC (v m : ℝ) : ℝ :=
  -(if 0 < m then 1 else -1) * √(2 * v) * Real.cos (4 * Real.pi / 3 + 1 / 3 * angle v m)

theorem coefC_valid {v m : ℝ} (hm : m ≠ 0) (h : m ^ 2 ≤ 8 * v ^ 3) : coefC v m = fin (realC v m) := by
  have hv := v_pos hm h
  have hm2 : 0 < m ^ 2 := by positivity
  have h1 : ¬ (8 * v ^ 3 / m ^ 2 + -1 < 0) := by
    rw [not_lt, ← sub_eq_add_neg, sub_nonneg, le_div_iff₀ hm2]
    linarith
  have hs : sign m = fin (if 0 < m then 1 else -1) := by
    unfold sign
    by_cases hp : 0 < m
    · simp [hp]
    · have : m < 0 := lt_of_le_of_ne (not_lt.mp hp) hm
      simp [hp, this]
  have hr : rawC v m = fin (realC v m) := by
    unfold rawC realC angle
    rw [hs]
    have h2 : ¬ (2 * v < 0) := by linarith
    simp only [div, hm2.ne', if_false, sub, neg, add, sqrt, h1, h2, arctan, mul, cos, sub_eq_add_neg]
  unfold coefC
  rw [hr]
  exact if_neg (by simp [isNan])

theorem coefC_zero {v : ℝ} (hv : 0 ≤ v) : coefC v 0 = fin 0 := by
  unfold coefC
  by_cases h0 : v = 0
  · have : rawC v 0 = nan := by
      subst h0
      simp [rawC, div, sub, neg, add, sqrt, arctan, mul, cos, sign]
    rw [this]
    exact if_pos trivial
  · have hv' : 0 < v := lt_of_le_of_ne hv (Ne.symm h0)
    have h3 : 0 < v ^ 3 := by positivity
    have : rawC v 0 = fin 0 := by
      have h2 : ¬ (2 * v < 0) := by linarith
      simp [rawC, div, sub, neg, add, sqrt, arctan, mul, cos, sign, h0, h2, infOf, h3]
    rw [this]
    exact if_neg (by simp [isNan])

theorem coefC_invalid {v m : ℝ} (h : 8 * v ^ 3 < m ^ 2) : coefC v m = fin 0 := by
  by_cases hm : m = 0
  · subst hm
    have hv : v < 0 := by
      by_contra hv
      have : 0 ≤ v ^ 3 := pow_nonneg (not_lt.mp hv) 3
      norm_num at h
      linarith
    have : rawC v 0 = nan := by
      have h2 : 2 * v < 0 := by linarith
      simp [rawC, sqrt, mul, sign, neg, h2]
    unfold coefC
    rw [this]
    exact if_pos trivial
  · have hm2 : 0 < m ^ 2 := by positivity
    have h1 : 8 * v ^ 3 / m ^ 2 + -1 < 0 := by
      rw [← sub_eq_add_neg, sub_neg, div_lt_one hm2]
      exact h
    have : rawC v m = nan := by
      have hmul : ∀ a : F, mul a nan = nan := fun a => by cases a <;> rfl
      simp only [rawC, div, hm2.ne', if_false, sub, neg, add, sqrt, h1, if_true, arctan, hmul, cos]
    unfold coefC
    rw [this]
    exact if_pos trivial

theorem realC_sq {v m : ℝ} (hv : 0 ≤ v) : 2 * realC v m ^ 2 ≤ v := by
  obtain ⟨h1, h2, _⟩ := cos_third (angle_mem v m).1 (angle_mem v m).2
  unfold realC
  generalize Real.cos (4 * Real.pi / 3 + 1 / 3 * angle v m) = x at *
  have hs : ((if 0 < m then (1 : ℝ) else -1)) ^ 2 = 1 := by split <;> norm_num
  have : (-(if 0 < m then (1 : ℝ) else -1) * √(2 * v) * x) ^ 2 = 2 * v * x ^ 2 := by
    rw [mul_pow, mul_pow, neg_sq, hs, Real.sq_sqrt (by linarith)]
    ring
  rw [this]
  have : x ^ 2 ≤ 1 / 4 := by nlinarith
  nlinarith

theorem realC_cubic {v m : ℝ} (hm : m ≠ 0) (h : m ^ 2 ≤ 8 * v ^ 3) : 6 * v * realC v m - 4 * realC v m ^ 3 = m := by
  have hv := v_pos hm h
  obtain ⟨_, _, h3⟩ := cos_third (angle_mem v m).1 (angle_mem v m).2
  have h4 := cos_angle hm h
  rw [← h3] at h4
  unfold realC
  generalize Real.cos (4 * Real.pi / 3 + 1 / 3 * angle v m) = x at *
  have hs := Real.sq_sqrt (show (0 : ℝ) ≤ 2 * v by linarith)
  generalize √(2 * v) = r at *
  have hr : r ^ 3 = 2 * v * r := by rw [pow_succ, hs]
  by_cases hp : 0 < m
  · rw [abs_of_pos hp] at h4
    simp only [hp, if_true]
    calc 6 * v * (-1 * r * x) - 4 * (-1 * r * x) ^ 3 = -6 * v * r * x + 4 * r ^ 3 * x ^ 3 := by ring
      _ = (4 * x ^ 3 - 3 * x) * (2 * v * r) := by rw [hr]; ring
      _ = m := h4
  · rw [abs_of_nonpos (not_lt.mp hp)] at h4
    simp only [hp, if_false]
    calc 6 * v * (-(-1) * r * x) - 4 * (-(-1) * r * x) ^ 3 = 6 * v * r * x - 4 * r ^ 3 * x ^ 3 := by ring
      _ = -((4 * x ^ 3 - 3 * x) * (2 * v * r)) := by rw [hr]; ring
      _ = m := by rw [h4]; ring

theorem coefB_eq {v m c : ℝ} (hc : coefC v m = fin c) (h : 2 * c ^ 2 ≤ v) : coefB v m = fin √(v - 2 * c ^ 2) := by
  unfold coefB
  rw [hc]
  have : ¬ (v + -(2 * (c * c)) < 0) := by rw [not_lt, ← sq]; linarith
  simp only [sub, mul, neg, add, sqrt, this, if_false]
  rw [← sub_eq_add_neg, ← sq]

theorem coefA_eq {b v m c : ℝ} (hc : coefC v m = fin c) : coefA b v m = fin (b - c) := by
  unfold coefA
  rw [hc]
  simp only [sub, neg, add, sub_eq_add_neg]

/-- Every bin with a variance that is not negative has finite coefficients. -/
theorem coef_all (b : ℝ) {v : ℝ} (hv : 0 ≤ v) (m : ℝ) :
    ∃ A B C : ℝ, coefA b v m = fin A ∧ coefB v m = fin B ∧ coefC v m = fin C ∧ A + C = b ∧ 0 ≤ B ∧ B ^ 2 + 2 * C ^ 2 = v ∧
      (m ^ 2 ≤ 8 * v ^ 3 → 6 * B ^ 2 * C + 8 * C ^ 3 = m) ∧ (8 * v ^ 3 < m ^ 2 → C = 0) ∧ (m = 0 → C = 0) ∧ 2 * C ^ 2 ≤ v := by
  have key : ∃ c, coefC v m = fin c ∧ 2 * c ^ 2 ≤ v ∧ (m ^ 2 ≤ 8 * v ^ 3 → 6 * v * c - 4 * c ^ 3 = m) ∧
      (8 * v ^ 3 < m ^ 2 → c = 0) ∧ (m = 0 → c = 0) := by
    by_cases h : m ^ 2 ≤ 8 * v ^ 3
    · by_cases hm : m = 0
      · subst hm
        exact ⟨0, coefC_zero hv, by simpa using hv, fun _ => by ring, fun _ => rfl, fun _ => rfl⟩
      · exact ⟨_, coefC_valid hm h, realC_sq hv, fun _ => realC_cubic hm h, fun h' => absurd h (not_le.mpr h'),
          fun h' => absurd h' hm⟩
    · exact ⟨0, coefC_invalid (not_le.mp h), by simpa using hv, fun h' => absurd h' h, fun _ => rfl, fun _ => rfl⟩
  obtain ⟨c, h1, h2, h3, h4, h5⟩ := key
  refine ⟨_, _, c, coefA_eq h1, coefB_eq h1 h2, h1, by ring, Real.sqrt_nonneg _, ?_, fun h => ?_, h4, h5, h2⟩
  · rw [Real.sq_sqrt (by linarith)]; ring
  · rw [Real.sq_sqrt (by linarith)]
    linarith [h3 h]

theorem hasMoments (A B C : ℝ) : HasMoments A B C (A + C) (B ^ 2 + 2 * C ^ 2) (6 * B ^ 2 * C + 8 * C ^ 3) := by
  refine ⟨?_, ?_, ?_⟩
  · have := integral_poly A B C 0 0 0 0
    simp only [zero_mul, _root_.add_zero, mul_zero] at this
    exact this
  · have := integral_poly (C ^ 2) (-2 * B * C) (B ^ 2 - 2 * C ^ 2) (2 * B * C) (C ^ 2) 0 0
    have e : ∀ x : ℝ, (A + B * x + C * x ^ 2 - (A + C)) ^ 2 = C ^ 2 + -2 * B * C * x + (B ^ 2 - 2 * C ^ 2) * x ^ 2 +
        2 * B * C * x ^ 3 + C ^ 2 * x ^ 4 + 0 * x ^ 5 + 0 * x ^ 6 := fun x => by ring
    simp only [e]
    rw [this]
    ring
  · have := integral_poly (-C ^ 3) (3 * B * C ^ 2) (3 * C ^ 3 - 3 * B ^ 2 * C) (B ^ 3 - 6 * B * C ^ 2)
      (3 * B ^ 2 * C - 3 * C ^ 3) (3 * B * C ^ 2) (C ^ 3)
    have e : ∀ x : ℝ, (A + B * x + C * x ^ 2 - (A + C)) ^ 3 = -C ^ 3 + 3 * B * C ^ 2 * x + (3 * C ^ 3 - 3 * B ^ 2 * C) * x ^ 2 +
        (B ^ 3 - 6 * B * C ^ 2) * x ^ 3 + (3 * B ^ 2 * C - 3 * C ^ 3) * x ^ 4 + 3 * B * C ^ 2 * x ^ 5 + C ^ 3 * x ^ 6 :=
      fun x => by ring
    simp only [e]
    rw [this]
    ring

theorem covariance_eq (B C B' C' : ℝ) {r : ℝ} (hr : r ^ 2 ≤ 1) : covariance B C B' C' r = B * B' * r + 2 * C * C' * r ^ 2 := by
  unfold covariance
  have hs := Real.sq_sqrt (show 0 ≤ 1 - r ^ 2 by linarith)
  generalize √(1 - r ^ 2) = s at *
  have inner : ∀ x : ℝ, ∫ y, (B * x + C * (x ^ 2 - 1)) * (B' * (r * x + s * y) + C' * ((r * x + s * y) ^ 2 - 1))
      ∂gaussianReal 0 1 = (B * x + C * (x ^ 2 - 1)) * (B' * r * x + C' * r ^ 2 * (x ^ 2 - 1)) := by
    intro x
    have := integral_poly ((B * x + C * (x ^ 2 - 1)) * (B' * (r * x) + C' * ((r * x) ^ 2 - 1)))
      ((B * x + C * (x ^ 2 - 1)) * (B' * s + 2 * C' * r * x * s)) ((B * x + C * (x ^ 2 - 1)) * (C' * s ^ 2)) 0 0 0 0
    have e : ∀ y : ℝ, (B * x + C * (x ^ 2 - 1)) * (B' * (r * x + s * y) + C' * ((r * x + s * y) ^ 2 - 1)) =
        (B * x + C * (x ^ 2 - 1)) * (B' * (r * x) + C' * ((r * x) ^ 2 - 1)) +
        (B * x + C * (x ^ 2 - 1)) * (B' * s + 2 * C' * r * x * s) * y + (B * x + C * (x ^ 2 - 1)) * (C' * s ^ 2) * y ^ 2 +
        0 * y ^ 3 + 0 * y ^ 4 + 0 * y ^ 5 + 0 * y ^ 6 := fun y => by ring
    simp only [e]
    rw [this, hs]
    ring
  simp only [inner]
  have := integral_poly (C * C' * r ^ 2) (-(B * C' * r ^ 2) - C * B' * r) (B * B' * r - 2 * C * C' * r ^ 2)
    (B * C' * r ^ 2 + C * B' * r) (C * C' * r ^ 2) 0 0
  have e : ∀ x : ℝ, (B * x + C * (x ^ 2 - 1)) * (B' * r * x + C' * r ^ 2 * (x ^ 2 - 1)) =
      C * C' * r ^ 2 + (-(B * C' * r ^ 2) - C * B' * r) * x + (B * B' * r - 2 * C * C' * r ^ 2) * x ^ 2 +
      (B * C' * r ^ 2 + C * B' * r) * x ^ 3 + C * C' * r ^ 2 * x ^ 4 + 0 * x ^ 5 + 0 * x ^ 6 := fun x => by ring
  simp only [e]
  rw [this]
  ring

/-! ### Correlation matrix -/

theorem body_apply (f : ℕ → ℕ → F) (i j a b : ℕ) (t : ℕ → ℕ → F) :
    body f i t j a b = if a = i ∧ b = j ∨ a = j ∧ b = i then f i j else t a b := by
  unfold body put
  by_cases h : i = j
  · subst h
    simp
  · simp only [ne_eq, h, not_false_eq_true, if_true]
    by_cases h1 : a = j ∧ b = i
    · simp [h1]
    · by_cases h2 : a = i ∧ b = j <;> simp [h1, h2]

theorem row_apply (f : ℕ → ℕ → F) (i k a b : ℕ) (t : ℕ → ℕ → F) :
    (List.range k).foldl (body f i) t a b =
      if a = i ∧ b < k then f i b else if b = i ∧ a < k then f i a else t a b := by
  induction k with
  | zero => simp
  | succ k ih =>
    rw [List.range_succ, List.foldl_append, List.foldl_cons, List.foldl_nil, body_apply, ih]
    by_cases h1 : a = i ∧ b = k
    · obtain ⟨rfl, rfl⟩ := h1; simp
    · by_cases h2 : a = k ∧ b = i
      · obtain ⟨rfl, rfl⟩ := h2
        by_cases h3 : a = b
        · subst h3; simp
        · simp [h3]
      · have e1 : (a = i ∧ b < k + 1) ↔ (a = i ∧ b < k) := by
          constructor
          · rintro ⟨h, h'⟩; exact ⟨h, by have : b ≠ k := fun hb => h1 ⟨h, hb⟩; omega⟩
          · rintro ⟨h, h'⟩; exact ⟨h, by omega⟩
        have e2 : (b = i ∧ a < k + 1) ↔ (b = i ∧ a < k) := by
          constructor
          · rintro ⟨h, h'⟩; exact ⟨h, by have : a ≠ k := fun hb => h2 ⟨hb, h⟩; omega⟩
          · rintro ⟨h, h'⟩; exact ⟨h, by omega⟩
        simp only [h1, h2, or_self, if_false, e1, e2]

theorem rows_apply (f : ℕ → ℕ → F) (n k a b : ℕ) (hk : k ≤ n) (ha : a < n) (hb : b < n) :
    (List.range k).foldl (fun t i => (List.range n).foldl (body f i) t) (fun _ _ => fin 0) a b =
      if max a b < k then f (max a b) (min a b) else if min a b < k then f (min a b) (max a b) else fin 0 := by
  induction k with
  | zero => simp
  | succ k ih =>
    rw [List.range_succ, List.foldl_append, List.foldl_cons, List.foldl_nil, row_apply, ih (by omega)]
    rcases Nat.lt_trichotomy a b with h | h | h
    · rw [max_eq_right h.le, min_eq_left h.le]
      by_cases h1 : b < k
      · simp [h1, show b < k + 1 by omega, show a ≠ k by omega, show b ≠ k by omega]
      · by_cases h2 : b = k
        · subst h2; simp [ha, show a ≠ b by omega]
        · by_cases h3 : a = k
          · subst h3; simp [hb, show ¬ b < a + 1 by omega]
          · by_cases h4 : a < k
            · simp [h1, h2, h3, h4, show ¬ b < k + 1 by omega, show a < k + 1 by omega]
            · simp [h1, h2, h3, h4, show ¬ b < k + 1 by omega, show ¬ a < k + 1 by omega]
    · subst h
      simp only [max_self, min_self]
      by_cases h1 : a < k
      · simp [h1, show a < k + 1 by omega, show a ≠ k by omega]
      · by_cases h2 : a = k
        · subst h2; simp [ha]
        · simp [h1, h2, show ¬ a < k + 1 by omega]
    · rw [max_eq_left h.le, min_eq_right h.le]
      by_cases h1 : a < k
      · simp [h1, show a < k + 1 by omega, show a ≠ k by omega, show b ≠ k by omega]
      · by_cases h2 : a = k
        · subst h2; simp [hb]
        · by_cases h3 : b = k
          · subst h3; simp [ha, h2, show ¬ a < b + 1 by omega]
          · by_cases h4 : b < k
            · simp [h1, h2, h3, h4, show ¬ a < k + 1 by omega, show b < k + 1 by omega]
            · simp [h1, h2, h3, h4, show ¬ a < k + 1 by omega, show ¬ b < k + 1 by omega]

theorem loop_apply (f : ℕ → ℕ → F) (n a b : ℕ) (ha : a < n) (hb : b < n) : loop f n a b = f (max a b) (min a b) := by
  unfold loop
  rw [rows_apply f n n a b le_rfl ha hb, if_pos (max_lt ha hb)]

theorem eps_pos : 0 < eps := by unfold eps; norm_num

theorem shift_fin (c : ℝ) : shift (fin c) = fin (shiftR c) := by
  unfold shift shiftR
  rw [show (1 / 100000 : ℝ) = eps from rfl]
  by_cases h : 0 ≤ c
  · rw [if_pos (show le (fin 0) (fin c) from h), if_pos h]; rfl
  · rw [if_neg (show ¬ le (fin 0) (fin c) from h), if_neg h]; rfl

theorem shiftR_sq (c : ℝ) : c ^ 2 < shiftR c ^ 2 := by
  unfold shiftR
  split
  · nlinarith
  · rename_i h; nlinarith [not_le.mp h]

theorem shiftR_ne (c : ℝ) : shiftR c ≠ 0 := by
  intro h
  have := shiftR_sq c
  rw [h] at this
  nlinarith [sq_nonneg c]

/-- The entry for finite coefficients. -/
noncomputable def entryR (ci cj bi bj s : ℝ) : ℝ :=
  (√|(bi * bj) ^ 2 + 8 * (shiftR ci * shiftR cj) * s| - bi * bj) / 4 / (shiftR ci * shiftR cj)

theorem entry_fin (ci cj bi bj s : ℝ) : entry (fin ci) (fin cj) (fin bi) (fin bj) s = fin (entryR ci cj bi bj s) := by
  have h : shiftR ci * shiftR cj ≠ 0 := mul_ne_zero (shiftR_ne _) (shiftR_ne _)
  have h2 : ∀ x : ℝ, ¬ |x| < 0 := fun x => not_lt.mpr (abs_nonneg x)
  unfold entry entryR
  simp only [shift_fin, mul, add, abs, sqrt, h2, if_false, sub, neg, div, h, OfNat.ofNat_ne_zero, sq, sub_eq_add_neg]

/-! ### Bifurcated Gaussian -/

/-- The density of the bifurcated Gaussian, or rather its moments, are integrals over half lines. -/
theorem bifurcated_moment (k : ℕ) {u l : ℝ} (hu : 0 < u) (hl : 0 < l) :
    Integrable (fun x => x ^ k * bifurcated u l x) ∧
    ∫ x, x ^ k * bifurcated u l x = 2 / (u + l) / √(2 * Real.pi) * (half k u + (-1) ^ k * half k l) := by
  have hr : ∀ x ∈ Set.Ioi (0 : ℝ), x ^ k * bifurcated u l x =
      2 / (u + l) / √(2 * Real.pi) * (x ^ k * Real.exp (-x ^ 2 / (2 * u ^ 2))) := by
    intro x hx
    have : (0 : ℝ) ≤ x := le_of_lt hx
    simp only [bifurcated, this, if_true]
    ring
  have hl' : ∀ x ∈ Set.Ioi (0 : ℝ), (-x) ^ k * bifurcated u l (-x) =
      2 / (u + l) / √(2 * Real.pi) * (-1) ^ k * (x ^ k * Real.exp (-x ^ 2 / (2 * l ^ 2))) := by
    intro x hx
    have h0 : (0 : ℝ) < x := hx
    have : ¬ (0 : ℝ) ≤ -x := by linarith
    simp only [bifurcated, this, if_false, neg_sq]
    rw [neg_pow]
    ring
  have i1 : IntegrableOn (fun x => x ^ k * bifurcated u l x) (Set.Ioi 0) :=
    IntegrableOn.congr_fun ((half_integrable k hu).const_mul _) (fun x hx => (hr x hx).symm) measurableSet_Ioi
  have i2 : IntegrableOn (fun x => x ^ k * bifurcated u l x) (Set.Iic 0) := by
    rw [← integrableOn_Ici_iff_integrableOn_Ioi] at i1
    have h3 : IntegrableOn (fun x => (-x) ^ k * bifurcated u l (-x)) (Set.Ioi 0) :=
      IntegrableOn.congr_fun ((half_integrable k hl).const_mul _) (fun x hx => (hl' x hx).symm) measurableSet_Ioi
    rw [← integrableOn_Ici_iff_integrableOn_Ioi] at h3
    have := (Measure.measurePreserving_neg (volume : Measure ℝ)).integrableOn_comp_preimage
      (Homeomorph.neg ℝ).measurableEmbedding (f := fun x : ℝ => x ^ k * bifurcated u l x) (s := Set.Iic 0)
    apply this.mp
    simpa [Function.comp_def] using h3
  have hi : Integrable (fun x => x ^ k * bifurcated u l x) := by
    rw [← integrableOn_univ, ← Set.Iic_union_Ioi (a := (0 : ℝ))]
    exact i2.union i1
  refine ⟨hi, ?_⟩
  rw [← intervalIntegral.integral_Iic_add_Ioi i2 i1, setIntegral_congr_fun measurableSet_Ioi hr, integral_const_mul]
  have h4 := integral_comp_neg_Ioi (0 : ℝ) fun x : ℝ => x ^ k * bifurcated u l x
  rw [neg_zero] at h4
  rw [← h4, setIntegral_congr_fun measurableSet_Ioi hl', integral_const_mul]
  unfold half
  ring

theorem integrand_eq {u l : ℝ} (hu : 0 < u) (hl : 0 < l) (x : ℝ) : integrand u l x = x ^ 3 * bifurcated u l x := by
  have hs : 0 < √(2 * Real.pi) := Real.sqrt_pos.mpr (by positivity)
  have e : ∀ s : ℝ, -(x / s) ^ 2 / 2 = -x ^ 2 / (2 * s ^ 2) := fun s => by rw [div_pow]; ring
  unfold integrand bifurcated pdf
  split
  · rw [e]; field_simp
  · rw [e]; field_simp

theorem half_two {s : ℝ} (hs : 0 < s) : half 2 s = s ^ 3 * √(2 * Real.pi) / 2 := by
  rw [half_succ 0 hs, half_zero hs]; push_cast; ring

theorem half_three {s : ℝ} (hs : 0 < s) : half 3 s = 2 * s ^ 4 := by
  rw [half_succ 1 hs, half_one hs]; push_cast; ring

end Verif.ThirdMoment
