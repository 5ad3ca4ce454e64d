import Verif.ThirdMoment.Lemmas

/-!
# Properties C49 and C76: third moment expansion
-/

namespace Verif.ThirdMoment
open Verif.Py F MeasureTheory ProbabilityTheory

theorem v_nonneg {v m : ℝ} (h : m ^ 2 ≤ 8 * v ^ 3) : 0 ≤ v := by
  by_contra hv
  have hv := not_le.mp hv
  have : v ^ 3 < 0 := by nlinarith [mul_pos (neg_pos.mpr hv) (pow_pos (neg_pos.mpr hv) 2)]
  nlinarith [sq_nonneg m]

/-- C49. For every bin with `8 σ⁶ ≥ m3²` the coefficients are finite and satisfy the three equations, so that
`A + B θ + C θ²`, with `θ` standard normal, has exactly the requested mean, variance and third central moment. -/
theorem C49_moments (b v m : ℝ) (h : m ^ 2 ≤ 8 * v ^ 3) :
    ∃ A B C : ℝ, coefA b v m = fin A ∧ coefB v m = fin B ∧ coefC v m = fin C ∧ 0 ≤ B ∧
      A + C = b ∧ B ^ 2 + 2 * C ^ 2 = v ∧ 6 * B ^ 2 * C + 8 * C ^ 3 = m ∧ HasMoments A B C b v m := by
  obtain ⟨A, B, C, h1, h2, h3, h4, h5, h6, h7, _⟩ := coef_all b (v_nonneg h) m
  have := hasMoments A B C
  rw [h4, h6, h7 h] at this
  exact ⟨A, B, C, h1, h2, h3, h5, h4, h6, h7 h, this⟩

/-- The boundary case `8 σ⁶ = m3²`, where the linear term vanishes. -/
example : ∃ A B C : ℝ, coefA 5 2 8 = fin A ∧ coefB 2 8 = fin B ∧ coefC 2 8 = fin C ∧ HasMoments A B C 5 2 8 := by
  obtain ⟨A, B, C, h1, h2, h3, _, _, _, _, h⟩ := C49_moments 5 2 8 (by norm_num)
  exact ⟨A, B, C, h1, h2, h3, h⟩

/-- A bin in the interior. -/
example : ((-1 : ℝ)) ^ 2 ≤ 8 * 1 ^ 3 := by norm_num

/-- C49: a bin that violates the condition, and a bin without skewness, get the coefficients of the symmetric model: the third
moment is then zero, whatever was requested. -/
theorem C49_symmetric (b v m : ℝ) (hv : 0 ≤ v) (h : 8 * v ^ 3 < m ^ 2 ∨ m = 0) :
    coefA b v m = fin b ∧ coefB v m = fin √v ∧ coefC v m = fin 0 ∧ HasMoments b √v 0 b v 0 := by
  have hc : coefC v m = fin 0 := by
    rcases h with h | rfl
    · exact coefC_invalid h
    · exact coefC_zero hv
  have := hasMoments b √v 0
  rw [Real.sq_sqrt hv] at this
  norm_num at this
  refine ⟨?_, ?_, hc, this⟩
  · rw [coefA_eq hc, sub_zero]
  · rw [coefB_eq hc (by simpa using hv)]
    norm_num

example : coefC 1 3 = fin 0 := (C49_symmetric 0 1 3 (by norm_num) (by norm_num)).2.2.1

/-- C49: the correlation matrix is symmetric, whatever the covariance matrix, and the entry of a pair of bins is computed from
the lower triangle of the covariance matrix. -/
theorem C49_correlation_symmetric (n : ℕ) (cov cov' : ℕ → ℕ → ℝ) (m : ℕ → ℝ) (i j : ℕ) (hi : i < n) (hj : j < n) :
    correlation n cov m i j = correlation n cov m j i ∧
    ((∀ a b, b ≤ a → cov a b = cov' a b) → correlation n cov m i j = correlation n cov' m i j) := by
  unfold correlation
  constructor
  · rw [loop_apply _ _ _ _ hi hj, loop_apply _ _ _ _ hj hi, max_comm, min_comm]
  · intro h
    rw [loop_apply _ _ _ _ hi hj, loop_apply _ _ _ _ hi hj]
    simp only [h _ _ le_rfl, h _ _ (min_le_max (a := i) (b := j))]

example : correlation 2 (fun i j => if i = j then 2 else if i < j then 5 else 1) (fun _ => 1) 0 1 =
    correlation 2 (fun i j => if i = j then 2 else 1) (fun _ => 1) 0 1 :=
  (C49_correlation_symmetric 2 _ _ _ 0 1 (by norm_num) (by norm_num)).2 fun a b h => by
    by_cases hab : a = b
    · simp [hab]
    · simp [hab, show ¬ a < b by omega]

/-- C49 fails for the correlation matrix: because of the regularisation its diagonal is never 1; for every bin with a positive
variance it is strictly below 1. In particular the expansion without third moments is not identical to the model of a
correlated background, as the documentation has it. -/
theorem C49_unit_diagonal_fails (n : ℕ) (cov : ℕ → ℕ → ℝ) (m : ℕ → ℝ) (i : ℕ) (hi : i < n) (hv : 0 < cov i i) :
    ∃ r : ℝ, correlation n cov m i i = fin r ∧ 0 < r ∧ r < 1 := by
  obtain ⟨A, B, C, -, h2, h3, -, h5, h6, -, -, -, -⟩ := coef_all 0 hv.le (m i)
  refine ⟨entryR C C B B (cov i i), ?_, ?_⟩
  · unfold correlation
    rw [loop_apply _ _ _ _ hi hi, max_self, min_self, h2, h3, entry_fin]
  · unfold entryR
    have hs := shiftR_sq C
    have hs2 : shiftR C * shiftR C = shiftR C ^ 2 := by ring
    rw [hs2]
    generalize shiftR C ^ 2 = x at *
    generalize cov i i = v at *
    have hx : 0 < x := lt_of_le_of_lt (sq_nonneg C) hs
    have hd : 0 < (B * B) ^ 2 + 8 * x * v := by positivity
    rw [abs_of_pos hd]
    constructor
    · apply div_pos _ hx
      apply div_pos _ (by norm_num)
      have : √((B * B) ^ 2) < √((B * B) ^ 2 + 8 * x * v) := Real.sqrt_lt_sqrt (sq_nonneg _) (by nlinarith [mul_pos hx hv])
      rw [Real.sqrt_sq (mul_nonneg h5 h5)] at this
      linarith
    · rw [div_lt_one hx, div_lt_iff₀ (by norm_num), sub_lt_iff_lt_add]
      rw [Real.sqrt_lt' (by nlinarith [mul_nonneg h5 h5])]
      nlinarith [mul_nonneg h5 h5]

example : ∃ r : ℝ, correlation 1 (fun _ _ => 1) (fun _ => 0) 0 0 = fin r ∧ 0 < r ∧ r < 1 :=
  C49_unit_diagonal_fails 1 _ _ 0 (by norm_num) (by norm_num)

/-- C49 (`_partial`), covariances: for a pair of bins with a non-negative discriminant, normal variables with the computed
correlation `r` give the two expansions the requested covariance, up to the regularisation: the deviation is
`2 (c c' - C C') r²`, where `c` and `c'` are the coefficients moved away from zero by `1e-5`. Missing for the full claim: the
exact covariance, and pairs with a negative discriminant (see `C49_covariance_fails`). -/
theorem C49_covariance_partial (n : ℕ) (cov : ℕ → ℕ → ℝ) (m : ℕ → ℝ) (i j : ℕ) (hij : j < i) (hi : i < n)
    (hvi : 0 ≤ cov i i) (hvj : 0 ≤ cov j j) :
    ∃ Bi Ci Bj Cj r : ℝ, coefB (cov i i) (m i) = fin Bi ∧ coefC (cov i i) (m i) = fin Ci ∧
      coefB (cov j j) (m j) = fin Bj ∧ coefC (cov j j) (m j) = fin Cj ∧ correlation n cov m i j = fin r ∧
      (0 ≤ (Bi * Bj) ^ 2 + 8 * (shiftR Ci * shiftR Cj) * cov i j → r ^ 2 ≤ 1 →
        covariance Bi Ci Bj Cj r = cov i j - 2 * (shiftR Ci * shiftR Cj - Ci * Cj) * r ^ 2) := by
  obtain ⟨A, B, C, -, h2, h3, -⟩ := coef_all 0 hvi (m i)
  obtain ⟨A', B', C', -, h2', h3', -⟩ := coef_all 0 hvj (m j)
  refine ⟨B, C, B', C', entryR C C' B B' (cov i j), h2, h3, h2', h3', ?_, ?_⟩
  · unfold correlation
    rw [loop_apply _ _ _ _ hi (lt_trans hij hi), max_eq_left hij.le, min_eq_right hij.le, h2, h3, h2', h3', entry_fin]
  · intro hd hr
    rw [covariance_eq _ _ _ _ hr]
    have hne : shiftR C * shiftR C' ≠ 0 := mul_ne_zero (shiftR_ne _) (shiftR_ne _)
    have he : entryR C C' B B' (cov i j) * (4 * (shiftR C * shiftR C')) + B * B' =
        √((B * B') ^ 2 + 8 * (shiftR C * shiftR C') * cov i j) := by
      unfold entryR
      rw [abs_of_nonneg hd]
      generalize shiftR C * shiftR C' = q at *
      rw [div_div, div_mul_cancel₀ _ (mul_ne_zero four_ne_zero hne)]
      ring
    have hsq := Real.sq_sqrt hd
    rw [← he] at hsq
    generalize entryR C C' B B' (cov i j) = r at *
    generalize shiftR C * shiftR C' = q at *
    have : q * (B * B' * r + 2 * q * r ^ 2 - cov i j) = 0 := by linear_combination hsq / 8
    rcases mul_eq_zero.mp this with h | h
    · exact absurd h hne
    · linear_combination h

theorem coefs_example : coefC 2 8 = fin 1 ∧ coefB 2 8 = fin 0 ∧ coefC 2 (-8) = fin (-1) ∧ coefB 2 (-8) = fin 0 := by
  have hr : √(2 * 2 : ℝ) = 2 := by rw [show (2 * 2 : ℝ) = 2 ^ 2 by norm_num, Real.sqrt_sq (by norm_num)]
  have hcos : Real.cos (4 * Real.pi / 3) = -(1 / 2) := by
    rw [show 4 * Real.pi / 3 = Real.pi / 3 + Real.pi by ring, Real.cos_add_pi, Real.cos_pi_div_three]
  have ha : angle 2 8 = 0 := by unfold angle; norm_num
  have ha' : angle 2 (-8) = 0 := by unfold angle; norm_num
  have h1 : coefC 2 8 = fin 1 := by
    rw [coefC_valid (by norm_num) (by norm_num)]
    unfold realC
    rw [hr, ha, mul_zero, _root_.add_zero, hcos]
    norm_num
  have h2 : coefC 2 (-8) = fin (-1) := by
    rw [coefC_valid (by norm_num) (by norm_num)]
    unfold realC
    rw [hr, ha', mul_zero, _root_.add_zero, hcos]
    norm_num
  refine ⟨h1, ?_, h2, ?_⟩
  · rw [coefB_eq h1 (by norm_num)]; norm_num
  · rw [coefB_eq h2 (by norm_num)]; norm_num

/-- C49 fails for covariances with a negative discriminant: two bins with opposite skewness and covariance 1. The absolute value
under the square root hides that no correlation gives the requested covariance, and the returned entry gives a covariance of
the opposite sign. -/
theorem C49_covariance_fails :
    ∃ (cov : ℕ → ℕ → ℝ) (m : ℕ → ℝ), (∀ i, m i ^ 2 ≤ 8 * cov i i ^ 3) ∧ cov 1 0 = 1 ∧
      coefB (cov 1 1) (m 1) = fin 0 ∧ coefC (cov 1 1) (m 1) = fin (-1) ∧
      coefB (cov 0 0) (m 0) = fin 0 ∧ coefC (cov 0 0) (m 0) = fin 1 ∧
      ∃ r, correlation 2 cov m 1 0 = fin r ∧ r ^ 2 ≤ 1 ∧ covariance 0 (-1) 0 1 r < -(1 / 2) := by
  obtain ⟨h1, h2, h3, h4⟩ := coefs_example
  refine ⟨fun i j => if i = j then 2 else 1, fun i => if i = 0 then 8 else -8, ?_, by norm_num, by simpa using h4,
    by simpa using h3, by simpa using h2, by simpa using h1, entryR (-1) 1 0 0 1, ?_, ?_⟩
  · intro i
    by_cases h : i = 0 <;> simp [h] <;> norm_num
  · unfold correlation
    rw [loop_apply _ _ _ _ (by norm_num) (by norm_num)]
    simp only [show max 1 0 = 1 from rfl, show min 1 0 = 0 from rfl, if_true, one_ne_zero, if_false]
    rw [h1, h2, h3, h4, entry_fin]
  · have hq : shiftR (-1) * shiftR 1 = -(1 + 1 / 100000) ^ 2 := by
      unfold shiftR; norm_num
    have hr : entryR (-1) 1 0 0 1 ^ 2 = 1 / 2 / (1 + 1 / 100000) ^ 2 := by
      unfold entryR
      rw [hq, div_pow, div_pow, zero_mul, sub_zero, Real.sq_sqrt (abs_nonneg _)]
      norm_num [abs_of_nonneg]
    have hle : entryR (-1) 1 0 0 1 ^ 2 ≤ 1 := by rw [hr]; norm_num
    refine ⟨hle, ?_⟩
    rw [covariance_eq _ _ _ _ hle, hr]
    norm_num

/-! ## C76: third moments from asymmetric uncertainties -/

/-- C76. For non-zero uncertainties the value is `√(8/π) (σ⁺ - σ⁻) (σ⁺² + σ⁻²)`, with the absolute values of both. It is the
third moment about zero of the bifurcated Gaussian (a normalised density), positive exactly when the upper uncertainty is
larger, zero for symmetric uncertainties, and changes sign when they are exchanged. -/
theorem C76_value (u l : ℝ) (hu : u ≠ 0) (hl : l ≠ 0) :
    thirdMoment u l = fin (4 / √(2 * Real.pi) * (|u| - |l|) * (u ^ 2 + l ^ 2)) ∧
    thirdMoment u l = fin (∫ x, x ^ 3 * bifurcated |u| |l| x) ∧ ∫ x, bifurcated |u| |l| x = 1 := by
  have hu' : 0 < |u| := abs_pos.mpr hu
  have hl' : 0 < |l| := abs_pos.mpr hl
  have hs : 0 < √(2 * Real.pi) := Real.sqrt_pos.mpr (by positivity)
  have h0 : thirdMoment u l = fin (∫ x, x ^ 3 * bifurcated |u| |l| x) := by
    unfold thirdMoment
    rw [if_neg (by simp [hu, hl])]
    simp only [integrand_eq hu' hl']
  refine ⟨?_, h0, ?_⟩
  · rw [h0, (bifurcated_moment 3 hu' hl').2, half_three hu', half_three hl']
    congr 1
    rw [← sq_abs u, ← sq_abs l]
    field_simp
    ring
  · have := (bifurcated_moment 0 hu' hl').2
    simp only [pow_zero, one_mul] at this
    rw [this, half_zero hu', half_zero hl']
    field_simp

theorem C76_sign (u l : ℝ) (hu : u ≠ 0) (hl : l ≠ 0) :
    ∃ m : ℝ, thirdMoment u l = fin m ∧ thirdMoment l u = fin (-m) ∧ (0 < m ↔ |l| < |u|) ∧ (m = 0 ↔ |u| = |l|) := by
  have hs : 0 < √(2 * Real.pi) := Real.sqrt_pos.mpr (by positivity)
  have h2 : 0 < u ^ 2 + l ^ 2 := by positivity
  have h4 : 0 < 4 / √(2 * Real.pi) := by positivity
  refine ⟨_, (C76_value u l hu hl).1, ?_, ?_, ?_⟩
  · rw [(C76_value l u hl hu).1]
    congr 1
    ring
  · rw [mul_pos_iff_of_pos_right h2, mul_pos_iff_of_pos_left h4, sub_pos]
  · rw [mul_eq_zero, mul_eq_zero, sub_eq_zero]
    constructor
    · rintro ((h | h) | h)
      · exact absurd h h4.ne'
      · exact h
      · exact absurd h h2.ne'
    · exact fun h => Or.inl (Or.inr h)

example : ∃ m : ℝ, thirdMoment 2 (-1) = fin m ∧ 0 < m := by
  obtain ⟨m, h, _, hm, _⟩ := C76_sign 2 (-1) (by norm_num) (by norm_num)
  exact ⟨m, h, hm.mpr (by norm_num)⟩

/-- C76 fails for the name "central": the documentation says that the bifurcated Gaussian is already centred, but its mean is not
zero unless the uncertainties are equal, and then the third central moment is strictly smaller in size than the value
returned. -/
theorem C76_central_fails (u l : ℝ) (hl : 0 < l) (hul : l < u) :
    0 < ∫ x, x * bifurcated u l x ∧
    ∃ m : ℝ, thirdMoment u l = fin m ∧ ∫ x, (x - ∫ y, y * bifurcated u l y) ^ 3 * bifurcated u l x < m := by
  have hu : 0 < u := lt_trans hl hul
  have hs : 0 < √(2 * Real.pi) := Real.sqrt_pos.mpr (by positivity)
  have m1 : ∫ y, y * bifurcated u l y = 2 / √(2 * Real.pi) * (u - l) := by
    have := (bifurcated_moment 1 hu hl).2
    simp only [pow_one] at this
    rw [this, half_one hu, half_one hl]
    field_simp
    ring
  have m0 := (bifurcated_moment 0 hu hl).2
  rw [half_zero hu, half_zero hl] at m0
  have m2 := (bifurcated_moment 2 hu hl).2
  rw [half_two hu, half_two hl] at m2
  have m3 := (bifurcated_moment 3 hu hl).2
  have hm : thirdMoment u l = fin (∫ x, x ^ 3 * bifurcated u l x) := by
    have := (C76_value u l hu.ne' hl.ne').2.1
    rwa [abs_of_pos hu, abs_of_pos hl] at this
  have i := fun k => (bifurcated_moment k hu hl).1
  have m1' : ∫ y, y ^ 1 * bifurcated u l y = 2 / √(2 * Real.pi) * (u - l) := by simpa using m1
  have hpos : 0 < 2 / √(2 * Real.pi) * (u - l) := mul_pos (by positivity) (by linarith)
  refine ⟨by rw [m1]; exact hpos, _, hm, ?_⟩
  rw [m1]
  generalize hc : 2 / √(2 * Real.pi) * (u - l) = c at *
  have hexp : ∀ x : ℝ, (x - c) ^ 3 * bifurcated u l x = x ^ 3 * bifurcated u l x + (-3 * c) * (x ^ 2 * bifurcated u l x) +
      3 * c ^ 2 * (x ^ 1 * bifurcated u l x) + -c ^ 3 * (x ^ 0 * bifurcated u l x) := fun x => by ring
  simp only [hexp]
  have j2 := (i 2).const_mul (-3 * c)
  have j1 := (i 1).const_mul (3 * c ^ 2)
  have j0 := (i 0).const_mul (-c ^ 3)
  have e1 : ∫ x, (x ^ 3 * bifurcated u l x + (-3 * c) * (x ^ 2 * bifurcated u l x) +
      3 * c ^ 2 * (x ^ 1 * bifurcated u l x) + -c ^ 3 * (x ^ 0 * bifurcated u l x)) =
      (∫ x, x ^ 3 * bifurcated u l x) + (-3 * c) * (∫ x, x ^ 2 * bifurcated u l x) +
      3 * c ^ 2 * (∫ x, x ^ 1 * bifurcated u l x) + -c ^ 3 * (∫ x, x ^ 0 * bifurcated u l x) := by
    rw [integral_add ?_ j0, integral_add ?_ j1, integral_add (i 3) j2, integral_const_mul, integral_const_mul, integral_const_mul]
    · exact (i 3).add j2
    · exact ((i 3).add j2).add j1
  rw [e1, m1', m0, m2]
  have m0' : 2 / (u + l) / √(2 * Real.pi) * (u * √(2 * Real.pi) / 2 + (-1) ^ 0 * (l * √(2 * Real.pi) / 2)) = 1 := by
    field_simp
  have m2' : 2 / (u + l) / √(2 * Real.pi) * (u ^ 3 * √(2 * Real.pi) / 2 + (-1) ^ 2 * (l ^ 3 * √(2 * Real.pi) / 2)) =
      u ^ 2 - u * l + l ^ 2 := by
    field_simp
    ring
  rw [m0', m2']
  have hcu : c ^ 2 ≤ (u - l) ^ 2 := by
    rw [← hc, mul_pow]
    have hpi := Real.two_le_pi
    have : (2 / √(2 * Real.pi)) ^ 2 ≤ 1 := by
      rw [div_pow, Real.sq_sqrt (by positivity), div_le_one (by positivity)]
      linarith
    nlinarith [sq_nonneg (u - l)]
  have : 2 * c ^ 2 - 3 * (u ^ 2 - u * l + l ^ 2) < 0 := by nlinarith
  nlinarith

example : (0 : ℝ) < 1 ∧ (1 : ℝ) < 2 := by norm_num

end Verif.ThirdMoment
