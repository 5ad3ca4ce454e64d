import Verif.Stats.SensitivityProps
import Mathlib.Analysis.Convex.Deriv
import Mathlib.Analysis.Real.Pi.Bounds

/-!
# Lemmas: how large and how small levels are, from the two statistics
-/

namespace Verif.Reach
open Verif.Py F Verif.Stats

/-- The density is at most `(x + 1)` times the tail. -/
theorem mills_upper {x : ℝ} (hx : 0 ≤ x) : dens x ≤ (x + 1) * Phi (-x) := by
  have big : ∀ y : ℝ, 1 ≤ y → dens y ≤ (y + 1) * Phi (-y) := by
    intro y hy
    have h1 := gordon y
    have h2 := Phi_pos (-y)
    have : (1 + y ^ 2) * Phi (-y) ≤ y * ((y + 1) * Phi (-y)) := by nlinarith
    exact le_of_mul_le_mul_left (h1.le.trans this) (by linarith)
  rcases le_total 1 x with h | h
  · exact big x h
  · have hd1 : ∀ y : ℝ, HasDerivAt (fun y => (y + 1) * Phi (-y) - dens y) (Phi (-y) - dens y) y := by
      intro y
      refine HasDerivAt.congr_deriv ((((hasDerivAt_id y).add_const 1).mul (tail_deriv y)).sub (dens_deriv y)) ?_
      simp only [id]
      ring
    have hd2 : ∀ y : ℝ, HasDerivAt (fun y => Phi (-y) - dens y) ((y - 1) * dens y) y := by
      intro y
      refine HasDerivAt.congr_deriv ((tail_deriv y).sub (dens_deriv y)) ?_
      ring
    have hc : ConcaveOn ℝ (Set.Icc 0 1) fun y => (y + 1) * Phi (-y) - dens y := by
      refine concaveOn_of_hasDerivWithinAt2_nonpos (convex_Icc 0 1) (fun y _ => (hd1 y).continuousAt.continuousWithinAt)
        (fun y _ => (hd1 y).hasDerivWithinAt) (fun y _ => (hd2 y).hasDerivWithinAt) fun y hy => ?_
      rw [interior_Icc] at hy
      nlinarith [dens_pos y, hy.2]
    have h0 : 0 ≤ (0 + 1) * Phi (-0) - dens 0 := by
      rw [neg_zero, Phi_zero, dens_eq]
      have : (2 : ℝ) ≤ √(2 * Real.pi) := Real.le_sqrt_of_sq_le (by nlinarith [Real.pi_gt_three])
      have : (√(2 * Real.pi))⁻¹ ≤ 2⁻¹ := inv_anti₀ (by norm_num) this
      have e : Real.exp (-(0 : ℝ) ^ 2 / 2) = 1 := by norm_num
      first
        | (rw [e]; linarith)
        | (simp only [ne_eq, OfNat.ofNat_ne_zero, not_false_eq_true, zero_pow, neg_zero, zero_div, Real.exp_zero, mul_one]; linarith)
    have h1 : 0 ≤ (1 + 1) * Phi (-1) - dens 1 := by linarith [big 1 le_rfl]
    have := hc.min_le_of_mem_Icc (x := 0) (y := 1) (z := x) (by simp) (by simp) ⟨hx, h⟩
    have h2 := le_trans (le_min h0 h1) this
    linarith

/-- The tails fall no faster than this. -/
theorem tail_lower {x t : ℝ} (hx : 0 ≤ x) (ht : 0 ≤ t) : Real.exp (-(x * t + t + t ^ 2 / 2)) * Phi (-x) ≤ Phi (-(x + t)) := by
  have hd : ∀ y : ℝ, HasDerivAt (fun y => Phi (-y) * Real.exp (y ^ 2 / 2 + y)) (((y + 1) * Phi (-y) - dens y) * Real.exp (y ^ 2 / 2 + y)) y := by
    intro y
    have h2 : HasDerivAt (fun y : ℝ => y ^ 2 / 2 + y) (y + 1) y := by
      refine HasDerivAt.congr_deriv (((hasDerivAt_pow 2 y).div_const 2).add (hasDerivAt_id' y)) ?_
      norm_num
    refine HasDerivAt.congr_deriv ((tail_deriv y).mul h2.exp) ?_
    ring
  have hm : MonotoneOn (fun y => Phi (-y) * Real.exp (y ^ 2 / 2 + y)) (Set.Ici 0) := by
    refine monotoneOn_of_deriv_nonneg (convex_Ici 0) (fun y _ => (hd y).continuousAt.continuousWithinAt) (fun y _ => (hd y).differentiableAt.differentiableWithinAt) fun y hy => ?_
    rw [interior_Ici] at hy
    rw [(hd y).deriv]
    exact mul_nonneg (by linarith [mills_upper (le_of_lt (show (0 : ℝ) < y from hy))]) (Real.exp_pos _).le
  have := hm (Set.mem_Ici.mpr hx) (Set.mem_Ici.mpr (add_nonneg hx ht)) (by linarith)
  dsimp only at this
  have e : Real.exp ((x + t) ^ 2 / 2 + (x + t)) = Real.exp (x ^ 2 / 2 + x) * Real.exp (x * t + t + t ^ 2 / 2) := by
    rw [← Real.exp_add]; congr 1; ring
  rw [e] at this
  have hp := Real.exp_pos (x ^ 2 / 2 + x)
  have h3 : Phi (-x) ≤ Phi (-(x + t)) * Real.exp (x * t + t + t ^ 2 / 2) :=
    le_of_mul_le_mul_right (by linarith [this]) hp
  rw [Real.exp_neg, inv_mul_le_iff₀ (Real.exp_pos _)]
  linarith

/-- One minus the ratio of two values is small if they are near. -/
theorem level_small {d t : ℝ} (ht : 0 ≤ t) : 1 - Phi (-d - t) / Phi (-d) ≤ max d 0 * t + t + t ^ 2 / 2 := by
  have key : ∀ x : ℝ, 0 ≤ x → 1 - Phi (-x - t) / Phi (-x) ≤ x * t + t + t ^ 2 / 2 := by
    intro x hx
    have h1 := tail_lower hx ht
    rw [neg_add' x t] at h1
    have h2 : Real.exp (-(x * t + t + t ^ 2 / 2)) ≤ Phi (-x - t) / Phi (-x) := by rwa [le_div_iff₀ (Phi_pos _)]
    have h3 := Real.add_one_le_exp (-(x * t + t + t ^ 2 / 2))
    linarith
  rcases le_total 0 d with h | h
  · rw [max_eq_left h]; exact key d h
  · rw [max_eq_right h]
    have := Phi_ratio_mono ht (x := -0) (y := -d) (by linarith)
    have k := key 0 le_rfl
    linarith

/-- The observed level is small if both statistics are. -/
theorem observed_small {q qA : ℝ} (hq : 0 ≤ q) (hA : 0 ≤ qA) : observedOf false q qA ≤ max q qA / 2 + √qA := by
  have hs := Real.sqrt_nonneg qA
  have hsq := Real.sq_sqrt hA
  unfold observedOf
  split
  · have := hq.trans (le_max_left q qA)
    positivity
  · rename_i hn
    simp only [Bool.false_eq_true, if_false]
    have := level_small (d := eq66 q qA) hs
    rw [hsq] at this
    refine this.trans ?_
    unfold eq66
    split
    · rename_i hle
      have h0 : √q - √qA ≤ 0 := by linarith [Real.sqrt_le_sqrt hle]
      rw [max_eq_right h0, zero_mul, max_eq_right hle]
      linarith
    · rename_i hlt
      push Not at hlt
      rcases hA.eq_or_lt with h0 | h0
      · exact absurd ⟨rfl, h0.symm, by linarith⟩ hn
      · have hp := Real.sqrt_pos.mpr h0
        rw [max_eq_left (div_nonneg (by linarith) (by linarith)), max_eq_left hlt.le]
        have : (q - qA) / (2 * √qA) * √qA = (q - qA) / 2 := by field_simp
        rw [this]
        linarith

/-- The same for the expected levels. -/
theorem expected_small {n qA : ℝ} (hn : -2 ≤ n) (hA : 0 ≤ qA) : 1 - Phi (n - √qA) / Phi n ≤ qA / 2 + 3 * √qA := by
  have hs := Real.sqrt_nonneg qA
  have := level_small (d := -n) hs
  rw [neg_neg, Real.sq_sqrt hA] at this
  have h2 : max (-n) 0 * √qA ≤ 2 * √qA := mul_le_mul_of_nonneg_right (max_le (by linarith) (by norm_num)) hs
  linarith

/-- Levels for equal statistics. -/
theorem observed_equal {m : ℝ} (hm : 0 ≤ m) : observedOf false m m = 1 - Phi (-√m) / Phi 0 := by
  unfold observedOf
  rcases hm.eq_or_lt with rfl | h
  · simp [eq66]
  · rw [if_neg (by simp [h.ne'])]
    simp [eq66]

/-- Statistics of at least `m` give levels of at least `CL` if the tail beyond `√m - 2` is at most `(1 - CL) / 2`. -/
theorem ratio_large {n m CL : ℝ} (hn : n ≤ 2) (h : Phi (2 - √m) ≤ (1 - CL) / 2) : CL ≤ 1 - Phi (n - √m) / Phi n := by
  have h1 := Phi_ratio_mono (Real.sqrt_nonneg m) hn
  have h2 : (1 : ℝ) / 2 ≤ Phi 2 := by rw [← Phi_zero]; exact Phi_mono (by norm_num)
  have h3 : Phi (2 - √m) / Phi 2 ≤ 1 - CL := by
    rw [div_le_iff₀ (Phi_pos _)]
    have : 0 ≤ (1 - CL) / 2 := (Phi_nonneg _).trans h
    nlinarith
  linarith

/-- A number `m` that is large enough: the tail is at most `exp (-(√m - 2)² / 2) / 2`. -/
theorem tail_small {m CL : ℝ} (h1 : CL < 1) (hm : 2 + √(-2 * Real.log (1 - CL)) ≤ √m) : Phi (2 - √m) ≤ (1 - CL) / 2 := by
  have ha : 0 ≤ √m - 2 := by linarith [Real.sqrt_nonneg (-2 * Real.log (1 - CL))]
  have h := Phi_ratio_exp ha 0
  rw [Phi_zero, mul_zero, zero_sub, zero_sub, neg_sub] at h
  refine h.trans ?_
  have hp : 0 < 1 - CL := by linarith
  have h2 : Real.exp (-((√m - 2) ^ 2 / 2)) ≤ 1 - CL := by
    rw [← Real.le_log_iff_exp_le hp]
    have h3 : √(-2 * Real.log (1 - CL)) ≤ √m - 2 := by linarith
    have h4 := (Real.sqrt_le_left ha).mp h3
    linarith
  linarith

end Verif.Reach
