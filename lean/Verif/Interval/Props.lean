import Verif.Interval.Gaussian
import Verif.Interval.Spec
import Verif.Toys.CoverageProps

/-!
# Property C184: `chi2_test` of the Gaussian models of spey
-/

namespace Verif.Interval
open MeasureTheory ProbabilityTheory
open Verif.Py F Verif.Hypotest Verif.Chi2 Verif.Chain
open Verif.Interface (MuHat World Size Plain Solver perfect)
open Verif.Backend (Ext Vec Args at')
open Verif.Stats (Expect Calc gaussianLog)
open Verif.UpperLimit (Sound Succeeds)

/-- The fits of `chi2_test` of a Gaussian model: best fit in the allowed range, likelihood, uncertainty. -/
theorem case_fits {S : Solver} (hS : Exact S) (hT : Finds S) {E : Ext} (draw) {a : Args} {m : Backend.Model} {P : ℕ → ℕ → ℝ} {y : Vec} (h : Case E a m P y)
    {inv : List (List ℝ) → Except Interface.Err (List (List ℝ))} (hinv : InvertsNumbers inv) (e : Expect) {est σ : ℝ}
    (hest : est = estimate a.data.length P (at' y) (at' a.background) (at' (used a e))) (hσ : σ = deviation a.data.length P (at' y)) (g : Bool) (ntoys : Size)
    (available : Calc → Bool) (percentile : List F → F → F) :
    ∃ c lo, lo ≤ 0 ∧ (∀ mu, (∀ i < a.data.length, 0 < at' y i → 0 ≤ mu * at' y i + at' a.background i) → lo ≤ mu) ∧
      (∀ n, Ends (Plain 1) ((modelMethods S (plugged E draw m) g none ntoys available percentile).maximize e n none)
        (.ok (.one (nearest (if n then lo else 0) est), fin (-(gaussianLog c σ est (nearest (if n then lo else 0) est)))))) ∧
      (∀ v w, Plain 1 w → ((modelMethods S (plugged E draw m) g none ntoys available percentile).likelihood e none v w).1 = .ok (fin (-(gaussianLog c σ est v)))) ∧
      ∀ v, lo ≤ v → Ends (Plain 1) (modelSigma S inv (plugged E draw m) g ntoys available percentile e v) (.ok (fin σ)) := by
  obtain ⟨lo, h1, h2, h3⟩ := h.single draw
  obtain ⟨c, hc⟩ := h.log draw e (used a e) (used_length h.fits e)
  rw [← hest, ← hσ] at hc
  have hl : ∀ u, (plugged E draw m).logpdf (expectation e) none [u] = fin (gaussianLog c σ est u) := fun u => by
    rw [plugged_none E draw (measurement_built h.model h.modifiers) h.fits, hc u]
  have hσ0 : 0 < σ := hσ ▸ deviation_pos h.informative
  refine ⟨c, lo, h2, h3, fun n => ?_, fun v w hw => ?_, fun v hv => ?_⟩
  · intro w hw
    have hb := single_best hS hT h1 hl (n := n) (nearest_is_best (x := est) (lo := if n then lo else 0) hσ0 (by split <;> linarith)) g w hw
    have hp := (Interface.maximize_free hS.free (plugged E draw m) h1.usual.fixed true (expectation e) n none none none g none hw hw).2
    refine ⟨?_, hp⟩
    show (Interface.maximize S (plugged E draw m) true (expectation e) n none none none g none w).1.mapError _ = _
    rw [hb]
    rfl
  · have hb := single_likelihood (S := S) h1 hl v true g w hw
    show (andThen (ofInterface (Interface.likelihood S (plugged E draw m) (.float v) (expectation e) true none false true g none)) (fun o => lift (number o)) w).1 = _
    unfold andThen ofInterface
    rw [hb]
    rfl
  · rw [hσ]
    exact h.sigma hS hT draw hinv h1 hv e g ntoys available percentile

/-! ## Examples: signal 2 and 1, background 5 in both bins, both with uncertainty 1 -/

theorem chiSquared_exists : ∃ isf, ChiSquared isf := by
  classical
  refine ⟨fun q => if h : ∃ z, 0 < z ∧ 2 * Phi (-z) = q then fin (h.choose ^ 2) else nan, fun z hz => ?_⟩
  have h : ∃ x, 0 < x ∧ 2 * Phi (-x) = 2 * Phi (-z) := ⟨z, hz, rfl⟩
  beta_reduce
  rw [dif_pos h]
  have := Phi_strictMono.injective (mul_left_cancel₀ two_ne_zero h.choose_spec.2)
  rw [neg_injective this]

theorem exInterval_central {z : ℝ} (hz : 0 < z) : Central (1 - 2 * Phi (-z)) z ∧ 0 ≤ 1 - 2 * Phi (-z) := by
  refine ⟨⟨hz, by ring⟩, ?_⟩
  have := Phi_strictMono (neg_lt_zero.mpr hz)
  rw [Phi_zero] at this
  linarith

theorem exInterval_case (E : Ext) (d₁ d₂ : ℝ) : ∃ m P, Case E { exGaussArgs with data := [d₁, d₂] } m P [2, 1] ∧
    estimate 2 P (at' [2, 1]) (at' [5, 5]) (at' [d₁, d₂]) = (2 * (d₁ - 5) + (d₂ - 5)) / 5 ∧ deviation 2 P (at' [2, 1]) = 1 / √5 := by
  have : ∃ m, Backend.gaussian { exGaussArgs with data := [d₁, d₂] } [1, 1] = .ok m := by
    unfold Backend.gaussian Backend.simpleConfig
    simp only [exGaussArgs, Backend.minimumPoi, exGauss_alive, if_true, Backend.ok_bind, Backend.sigBounds]
    exact ⟨_, rfl⟩
  obtain ⟨m, hm⟩ := this
  have hform : ∀ x y, form 2 (independent (at' [1, 1])) x y = x 0 * y 0 + x 1 * y 1 := by
    intro x y
    rw [form_independent]
    simp [Finset.sum_range_succ, at']
  refine ⟨m, independent (at' [1, 1]), ⟨.normal [1, 1] hm rfl fun i hi => ?_, ⟨rfl, rfl⟩, rfl, rfl, rfl, ?_, ⟨0, by simp, by simp [at']⟩, fun i hi => ?_⟩, ?_, ?_⟩
  · have hi : i < 2 := hi
    interval_cases i <;> simp [at']
  · show 0 < form 2 _ _ _
    rw [hform]
    norm_num [at']
  · have hi : i < 2 := hi
    interval_cases i <;> simp [exGaussArgs, at']
  · unfold estimate
    rw [hform, hform]
    norm_num [at']
  · unfold deviation
    rw [hform]
    norm_num [at']

theorem exInterval_sigma : 4 / 10 ≤ 1 / √5 ∧ 1 / √5 ≤ 1 / 2 ∧ (1 / √5) ^ 2 = 1 / 5 ∧ span (1 / √5) = 3 := by
  have h1 : 2 ≤ √5 := Real.le_sqrt_of_sq_le (by norm_num)
  have h2 : √5 ≤ 2.5 := Real.sqrt_le_left (by norm_num) |>.mpr (by norm_num) 
  have h3 : 1 / √5 ≤ 1 / 2 := one_div_le_one_div_of_le (by norm_num) h1
  refine ⟨?_, h3, by rw [div_pow, Real.sq_sqrt (by norm_num)]; norm_num, max_eq_right (by linarith)⟩
  calc (4 / 10 : ℝ) = 1 / 2.5 := by norm_num
    _ ≤ 1 / √5 := one_div_le_one_div_of_le (by positivity) h2

noncomputable abbrev exInv : List (List ℝ) → Except Interface.Err (List (List ℝ)) := fun M => .ok [[1 / (M.getD 0 []).getD 0 0]]

section
variable {S : Solver} (hS : Exact S) (hT : Finds S) {E : Ext} (draw : Vec × List Vec → ℕ → List Vec) {a : Args} {m : Backend.Model} {P : ℕ → ℕ → ℝ} {y : Vec} (h : Case E a m P y)
  {inv : List (List ℝ) → Except Interface.Err (List (List ℝ))} (hinv : InvertsNumbers inv) (e : Expect) {est σ CL z δ : ℝ}
  (hest : est = estimate a.data.length P (at' y) (at' a.background) (at' (used a e))) (hσ : σ = deviation a.data.length P (at' y)) (hz : Central CL z) (hCL : 0 ≤ CL)
  {isf : ℝ → F} (hisf : ChiSquared isf) {tol : ℝ → ℝ} (h0 : ∀ x, 0 ≤ tol x) {toms brent : UpperLimit.Solver} (ht : Sound tol toms) (hs : Succeeds toms) (minimize : Minimizer) (g : Bool)
  (ntoys : Size) (available : Calc → Bool) (percentile : List F → F → F)
include hS hT h hinv hest hσ hz hCL hisf h0 ht hs

/-- C184. `chi2_test` of a Gaussian model of spey (independent bins or a covariance matrix, any number of bins) with the default limit type and `n_scan=3` gives the two ends of the central interval of the least squares
estimate, `est - z σ` and `est + z σ`, up to the tolerance of the root finder. Conditions: no expected yield is negative at the estimate, the estimate is at most 10 (the end of the allowed range of the fit), the
window of the search is not cut at `±1e5`, the interval has less than six standard deviations to each side, and the root finder is more accurate than the width of the interval. -/
theorem C184_interval_partial (hpos : ∀ i < a.data.length, 0 < at' y i → 0 ≤ est * at' y i + at' a.background i) (h10 : est ≤ 10) (hz6 : z < 6) (hr : |est| + span σ ≤ 1e5)
    (hδ : ∀ x, |x - est| ≤ span σ → tol x ≤ δ) (hd : δ + max 1e-10 (1e-8 * (|est| + span σ)) ≤ z * σ) (nMulti : ℕ) (negative : Bool) :
    ∃ x₁ x₂, |x₁ - (est - z * σ)| ≤ tol x₁ ∧ |x₂ - (est + z * σ)| ≤ tol x₂ ∧ ∀ fuel,
      Ends (Plain 1) (chi2Interval fuel toms brent minimize isf (modelMethods S (plugged E draw m) g none ntoys available percentile)
        (modelSigma S inv (plugged E draw m) g ntoys available percentile) e CL .twoSided negative 3 nMulti) (.ok (some [fin x₁, fin x₂])) := by
  obtain ⟨c, lo, k1, k2, k3, k4, k5⟩ := case_fits hS hT draw h hinv e hest hσ g ntoys available percentile
  have hσ0 : 0 < σ := hσ ▸ deviation_pos h.informative
  have hzσ : 0 < z * σ := mul_pos hz.1 hσ0
  have s6 := span_six σ
  have hlt : z * σ < span σ := lt_of_lt_of_le (by nlinarith) s6
  have hne : nearest lo est = est := by
    unfold nearest
    rw [max_eq_left (k2 est hpos), min_eq_left h10]
  obtain ⟨x₁, x₂, j1, j2, j3⟩ := gauss_two (c := c) (z := z) (brent := brent) (minimize := minimize) (nMulti := nMulti) h0 ht hs (fun v => rfl) hσ0 hσ0 hzσ (by ring : (z * σ) ^ 2 = z ^ 2 * σ ^ 2 + (est - est) ^ 2) hr (by linarith) (by linarith)
    (fun x m1 m2 => hδ x (abs_le.mpr ⟨by linarith, by linarith⟩)) (by simpa using hd) (fun x _ => by nlinarith [sq_nonneg (x - est)]) negative
  refine ⟨x₁, x₂, j1, j2, fun fuel => interval_ends (n := true) ⟨hCL, ?_⟩ (by simp) (r := est) (m := fin (-(gaussianLog c σ est est))) ?_ (k5 est (k2 est hpos)) k4 ?_⟩
  · have := Phi_pos (-z)
    have := hz.2
    linarith
  · have := k3 true
    simp only [if_true, hne] at this
    exact this
  · rw [← hz.2, hisf z hz.1]
    exact j3 fuel

/-- C184. Estimates above 10: the fit ends at 10, and with the defaults `n_scan=3`, `n_multistart=2` the interval is `est ± √(z²σ² + (est-10)²)`. It contains values that are more than `z` standard deviations away. -/
theorem C184_bound_fails {ρ : ℝ} (h10 : 10 < est) (hρ : 0 < ρ) (hρ2 : ρ ^ 2 = z ^ 2 * σ ^ 2 + (10 - est) ^ 2) (hin : est - 10 + ρ < span σ) (hr : 10 + span σ ≤ 1e5)
    (hδ : ∀ x, |x - 10| ≤ span σ → tol x ≤ δ) (hd : δ + max 1e-10 (1e-8 * (10 + span σ)) ≤ ρ - (est - 10)) (negative : Bool) :
    z * σ < ρ ∧ ∃ x₁ x₂, |x₁ - (est - ρ)| ≤ tol x₁ ∧ |x₂ - (est + ρ)| ≤ tol x₂ ∧ ∀ fuel,
      Ends (Plain 1) (chi2Interval fuel toms brent minimize isf (modelMethods S (plugged E draw m) g none ntoys available percentile)
        (modelSigma S inv (plugged E draw m) g ntoys available percentile) e CL .twoSided negative 3 2) (.ok (some [fin x₁, fin x₂])) := by
  obtain ⟨c, lo, k1, k2, k3, k4, k5⟩ := case_fits hS hT draw h hinv e hest hσ g ntoys available percentile
  have hσ0 : 0 < σ := hσ ▸ deviation_pos h.informative
  have hzσ : 0 < z * σ := mul_pos hz.1 hσ0
  have hne : nearest lo est = 10 := by
    unfold nearest
    rw [max_eq_left (by linarith), min_eq_right h10.le]
  have hfar : est - 10 < ρ := by
    refine lt_of_pow_lt_pow_left₀ 2 hρ.le ?_
    rw [hρ2]
    nlinarith [mul_pos hzσ hzσ]
  refine ⟨?_, ?_⟩
  · refine lt_of_pow_lt_pow_left₀ 2 hρ.le ?_
    rw [hρ2]
    nlinarith [mul_pos (sub_pos.mpr h10) (sub_pos.mpr h10)]
  obtain ⟨x₁, x₂, j1, j2, j3⟩ := gauss_two (c := c) (z := z) (brent := brent) (minimize := minimize) (nMulti := 2) h0 ht hs (fun v => rfl) hσ0 hσ0 hρ hρ2 (by rwa [abs_of_pos (by norm_num)]) (by linarith) (by linarith)
    (fun x m1 m2 => hδ x (abs_le.mpr ⟨by linarith, by linarith⟩)) (by rwa [abs_of_pos (by norm_num : (0 : ℝ) < 10), abs_of_pos (sub_pos.mpr h10)]) (by
      rw [max_self, linspace_two]
      intro x hx
      simp only [List.mem_cons, List.not_mem_nil, or_false] at hx
      rcases hx with rfl | rfl
      · nlinarith
      · nlinarith) negative
  refine ⟨x₁, x₂, j1, j2, fun fuel => interval_ends (n := true) ⟨hCL, ?_⟩ (by simp) (r := 10) (m := fin (-(gaussianLog c σ est 10))) ?_ (k5 10 (by linarith)) k4 ?_⟩
  · have := Phi_pos (-z)
    have := hz.2
    linarith
  · have := k3 true
    simp only [if_true, hne] at this
    exact this
  · rw [← hz.2, hisf z hz.1]
    exact j3 fuel

/-- C184. `chi2_test` with `limit_type="right"`: the upper end only, for signals that are not negative. If the estimate is below `z σ`, the value is `est + √(z²σ² + min(est, 0)²)`: for a deficit the distance is measured
from zero. If it is larger, the value is `est + z σ`, provided that the middle of the first window is in the interval. -/
theorem C184_right (h10 : est ≤ 10) (hz6 : z < 6) (nMulti : ℕ) {ρ : ℝ} (hρ : 0 < ρ) (hρ2 : ρ ^ 2 = z ^ 2 * σ ^ 2 + min est 0 ^ 2) (hr : max 0 est + span σ ≤ 1e5)
    (hδ : ∀ x, 0 ≤ x → x ≤ max 0 est + span σ → tol x ≤ δ)
    (hcase : est < z * σ ∧ est + ρ < max 0 est + span σ ∧ δ + 1e-12 < est + ρ - max 0 est ∨ z * σ < est ∧ span σ - est < 2 * (z * σ) ∧ δ + max 1e-10 (1e-8 * (est + span σ)) ≤ z * σ) :
    ∃ x, |x - (est + ρ)| ≤ tol x ∧ ∀ fuel,
      Ends (Plain 1) (chi2Interval fuel toms brent minimize isf (modelMethods S (plugged E draw m) g none ntoys available percentile)
        (modelSigma S inv (plugged E draw m) g ntoys available percentile) e CL .right false 3 nMulti) (.ok (some [fin x])) := by
  obtain ⟨c, lo, k1, k2, k3, k4, k5⟩ := case_fits hS hT draw h hinv e hest hσ g ntoys available percentile
  have hσ0 : 0 < σ := hσ ▸ deviation_pos h.informative
  have hzσ : 0 < z * σ := mul_pos hz.1 hσ0
  have hne : nearest 0 est = max 0 est := by
    unfold nearest
    rw [max_comm, min_eq_left (max_le (by norm_num) h10)]
  have hsub : max 0 est - est = -(min est 0) := by
    rcases le_total est 0 with hh | hh
    · rw [max_eq_left hh, min_eq_left hh]; ring
    · rw [max_eq_right hh, min_eq_right hh]; ring
  have key : ∃ x, |x - (est + ρ)| ≤ tol x ∧ ∀ fuel, chi2Test fuel toms brent minimize (fun v => fin (-(gaussianLog c σ est v))) (fin (z ^ 2)) .right
      (poiProblem .right false (max 0 est) (fin (-(gaussianLog c σ est (max 0 est)))) (fin σ)) 3 nMulti = some (.ok [fin x]) := by
    rcases hcase with ⟨q1, q2, q3⟩ | ⟨q1, q2, q3⟩
    · exact gauss_right h0 ht hs (fun v => rfl) hσ0 rfl hz.1 q1 hρ (by rw [hsub, hρ2]; ring) hr q2 hδ q3 nMulti
    · have hpos : 0 < est := hzσ.trans q1
      rw [max_eq_right hpos.le] at hr hδ ⊢
      rw [min_eq_right hpos.le] at hρ2
      have : ρ = z * σ := by
        refine (sq_eq_sq₀ hρ.le hzσ.le).mp ?_
        rw [hρ2]; ring
      rw [this]
      exact gauss_right_seen h0 ht hs (fun v => rfl) hσ0 hz.1 hz6 q1 q2 hr hδ q3 nMulti
  obtain ⟨x, j1, j2⟩ := key
  refine ⟨x, j1, fun fuel => interval_ends (n := false) ⟨hCL, ?_⟩ (by simp) (r := max 0 est) (m := fin (-(gaussianLog c σ est (max 0 est)))) ?_ (k5 _ (k1.trans (le_max_left _ _))) k4 ?_⟩
  · have := Phi_pos (-z)
    have := hz.2
    linarith
  · have := k3 false
    simp only [Bool.false_eq_true, if_false, hne] at this
    exact this
  · rw [← hz.2, hisf z hz.1]
    exact j2 fuel

end

/-- The data 7 and 6 measure the strength `1 ± 1/√5`. -/
example (E : Ext) (draw : Vec × List Vec → ℕ → List Vec) (brent : UpperLimit.Solver) (minimize : Minimizer) (g : Bool) (ntoys : Size) (percentile : List F → F → F) (nMulti : ℕ) : ∃ m isf x₁ x₂,
    |x₁ - (1 - 2 * (1 / √5))| ≤ 1 / 1000 ∧ |x₂ - (1 + 2 * (1 / √5))| ≤ 1 / 1000 ∧ ∀ fuel, Ends (Plain 1) (chi2Interval fuel (bisection (1 / 1000)).solver brent minimize isf
      (modelMethods perfect (plugged E draw m) g none ntoys (fun _ => true) percentile) (modelSigma perfect exInv (plugged E draw m) g ntoys (fun _ => true) percentile) .observed (1 - 2 * Phi (-2)) .twoSided false 3 nMulti)
      (.ok (some [fin x₁, fin x₂])) := by
  obtain ⟨m, P, h1, h2, h3⟩ := exInterval_case E 7 6
  obtain ⟨isf, hisf⟩ := chiSquared_exists
  obtain ⟨s1, s2, s3, s4⟩ := exInterval_sigma
  norm_num at h2
  exact ⟨m, isf, C184_interval_partial perfect_exact perfect_finds draw h1 (inv := exInv) (fun x _ => rfl) .observed (est := 1) (σ := 1 / √5) (δ := 1 / 1000) (z := 2) h2.symm h3.symm (exInterval_central two_pos).1
    (exInterval_central two_pos).2 hisf (fun _ => by norm_num) (bisection_sound (by norm_num)) (bisection_succeeds (by norm_num)) minimize g ntoys _ percentile
    (fun i hi hy => by have := h1.background i hi; positivity) (by norm_num) (by norm_num) (by rw [s4]; norm_num) (fun _ _ => le_rfl) (by
      rw [s4]
      calc (1 / 1000 : ℝ) + max 1e-10 (1e-8 * (|1| + 3)) ≤ 2 * (4 / 10) := by norm_num
        _ ≤ _ := by linarith) nMulti false⟩

/-- The data 26 and 15 measure the strength `10.4 ± 1/√5`. -/
example (E : Ext) (draw : Vec × List Vec → ℕ → List Vec) (brent : UpperLimit.Solver) (minimize : Minimizer) (g : Bool) (ntoys : Size) (percentile : List F → F → F) : ∃ m isf ρ x₁ x₂,
    2 * (1 / √5) < ρ ∧ |x₁ - (52 / 5 - ρ)| ≤ 1 / 1000 ∧ |x₂ - (52 / 5 + ρ)| ≤ 1 / 1000 ∧ ∀ fuel, Ends (Plain 1) (chi2Interval fuel (bisection (1 / 1000)).solver brent minimize isf
      (modelMethods perfect (plugged E draw m) g none ntoys (fun _ => true) percentile) (modelSigma perfect exInv (plugged E draw m) g ntoys (fun _ => true) percentile) .observed (1 - 2 * Phi (-2)) .twoSided false 3 2)
      (.ok (some [fin x₁, fin x₂])) := by
  obtain ⟨m, P, h1, h2, h3⟩ := exInterval_case E 26 15
  obtain ⟨isf, hisf⟩ := chiSquared_exists
  obtain ⟨s1, s2, s3, s4⟩ := exInterval_sigma
  norm_num at h2
  have r1 : 0.9 ≤ √(24 / 25) := Real.le_sqrt_of_sq_le (by norm_num)
  have r2 : √(24 / 25) ≤ 1 := Real.sqrt_le_left (by norm_num) |>.mpr (by norm_num)
  obtain ⟨k1, x₁, x₂, k2⟩ := C184_bound_fails (brent := brent) perfect_exact perfect_finds draw h1 (inv := exInv) (fun x _ => rfl) .observed (est := 52 / 5) (σ := 1 / √5) (δ := 1 / 1000) (z := 2) h2.symm h3.symm
    (exInterval_central two_pos).1 (exInterval_central two_pos).2 hisf (fun _ => by norm_num) (bisection_sound (by norm_num)) (bisection_succeeds (by norm_num)) minimize g ntoys (fun _ => true) percentile (ρ := √(24 / 25))
    (by norm_num) (by positivity) (by rw [s3, Real.sq_sqrt (by norm_num)]; norm_num) (by rw [s4]; linarith) (by rw [s4]; norm_num) (fun _ _ => le_rfl) (by
      rw [s4]
      calc (1 / 1000 : ℝ) + max 1e-10 (1e-8 * (10 + 3)) ≤ 0.9 - (52 / 5 - 10) := by norm_num
        _ ≤ _ := by linarith) false
  exact ⟨m, isf, _, x₁, x₂, k1, k2⟩

/-- The upper end of the interval with three standard deviations, for the data 7 and 6. -/
example (E : Ext) (draw : Vec × List Vec → ℕ → List Vec) (brent : UpperLimit.Solver) (minimize : Minimizer) (g : Bool) (ntoys : Size) (percentile : List F → F → F) (nMulti : ℕ) : ∃ m isf x,
    |x - (1 + 3 * (1 / √5))| ≤ 1 / 1000 ∧ ∀ fuel, Ends (Plain 1) (chi2Interval fuel (bisection (1 / 1000)).solver brent minimize isf
      (modelMethods perfect (plugged E draw m) g none ntoys (fun _ => true) percentile) (modelSigma perfect exInv (plugged E draw m) g ntoys (fun _ => true) percentile) .observed (1 - 2 * Phi (-3)) .right false 3 nMulti)
      (.ok (some [fin x])) := by
  obtain ⟨m, P, h1, h2, h3⟩ := exInterval_case E 7 6
  obtain ⟨isf, hisf⟩ := chiSquared_exists
  obtain ⟨s1, s2, s3, s4⟩ := exInterval_sigma
  norm_num at h2
  exact ⟨m, isf, C184_right perfect_exact perfect_finds draw h1 (inv := exInv) (fun x _ => rfl) .observed (est := 1) (σ := 1 / √5) (δ := 1 / 1000) (z := 3) h2.symm h3.symm (exInterval_central three_pos).1
    (exInterval_central three_pos).2 hisf (fun _ => by norm_num) (bisection_sound (by norm_num)) (bisection_succeeds (by norm_num)) minimize g ntoys _ percentile (by norm_num) (by norm_num) nMulti (by positivity)
    (by rw [min_eq_right (by norm_num)]; ring) (by rw [s4]; norm_num) (fun _ _ _ => le_rfl) (.inl (by
      rw [s4, max_eq_right (by norm_num)]
      exact ⟨by linarith, by linarith, (by norm_num : (1 / 1000 : ℝ) + 1e-12 < 1).trans (by linarith)⟩))⟩

/-- C184. How often the interval misses the true signal strength `u`, if the data follow the model: the probability that `chi2_test` is used in the conditions of `C184_interval_partial` and that its interval does not contain `u` up
to the tolerance of the root finder is at most `1 - CL`. -/
theorem C184_coverage {Ω : Type} [MeasurableSpace Ω] {μ : Measure Ω} [IsProbabilityMeasure μ] {E : Ext} {a : Args} {P C : ℕ → ℕ → ℝ} {y : Vec} {u : ℝ} {X : Ω → Vec} {m : Ω → Backend.Model}
    (hx : Toys.Experiments μ E a P C y u X m) {S : Solver} (hS : Exact S) (hT : Finds S) (draw : Vec × List Vec → ℕ → List Vec)
    {inv : List (List ℝ) → Except Interface.Err (List (List ℝ))} (hinv : InvertsNumbers inv) {σ CL z δ : ℝ} (hσ : σ = deviation a.background.length P (at' y)) (hz : Central CL z) (hCL : 0 ≤ CL)
    {isf : ℝ → F} (hisf : ChiSquared isf) {tol : ℝ → ℝ} (h0 : ∀ x, 0 ≤ tol x) {toms brent : UpperLimit.Solver} (ht : Sound tol toms) (hs : Succeeds toms) (minimize : Minimizer) (g : Bool)
    (ntoys : Size) (available : Calc → Bool) (percentile : List F → F → F) (hz6 : z < 6) (hδ : ∀ x, |x| ≤ 1e5 → tol x ≤ δ) (hd : δ + 1e-3 ≤ z * σ) (fuel nMulti : ℕ) (negative : Bool) :
    μ.real {ω | ∃ est, est = estimate a.background.length P (at' y) (at' a.background) (at' (X ω)) ∧ (∀ i < a.background.length, 0 < at' y i → 0 ≤ est * at' y i + at' a.background i) ∧ est ≤ 10 ∧
      |est| + span σ ≤ 1e5 ∧ ¬ ∃ x₁ x₂, x₁ ≤ u + tol x₁ ∧ u ≤ x₂ + tol x₂ ∧ ∀ w, Plain 1 w →
        (chi2Interval fuel toms brent minimize isf (modelMethods S (plugged E draw (m ω)) g none ntoys available percentile)
          (modelSigma S inv (plugged E draw (m ω)) g ntoys available percentile) .observed CL .twoSided negative 3 nMulti w).1 = .ok (some [fin x₁, fin x₂])} ≤ 1 - CL := by
  have hσ0 : 0 < σ := hσ ▸ deviation_pos hx.informative
  have hup := (hx.strength (u + z * σ)).2
  have hdown := (hx.strength (u - z * σ)).1
  rw [← hσ] at hup hdown
  have e1 : (u - (u + z * σ)) / σ = -z := by field_simp; ring
  have e2 : (u - z * σ - u) / σ = -z := by field_simp; ring
  rw [e1] at hup
  rw [e2] at hdown
  have hsub : {ω | ∃ est, est = estimate a.background.length P (at' y) (at' a.background) (at' (X ω)) ∧ (∀ i < a.background.length, 0 < at' y i → 0 ≤ est * at' y i + at' a.background i) ∧ est ≤ 10 ∧
      |est| + span σ ≤ 1e5 ∧ ¬ ∃ x₁ x₂, x₁ ≤ u + tol x₁ ∧ u ≤ x₂ + tol x₂ ∧ ∀ w, Plain 1 w →
        (chi2Interval fuel toms brent minimize isf (modelMethods S (plugged E draw (m ω)) g none ntoys available percentile)
          (modelSigma S inv (plugged E draw (m ω)) g ntoys available percentile) .observed CL .twoSided negative 3 nMulti w).1 = .ok (some [fin x₁, fin x₂])} ⊆
      {ω | u + z * σ ≤ estimate a.background.length P (at' y) (at' a.background) (at' (X ω))} ∪ {ω | estimate a.background.length P (at' y) (at' a.background) (at' (X ω)) ≤ u - z * σ} := by
    rintro ω ⟨est, hest, q1, q2, q3, q4⟩
    have hk : ({ a with data := X ω } : Args).data.length = a.background.length := hx.length ω
    have hg : δ + max 1e-10 (1e-8 * (|est| + span σ)) ≤ z * σ := by
      refine le_trans (add_le_add le_rfl (max_le (by norm_num) ?_)) hd
      calc (1e-8 : ℝ) * (|est| + span σ) ≤ 1e-8 * 1e5 := mul_le_mul_of_nonneg_left q3 (by norm_num)
        _ ≤ 1e-3 := by norm_num
    have hw : ∀ x, |x - est| ≤ span σ → tol x ≤ δ := by
      intro x hxs
      refine hδ x (le_trans ?_ q3)
      calc |x| = |(x - est) + est| := by rw [sub_add_cancel]
        _ ≤ |x - est| + |est| := abs_add_le _ _
        _ ≤ |est| + span σ := by linarith
    obtain ⟨x₁, x₂, j1, j2, j3⟩ := C184_interval_partial (brent := brent) hS hT draw (hx.models ω) hinv .observed (est := est) (by rw [hk]; exact hest) (by rw [hk]; exact hσ) hz hCL hisf h0 ht hs minimize g ntoys available percentile
      (by rw [hk]; exact q1) q2 hz6 q3 hw hg nMulti negative
    rw [abs_le] at j1 j2
    rw [hest] at j1 j2
    by_contra hn
    rw [Set.mem_union, not_or, Set.mem_ofPred_eq, Set.mem_ofPred_eq, not_le, not_le] at hn
    exact q4 ⟨x₁, x₂, by linarith, by linarith, fun w hw' => (j3 fuel w hw').1⟩
  calc _ ≤ _ := measureReal_mono hsub
    _ ≤ _ := measureReal_union_le _ _
    _ = 1 - CL := by rw [hup, hdown, ← hz.2]; ring

/-- The two-sided intervals with two standard deviations miss a signal of strength 2 at most with the probability of two standard deviations. -/
example (E : Ext) (draw : Vec × List Vec → ℕ → List Vec) (brent : UpperLimit.Solver) (minimize : Minimizer) (g : Bool) (ntoys : Size) (percentile : List F → F → F) (fuel nMulti : ℕ) :
    ∃ (X : (ℕ × ℕ → ℝ) → Vec) (m : (ℕ × ℕ → ℝ) → Backend.Model) (isf : ℝ → F), (Measure.infinitePi fun _ : ℕ × ℕ => gaussianReal 0 1).real {ω | ∃ est,
      est = estimate 2 (independent (at' [1, 1])) (at' [2, 1]) (at' [5, 5]) (at' (X ω)) ∧ (∀ i < 2, 0 < at' [2, 1] i → 0 ≤ est * at' [2, 1] i + at' [5, 5] i) ∧ est ≤ 10 ∧ |est| + span (1 / √5) ≤ 1e5 ∧
      ¬ ∃ x₁ x₂, x₁ ≤ 2 + 1 / 1000 ∧ 2 ≤ x₂ + 1 / 1000 ∧ ∀ w, Plain 1 w → (chi2Interval fuel (bisection (1 / 1000)).solver brent minimize isf
        (modelMethods perfect (plugged E draw (m ω)) g none ntoys (fun _ => true) percentile) (modelSigma perfect exInv (plugged E draw (m ω)) g ntoys (fun _ => true) percentile) .observed (1 - 2 * Phi (-2))
        .twoSided false 3 nMulti w).1 = .ok (some [fin x₁, fin x₂])} ≤ 1 - (1 - 2 * Phi (-2)) := by
  obtain ⟨X, m, h⟩ := Toys.exGauss_experiments E 2
  obtain ⟨isf, hisf⟩ := chiSquared_exists
  obtain ⟨s1, s2, s3, s4⟩ := exInterval_sigma
  have hdev : deviation 2 (independent (at' [1, 1])) (at' [2, 1]) = 1 / √5 := by
    unfold deviation
    rw [form_independent]
    norm_num [Finset.sum_range_succ, at']
  exact ⟨X, m, isf, C184_coverage h perfect_exact perfect_finds draw (inv := exInv) (fun x _ => rfl) (σ := 1 / √5) (δ := 1 / 1000) hdev.symm (exInterval_central two_pos).1
    (exInterval_central two_pos).2 hisf (fun _ => by norm_num) (bisection_sound (by norm_num)) (bisection_succeeds (by norm_num)) minimize g ntoys _ percentile (by norm_num) (fun _ _ => le_rfl)
    (by
      calc (1 / 1000 : ℝ) + 1e-3 ≤ 2 * (4 / 10) := by norm_num
        _ ≤ _ := by linarith) fuel nMulti false⟩

end Verif.Interval
