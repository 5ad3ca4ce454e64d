import Verif.Interval.SoundProps
import Verif.Joint.GaussianProps

/-!
# Property C189: `chi2_test` of combinations of Gaussian models
-/

namespace Verif.Interval
open Verif.Py F Verif.Hypotest Verif.Chi2 Verif.Chain
open Verif.Interface (World Size Plain Solver perfect)
open Verif.Backend (Ext Vec Args at')
open Verif.Stats (Expect Calc gaussianLog)
open Verif.UpperLimit (Sound Succeeds)
open Verif.Joint (combined members member Reliable Distinct All pooled pooledDeviation)

/-- `sigma_mu` of a combination as `chi2_test` calls it: there is no Hessian. -/
noncomputable abbrev jointSigma {σ : Type} (M : Methods σ) : Expect → ℝ → Comp σ F := fun e v => sigmaMu M none (.float v) e "qtilde"

section
variable {fit : Joint.Minimizer (ℕ → World)} (hfit : Reliable fit) {S : Solver} (hS : Exact S) (hT : Finds S) {E : Ext} (draw : Vec × List Vec → ℕ → List Vec) {n : ℕ} (hn : 0 < n)
  {a : ℕ → Args} {m : ℕ → Backend.Model} {Q : ℕ → ℕ → ℕ → ℝ} {y : ℕ → Vec} (h : ∀ i < n, Case E (a i) (m i) (Q i) (y i)) {name : ℕ → String}
  (hname : Distinct n name) {inv : List (List ℝ) → Except Interface.Err (List (List ℝ))} (hinv : InvertsNumbers inv) (g : Bool) (ntoys : Size)
  (available : ℕ → Calc → Bool) (percentile percentile' : List F → F → F) (e : Expect) {est dev : ℕ → ℝ}
  (hest : ∀ i < n, est i = estimate (a i).data.length (Q i) (at' (y i)) (at' (a i).background) (at' (used (a i) e)))
  (hdev : ∀ i < n, dev i = deviation (a i).data.length (Q i) (at' (y i))) {x σ : ℝ} (hx : x = pooled n est dev) (hσ : σ = pooledDeviation n dev) (hxp : x < 0 → ∀ i < n, ∀ j < (a i).data.length, 0 < at' (y i) j → 0 ≤ x * at' (y i) j + at' (a i).background j) (h10 : x ≤ 10)
  {CL z : ℝ} (hz : Central CL z) {isf : ℝ → F} (hisf : ChiSquared isf) {tol : ℝ → ℝ} (h0 : ∀ x, 0 ≤ tol x) {toms : UpperLimit.Solver} (ht : Sound tol toms)

include hfit hS hT hn h hname hinv hdev in
/-- C189. `sigma_mu` of a combination is the standard deviation of the weighted mean for positive strengths only; for others the Asimov statistic is zero, and `sigma_mu` one. -/
theorem C189_sigma (v : ℝ) : Ends (All n fun _ => 1) (jointSigma (combined fit (members n name S inv E draw m g ntoys available percentile') percentile) e v)
    (.ok (fin (if 0 < v then pooledDeviation n dev else 1))) := by
  by_cases hv : 0 < v
  · rw [if_pos hv]
    exact Joint.C124_sigma hfit hS hT draw hn h hname hinv g ntoys available percentile percentile' e hdev hv
  obtain ⟨low, c, c', hl0, hlow, hc⟩ := Joint.gaussian_calls hfit hS hT draw hn h hname.nodup hinv g ntoys available percentile' e (fun _ _ => rfl) hdev
  have hm : Interface.mayBeNegative "qtilde" = false := by simp [Interface.mayBeNegative]
  have hst : Joint.strength "qtilde" = 0 := by simp [Joint.strength]
  have hA := hc.bestA "qtilde"
  have hAl := fun u => hc.asimov "qtilde" u
  rw [hm, hst] at hA
  simp only [hst] at hAl
  have hn0 : nearest 0 0 = 0 := by norm_num [nearest]
  simp only [Bool.false_eq_true, if_false, hn0] at hA
  obtain ⟨w, hw⟩ := Joint.plain_exists 1
  obtain ⟨t, ht, hE⟩ := C115_types_partial (I := All n fun _ => 1) ⟨fun _ => w, fun _ _ => hw⟩ (combined fit (members n name S inv E draw m g ntoys available percentile') percentile) none
    (.float v) v rfl (by simp) e (by simp) "qtilde" (by simp) _ _ _ _ ⟨hA, hAl v, hAl 0⟩
  rw [if_neg hv]
  rw [if_pos ?_] at hE
  · exact hE
  rw [show t = Stats.qmuTilde from (Except.ok.inj ht).symm]
  rcases (not_lt.mp hv).lt_or_eq with hv' | rfl
  · simp [Stats.Fit.stat, fitOf, Stats.qmuTilde, lt, le, hv']
  · simp [Stats.Fit.stat, fitOf, Stats.qmuTilde, lt, le, neg, sub, add, scale, clip0]

include hfit hS hT hn h hname hinv hest hdev hx hσ hxp h10 hz hisf h0 ht

/-- C189. `chi2_test` of a combination of Gaussian models of spey, with the default limit type and `n_scan=3`, gives the two ends of the central interval of the weighted mean of the least squares estimates, up to
the tolerance of the root finder. Conditions: the mean is allowed in the fit, the models have different names, the interval is inside the window of the search, whose width is that of `sigma_mu`, so for means that are
not positive independent of the standard deviation, and the window is not cut at `±1e5`, and the root finder is more accurate than the width of the interval. -/
theorem C189_interval (hs : Succeeds toms) (brent : UpperLimit.Solver) (minimize : Minimizer) {δ : ℝ} {s : ℝ} (hs' : s = span (if 0 < x then σ else 1)) (hCL : 0 ≤ CL) (hz6 : z * σ < s) (hr : |x| + s ≤ 1e5) (hδ : ∀ u, |u - x| ≤ s → tol u ≤ δ)
    (hd : δ + max 1e-10 (1e-8 * (|x| + s)) ≤ z * σ) (nMulti : ℕ) (negative : Bool) :
    ∃ x₁ x₂, |x₁ - (x - z * σ)| ≤ tol x₁ ∧ |x₂ - (x + z * σ)| ≤ tol x₂ ∧ ∀ fuel,
      Ends (All n fun _ => 1) (chi2Interval fuel toms brent minimize isf (combined fit (members n name S inv E draw m g ntoys available percentile') percentile)
        (jointSigma (combined fit (members n name S inv E draw m g ntoys available percentile') percentile)) e CL .twoSided negative 3 nMulti) (.ok (some [fin x₁, fin x₂])) := by
  have hsig := C189_sigma hfit hS hT draw hn h hname hinv g ntoys available percentile percentile' e hdev x
  obtain ⟨low, c, c', hl0, hlow, hc⟩ := Joint.gaussian_calls hfit hS hT draw hn h hname.nodup hinv g ntoys available percentile' e hest hdev
  rw [← hx, ← hσ] at hc
  rw [← hσ] at hsig
  have hσ0 : 0 < σ := hσ ▸ Joint.pooledDeviation_pos hn fun i hi => hdev i hi ▸ deviation_pos (h i hi).informative
  have hzσ : 0 < z * σ := mul_pos hz.1 hσ0
  have hlx : low ≤ x := (lt_or_ge x 0).elim (fun k => hlow x (hxp k)) fun k => hl0.trans k
  have hne : nearest low x = x := by
    unfold nearest
    rw [max_eq_left hlx, min_eq_left h10]
  obtain ⟨s', hs''⟩ : ∃ s', s' = if 0 < x then σ else 1 := ⟨_, rfl⟩
  have hs0 : 0 < s' := by
    rw [hs'']
    split
    · exact hσ0
    · exact one_pos
  rw [← hs''] at hsig hs'
  subst hs'
  obtain ⟨x₁, x₂, j1, j2, j3⟩ := gauss_two (c := c) (z := z) (brent := brent) (minimize := minimize) (nMulti := nMulti) h0 ht hs (fun v => rfl) hσ0 hs0 hzσ (by ring : (z * σ) ^ 2 = z ^ 2 * σ ^ 2 + (x - x) ^ 2)
    (by simpa using hr) (by linarith) (by linarith) (fun u m1 m2 => hδ u (abs_le.mpr ⟨by linarith, by linarith⟩)) (by simpa using hd) (fun u _ => by nlinarith [sq_nonneg (u - x)]) negative
  refine ⟨x₁, x₂, j1, j2, fun fuel => interval_ends (n := true) ⟨hCL, ?_⟩ (by simp) (r := x) (m := fin (-(gaussianLog c σ x x))) ?_ hsig (L := fun v => fin (-(gaussianLog c σ x v)))
    (fun v w hw => (hc.likelihood v w hw).1) ?_⟩
  · have := Phi_pos (-z)
    have := hz.2
    linarith
  · have := hc.best true
    simp only [if_true, hne] at this
    exact this
  · rw [← hz.2, hisf z hz.1]
    exact j3 fuel

/-- C189. Whatever side, numbers of points and starts of the scan (for upper limits with a negative mean only with negative signals): everything that `chi2_test` returns for such a combination is nan, a limit of the search, or an end of the central interval up to the tolerance of
the root finder. Two-sided results have at least two values. -/
theorem C189_sound {brent : UpperLimit.Solver} (hbr : Sound tol brent) {minimize : Minimizer} (hm : Honest minimize) (t : LimitType) (negative : Bool) (hneg : x < 0 → negative = true ∨ t ≠ .right) (fuel nScan nMulti : ℕ) (w : ℕ → World)
    (hw : All n (fun _ => 1) w) (L : List F)
    (hr : (chi2Interval fuel toms brent minimize isf (combined fit (members n name S inv E draw m g ntoys available percentile') percentile)
        (jointSigma (combined fit (members n name S inv E draw m g ntoys available percentile') percentile)) e CL t negative nScan nMulti w).1 = .ok (some L)) :
    (∀ v ∈ L, v = nan ∨ v = fin (-1e5) ∨ v = fin 1e5 ∨ ∃ u, v = fin u ∧ (|u - (x - z * σ)| ≤ tol u ∨ |u - (x + z * σ)| ≤ tol u)) ∧ (t = .twoSided → 2 ≤ L.length) := by
  have hsig := C189_sigma hfit hS hT draw hn h hname hinv g ntoys available percentile percentile' e hdev x
  obtain ⟨low, c, c', hl0, hlow, hc⟩ := Joint.gaussian_calls hfit hS hT draw hn h hname.nodup hinv g ntoys available percentile' e hest hdev
  rw [← hx, ← hσ] at hc
  have hσ0 : 0 < σ := hσ ▸ Joint.pooledDeviation_pos hn fun i hi => hdev i hi ▸ deviation_pos (h i hi).informative
  obtain ⟨n', hn'⟩ : ∃ n', (negative || decide (t = .twoSided) || decide (t = .left)) = n' := ⟨_, rfl⟩
  have hlx : (if n' then low else 0) ≤ x := by
    rcases lt_or_ge x 0 with k | k
    · have : n' = true := by
        rw [← hn']
        rcases hneg k with rfl | h1
        · rfl
        · cases t <;> simp_all
      rw [this]
      exact hlow x (hxp k)
    · split
      · exact hl0.trans k
      · exact k
  have hne : nearest (if n' then low else 0) x = x := by
    unfold nearest
    rw [max_eq_left hlx, min_eq_left h10]
  have hmax := hc.best n'
  rw [hne] at hmax
  obtain ⟨s, w', hw', hcc⟩ := interval_reads hn' hmax (fun w hw => (hsig w hw).2) hw hr
  rw [← hz.2, hisf z hz.1] at hcc
  refine gauss_values (fun v => ?_) hσ0 hz.1 h0 ht hbr hm hcc
  have hv : ((combined fit (members n name S inv E draw m g ntoys available percentile') percentile).likelihood e none v w').1 = .ok (fin (-(gaussianLog c σ x v))) := (hc.likelihood v w' hw').1
  unfold nllFn
  rw [hv]

end

/-- The combination of `1 ± 1/√5` and `3 ± 1/√5` gives the interval `2 ± 2/√10`. -/
example (E : Ext) (draw : Vec × List Vec → ℕ → List Vec) (g : Bool) (ntoys : Size) (w : ℕ → World) (hw : All 2 (fun _ => 1) w) : ∃ m isf L, ChiSquared isf ∧
    (chi2Interval 5 (bisection (1 / 1000)).solver (bisection (1 / 1000)).solver (fun _ _ _ => none) isf
      (combined Joint.ideal (members 2 (fun i => if i = 0 then "a" else "b") perfect Joint.exInverse E draw m g ntoys (fun _ _ => true) fun _ _ => nan) fun _ _ => nan)
      (jointSigma (combined Joint.ideal (members 2 (fun i => if i = 0 then "a" else "b") perfect Joint.exInverse E draw m g ntoys (fun _ _ => true) fun _ _ => nan) fun _ _ => nan)) .observed
      (1 - 2 * Phi (-2)) .twoSided false 3 2 w).1 = .ok (some L) ∧ (∃ x₁ x₂, L = [fin x₁, fin x₂] ∧ |x₁ - (2 - 2 * (1 / √10))| ≤ 1 / 1000 ∧ |x₂ - (2 + 2 * (1 / √10))| ≤ 1 / 1000) ∧
    ∀ v ∈ L, v = nan ∨ v = fin (-1e5) ∨ v = fin 1e5 ∨ ∃ u, v = fin u ∧ (|u - (2 - 2 * (1 / √10))| ≤ 1 / 1000 ∨ |u - (2 + 2 * (1 / √10))| ≤ 1 / 1000) := by
  obtain ⟨a, m, Q, y, est, dev, h, h1, h2, h3, h4, -⟩ := Joint.exTwo E
  obtain ⟨isf, hisf⟩ := chiSquared_exists
  have hs : (1 / 4 : ℝ) ≤ 1 / √10 ∧ 1 / √10 ≤ 1 / 3 := by
    constructor
    · refine one_div_le_one_div_of_le (by positivity) ?_
      rw [Real.sqrt_le_left (by norm_num)]
      norm_num
    · refine one_div_le_one_div_of_le (by norm_num) ?_
      rw [Real.le_sqrt (by norm_num) (by norm_num)]
      norm_num
  have hspan : span (1 / √10) = 3 := max_eq_right (by linarith)
  obtain ⟨x₁, x₂, k1, k2, k3⟩ := C189_interval Joint.ideal_reliable perfect_exact perfect_finds draw (by norm_num) h Joint.exNames (inv := Joint.exInverse) (fun _ _ => rfl) g ntoys (fun _ _ => true)
    (fun _ _ => nan) (fun _ _ => nan) .observed h1 h2 h3.symm h4.symm (by norm_num) (by norm_num) (exInterval_central two_pos).1 hisf (tol := fun _ => 1 / 1000) (fun _ => by norm_num)
    (bisection_sound (tol := 1 / 1000) (by norm_num)) (bisection_succeeds (tol := 1 / 1000) (by norm_num)) (bisection (1 / 1000)).solver (fun _ _ _ => none) (δ := 1 / 1000) (s := 3) (by rw [if_pos two_pos, hspan]) (exInterval_central two_pos).2 (by linarith)
    (by norm_num) (fun _ _ => le_rfl) (by
      calc (1 / 1000 : ℝ) + max 1e-10 (1e-8 * (|2| + 3)) ≤ 2 * (1 / 4) := by norm_num
        _ ≤ _ := by linarith) 2 false
  refine ⟨m, isf, _, hisf, (k3 5 w hw).1, ⟨x₁, x₂, rfl, k1, k2⟩, ?_⟩
  exact (C189_sound Joint.ideal_reliable perfect_exact perfect_finds draw (by norm_num) h Joint.exNames (inv := Joint.exInverse) (fun _ _ => rfl) g ntoys (fun _ _ => true)
    (fun _ _ => nan) (fun _ _ => nan) .observed h1 h2 h3.symm h4.symm (by norm_num) (by norm_num) (exInterval_central two_pos).1 hisf (tol := fun _ => 1 / 1000) (fun _ => by norm_num)
    (bisection_sound (tol := 1 / 1000) (by norm_num)) (bisection_sound (tol := 1 / 1000) (by norm_num)) (minimize := fun _ _ _ => none) (by simp [Honest]) .twoSided false (fun _ => .inr (by simp)) 5 3 2 w hw _ (k3 5 w hw).1).1

/-- Two measurements of a deficit: both `-1 ± 1/√5`; together `-1 ± 1/√10`. -/
theorem exDeficit (E : Ext) : ∃ (a : Args) (m : Backend.Model) (Q : ℕ → ℕ → ℝ), Case E a m Q [2, 1] ∧
    estimate a.data.length Q (at' [2, 1]) (at' a.background) (at' a.data) = -1 ∧ deviation a.data.length Q (at' [2, 1]) = 1 / √5 ∧ pooled 2 (fun _ => -1) (fun _ => 1 / √5) = -1 ∧
    pooledDeviation 2 (fun _ => 1 / √5) = 1 / √10 ∧ a.data.length = 2 ∧ a.background = [5, 5] := by
  have : ∃ m, Backend.gaussian { exGaussArgs with data := [3, 4] } [1, 1] = .ok m := by
    unfold Backend.gaussian Backend.simpleConfig
    simp only [exGaussArgs, Backend.minimumPoi, exGauss_alive, if_true, Backend.ok_bind, Backend.sigBounds]
    exact ⟨_, rfl⟩
  obtain ⟨m1, hm⟩ := this
  have hform : ∀ x y, form 2 (independent (at' [1, 1])) x y = x 0 * y 0 + x 1 * y 1 := by
    intro x y
    rw [form_independent]
    simp [Finset.sum_range_succ, at']
  have hsq : √5 ^ 2 = 5 := Real.sq_sqrt (by norm_num)
  refine ⟨{ exGaussArgs with data := [3, 4] }, m1, independent (at' [1, 1]), ⟨.normal [1, 1] hm rfl fun i hi => ?_, ⟨rfl, rfl⟩, rfl, rfl, rfl, ?_, ⟨0, by simp, by simp [at']⟩, fun i hi => ?_⟩, ?_, ?_, ?_, ?_, rfl, rfl⟩
  · have hi : i < 2 := hi
    interval_cases i <;> simp [at']
  · change 0 < form 2 _ _ _
    rw [hform]
    norm_num [at']
  · have hi : i < 2 := hi
    interval_cases i <;> simp [exGaussArgs, at']
  · change estimate 2 (independent (at' [1, 1])) (at' [2, 1]) (at' [5, 5]) (at' [3, 4]) = -1
    unfold estimate
    rw [hform, hform]
    norm_num [at']
  · change deviation 2 (independent (at' [1, 1])) (at' [2, 1]) = 1 / √5
    unfold deviation
    rw [hform]
    norm_num [at']
  · unfold pooled
    simp only [Finset.sum_range_succ, Finset.sum_range_zero, one_div, inv_pow, hsq]
    norm_num
  · unfold pooledDeviation
    simp only [Finset.sum_range_succ, Finset.sum_range_zero, one_div, inv_pow, hsq]
    norm_num

/-- Their combination gives `-1 ± 2/√10`, from a window of half width six. -/
example (E : Ext) (draw : Vec × List Vec → ℕ → List Vec) (g : Bool) (ntoys : Size) (w : ℕ → World) (hw : All 2 (fun _ => 1) w) : ∃ m isf x₁ x₂, ChiSquared isf ∧
    (chi2Interval 5 (bisection (1 / 1000)).solver (bisection (1 / 1000)).solver (fun _ _ _ => none) isf
      (combined Joint.ideal (members 2 (fun i => if i = 0 then "a" else "b") perfect Joint.exInverse E draw m g ntoys (fun _ _ => true) fun _ _ => nan) fun _ _ => nan)
      (jointSigma (combined Joint.ideal (members 2 (fun i => if i = 0 then "a" else "b") perfect Joint.exInverse E draw m g ntoys (fun _ _ => true) fun _ _ => nan) fun _ _ => nan)) .observed
      (1 - 2 * Phi (-2)) .twoSided false 3 2 w).1 = .ok (some [fin x₁, fin x₂]) ∧ |x₁ - (-1 - 2 * (1 / √10))| ≤ 1 / 1000 ∧ |x₂ - (-1 + 2 * (1 / √10))| ≤ 1 / 1000 := by
  obtain ⟨a, m, Q, h, h1, h2, h3, h4, h5, h6⟩ := exDeficit E
  obtain ⟨isf, hisf⟩ := chiSquared_exists
  have hs : (1 / 4 : ℝ) ≤ 1 / √10 ∧ 1 / √10 ≤ 1 / 3 := by
    constructor
    · refine one_div_le_one_div_of_le (by positivity) ?_
      rw [Real.sqrt_le_left (by norm_num)]
      norm_num
    · refine one_div_le_one_div_of_le (by norm_num) ?_
      rw [Real.le_sqrt (by norm_num) (by norm_num)]
      norm_num
  obtain ⟨x₁, x₂, k1, k2, k3⟩ := C189_interval Joint.ideal_reliable perfect_exact perfect_finds draw (by norm_num) (a := fun _ => a) (m := fun _ => m) (Q := fun _ => Q) (y := fun _ => [2, 1]) (fun _ _ => h)
    Joint.exNames (inv := Joint.exInverse) (fun _ _ => rfl) g ntoys (fun _ _ => true) (fun _ _ => nan) (fun _ _ => nan) .observed (est := fun _ => -1) (dev := fun _ => 1 / √5) (fun _ _ => h1.symm)
    (fun _ _ => h2.symm) h3.symm h4.symm (by
      intro _ i _ j hj _
      rw [h5] at hj
      rw [h6]
      interval_cases j <;> norm_num [at']) (by norm_num) (exInterval_central two_pos).1 hisf (tol := fun _ => 1 / 1000) (fun _ => by norm_num)
    (bisection_sound (tol := 1 / 1000) (by norm_num)) (bisection_succeeds (tol := 1 / 1000) (by norm_num)) (bisection (1 / 1000)).solver (fun _ _ _ => none) (δ := 1 / 1000) (s := 6)
    (by rw [if_neg (by norm_num)]; norm_num [span]) (exInterval_central two_pos).2 (by linarith) (by norm_num) (fun _ _ => le_rfl) (by
      calc (1 / 1000 : ℝ) + max 1e-10 (1e-8 * (|-1| + 6)) ≤ 2 * (1 / 4) := by norm_num
        _ ≤ _ := by linarith) 2 false
  exact ⟨fun _ => m, isf, x₁, x₂, hisf, (k3 5 w hw).1, k1, k2⟩

end Verif.Interval
