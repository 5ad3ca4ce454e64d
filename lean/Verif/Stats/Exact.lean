import Verif.Stats.Props

/-!
# Properties C104 and C105: hypotheses on the near side of the best fit, and the Gaussian case
-/

namespace Verif.Stats
open Verif.Py F
open Classical

/-! ## C104 -/

/-- The fit `D` found its best value above `mu`, or at `mu` itself with the likelihood that belongs to it. -/
def UpToBestFit (D : Fit) (mu : F) : Prop :=
  lt mu D.muhat ∨ (mu = D.muhat ∧ ∃ v v0 : ℝ, D.nll = fin (-v) ∧ D.logpdf mu = fin v ∧ D.logpdf (fin 0) = fin v0 ∧ v0 ≤ v)

theorem stat_upTo {neg : Bool} {t : TestStat} (ht : getTestStatistic (if neg then "q" else "qtilde") = .ok t) {D : Fit} {mu : F}
    (h : UpToBestFit D mu) : D.stat t mu = fin 0 := by
  have hn : ∀ x : F, ¬ lt x x := by intro x; cases x <;> simp [lt]
  have hcases : t = qmu ∨ t = qmuTilde := by
    cases neg
    · right; simpa [get_qtilde] using ht.symm
    · left; simpa [get_q] using ht.symm
  rcases h with h | ⟨rfl, v, v0, h1, h2, h3, h4⟩
  · rcases hcases with rfl | rfl <;> simp [Fit.stat, qmu, qmuTilde, h]
  · rcases hcases with rfl | rfl
    · simp [Fit.stat, qmu, hn, h1, h2, sub, add, F.neg, scale, clip0]
    · by_cases h0 : le (fin 0) D.muhat
      · simp [Fit.stat, qmuTilde, hn, h0, h1, h2, sub, add, F.neg, scale, clip0]
      · simp [Fit.stat, qmuTilde, hn, h0, h2, h3, sub, add, F.neg, scale, clip0]
        linarith

theorem Phi_half_ratio {a : ℝ} (ha : 0 ≤ a) : 1 / 2 ≤ Phi 0 / Phi a ∧ Phi 0 / Phi a ≤ 1 := by
  have h1 : Phi 0 ≤ Phi a := Phi_mono ha
  have h2 := Phi_pos a
  constructor
  · rw [Phi_zero, le_div_iff₀ h2]
    nlinarith [Phi_le_one a]
  · rw [div_le_one h2]; exact h1

/-- With a statistic of zero the level is at most 1/2. -/
theorem zero_level (B : Backend) (mu : F) (neg : Bool) (hav : B.available .asymptotic = true) (t : TestStat)
    (ht : getTestStatistic (if neg then "q" else "qtilde") = .ok t) (hD : B.data.stat t mu = fin 0) :
    ∃ l : ℝ, exclusionConfidenceLevel B mu .observed neg .asymptotic = .ok (.one [fin l]) ∧ 0 ≤ l ∧ l ≤ 1 / 2 := by
  have hne := testName_ne neg
  rcases stat_statVal ht B.asimov mu with hA | hA | ⟨qA, hA0, hA⟩
  · refine ⟨0, ?_, le_refl _, by norm_num⟩
    unfold exclusionConfidenceLevel
    simp only [hav, if_true, calculatorPvalues, asymptoticPvalues]
    rw [compute_eq ht, hD, hA]
    have : shiftOf (if neg then "q" else "qtilde") (fin 0) nan = .ok (fin 0, nan, nan) := by
      cases neg <;> simp [shiftOf, sqrt_nan, sqrt_fin, sub_nan, le, scale, div, eq]
    simp only [this, asymptoticLevel_eq _ _ hne, pvalues_nan, List.map_cons, List.map_nil, level_nan]
  · refine ⟨0, ?_, le_refl _, by norm_num⟩
    unfold exclusionConfidenceLevel
    simp only [hav, if_true, calculatorPvalues, asymptoticPvalues]
    rw [compute_eq ht, hD, hA]
    have : shiftOf (if neg then "q" else "qtilde") (fin 0) pinf = .ok (fin 0, pinf, ninf) := by
      cases neg <;> simp [shiftOf, sqrt_pinf, sqrt_fin, sub, add, F.neg, le]
    simp only [this, asymptoticLevel_eq _ _ hne, List.map_cons, List.map_nil]
    simp [pvalues, asym_pvalue, sub, add, F.neg, cdf, div, eq, isNan]
  · have e : (if neg then Real.sqrt 0 - Real.sqrt qA else eq66 0 qA) = - Real.sqrt qA := by
      cases neg <;> simp [eq66, hA0]
    refine ⟨_, observed_level B mu neg t ht hav 0 qA le_rfl hA0 hD hA, ?_, ?_⟩ <;>
    · rw [e, if_neg (by rintro ⟨-, -, h⟩; exact lt_irrefl _ h), neg_neg, sub_self]
      have := Phi_half_ratio (Real.sqrt_nonneg qA)
      linarith [this.1, this.2]

/-- C104, asymptotic calculator: a signal strength up to the best fit is never excluded with more than level 1/2, whatever the Asimov
data say (also if their likelihood is nan or infinite). -/
theorem C104_asymptotic (B : Backend) (mu : F) (neg : Bool) (hav : B.available .asymptotic = true) (h : UpToBestFit B.data mu) :
    ∃ l : ℝ, exclusionConfidenceLevel B mu .observed neg .asymptotic = .ok (.one [fin l]) ∧ 0 ≤ l ∧ l ≤ 1 / 2 := by
  obtain ⟨t, ht⟩ := getName_ok neg
  exact zero_level B mu neg hav t ht (stat_upTo ht h)

example : UpToBestFit gaussBackend.data (fin 1) ∧ UpToBestFit gaussBackend.data (fin (1 / 2)) := by
  refine ⟨Or.inr ⟨rfl, 0, -1, ?_, ?_, ?_, ?_⟩, Or.inl ?_⟩ <;> norm_num [gaussBackend, lift, lt]

/-- C104, toys: if some toys are drawn and their statistics are numbers, a signal strength up to the best fit is not excluded at all.
Missing: toys with nan statistics, for which the claim is false (`C104_toys_fails`). -/
theorem C104_toys_partial (B : Backend) (mu : F) (neg : Bool) (t : TestStat)
    (ht : getTestStatistic (if neg then "q" else "qtilde") = .ok t) (hav : B.available .toy = true) (h : UpToBestFit B.data mu)
    (hs : ∀ D ∈ B.sigToys, D.stat t mu ≠ nan) (hb : ∀ D ∈ B.bkgToys, D.stat t mu ≠ nan) :
    exclusionConfidenceLevel B mu .observed neg .toy = .ok (.one [fin 0]) := by
  have hne := testName_ne neg
  have hD := stat_upTo ht h
  have key : ∀ l : List Fit, (∀ D ∈ l, D.stat t mu ≠ nan) →
      tailFraction (l.map (·.stat t mu)) (fin 0) = if l = [] then nan else fin 1 := by
    intro l hl
    have hc : (l.map (·.stat t mu)).countP (fun s => decide (le (fin 0) s)) = (l.map (·.stat t mu)).length := by
      rw [List.countP_eq_length]
      intro s hs'
      obtain ⟨D, hD', rfl⟩ := List.mem_map.mp hs'
      rcases stat_statVal ht D mu with h1 | h1 | ⟨r, h1, h2⟩
      · exact absurd h1 (hl D hD')
      · simp [h1, le]
      · simp [h2, le, h1]
    unfold tailFraction
    rw [hc]
    cases l with
    | nil => simp [div]
    | cons a l =>
      have : ((l.length : ℝ) + 1) ≠ 0 := by positivity
      simp [div, this]
  unfold exclusionConfidenceLevel
  simp only [hav, if_true, calculatorPvalues, toyPvalues]
  rw [ht]
  simp only [toyLevel, hD, if_neg hne, pvalues, empiricDist, key _ hs, key _ hb]
  by_cases h1 : B.sigToys = [] <;> by_cases h2 : B.bkgToys = [] <;> simp [h1, h2, eq, div, clip01, isNan, sub, add, F.neg]

example : getTestStatistic (if false then "q" else "qtilde") = .ok qmuTilde ∧ (fitOf 3).stat qmuTilde (fin 1) ≠ nan :=
  ⟨get_qtilde, by rw [fitOf_stat (by norm_num)]; simp⟩

/-- C104 is false for toys if the likelihood of the background toys cannot be evaluated: every signal strength up to the best fit is
reported as excluded with certainty. -/
theorem C104_toys_fails (B : Backend) (mu : F) (neg : Bool) (t : TestStat)
    (ht : getTestStatistic (if neg then "q" else "qtilde") = .ok t) (hav : B.available .toy = true)
    (hb : B.bkgToys ≠ []) (hbn : ∀ D ∈ B.bkgToys, D.stat t mu = nan) :
    exclusionConfidenceLevel B mu .observed neg .toy = .ok (.one [fin 1]) := by
  have hne := testName_ne neg
  have h2 : (B.bkgToys.length : ℝ) ≠ 0 := by exact_mod_cast (List.length_pos_iff.2 hb).ne'
  have key : tailFraction (B.bkgToys.map (·.stat t mu)) (B.data.stat t mu) = fin 0 := by
    have hc : (B.bkgToys.map (·.stat t mu)).countP (fun s => decide (le (B.data.stat t mu) s)) = 0 := by
      rw [List.countP_eq_zero]
      intro s hs'
      obtain ⟨D, hD', rfl⟩ := List.mem_map.mp hs'
      rw [hbn D hD', decide_eq_true_eq]
      cases B.data.stat t mu <;> exact id
    unfold tailFraction
    rw [hc]
    simp [div, h2]
  unfold exclusionConfidenceLevel
  simp only [hav, if_true, calculatorPvalues, toyPvalues]
  rw [ht]
  simp [toyLevel, if_neg hne, pvalues, empiricDist, key, eq, clip01, isNan, sub, add, F.neg]

example : ∃ B : Backend, B.available .toy = true ∧ B.bkgToys ≠ [] ∧ UpToBestFit B.data (fin 1) ∧
    ∀ D ∈ B.bkgToys, D.stat qmuTilde (fin 1) = nan := by
  refine ⟨⟨⟨fin 2, fin 0, lift fun x => -(x - 2) ^ 2⟩, fitOf 1, [fitOf 1], [⟨fin 0, fin 0, fun _ => nan⟩], fun _ _ => nan,
    fun _ => true⟩, rfl, by simp, Or.inl (by norm_num [lt]), ?_⟩
  have : ¬ (1 : ℝ) < 0 := by norm_num
  simp [Fit.stat, qmuTilde, lt, le, this, sub, add, scale, clip0]

/-- C104, chi-square calculator: not excluded at all, if the likelihoods at zero and at the best fit are finite. Missing: a background
that cannot give the data, where the claim is false (`C104_chi_square_fails`). -/
theorem C104_chi_square_partial (B : Backend) (mu : F) (neg : Bool) (hav : B.available .chiSquare = true)
    (h : UpToBestFit B.data mu) (hn : Finite B.data.nll) (h0 : Finite (B.data.logpdf (fin 0))) :
    exclusionConfidenceLevel B mu .observed neg .chiSquare = .ok (.one [fin 0]) := by
  obtain ⟨t, ht⟩ := getName_ok neg
  have hD := stat_upTo ht h
  obtain ⟨b, hb0, hb⟩ := chiNull_fin (ts := if neg then "q" else "qtilde") hn h0
  rw [chi_level B mu neg t ht hav 0 b le_rfl hb0 hD hb]
  simp [hb0, div_self (Phi_pos _).ne']

example : UpToBestFit gaussBackend.data (fin 1) ∧ Finite gaussBackend.data.nll ∧ Finite (gaussBackend.data.logpdf (fin 0)) := by
  refine ⟨Or.inr ⟨rfl, 0, -1, ?_, ?_, ?_, ?_⟩, ⟨0, rfl⟩, ⟨-(0 - 1) ^ 2, rfl⟩⟩ <;> norm_num [gaussBackend, lift]

/-- C104 is false for the chi-square calculator when the data are impossible without signal (as with no background and some events):
every positive signal strength up to the best fit is then reported as excluded with certainty. -/
theorem C104_chi_square_fails (B : Backend) (mu : F) (neg : Bool) (hav : B.available .chiSquare = true)
    (h : UpToBestFit B.data mu) (hmu : le (fin 0) B.data.muhat) (hn : Finite B.data.nll) (h0 : B.data.logpdf (fin 0) = ninf) :
    exclusionConfidenceLevel B mu .observed neg .chiSquare = .ok (.one [fin 1]) := by
  obtain ⟨t, ht⟩ := getName_ok neg
  have hne := testName_ne neg
  have hD := stat_upTo ht h
  obtain ⟨n, hn⟩ := hn
  have hb : ∀ ts, chiNullStat B.data ts = pinf := by
    intro ts
    have : ¬ (2 : ℝ) < 0 := by norm_num
    simp [chiNullStat, hmu, h0, hn, sub, add, F.neg, scale, clip0, this]
  have hc : chiShift (if neg then "q" else "qtilde") (fin 0) pinf = pinf := by
    cases neg <;> simp [chiShift, sqrt_fin, sqrt_pinf, le, sub, add, F.neg]
  unfold exclusionConfidenceLevel
  simp only [hav, if_true, calculatorPvalues, chiSquarePvalues]
  rw [ht]
  simp only [hD, hb, hc, asymptoticLevel_eq _ _ hne, List.map_cons, List.map_nil]
  have e : F.sqrt (fin 0) = fin 0 := by simp [sqrt_fin]
  rw [e, pvalues_pinf]
  simp [isNan, sub, add, F.neg]

/-- Three events, no background, signal strength one for one event: `mu = 1` is below the best fit `3`. -/
example : ∃ D : Fit, UpToBestFit D (fin 1) ∧ le (fin 0) D.muhat ∧ Finite D.nll ∧ D.logpdf (fin 0) = ninf ∧
    D.logpdf (fin 1) = fin (3 * Real.log 1 - 1) := by
  refine ⟨⟨fin 3, fin (-(3 * Real.log 3 - 3)), fun x => match x with
    | fin y => if y = 0 then ninf else fin (3 * Real.log y - y)
    | _ => nan⟩, Or.inl (by norm_num [lt]), by norm_num [le], ⟨_, rfl⟩, by simp, by simp⟩

/-! ## C105 -/

/-- The level with which a Gaussian measurement of `mu`, with result `m` and uncertainty `σ`, excludes `mu` by the CLs criterion:
`1 - P(x ≤ m | mu) / P(x ≤ m | 0)`. -/
noncomputable def gaussianLevel (σ m mu : ℝ) : ℝ := 1 - Phi ((m - mu) / σ) / Phi (m / σ)

/-- The logarithm of a Gaussian likelihood, up to the constant `c`. -/
noncomputable def gaussianLog (c σ m : ℝ) : ℝ → ℝ := fun x => c - (x - m) ^ 2 / (2 * σ ^ 2)

/-- The fit of a Gaussian measurement, unrestricted, or restricted to non-negative signals. -/
noncomputable def gaussianFit (c σ m : ℝ) (restricted : Bool) : Fit :=
  let x := if restricted then max m 0 else m
  ⟨fin x, fin (-(gaussianLog c σ m x)), lift (gaussianLog c σ m)⟩

theorem sqrt_ratio {x σ : ℝ} (hx : 0 ≤ x) (hσ : 0 < σ) : Real.sqrt (x ^ 2 / σ ^ 2) = x / σ := by
  rw [← div_pow, Real.sqrt_sq (div_nonneg hx hσ.le)]

theorem clip_eq {x y : ℝ} (h : x = y) (hy : 0 ≤ y) : fin (max x 0) = fin y := by rw [h, max_eq_left hy]

/-- The statistics of a Gaussian measurement. -/
theorem gaussian_q {c σ m mu : ℝ} (hσ : 0 < σ) (hm : m ≤ mu) :
    (gaussianFit c σ m false).stat qmu (fin mu) = fin ((mu - m) ^ 2 / σ ^ 2) := by
  have h : 0 ≤ (mu - m) ^ 2 / σ ^ 2 := by positivity
  simp only [Fit.stat, gaussianFit, qmu, lt, not_lt.mpr hm, if_false, Bool.false_eq_true, lift, gaussianLog, F.neg, sub, add,
    scale, clip0]
  exact clip_eq (by field_simp; ring) h

theorem gaussian_qtilde {c σ m mu : ℝ} (hσ : 0 < σ) (hm : m ≤ mu) (hmu : 0 ≤ mu) (r : Bool) :
    (gaussianFit c σ m r).stat qmuTilde (fin mu) = fin (if 0 ≤ m then (mu - m) ^ 2 / σ ^ 2 else (mu ^ 2 - 2 * mu * m) / σ ^ 2) := by
  by_cases h0 : 0 ≤ m
  · have hx : (if r then max m 0 else m) = m := by cases r <;> simp [h0]
    have h : 0 ≤ (mu - m) ^ 2 / σ ^ 2 := by positivity
    simp only [Fit.stat, gaussianFit, qmuTilde, hx, lt, le, not_lt.mpr hm, h0, if_true, if_false, lift, gaussianLog, F.neg, sub, add,
      scale, clip0]
    exact clip_eq (by field_simp; ring) h
  · have h1 : m < 0 := not_le.mp h0
    have h : 0 ≤ (mu ^ 2 - 2 * mu * m) / σ ^ 2 := by
      apply div_nonneg _ (by positivity)
      nlinarith
    cases r
    · simp only [Fit.stat, gaussianFit, qmuTilde, lt, le, not_lt.mpr hm, h0, if_false, Bool.false_eq_true, lift, gaussianLog, F.neg,
        sub, add, scale, clip0]
      exact clip_eq (by field_simp; ring) h
    · simp only [Fit.stat, gaussianFit, qmuTilde, lt, le, max_eq_right h1.le, not_lt.mpr hmu, h0, if_true, if_false, le_refl, lift,
        gaussianLog, F.neg, sub, add, scale, clip0]
      exact clip_eq (by field_simp; ring) h

/-- C105: for a Gaussian measurement the observed level is the exact one, for both test statistics, with fits that may or may not be
restricted to non-negative signals (for `q` the fit is not restricted). -/
theorem C105_observed (B : Backend) (c c' σ m mu : ℝ) (neg r r' : Bool) (hr : neg = true → r = false) (hr' : neg = true → r' = false)
    (hσ : 0 < σ) (hmu : 0 < mu) (hm : m ≤ mu) (hav : B.available .asymptotic = true) (hD : B.data = gaussianFit c σ m r)
    (hA : B.asimov = gaussianFit c' σ 0 r') :
    exclusionConfidenceLevel B (fin mu) .observed neg .asymptotic = .ok (.one [fin (gaussianLevel σ m mu)]) := by
  have hA0 : (0 : ℝ) ≤ mu ^ 2 / σ ^ 2 := by positivity
  have hA1 : mu ^ 2 / σ ^ 2 ≠ 0 := by positivity
  have e2 : Real.sqrt (mu ^ 2 / σ ^ 2) = mu / σ := sqrt_ratio hmu.le hσ
  have fin1 : ∀ d : ℝ, d = - (m / σ) → 1 - Phi (-d - mu / σ) / Phi (-d) = gaussianLevel σ m mu := by
    rintro d rfl
    unfold gaussianLevel
    rw [neg_neg, sub_div]
  cases neg with
  | true =>
    obtain rfl := hr rfl
    obtain rfl := hr' rfl
    have h1 := gaussian_q (c := c) hσ hm
    have h2 := gaussian_q (c := c') (m := 0) hσ hmu.le
    rw [sub_zero] at h2
    rw [observed_level B (fin mu) true qmu get_q hav ((mu - m) ^ 2 / σ ^ 2) _ (by positivity) hA0 (by rw [hD]; exact h1) (by rw [hA]; exact h2)]
    simp only [Bool.true_eq_false, false_and, if_false, if_true, e2, sqrt_ratio (sub_nonneg.mpr hm) hσ]
    rw [fin1]
    field_simp
    ring
  | false =>
    have h1 := gaussian_qtilde (c := c) hσ hm hmu.le r
    have h2 := gaussian_qtilde (c := c') (m := 0) hσ hmu.le hmu.le r'
    simp only [le_refl, if_true, sub_zero] at h2
    have hq : (0 : ℝ) ≤ (if 0 ≤ m then (mu - m) ^ 2 / σ ^ 2 else (mu ^ 2 - 2 * mu * m) / σ ^ 2) := by
      split
      · positivity
      · apply div_nonneg _ (by positivity)
        nlinarith
    rw [observed_level B (fin mu) false qmuTilde get_qtilde hav _ _ hq hA0 (by rw [hD]; exact h1) (by rw [hA]; exact h2)]
    simp only [hA1, false_and, and_false, if_false, Bool.false_eq_true, e2]
    rw [fin1]
    unfold eq66
    rw [e2]
    by_cases h0 : 0 ≤ m
    · have : (mu - m) ^ 2 / σ ^ 2 ≤ mu ^ 2 / σ ^ 2 := by
        apply div_le_div_of_nonneg_right _ (by positivity)
        nlinarith
      simp only [h0, if_true, this, sqrt_ratio (sub_nonneg.mpr hm) hσ]
      field_simp
      ring
    · have : ¬ (mu ^ 2 - 2 * mu * m) / σ ^ 2 ≤ mu ^ 2 / σ ^ 2 := by
        rw [not_le]
        apply div_lt_div_of_pos_right _ (by positivity)
        nlinarith
      simp only [h0, if_false, this]
      field_simp
      ring

/-- A Gaussian measurement: the result is one standard deviation below zero. -/
noncomputable def gaussianExample : Backend :=
  ⟨gaussianFit 5 2 (-2) true, gaussianFit 7 2 0 true, [], [], fun _ _ => nan, fun _ => true⟩

example : exclusionConfidenceLevel gaussianExample (fin 3) .observed false .asymptotic =
    .ok (.one [fin (gaussianLevel 2 (-2) 3)]) :=
  C105_observed _ 5 7 2 (-2) 3 false true true (by simp) (by simp) (by norm_num) (by norm_num) (by norm_num) rfl rfl rfl

/-- C105: the five expected levels are those that measurements `-2σ, -σ, 0, σ, 2σ` would give, for every positive signal strength. The data enter only
through the test whether the statistic can be computed. -/
theorem C105_expected (B : Backend) (c c' σ m mu : ℝ) (e : Expect) (he : e = .apriori ∨ e = .aposteriori) (neg r r' : Bool) (hr : neg = true → r = false)
    (hr' : neg = true → r' = false) (hσ : 0 < σ) (hmu : 0 < mu) (hav : B.available .asymptotic = true) (hD : B.data = gaussianFit c σ m r)
    (hA : B.asimov = gaussianFit c' σ 0 r') :
    exclusionConfidenceLevel B (fin mu) e neg .asymptotic =
      .ok (.one ([-2, -1, 0, 1, 2].map fun n => fin (gaussianLevel σ (n * σ) mu))) := by
  have hne := testName_ne neg
  have hA0 : (0 : ℝ) ≤ mu ^ 2 / σ ^ 2 := by positivity
  have hA1 : mu ^ 2 / σ ^ 2 ≠ 0 := by positivity
  have e2 : Real.sqrt (mu ^ 2 / σ ^ 2) = mu / σ := sqrt_ratio hmu.le hσ
  obtain ⟨t, ht⟩ := getName_ok neg
  have hlow : ∀ r, mu < m → lt (fin mu) (gaussianFit c σ m r).muhat := by
    intro r hm
    cases r
    · exact hm
    · exact lt_of_lt_of_le hm (le_max_left _ _)
  have hstat : ∃ q : ℝ, 0 ≤ q ∧ B.data.stat t (fin mu) = fin q ∧ B.asimov.stat t (fin mu) = fin (mu ^ 2 / σ ^ 2) := by
    cases neg with
    | true =>
      obtain rfl := hr rfl
      obtain rfl := hr' rfl
      have : t = qmu := by simpa [get_q] using ht.symm
      subst this
      have h2 := gaussian_q (c := c') (m := 0) hσ hmu.le
      rw [sub_zero] at h2
      rcases lt_or_ge mu m with hm | hm
      · refine ⟨0, le_rfl, ?_, by rw [hA]; exact h2⟩
        rw [hD]
        unfold Fit.stat qmu
        rw [if_pos (hlow false hm)]
      · exact ⟨(mu - m) ^ 2 / σ ^ 2, by positivity, by rw [hD]; exact gaussian_q hσ hm, by rw [hA]; exact h2⟩
    | false =>
      have : t = qmuTilde := by simpa [get_qtilde] using ht.symm
      subst this
      have h2 := gaussian_qtilde (c := c') (m := 0) hσ hmu.le hmu.le r'
      simp only [le_refl, if_true, sub_zero] at h2
      rcases lt_or_ge mu m with hm | hm
      · refine ⟨0, le_rfl, ?_, by rw [hA]; exact h2⟩
        rw [hD]
        unfold Fit.stat qmuTilde
        rw [if_pos (hlow r hm)]
      · refine ⟨_, ?_, by rw [hD]; exact gaussian_qtilde hσ hm hmu.le r, by rw [hA]; exact h2⟩
        split
        · positivity
        · apply div_nonneg _ (by positivity)
          nlinarith
  obtain ⟨q, hq, h1, h2⟩ := hstat
  have hlev : ∀ d : ℝ, (asymptoticLevel (fin (mu / σ)) (fin d) (if neg then "q" else "qtilde")).2.map
      (fun x => if isNan x then fin 0 else sub (fin 1) x) = [-2, -1, 0, 1, 2].map fun n => fin (gaussianLevel σ (n * σ) mu) := by
    intro d
    rw [asymptoticLevel_eq _ _ hne, expected_fin]
    have : ∀ n : ℝ, (n * σ - mu) / σ = n - mu / σ ∧ n * σ / σ = n := by
      intro n; constructor <;> field_simp
    simp [nsigmas, level_fin, gaussianLevel, this]
  unfold exclusionConfidenceLevel
  simp only [hav, if_true, calculatorPvalues, asymptoticPvalues]
  rw [compute_eq ht, h1, h2, shift_fin hq hA0, e2]
  by_cases h3 : (if neg then "q" else "qtilde") ∈ ["q", "q0", "qmu"]
  · rw [if_pos h3]
    rcases he with rfl | rfl <;> simp only [hlev]
  · rw [if_neg h3, if_neg (by simp [hA1])]
    rcases he with rfl | rfl <;> simp only [hlev]

example : exclusionConfidenceLevel gaussianExample (fin 3) .apriori false .asymptotic =
    .ok (.one ([-2, -1, 0, 1, 2].map fun n => fin (gaussianLevel 2 (n * 2) 3))) :=
  C105_expected _ 5 7 2 (-2) 3 _ (Or.inl rfl) false true true (by simp) (by simp) (by norm_num) (by norm_num) rfl rfl rfl

/-- C105: beyond the best fit the level increases strictly with the signal strength, from at most 1/2 towards one: so there is exactly one upper limit for
each level between. -/
theorem C105_unique_limit (σ m : ℝ) (hσ : 0 < σ) (CL : ℝ) (h1 : gaussianLevel σ m (max m 0) ≤ CL) (h2 : CL < 1) :
    (∃! mu, max m 0 ≤ mu ∧ gaussianLevel σ m mu = CL) ∧
      ∀ mu mu', mu < mu' → gaussianLevel σ m mu < gaussianLevel σ m mu' := by
  have hmono : ∀ mu mu', mu < mu' → gaussianLevel σ m mu < gaussianLevel σ m mu' := by
    intro mu mu' h
    unfold gaussianLevel
    have : Phi ((m - mu') / σ) < Phi ((m - mu) / σ) := Phi_strictMono (div_lt_div_of_pos_right (by linarith) hσ)
    have := div_lt_div_of_pos_right this (Phi_pos (m / σ))
    linarith
  refine ⟨?_, hmono⟩
  have hcont : Continuous (gaussianLevel σ m) := by
    unfold gaussianLevel
    exact continuous_const.sub ((Phi_continuous.comp ((continuous_const.sub continuous_id).div_const _)).div_const _)
  have hlim : Filter.Tendsto (gaussianLevel σ m) Filter.atTop (nhds 1) := by
    have h3 : Filter.Tendsto (fun mu : ℝ => (m - mu) / σ) Filter.atTop Filter.atBot := by
      apply Filter.Tendsto.atBot_div_const hσ
      exact Filter.tendsto_atBot_add_const_left _ m Filter.tendsto_neg_atTop_atBot
    have h4 := (Phi_tendsto_bot.comp h3).div_const (Phi (m / σ))
    have h5 := h4.const_sub 1
    unfold gaussianLevel
    simpa using h5
  obtain ⟨M, hM⟩ := Filter.eventually_atTop.1 (hlim.eventually (lt_mem_nhds h2))
  have hI := intermediate_value_Icc (le_max_left (max m 0) M) hcont.continuousOn
  obtain ⟨mu, hmu, hmu'⟩ := hI ⟨h1, (hM _ (le_max_right _ _)).le⟩
  refine ⟨mu, ⟨hmu.1, hmu'⟩, ?_⟩
  rintro y ⟨-, hy⟩
  rcases lt_trichotomy y mu with h | h | h
  · have := hmono _ _ h; linarith
  · exact h
  · have := hmono _ _ h; linarith

example : gaussianLevel 1 0 (max 0 0) ≤ 0.95 ∧ (0.95 : ℝ) < 1 := by
  constructor
  · simp [gaussianLevel, (Phi_pos 0).ne']
    norm_num
  · norm_num

end Verif.Stats
