import Verif.Interval.Lemmas

/-!
# The search for the interval of a Gaussian likelihood
-/

namespace Verif.Interval
open Verif.Py F Verif.Hypotest Verif.Chi2 Verif.Chain
open Verif.Interface (MuHat World Size Plain Solver)
open Verif.Backend (Ext Args at')
open Verif.Stats (Expect Calc gaussianLog)
open Verif.UpperLimit (Sound Succeeds)

/-- The first half of the window of the search. -/
noncomputable def span (σ : ℝ) : ℝ := max (6 * σ) 3

theorem span_three (σ : ℝ) : 3 ≤ span σ := le_max_right _ _
theorem span_six (σ : ℝ) : 6 * σ ≤ span σ := le_max_left _ _

variable {nll : ℝ → F} {c σ est r z ρ δ : ℝ} {tol : ℝ → ℝ} {toms brent : UpperLimit.Solver} {minimize : Minimizer}

theorem gauss_valley (hn : ∀ v, nll v = fin (-(gaussianLog c σ est v))) (hσ : 0 < σ) (hρ : 0 < ρ) (hρ2 : ρ ^ 2 = z ^ 2 * σ ^ 2 + (r - est) ^ 2) (lo hi : ℝ) :
    Valley (profile nll (fin (-(gaussianLog c σ est r))) (fin (z ^ 2))) lo hi (est - ρ) (est + ρ) := by
  intro x _ _
  have hs : 0 < σ ^ 2 := by positivity
  have e1 : profile nll (fin (-(gaussianLog c σ est r))) (fin (z ^ 2)) x = fin (((x - est) ^ 2 - ρ ^ 2) / σ ^ 2) := by
    unfold profile
    rw [hn]
    simp only [sub, add, neg, scale, gaussianLog]
    congr 1
    rw [hρ2]
    field_simp
    ring
  refine ⟨_, e1, ?_, ?_⟩
  · rw [div_nonpos_iff]
    constructor
    · rintro (⟨-, h⟩ | ⟨h, -⟩)
      · exact absurd h (not_le.mpr hs)
      · have := abs_le.mp (abs_le_of_sq_le_sq (by linarith : (x - est) ^ 2 ≤ ρ ^ 2) hρ.le)
        exact ⟨by linarith, by linarith⟩
    · rintro ⟨h1, h2⟩
      exact .inr ⟨by nlinarith, hs.le⟩
  · rw [div_neg_iff]
    constructor
    · rintro (⟨-, h⟩ | ⟨h, -⟩)
      · exact absurd h (not_lt.mpr hs.le)
      · have := abs_lt.mp (abs_lt_of_sq_lt_sq (by linarith : (x - est) ^ 2 < ρ ^ 2) hρ.le)
        exact ⟨by linarith, by linarith⟩
    · rintro ⟨h1, h2⟩
      exact .inr ⟨by nlinarith, hs⟩

theorem gauss_keep (hn : ∀ v, nll v = fin (-(gaussianLog c σ est v))) (hσ : 0 < σ) {lo hi : ℝ} {n : ℕ} (h : ∀ x ∈ linspace lo hi n, (r - est) ^ 2 ≤ (x - est) ^ 2) :
    refineMin minimize nll (fin (-(gaussianLog c σ est r))) r lo hi n = (fin (-(gaussianLog c σ est r)), r) := by
  refine refineMin_points fun x hx => ?_
  rw [hn]
  simp only [lt, gaussianLog, not_lt]
  have : (r - est) ^ 2 / (2 * σ ^ 2) ≤ (x - est) ^ 2 / (2 * σ ^ 2) := div_le_div_of_nonneg_right (h x hx) (by positivity)
  linarith

theorem gap_le {x : ℝ} {R : ℝ} (h : |x| ≤ R) : gap x ≤ max 1e-10 (1e-8 * R) := max_le_max le_rfl (mul_le_mul_of_nonneg_left h (by norm_num))

/-- The two-sided interval, if the fit has found `r` and `sigma_mu` returned `s`. -/
theorem gauss_two (h0 : ∀ x, 0 ≤ tol x) (ht : Sound tol toms) (hs : Succeeds toms) (hn : ∀ v, nll v = fin (-(gaussianLog c σ est v))) (hσ : 0 < σ) {s : ℝ} (hs0 : 0 < s) (hρ : 0 < ρ) (hρ2 : ρ ^ 2 = z ^ 2 * σ ^ 2 + (r - est) ^ 2)
    (hr : |r| + span s ≤ 1e5) (h1 : r - span s < est - ρ) (h2 : est + ρ < r + span s) (hδ : ∀ x, r - span s ≤ x → x ≤ r + span s → tol x ≤ δ)
    (hd : δ + max 1e-10 (1e-8 * (|r| + span s)) ≤ ρ - |est - r|) {nMulti : ℕ} (hk : ∀ x ∈ linspace (r - span s) (r + span s) (max 2 nMulti), (r - est) ^ 2 ≤ (x - est) ^ 2) (negative : Bool) :
    ∃ x y, |x - (est - ρ)| ≤ tol x ∧ |y - (est + ρ)| ≤ tol y ∧ ∀ fuel, chi2Test fuel toms brent minimize nll (fin (z ^ 2)) .twoSided
      (poiProblem .twoSided negative r (fin (-(gaussianLog c σ est r))) (fin s)) 3 nMulti = some (.ok [fin x, fin y]) := by
  obtain ⟨a1, a2⟩ := abs_le.mp (le_refl |r|)
  obtain ⟨b1, b2⟩ := abs_le.mp (le_refl |est - r|)
  have s3 := span_three s
  have g0 : (1e-10 : ℝ) ≤ max 1e-10 (1e-8 * (|r| + span s)) := le_max_left _ _
  have g1 : (1e-12 : ℝ) < 1e-10 := by norm_num
  have d0 : 0 ≤ δ := (h0 r).trans (hδ r (by linarith) (by linarith))
  have e1 : (poiProblem .twoSided negative r (fin (-(gaussianLog c σ est r))) (fin s)).scanLo = r - span s := by
    simp only [poiProblem, positiveOr1, if_pos hs0, abs_of_pos hs0, decide_true, Bool.or_true, Bool.true_or, if_true]
    exact max_eq_right (by change -1e5 ≤ r - span s; linarith)
  have e2 : (poiProblem .twoSided negative r (fin (-(gaussianLog c σ est r))) (fin s)).scanHi = r + span s := by
    simp only [poiProblem, positiveOr1, if_pos hs0, abs_of_pos hs0]
    exact min_eq_right (by change r + span s ≤ 1e5; linarith)
  have hlast : ∀ x, r - span s ≤ x → x ≤ r + span s → |x| ≤ |r| + span s := fun x k1 k2 => abs_le.mpr ⟨by linarith, by linarith⟩
  have hδ0 : 0 ≤ |est - r| := abs_nonneg _
  obtain ⟨x, y, k1, k2, k3, k4, k5, k6, k7⟩ := scan_two (brent := brent) ht hs (gauss_valley hn hσ hρ hρ2 (r - span s) (r + span s)) (mid := r) (by ring) h1 (by linarith) (by linarith) h2 (by
    intro x y m1 m2 m3 m4 m5
    have n1 := hδ x m1 (m2.trans m3)
    have n2 := hδ y (m1.trans m2) m3
    have n3 := gap_le (hlast y (m1.trans m2) m3)
    rw [abs_le] at m4 m5
    linarith)
  refine ⟨x, y, k2, k3, fun fuel => search_two (m := fin (-(gaussianLog c σ est r))) (ref := r) ?_ (by rw [e1, e2]; exact k1) ?_ ?_⟩
  · rw [e1, e2]
    exact gauss_keep hn hσ hk
  · have n1 := hδ x k4 (by linarith)
    rw [abs_le] at k2
    linarith
  · have n1 := hδ y (by linarith) k7
    rw [abs_le] at k3
    linarith

/-- The upper limit for signals that are not negative. -/
theorem gauss_right (h0 : ∀ x, 0 ≤ tol x) (ht : Sound tol toms) (hs : Succeeds toms) (hn : ∀ v, nll v = fin (-(gaussianLog c σ est v))) (hσ : 0 < σ) (hrd : r = max 0 est) (hz : 0 < z) (hsmall : est < z * σ)
    (hρ : 0 < ρ) (hρ2 : ρ ^ 2 = z ^ 2 * σ ^ 2 + (r - est) ^ 2) (hr : r + span σ ≤ 1e5) (h2 : est + ρ < r + span σ) (hδ : ∀ x, 0 ≤ x → x ≤ r + span σ → tol x ≤ δ)
    (hd : δ + 1e-12 < est + ρ - r) (nMulti : ℕ) :
    ∃ y, |y - (est + ρ)| ≤ tol y ∧ ∀ fuel, chi2Test fuel toms brent minimize nll (fin (z ^ 2)) .right
      (poiProblem .right false r (fin (-(gaussianLog c σ est r))) (fin σ)) 3 nMulti = some (.ok [fin y]) := by
  have hr0 : 0 ≤ r := hrd ▸ le_max_left _ _
  have s3 := span_three σ
  have e1 : (poiProblem .right false r (fin (-(gaussianLog c σ est r))) (fin σ)).scanLo = max 0 (r - span σ) := by
    simp only [poiProblem, positiveOr1, if_pos hσ, abs_of_pos hσ, Bool.false_or, reduceCtorEq, decide_false, Bool.or_false, Bool.false_eq_true, if_false]
    exact max_eq_right (le_trans (by norm_num) (le_max_left _ _))
  have e2 : (poiProblem .right false r (fin (-(gaussianLog c σ est r))) (fin σ)).scanHi = r + span σ := by
    simp only [poiProblem, positiveOr1, if_pos hσ, abs_of_pos hσ]
    exact min_eq_right hr
  have hρr : |est - r| < ρ := abs_lt_of_sq_lt_sq (by
    rw [hρ2]
    have : 0 < z ^ 2 * σ ^ 2 := by positivity
    nlinarith) hρ.le
  rw [abs_lt] at hρr
  have hlo : est - ρ < max 0 (r - span σ) := by
    refine lt_of_lt_of_le ?_ (le_max_left _ _)
    rcases le_total est 0 with h | h
    · linarith
    · have : r = est := by rw [hrd]; exact max_eq_right h
      have : ρ ^ 2 = (z * σ) ^ 2 := by rw [hρ2, this]; ring
      have := (sq_eq_sq₀ hρ.le (by positivity)).mp this
      linarith
  have hlo' : max 0 (r - span σ) ≤ r := max_le hr0 (by linarith)
  obtain ⟨y, k1, k2, k3, k4⟩ := scan_one (brent := brent) h0 ht hs (gauss_valley hn hσ hρ hρ2 (max 0 (r - span σ)) (r + span σ)) hlo (by linarith) h2
  refine ⟨y, k2, fun fuel => search_right (m := fin (-(gaussianLog c σ est r))) (ref := r) (l := []) ?_ (by rw [e1, e2]; exact k1) (by simp) ?_⟩
  · rw [e1, e2]
    refine gauss_keep hn hσ fun x hx => ?_
    have := (linspace_mem (le_max_left _ _) (by linarith) hx).1
    have hx0 : 0 ≤ x := (le_max_left _ _).trans this
    rcases le_total est 0 with h | h
    · rw [hrd, max_eq_left h]
      nlinarith
    · rw [hrd, max_eq_right h]
      nlinarith [sq_nonneg (x - est)]
  · have n1 := hδ y ((le_max_left _ _).trans k3) k4
    rw [abs_le] at k2
    linarith

/-- The upper limit for signals that are not negative, if the signal is seen. -/
theorem gauss_right_seen (h0 : ∀ x, 0 ≤ tol x) (ht : Sound tol toms) (hs : Succeeds toms) (hn : ∀ v, nll v = fin (-(gaussianLog c σ est v))) (hσ : 0 < σ) (hz : 0 < z) (hz6 : z < 6) (hlarge : z * σ < est)
    (hwin : span σ - est < 2 * (z * σ)) (hr : est + span σ ≤ 1e5) (hδ : ∀ x, 0 ≤ x → x ≤ est + span σ → tol x ≤ δ) (hd : δ + max 1e-10 (1e-8 * (est + span σ)) ≤ z * σ) (nMulti : ℕ) :
    ∃ y, |y - (est + z * σ)| ≤ tol y ∧ ∀ fuel, chi2Test fuel toms brent minimize nll (fin (z ^ 2)) .right
      (poiProblem .right false est (fin (-(gaussianLog c σ est est))) (fin σ)) 3 nMulti = some (.ok [fin y]) := by
  have hzσ : 0 < z * σ := by positivity
  have he0 : 0 < est := hzσ.trans hlarge
  have s3 := span_three σ
  have s6 := span_six σ
  have hspan : z * σ < span σ := lt_of_lt_of_le (by nlinarith) s6
  have g0 : (1e-10 : ℝ) ≤ max 1e-10 (1e-8 * (est + span σ)) := le_max_left _ _
  have g1 : (1e-12 : ℝ) < 1e-10 := by norm_num
  have d0 : 0 ≤ δ := (h0 est).trans (hδ est he0.le (by linarith))
  have e1 : (poiProblem .right false est (fin (-(gaussianLog c σ est est))) (fin σ)).scanLo = max 0 (est - span σ) := by
    simp only [poiProblem, positiveOr1, if_pos hσ, abs_of_pos hσ, Bool.false_or, reduceCtorEq, decide_false, Bool.or_false, Bool.false_eq_true, if_false]
    exact max_eq_right (le_trans (by norm_num) (le_max_left _ _))
  have e2 : (poiProblem .right false est (fin (-(gaussianLog c σ est est))) (fin σ)).scanHi = est + span σ := by
    simp only [poiProblem, positiveOr1, if_pos hσ, abs_of_pos hσ]
    exact min_eq_right hr
  have hlo : max 0 (est - span σ) < est - z * σ := max_lt (by linarith) (by linarith)
  have hmid : max 0 (est - span σ) + (est + span σ - max 0 (est - span σ)) / 2 < est + z * σ ∧ est ≤ max 0 (est - span σ) + (est + span σ - max 0 (est - span σ)) / 2 := by
    rcases max_choice 0 (est - span σ) with h | h <;> rw [h]
    · exact ⟨by linarith, by have := max_eq_left_iff.mp h; linarith⟩
    · exact ⟨by linarith, by linarith⟩
  have hv := gauss_valley hn hσ hzσ (by ring : (z * σ) ^ 2 = z ^ 2 * σ ^ 2 + (est - est) ^ 2) (max 0 (est - span σ)) (est + span σ)
  have hp := le_max_left 0 (est - span σ)
  obtain ⟨x, y, k1, k2, k3, k4, k5, k6, k7⟩ := scan_two (brent := brent) ht hs hv rfl hlo (by linarith [hmid.2]) hmid.1 (by linarith) (by
    intro x y m1 m2 m3 m4 m5
    have n1 := hδ x (hp.trans m1) (m2.trans m3)
    have n2 := hδ y (hp.trans (m1.trans m2)) m3
    have n3 := gap_le (x := y) (R := est + span σ) (by rw [abs_of_nonneg (hp.trans (m1.trans m2))]; exact m3)
    rw [abs_le] at m4 m5
    linarith)
  refine ⟨y, k3, fun fuel => search_right (m := fin (-(gaussianLog c σ est est))) (ref := est) (l := [x]) ?_ (by rw [e1, e2]; exact k1) ?_ ?_⟩
  · rw [e1, e2]
    refine gauss_keep hn hσ fun x hx => ?_
    nlinarith [sq_nonneg (x - est)]
  · intro x' hx'
    rw [List.mem_singleton.mp hx']
    have n1 := hδ x (hp.trans k4) (by linarith)
    rw [abs_le] at k2
    linarith
  · have n1 := hδ y (hp.trans (by linarith)) k7
    rw [abs_le] at k3
    linarith

/-- From the fits to the search. -/
theorem interval_ends {S : Type} {I : S → Prop} {M : Methods S} {sigma : Expect → ℝ → Comp S F} {e : Expect} {CL : ℝ} (hCL : 0 ≤ CL ∧ CL ≤ 1) {isf : ℝ → F} {t : LimitType} {negative : Bool} {n : Bool}
    (hneg : (negative || decide (t = .twoSided) || decide (t = .left)) = n) {m s : F} (hm : Ends I (M.maximize e n none) (.ok (.one r, m))) (hs : Ends I (sigma e r) (.ok s)) {L : ℝ → F}
    (hL : ∀ v w, I w → (M.likelihood e none v w).1 = .ok (L v)) {fuel nScan nMulti : ℕ} {l : List F}
    (h : chi2Test fuel toms brent minimize L (isf (1 - CL)) t (poiProblem t negative r m s) nScan nMulti = some (.ok l)) :
    Ends I (chi2Interval fuel toms brent minimize isf M sigma e CL t negative nScan nMulti) (.ok (some l)) := by
  unfold chi2Interval
  rw [if_pos hCL]
  refine Ends.bind (a := (.one r, m)) (by convert hm using 2) ?_
  refine Ends.bind (a := s) ?_ ?_
  · intro w hw
    obtain ⟨h1, h2⟩ := hs w hw
    unfold orOne
    cases hc : sigma e r w with
    | mk x w' =>
      rw [hc] at h1 h2
      dsimp only at h1 h2
      subst h1
      exact ⟨rfl, h2⟩
  · intro w hw
    have : nllFn M e w = L := by
      funext v
      unfold nllFn
      rw [hL v w hw]
    unfold search
    rw [this, h]
    exact ⟨rfl, hw⟩

end Verif.Interval
