import Verif.Uncorrelated.Spec
import Mathlib.Analysis.SpecialFunctions.Log.Deriv
import Mathlib.Analysis.Convex.SpecificFunctions.Basic

/-!
# Lemmas: the likelihood of a bin
-/

namespace Verif.Uncorrelated
open Verif.Backend (poissonLog stdLog)

/-- The log-likelihood of a bin with the nuisance parameter `t`. -/
noncomputable def withPull (G : ℝ → ℝ) (d b σ x t : ℝ) : ℝ := poissonLog G d (max (x + (b + σ * t)) (1 / 10 ^ 20)) + stdLog t

theorem fitted_low (d b σ x : ℝ) : x ≤ fitted d b σ x ∧ 1 / 10 ^ 20 ≤ fitted d b σ x :=
  ⟨(le_max_left _ _).trans (le_max_right _ _), (le_max_right _ _).trans (le_max_right _ _)⟩

theorem fitted_pos (d b σ x : ℝ) : 0 < fitted d b σ x := lt_of_lt_of_le (by norm_num) (fitted_low d b σ x).2

/-- The quadratic equation of the definition. -/
theorem fitted_eq {d b σ x : ℝ} (hd : 0 ≤ d) :
    0 ≤ fitted d b σ x ^ 2 - (x + b - σ ^ 2) * fitted d b σ x - σ ^ 2 * d ∧
    (max x (1 / 10 ^ 20) < fitted d b σ x → fitted d b σ x ^ 2 - (x + b - σ ^ 2) * fitted d b σ x - σ ^ 2 * d = 0) := by
  have hD : 0 ≤ (x + b - σ ^ 2) ^ 2 + 4 * σ ^ 2 * d := by positivity
  have hs := Real.sq_sqrt hD
  have h0 := Real.sqrt_nonneg ((x + b - σ ^ 2) ^ 2 + 4 * σ ^ 2 * d)
  have hab : |x + b - σ ^ 2| ≤ √((x + b - σ ^ 2) ^ 2 + 4 * σ ^ 2 * d) := Real.abs_le_sqrt (by nlinarith [mul_nonneg (sq_nonneg σ) hd])
  have hroot : ((x + b - σ ^ 2 + √((x + b - σ ^ 2) ^ 2 + 4 * σ ^ 2 * d)) / 2) ≤ fitted d b σ x := le_max_left _ _
  constructor
  · generalize √((x + b - σ ^ 2) ^ 2 + 4 * σ ^ 2 * d) = w at *
    generalize fitted d b σ x = r at *
    have h1 := (abs_le.mp hab).1
    have h2 := (abs_le.mp hab).2
    have : 0 ≤ (r - (x + b - σ ^ 2 + w) / 2) * (r - (x + b - σ ^ 2 - w) / 2) := mul_nonneg (by linarith) (by linarith)
    nlinarith
  · intro h
    have : fitted d b σ x = (x + b - σ ^ 2 + √((x + b - σ ^ 2) ^ 2 + 4 * σ ^ 2 * d)) / 2 := by
      unfold fitted at h ⊢
      rcases le_total ((x + b - σ ^ 2 + √((x + b - σ ^ 2) ^ 2 + 4 * σ ^ 2 * d)) / 2) (max x (1 / 10 ^ 20)) with h' | h'
      · rw [max_eq_right h'] at h; exact absurd h (lt_irrefl _)
      · exact max_eq_left h'
    rw [this]
    nlinarith

theorem fitted_none {d b x : ℝ} (hb : 1 / 10 ^ 20 ≤ b) (hx : 0 ≤ x) : fitted d b 0 x = x + b := by
  have h0 : (0 : ℝ) < 1 / 10 ^ 20 := by norm_num
  unfold fitted
  have : (x + b - 0 ^ 2) ^ 2 + 4 * 0 ^ 2 * d = (x + b) ^ 2 := by ring
  rw [this, Real.sqrt_sq (by linarith)]
  rw [max_eq_left]
  · ring
  · apply max_le <;> linarith

theorem log_le {r r0 : ℝ} (hr : 0 < r) (h0 : 0 < r0) : Real.log r ≤ Real.log r0 + (r / r0 - 1) := by
  have := Real.log_le_sub_one_of_pos (div_pos hr h0)
  rw [Real.log_div hr.ne' h0.ne'] at this
  linarith

/-- The best pull. -/
theorem bin_best (G : ℝ → ℝ) {d b σ x t : ℝ} (hd : 0 ≤ d) (hb : 1 / 10 ^ 20 ≤ b) (hσ : 0 ≤ σ) (hx : 0 ≤ x) (ht : 0 ≤ b + σ * t) :
    withPull G d b σ x t ≤ binLog G d b σ x ∧ (withPull G d b σ x t = binLog G d b σ x → t = (fitted d b σ x - x - b) / σ) := by
  have heps : (0 : ℝ) < 1 / 10 ^ 20 := by norm_num
  rcases hσ.eq_or_lt with rfl | hσ
  · have : withPull G d b 0 x t = binLog G d b 0 x - t ^ 2 / 2 := by
      unfold withPull binLog
      rw [fitted_none hb hx, zero_mul, add_zero, max_eq_left (by linarith)]
      unfold stdLog
      ring
    rw [this]
    refine ⟨by nlinarith [sq_nonneg t], fun h => ?_⟩
    have : t ^ 2 = 0 := by linarith
    rw [div_zero]
    exact pow_eq_zero_iff (two_ne_zero) |>.mp this
  · set r0 := fitted d b σ x with hr0
    have hp : 0 < r0 := fitted_pos d b σ x
    obtain ⟨hx0, he0⟩ := fitted_low d b σ x
    obtain ⟨hq, hq'⟩ := fitted_eq (d := d) (b := b) (σ := σ) (x := x) hd
    rw [← hr0] at hx0 he0 hq hq'
    -- the rate that is used, and the pull that belongs to it
    set r := max (x + (b + σ * t)) (1 / 10 ^ 20) with hr
    have hre : 1 / 10 ^ 20 ≤ r := le_max_right _ _
    have hrp : 0 < r := heps.trans_le hre
    have hrx : x ≤ r := by rw [hr]; exact le_max_of_le_left (by linarith)
    have ht' : ((r - x - b) / σ) ^ 2 ≤ t ^ 2 ∧ (((r - x - b) / σ) ^ 2 = t ^ 2 → t = (r - x - b) / σ) := by
      rcases le_total (1 / 10 ^ 20) (x + (b + σ * t)) with h | h
      · have : (r - x - b) / σ = t := by
          rw [hr, max_eq_left h]
          field_simp
          ring
        rw [this]
        exact ⟨le_rfl, fun _ => rfl⟩
      · rw [hr, max_eq_right h]
        have h1 : (1 / 10 ^ 20 - x - b) / σ ≤ 0 := div_nonpos_of_nonpos_of_nonneg (by linarith) hσ.le
        have h2 : t ≤ (1 / 10 ^ 20 - x - b) / σ := by
          rw [le_div_iff₀ hσ]
          linarith
        refine ⟨by nlinarith, fun h3 => ?_⟩
        have : (t - (1 / 10 ^ 20 - x - b) / σ) * (t + (1 / 10 ^ 20 - x - b) / σ) = 0 := by linear_combination -h3
        rcases mul_eq_zero.mp this with h4 | h4
        · linarith
        · linarith
    have hslope : (r - r0) * (d / r0 - 1 - (r0 - x - b) / σ ^ 2) ≤ 0 := by
      have e : d / r0 - 1 - (r0 - x - b) / σ ^ 2 = -(r0 ^ 2 - (x + b - σ ^ 2) * r0 - σ ^ 2 * d) / (r0 * σ ^ 2) := by
        field_simp
        ring
      have hneg : -(r0 ^ 2 - (x + b - σ ^ 2) * r0 - σ ^ 2 * d) / (r0 * σ ^ 2) ≤ 0 :=
        div_nonpos_of_nonpos_of_nonneg (by linarith) (by positivity)
      rw [e]
      rcases lt_or_ge (max x (1 / 10 ^ 20)) r0 with h | h
      · rw [hq' h]; simp
      · have : r0 ≤ r := h.trans (max_le hrx hre)
        exact mul_nonpos_of_nonneg_of_nonpos (by linarith) hneg
    have hlog : d * Real.log r ≤ d * Real.log r0 + d * (r / r0 - 1) := by
      have := mul_le_mul_of_nonneg_left (log_le hrp hp) hd
      linarith
    have hmain : d * Real.log r - r - ((r - x - b) / σ) ^ 2 / 2 ≤ d * Real.log r0 - r0 - ((r0 - x - b) / σ) ^ 2 / 2 - ((r - r0) / σ) ^ 2 / 2 := by
      have e : d * (r / r0 - 1) - (r - r0) - ((r - x - b) / σ) ^ 2 / 2 + ((r0 - x - b) / σ) ^ 2 / 2 + ((r - r0) / σ) ^ 2 / 2 =
          (r - r0) * (d / r0 - 1 - (r0 - x - b) / σ ^ 2) := by
        field_simp
        ring
      linarith
    have hw : withPull G d b σ x t = d * Real.log r - r - t ^ 2 / 2 - G (d + 1) - Real.log (2 * Real.pi) / 2 := by
      unfold withPull poissonLog stdLog
      rw [← hr]
      ring
    have hbl : binLog G d b σ x = d * Real.log r0 - r0 - ((r0 - x - b) / σ) ^ 2 / 2 - G (d + 1) - Real.log (2 * Real.pi) / 2 := by
      unfold binLog poissonLog stdLog
      rw [← hr0]
      ring
    have hsq := sq_nonneg ((r - r0) / σ)
    refine ⟨by rw [hw, hbl]; linarith [ht'.1], fun h => ?_⟩
    rw [hw, hbl] at h
    have h1 : ((r - x - b) / σ) ^ 2 = t ^ 2 := le_antisymm ht'.1 (by linarith)
    have h2 : ((r - r0) / σ) ^ 2 = 0 := by linarith [ht'.1]
    have h3 : r = r0 := by
      rcases div_eq_zero_iff.mp (pow_eq_zero_iff two_ne_zero |>.mp h2) with h | h
      · linarith
      · exact absurd h hσ.ne'
    rw [ht'.2 h1, h3]

/-- It is allowed, and has the likelihood. -/
theorem best_pull (G : ℝ → ℝ) {d b σ x : ℝ} (hb : 1 / 10 ^ 20 ≤ b) (hσ : 0 ≤ σ) (hx : 0 ≤ x) :
    b + σ * ((fitted d b σ x - x - b) / σ) = fitted d b σ x - x ∧ withPull G d b σ x ((fitted d b σ x - x - b) / σ) = binLog G d b σ x := by
  have e : b + σ * ((fitted d b σ x - x - b) / σ) = fitted d b σ x - x := by
    rcases hσ.eq_or_lt with rfl | hσ
    · rw [fitted_none hb hx]; ring
    · field_simp; ring
  refine ⟨e, ?_⟩
  unfold withPull binLog
  rw [e, show x + (fitted d b σ x - x) = fitted d b σ x by ring, max_eq_left (fitted_low d b σ x).2]

theorem log_concave {r r' p p' : ℝ} (hr : 0 < r) (hr' : 0 < r') (hp : 0 ≤ p) (hp' : 0 ≤ p') (h : p + p' = 1) :
    p * Real.log r + p' * Real.log r' ≤ Real.log (p * r + p' * r') := by
  have := strictConcaveOn_log_Ioi.concaveOn.2 (Set.mem_Ioi.mpr hr) (Set.mem_Ioi.mpr hr') hp hp' h
  simpa using this

theorem bin_concave (G : ℝ → ℝ) {d b σ x x' p p' : ℝ} (hd : 0 ≤ d) (hb : 1 / 10 ^ 20 ≤ b) (hσ : 0 ≤ σ) (hx : 0 ≤ x) (hx' : 0 ≤ x') (hp : 0 ≤ p) (hp' : 0 ≤ p')
    (h : p + p' = 1) : p * binLog G d b σ x + p' * binLog G d b σ x' ≤ binLog G d b σ (p * x + p' * x') := by
  obtain ⟨e, f⟩ := best_pull G (d := d) hb hσ hx
  obtain ⟨e', f'⟩ := best_pull G (d := d) hb hσ hx'
  obtain ⟨l1, l2⟩ := fitted_low d b σ x
  obtain ⟨l1', l2'⟩ := fitted_low d b σ x'
  generalize (fitted d b σ x - x - b) / σ = t at *
  generalize (fitted d b σ x' - x' - b) / σ = t' at *
  generalize hr : fitted d b σ x = r at *
  generalize hr' : fitted d b σ x' = r' at *
  have heps : (0 : ℝ) < 1 / 10 ^ 20 := by norm_num
  have q : p' = 1 - p := by linarith
  have hadm : b + σ * (p * t + p' * t') = p * (r - x) + p' * (r' - x') := by
    rw [← e, ← e', q]; ring
  have hrate : p * x + p' * x' + (b + σ * (p * t + p' * t')) = p * r + p' * r' := by rw [hadm]; ring
  have hmin : 1 / 10 ^ 20 ≤ p * r + p' * r' := by nlinarith
  refine le_trans ?_ (bin_best G (t := p * t + p' * t') hd hb hσ (by positivity) (by rw [hadm]; nlinarith)).1
  rw [← f, ← f']
  unfold withPull
  rw [hrate, e, e', show x + (r - x) = r by ring, show x' + (r' - x') = r' by ring, max_eq_left l2, max_eq_left l2', max_eq_left hmin]
  have hlog := mul_le_mul_of_nonneg_left (log_concave (heps.trans_le l2) (heps.trans_le l2') hp hp' h) hd
  have hsq : (p * t + p' * t') ^ 2 ≤ p * t ^ 2 + p' * t' ^ 2 := by
    have : p * t ^ 2 + p' * t' ^ 2 - (p * t + p' * t') ^ 2 = p * p' * (t - t') ^ 2 := by rw [q]; ring
    nlinarith [mul_nonneg (mul_nonneg hp hp') (sq_nonneg (t - t'))]
  unfold poissonLog stdLog
  have hc : p * G (d + 1) + p' * G (d + 1) = G (d + 1) := by rw [q]; ring
  have hc' : p * (Real.log (2 * Real.pi) / 2) + p' * (Real.log (2 * Real.pi) / 2) = Real.log (2 * Real.pi) / 2 := by rw [q]; ring
  nlinarith

/-- Concave for strengths that are not negative. -/
def Concave (P : ℝ → ℝ) : Prop := ∀ x x' p p', 0 ≤ x → 0 ≤ x' → 0 ≤ p → 0 ≤ p' → p + p' = 1 → p * P x + p' * P x' ≤ P (p * x + p' * x')

theorem profile_concave (G : ℝ → ℝ) {bins : List Bin} (h : ∀ x ∈ bins, x.Proper) : Concave (profile G bins) := by
  intro x x' p p' hx hx' hp hp' he
  unfold profile
  induction bins with
  | nil => simp
  | cons y l ih =>
    obtain ⟨hs, hb, hσ, hd⟩ := h y (by simp)
    have h1 := bin_concave G hd hb hσ (mul_nonneg hx hs) (mul_nonneg hx' hs) hp hp' he
    rw [show p * (x * y.s) + p' * (x' * y.s) = (p * x + p' * x') * y.s by ring] at h1
    have h2 := ih fun z hz => h z (by simp [hz])
    simp only [List.map_cons, List.sum_cons]
    linarith

theorem best_eq {P : ℝ → ℝ} {b b' : ℝ} (h : IsBest P b) (h' : IsBest P b') : P b = P b' := le_antisymm (h'.2.2 b h.1 h.2.1) (h.2.2 b' h'.1 h'.2.1)

/-- Between two best strengths all are best. -/
theorem best_between {P : ℝ → ℝ} (hP : Concave P) {b b' v : ℝ} (h : IsBest P b) (h' : IsBest P b') (h1 : b ≤ v) (h2 : v < b') : P v = P b := by
  have hv := h.1.trans h1
  apply le_antisymm (h.2.2 v hv (by linarith [h'.2.1]))
  have hd : 0 < b' - b := by linarith
  have := hP b b' ((b' - v) / (b' - b)) ((v - b) / (b' - b)) h.1 h'.1 (div_nonneg (by linarith) hd.le) (div_nonneg (by linarith) hd.le) (by field_simp; ring)
  rw [← best_eq h h', ← add_mul, show (b' - v) / (b' - b) + (v - b) / (b' - b) = 1 by field_simp; ring, one_mul,
    show (b' - v) / (b' - b) * b + (v - b) / (b' - b) * b' = v by field_simp; ring] at this
  exact this

/-- The statistic does not depend on which of several best strengths is found. -/
theorem stat_unique {P : ℝ → ℝ} (hP : Concave P) {v q q' : ℝ} (h : IsStat P v q) (h' : IsStat P v q') : q = q' := by
  obtain ⟨b, hb, h1, h2⟩ := h
  obtain ⟨b', hb', h1', h2'⟩ := h'
  have e := best_eq hb hb'
  rcases le_or_gt b v with hbv | hbv
  · rcases le_or_gt b' v with hbv' | hbv'
    · rw [h1 hbv, h1' hbv', e]
    · rw [h1 hbv, h2' hbv', best_between hP hb hb' hbv hbv', sub_self, mul_zero, max_self]
  · rcases le_or_gt b' v with hbv' | hbv'
    · rw [h2 hbv, h1' hbv', best_between hP hb' hb hbv' hbv, sub_self, mul_zero, max_self]
    · rw [h2 hbv, h2' hbv']

theorem best_shift {P P' : ℝ → ℝ} {c b : ℝ} (h : ∀ mu, 0 ≤ mu → P' mu = P mu + c) (hb : IsBest P b) : IsBest P' b :=
  ⟨hb.1, hb.2.1, fun mu h0 h10 => by rw [h mu h0, h b hb.1]; linarith [hb.2.2 mu h0 h10]⟩

theorem stat_shift {P P' : ℝ → ℝ} {c v q : ℝ} (hv : 0 ≤ v) (h : ∀ mu, 0 ≤ mu → P' mu = P mu + c) (hq : IsStat P v q) : IsStat P' v q := by
  obtain ⟨b, hb, h1, h2⟩ := hq
  refine ⟨b, best_shift h hb, fun hbv => ?_, h2⟩
  rw [h1 hbv, h v hv, h b hb.1]
  congr 1
  ring

theorem stat_nonneg {P : ℝ → ℝ} {v q : ℝ} (h : IsStat P v q) : 0 ≤ q := by
  obtain ⟨b, -, h1, h2⟩ := h
  rcases le_or_gt b v with hbv | hbv
  · rw [h1 hbv]; exact le_max_right _ _
  · rw [h2 hbv]

theorem discovery_unique {P : ℝ → ℝ} {q q' : ℝ} (h : IsDiscovery P q) (h' : IsDiscovery P q') : q = q' := by
  obtain ⟨b, hb, rfl⟩ := h
  obtain ⟨b', hb', rfl⟩ := h'
  rw [best_eq hb hb']

theorem discovery_shift {P P' : ℝ → ℝ} {c q : ℝ} (h : ∀ mu, 0 ≤ mu → P' mu = P mu + c) (hq : IsDiscovery P q) : IsDiscovery P' q := by
  obtain ⟨b, hb, rfl⟩ := hq
  exact ⟨b, best_shift h hb, by rw [h b hb.1, h 0 le_rfl]; ring⟩

theorem discovery_nonneg {P : ℝ → ℝ} {q : ℝ} (h : IsDiscovery P q) : 0 ≤ q := by
  obtain ⟨b, hb, rfl⟩ := h
  linarith [hb.2.2 0 le_rfl (by norm_num)]

end Verif.Uncorrelated
