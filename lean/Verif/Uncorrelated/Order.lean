import Verif.Uncorrelated.Lemmas

/-!
# How the statistics of bins depend on the signal strength, the data and the uncertainties
-/

namespace Verif.Uncorrelated
open Verif.Backend (poissonLog stdLog)

/-- A number of events that leaves the background positive fits no better. -/
theorem bin_at (G : ℝ → ℝ) {d b σ x r : ℝ} (hd : 0 ≤ d) (hb : 1 / 10 ^ 20 ≤ b) (hσ : 0 < σ) (hx : 0 ≤ x) (h1 : x ≤ r) (h2 : 1 / 10 ^ 20 ≤ r) :
    poissonLog G d r + stdLog ((r - x - b) / σ) ≤ binLog G d b σ x := by
  have e : x + (b + σ * ((r - x - b) / σ)) = r := by field_simp; ring
  have := (bin_best G hd hb hσ.le hx (t := (r - x - b) / σ) (by linarith)).1
  unfold withPull at this
  rw [e, max_eq_left h2] at this
  exact this

/-- With more events, a larger signal gains more. -/
theorem bin_more (G : ℝ → ℝ) {d d' b σ x y : ℝ} (hd : 0 ≤ d) (hdd : d ≤ d') (hb : 1 / 10 ^ 20 ≤ b) (hσ : 0 ≤ σ) (hx : 0 ≤ x) (hxy : x ≤ y) :
    binLog G d b σ y - binLog G d b σ x ≤ binLog G d' b σ y - binLog G d' b σ x := by
  have hb0 : (0 : ℝ) < b := lt_of_lt_of_le (by norm_num) hb
  rcases hσ.eq_or_lt with rfl | hσ
  · unfold binLog
    rw [fitted_none hb hx, fitted_none hb (hx.trans hxy), fitted_none hb hx, fitted_none hb (hx.trans hxy)]
    have := Real.log_le_log (by linarith : 0 < x + b) (by linarith : x + b ≤ y + b)
    simp only [div_zero, poissonLog]
    nlinarith [mul_nonneg (sub_nonneg.mpr hdd) (sub_nonneg.mpr this)]
  · obtain ⟨l1, l2⟩ := fitted_low d' b σ x
    obtain ⟨k1, k2⟩ := fitted_low d b σ y
    have p1 := fitted_pos d' b σ x
    have p2 := fitted_pos d b σ y
    have e1 : binLog G d' b σ x = poissonLog G d' (fitted d' b σ x) + stdLog ((fitted d' b σ x - x - b) / σ) := rfl
    have e2 : binLog G d b σ y = poissonLog G d (fitted d b σ y) + stdLog ((fitted d b σ y - y - b) / σ) := rfl
    rw [e1, e2]
    generalize fitted d' b σ x = r at *
    generalize fitted d b σ y = r' at *
    rcases le_total r' r with h | h
    · have a1 := bin_at G (hd.trans hdd) hb hσ (hx.trans hxy) (k1.trans h) l2
      have a2 := bin_at G hd hb hσ hx (hxy.trans k1) k2
      have : stdLog ((r - x - b) / σ) + stdLog ((r' - y - b) / σ) ≤ stdLog ((r - y - b) / σ) + stdLog ((r' - x - b) / σ) := by
        have e : stdLog ((r - y - b) / σ) + stdLog ((r' - x - b) / σ) - (stdLog ((r - x - b) / σ) + stdLog ((r' - y - b) / σ)) = (y - x) * (r - r') / σ ^ 2 := by
          unfold stdLog
          field_simp
          ring
        have : 0 ≤ (y - x) * (r - r') / σ ^ 2 := div_nonneg (mul_nonneg (by linarith) (by linarith)) (sq_nonneg σ)
        linarith
      linarith
    · have a1 := bin_at G (hd.trans hdd) hb hσ (hx.trans hxy) k1 k2
      have a2 := bin_at G hd hb hσ hx l1 l2
      have hl := Real.log_le_log p1 h
      have : poissonLog G d' r + poissonLog G d r' ≤ poissonLog G d' r' + poissonLog G d r := by
        unfold poissonLog
        nlinarith [mul_nonneg (sub_nonneg.mpr hdd) (sub_nonneg.mpr hl)]
      linarith

theorem fitted_more {d d' b σ x : ℝ} (hdd : d ≤ d') : fitted d b σ x ≤ fitted d' b σ x := by
  unfold fitted
  refine max_le_max ?_ le_rfl
  have : √((x + b - σ ^ 2) ^ 2 + 4 * σ ^ 2 * d) ≤ √((x + b - σ ^ 2) ^ 2 + 4 * σ ^ 2 * d') := Real.sqrt_le_sqrt (by nlinarith [mul_nonneg (sq_nonneg σ) (sub_nonneg.mpr hdd)])
  linarith

/-- The same bins with at least as many events. -/
def More (x x' : Bin) : Prop := x'.s = x.s ∧ x'.b = x.b ∧ x'.σ = x.σ ∧ x.d ≤ x'.d

/-- With `P'` a larger signal gains more. -/
def Rises (P P' : ℝ → ℝ) : Prop := ∀ x y, 0 ≤ x → x ≤ y → P y - P x ≤ P' y - P' x

theorem profile_rises (G : ℝ → ℝ) {bins bins' : List Bin} (hp : ∀ x ∈ bins, x.Proper) (h : List.Forall₂ More bins bins') : Rises (profile G bins) (profile G bins') := by
  intro u w hu huw
  unfold profile
  induction h with
  | nil => simp
  | @cons a a' l l' ha hl ih =>
    obtain ⟨p1, p2, p3, p4⟩ := hp a (by simp)
    obtain ⟨h1, h2, h3, h4⟩ := ha
    have := ih fun z hz => hp z (by simp [hz])
    have k := bin_more G p4 h4 p2 p3 (mul_nonneg hu p1) (mul_le_mul_of_nonneg_right huw p1)
    simp only [List.map_cons, List.sum_cons, h1, h2, h3]
    linarith

theorem more_asimov {bins bins' : List Bin} (mu : ℝ) (hp : ∀ x ∈ bins, x.Proper) (h : List.Forall₂ More bins bins') :
    List.Forall₂ More (bins.map (Bin.asimov mu)) (bins'.map (Bin.asimov mu)) := by
  induction h with
  | nil => simp
  | @cons a a' l l' ha hl ih =>
    obtain ⟨p1, p2, p3, p4⟩ := hp a (by simp)
    obtain ⟨h1, h2, h3, h4⟩ := ha
    refine .cons ⟨h1, h2, h3, ?_⟩ (ih fun z hz => hp z (by simp [hz]))
    simp only [Bin.asimov, h1, h2, h3]
    exact fitted_more h4

theorem stat_falls {P P' : ℝ → ℝ} (hP : Concave P) (h : Rises P P') {v q q' : ℝ} (hq : IsStat P v q) (hq' : IsStat P' v q') : q' ≤ q := by
  have hn := stat_nonneg hq
  obtain ⟨b, hb, h1, h2⟩ := hq
  obtain ⟨b', hb', h1', h2'⟩ := hq'
  rcases le_or_gt b' v with hv' | hv'
  · rw [h1' hv']
    refine max_le ?_ hn
    have k := h b' v hb'.1 hv'
    rcases le_or_gt b v with hv | hv
    · rw [h1 hv]
      refine le_trans ?_ (le_max_left _ _)
      linarith [hb.2.2 b' hb'.1 hb'.2.1]
    · rw [h2 hv]
      have hd : 0 < b - b' := by linarith
      have c := hP b' b ((b - v) / (b - b')) ((v - b') / (b - b')) hb'.1 hb.1 (div_nonneg (by linarith) hd.le) (div_nonneg (by linarith) hd.le) (by field_simp; ring)
      rw [show (b - v) / (b - b') * b' + (v - b') / (b - b') * b = v by field_simp; ring] at c
      have hbb := hb.2.2 b' hb'.1 hb'.2.1
      have c2 : P b' ≤ (b - v) / (b - b') * P b' + (v - b') / (b - b') * P b := by
        have e : (b - v) / (b - b') = 1 - (v - b') / (b - b') := by field_simp; ring
        have : 0 ≤ (v - b') / (b - b') := div_nonneg (by linarith) hd.le
        rw [e]
        nlinarith
      linarith
  · rw [h2' hv']
    exact hn

theorem discovery_rises {P P' : ℝ → ℝ} (h : Rises P P') {q q' : ℝ} (hq : IsDiscovery P q) (hq' : IsDiscovery P' q') : q ≤ q' := by
  obtain ⟨b, hb, rfl⟩ := hq
  obtain ⟨b', hb', rfl⟩ := hq'
  linarith [h 0 b le_rfl hb.1, hb'.2.2 b hb.1 hb.2.1]

/-- Larger signal strengths have larger statistics. -/
theorem stat_strength {P : ℝ → ℝ} (hP : Concave P) {v v' q q' : ℝ} (hv : v ≤ v') (hq : IsStat P v q) (hq' : IsStat P v' q') : q ≤ q' := by
  have hn := stat_nonneg hq'
  obtain ⟨b, hb, h1, h2⟩ := hq
  rcases le_or_gt b v with hbv | hbv
  · have e : q' = max (2 * (P b - P v')) 0 := stat_unique hP hq' ⟨b, hb, fun _ => rfl, fun h => absurd h (by linarith)⟩
    rw [h1 hbv]
    refine max_le ?_ hn
    rcases hbv.eq_or_lt with rfl | hbv
    · linarith
    · rcases hv.eq_or_lt with rfl | hv
      · rw [e]; exact le_max_left _ _
      · have hd : 0 < v' - b := by linarith
        have c := hP b v' ((v' - v) / (v' - b)) ((v - b) / (v' - b)) hb.1 (by linarith [hb.1]) (div_nonneg (by linarith) hd.le) (div_nonneg (by linarith) hd.le) (by field_simp; ring)
        rw [show (v' - v) / (v' - b) * b + (v - b) / (v' - b) * v' = v by field_simp; ring] at c
        have e1 : (v' - v) / (v' - b) = 1 - (v - b) / (v' - b) := by field_simp; ring
        have t0 : 0 ≤ (v - b) / (v' - b) := div_nonneg (by linarith) hd.le
        have t1 : (v - b) / (v' - b) ≤ 1 := (div_le_one hd).mpr (by linarith)
        rw [e1] at c
        have m1 := le_max_left (2 * (P b - P v')) 0
        have m2 := le_max_right (2 * (P b - P v')) 0
        rw [← e] at m1 m2
        nlinarith [mul_le_mul_of_nonneg_left m1 t0, mul_le_mul_of_nonneg_right t1 m2]
  · rw [h2 hbv]; exact hn

/-- The same bins with larger uncertainties. -/
def Vaguer (x x' : Bin) : Prop := x'.s = x.s ∧ x'.b = x.b ∧ x'.d = x.d ∧ x.σ ≤ x'.σ

/-- With a larger uncertainty every signal fits at least as well. -/
theorem bin_vaguer (G : ℝ → ℝ) {d b σ σ' x : ℝ} (hd : 0 ≤ d) (hb : 1 / 10 ^ 20 ≤ b) (hσ : 0 ≤ σ) (hσσ : σ ≤ σ') (hx : 0 ≤ x) : binLog G d b σ x ≤ binLog G d b σ' x := by
  rcases (hσ.trans hσσ).eq_or_lt with h0 | h0
  · have : σ = σ' := by linarith
    rw [this]
  · obtain ⟨l1, l2⟩ := fitted_low d b σ x
    refine le_trans ?_ (bin_at G hd hb h0 hx l1 l2)
    unfold binLog
    have : stdLog ((fitted d b σ x - x - b) / σ) ≤ stdLog ((fitted d b σ x - x - b) / σ') := by
      rcases hσ.eq_or_lt with rfl | hσ
      · rw [fitted_none hb hx, div_zero, show x + b - x - b = 0 by ring, zero_div]
      · unfold stdLog
        have : ((fitted d b σ x - x - b) / σ') ^ 2 ≤ ((fitted d b σ x - x - b) / σ) ^ 2 := by
          rw [div_pow, div_pow]
          exact div_le_div_of_nonneg_left (sq_nonneg _) (by positivity) (by gcongr)
        linarith
    linarith

end Verif.Uncorrelated
