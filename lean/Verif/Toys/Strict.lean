import Verif.Uncorrelated.Order
import Verif.Uncorrelated.Tests

/-!
# More events give smaller statistics, strictly
-/

namespace Verif.Toys
open Verif.Backend (poissonLog stdLog)
open Verif.Uncorrelated (Bin profile IsBest IsStat fitted binLog bin_at bin_best fitted_low fitted_pos fitted_none fitted_eq withPull stat_nonneg)

/-- A number of events that leaves the background positive and fits as well is the best. -/
theorem bin_at_eq (G : ℝ → ℝ) {d b σ x r : ℝ} (hd : 0 ≤ d) (hb : 1 / 10 ^ 20 ≤ b) (hσ : 0 < σ) (hx : 0 ≤ x) (h1 : x ≤ r) (h2 : 1 / 10 ^ 20 ≤ r)
    (he : binLog G d b σ x ≤ poissonLog G d r + stdLog ((r - x - b) / σ)) : r = fitted d b σ x := by
  have e : x + (b + σ * ((r - x - b) / σ)) = r := by field_simp; ring
  have := bin_best G hd hb hσ.le hx (t := (r - x - b) / σ) (by linarith)
  unfold withPull at this
  rw [e, max_eq_left h2] at this
  have := this.2 (le_antisymm this.1 he)
  rw [div_left_inj' hσ.ne'] at this
  linarith

/-- With more events, a larger signal gains more. -/
theorem bin_more (G : ℝ → ℝ) {d d' b σ x y : ℝ} (hd : 0 ≤ d) (hdd : d < d') (hd' : 1 / 10 ^ 20 < d') (hb : 1 / 10 ^ 20 ≤ b) (hσ : 0 ≤ σ) (hx : 0 ≤ x) (hxy : x < y) :
    binLog G d b σ y - binLog G d b σ x < binLog G d' b σ y - binLog G d' b σ x := by
  have hε : (0 : ℝ) < 1 / 10 ^ 20 := by norm_num
  have hb0 : (0 : ℝ) < b := lt_of_lt_of_le hε hb
  have hy : 0 ≤ y := hx.trans hxy.le
  have hd0 : 0 ≤ d' := hd.trans hdd.le
  rcases hσ.eq_or_lt with rfl | hσ
  · unfold binLog
    rw [fitted_none hb hx, fitted_none hb hy, fitted_none hb hx, fitted_none hb hy]
    have := Real.log_lt_log (by linarith : 0 < x + b) (by linarith : x + b < y + b)
    simp only [div_zero, poissonLog]
    nlinarith [mul_pos (sub_pos.mpr hdd) (sub_pos.mpr this)]
  · obtain ⟨l1, l2⟩ := fitted_low d' b σ x
    obtain ⟨k1, k2⟩ := fitted_low d b σ y
    have p1 := fitted_pos d' b σ x
    have p2 := fitted_pos d b σ y
    have e1 : binLog G d' b σ x = poissonLog G d' (fitted d' b σ x) + stdLog ((fitted d' b σ x - x - b) / σ) := rfl
    have e2 : binLog G d b σ y = poissonLog G d (fitted d b σ y) + stdLog ((fitted d b σ y - y - b) / σ) := rfl
    rw [e1, e2]
    obtain ⟨r, hr⟩ : ∃ r, r = fitted d' b σ x := ⟨_, rfl⟩
    obtain ⟨r', hr'⟩ : ∃ r, r = fitted d b σ y := ⟨_, rfl⟩
    rw [← hr] at l1 l2 p1 ⊢
    rw [← hr'] at k1 k2 p2 ⊢
    rcases lt_trichotomy r' r with h | h | h
    · have a1 := bin_at G hd0 hb hσ hy (k1.trans h.le) l2
      have a2 := bin_at G hd hb hσ hx (hxy.le.trans k1) k2
      have : stdLog ((r - x - b) / σ) + stdLog ((r' - y - b) / σ) < stdLog ((r - y - b) / σ) + stdLog ((r' - x - b) / σ) := by
        have e : stdLog ((r - y - b) / σ) + stdLog ((r' - x - b) / σ) - (stdLog ((r - x - b) / σ) + stdLog ((r' - y - b) / σ)) = (y - x) * (r - r') / σ ^ 2 := by
          unfold stdLog
          field_simp
          ring
        have : 0 < (y - x) * (r - r') / σ ^ 2 := div_pos (mul_pos (by linarith) (by linarith)) (by positivity)
        linarith
      linarith
    · subst h
      have a1 := bin_at G hd0 hb hσ hy k1 k2
      have a2 := bin_at G hd hb hσ hx l1 l2
      by_contra hcon
      have f1 := bin_at_eq G hd0 hb hσ hy k1 k2 (by linarith)
      have f2 := bin_at_eq G hd hb hσ hx l1 l2 (by linarith)
      have hs : 0 < σ ^ 2 := by positivity
      obtain ⟨q1, q1'⟩ := fitted_eq (b := b) (σ := σ) (x := x) hd0
      obtain ⟨q2, q2'⟩ := fitted_eq (b := b) (σ := σ) (x := y) hd0
      obtain ⟨-, q3'⟩ := fitted_eq (b := b) (σ := σ) (x := x) hd
      rw [← hr] at q1 q1'
      rw [← f1] at q2 q2'
      rw [← f2] at q3'
      rcases k2.eq_or_lt with h0 | h0
      · rw [← h0] at q1 k1
        have : σ ^ 2 * (d' - 1 / 10 ^ 20) > 0 := mul_pos hs (by linarith)
        nlinarith [mul_nonneg hε.le (sub_nonneg.mpr hb), mul_nonneg hε.le hx]
      · have hx' := max_lt (lt_of_lt_of_le hxy k1) h0
        have c1 := q1' hx'
        have c3 := q3' hx'
        have : σ ^ 2 * (d' - d) = 0 := by linarith
        have : σ ^ 2 * (d' - d) > 0 := mul_pos hs (by linarith)
        linarith
    · have a1 := bin_at G hd0 hb hσ hy k1 k2
      have a2 := bin_at G hd hb hσ hx l1 l2
      have hl := Real.log_lt_log p1 h
      have : poissonLog G d' r + poissonLog G d r' < poissonLog G d' r' + poissonLog G d r := by
        unfold poissonLog
        nlinarith [mul_pos (sub_pos.mpr hdd) (sub_pos.mpr hl)]
      linarith

/-- If a larger signal gains more with `P'`, positive statistics are smaller. -/
theorem stat_below {P P' : ℝ → ℝ} (h : ∀ x y, 0 ≤ x → x < y → P y - P x < P' y - P' x) {v q q' : ℝ} (hq : IsStat P v q) (hq' : IsStat P' v q') (h0 : 0 < q) : q' < q := by
  obtain ⟨b, hb, h1, h2⟩ := hq
  obtain ⟨b', hb', h1', h2'⟩ := hq'
  have hbv : b ≤ v := by
    by_contra hc
    have := h2 (not_le.mp hc)
    linarith
  rcases le_or_gt b' v with hv' | hv'
  · rw [h1' hv']
    rcases hv'.eq_or_lt with rfl | hlt
    · simpa using h0
    · refine max_lt ?_ h0
      have k := h b' v hb'.1 hlt
      have := hb.2.2 b' hb'.1 hb'.2.1
      have := h1 hbv ▸ le_max_left (2 * (P b - P v)) 0
      linarith
  · rw [h2' hv']
    exact h0

end Verif.Toys
