import Verif.Interval.Reads
import Verif.Interval.Spec
import Verif.Uncorrelated.InformationProps

/-!
# The search for the upper limit of bins
-/

namespace Verif.Interval
open Verif.Py F Verif.Hypotest Verif.Chi2 Verif.Chain Verif.Uncorrelated
open Verif.Interface (MuHat World Size Plain Solver)
open Verif.Backend (Ext Vec at')
open Verif.Stats (Expect Calc)
open Verif.UpperLimit (Sound)

/-- The result, if it depends on what the fits give only. -/
theorem interval_fits {σ : Type} {I : σ → Prop} {M : Methods σ} {sigma : Expect → ℝ → Comp σ F} {e : Expect} {isf : ℝ → F} {fuel nScan nMulti : ℕ} {toms brent : UpperLimit.Solver} {minimize : Minimizer} {CL r : ℝ} {m s : F}
    (hCL : 0 ≤ CL ∧ CL ≤ 1) (hm : Ends I (M.maximize e false none) (.ok (.one r, m))) (hs : Ends I (orOne (sigma e r)) (.ok s)) {l : List F}
    (h : ∀ w, I w → chi2Test fuel toms brent minimize (nllFn M e w) (isf (1 - CL)) .right (poiProblem .right false r m s) nScan nMulti = some (.ok l)) :
    Ends I (chi2Interval fuel toms brent minimize isf M sigma e CL .right false nScan nMulti) (.ok (some l)) := by
  unfold chi2Interval
  rw [if_pos hCL]
  refine Ends.bind (a := (.one r, m)) (by convert hm using 2; simp) ?_
  refine Ends.bind (a := s) hs ?_
  intro w hw
  unfold search
  rw [h w hw]
  exact ⟨rfl, hw⟩

theorem orOne_ends {σ : Type} {I : σ → Prop} {c : Comp σ F} {s : ℝ} (h : Ends I c (.ok (fin s)) ∨ s = 1 ∧ Ends I c (.error (.call .method))) : Ends I (orOne c) (.ok (fin s)) := by
  intro w hw
  rcases h with h | ⟨rfl, h⟩ <;> obtain ⟨h1, h2⟩ := h w hw <;> unfold orOne <;> cases hc : c w <;> rw [hc] at h1 h2 <;> dsimp only at h1 h2 <;> subst h1 <;> exact ⟨rfl, h2⟩

/-- A value of the search for the upper limit of a likelihood that is concave for signals that are not negative, with its largest value at `best`: where the statistic reaches the threshold, up to
the tolerance. -/
theorem right_value {nll : ℝ → F} {P Q : ℝ → ℝ} {c best z : ℝ} (hP : Concave P) (hQ : ∀ v, 0 ≤ v → P v = Q v + c) (hn : ∀ v, 0 ≤ v → nll v = fin (-(Q v))) (hb : IsBest P best)
    (hglob : ∀ v, 0 ≤ v → P v ≤ P best) {tol : ℝ → ℝ} (h0 : ∀ x, 0 ≤ tol x) {toms brent : UpperLimit.Solver} (ht : Sound tol toms) (hbr : Sound tol brent) {minimize : Minimizer} (hm : Honest minimize)
    {s : F} {fuel nScan nMulti : ℕ} {L : List F}
    (h : chi2Test fuel toms brent minimize nll (fin (z ^ 2)) .right (poiProblem .right false best (fin (-(Q best))) s) nScan nMulti = some (.ok L)) (v : F) (hv : v ∈ L) :
    v = nan ∨ v = fin 1e5 ∨ ∃ x, v = fin x ∧ (best ≤ x - tol x → ∀ u q, 0 ≤ u → IsStat P u q → (u ≤ x - tol x → q ≤ z ^ 2) ∧ (x + tol x ≤ u → z ^ 2 ≤ q)) := by
  obtain ⟨m, ref, ha, hr⟩ := C22_crossings h0 ht hbr hm nll (fin (z ^ 2)) .right _ 0 1e5 (.inl ⟨false, best, fin (-(Q best)), s, rfl, by simp, rfl⟩) nScan nMulti fuel L h
  have hm' : m = fin (-(Q best)) := by
    rcases ha with ⟨h1, -⟩ | ⟨h1, h2, h3, -⟩
    · exact h1
    · exfalso
      have h4 : 0 ≤ ref := by
        refine le_trans ?_ h3
        simp only [poiProblem, Bool.false_or, reduceCtorEq, decide_false, Bool.or_false, Bool.false_eq_true, if_false]
        exact le_trans (le_max_left _ _) (le_max_right _ _)
      rw [h1, hn ref h4] at h2
      have h5 : -(Q ref) < -(Q best) := h2
      have := hglob ref h4
      rw [hQ ref h4, hQ best hb.1] at this
      linarith
  subst hm'
  have key : ∀ x, Crosses nll (fin (-(Q best))) (fin (z ^ 2)) (tol x) x →
      (best ≤ x - tol x → ∀ u q, 0 ≤ u → IsStat P u q → (u ≤ x - tol x → q ≤ z ^ 2) ∧ (x + tol x ≤ u → z ^ 2 ≤ q)) := by
    rintro x ⟨⟨y, hy, hy1⟩, ⟨y', hy', hy1'⟩⟩ hbx u q hu hq
    obtain ⟨a1, a2⟩ := abs_le.mp hy
    obtain ⟨b1, b2⟩ := abs_le.mp hy'
    have hb0 := hb.1
    have val : ∀ y, best ≤ y → chi2At nll (fin (-(Q best))) y = fin (2 * (P best - P y)) ∧ IsStat P y (2 * (P best - P y)) := by
      intro y hyb
      have hy0 : 0 ≤ y := hb0.trans hyb
      refine ⟨?_, best, hb, fun _ => (max_eq_left (by linarith [hglob y hy0])).symm, fun hlt => absurd hlt (by linarith)⟩
      unfold chi2At
      rw [hn y hy0, hQ y hy0, hQ best hb0]
      simp only [sub, add, neg, scale]
      congr 1
      ring
    obtain ⟨v1, v2⟩ := val y (by linarith)
    obtain ⟨w1, w2⟩ := val y' (by linarith)
    rw [v1] at hy1
    rw [w1] at hy1'
    exact ⟨fun hle => (stat_strength hP (by linarith) hq v2).trans hy1, fun hle => le_trans hy1' (stat_strength hP (by linarith) w2 hq)⟩
  have side : ∀ v, SideValue nll (fin (-(Q best))) (fin (z ^ 2)) tol 1e5 v → v = nan ∨ v = fin 1e5 ∨ ∃ x, v = fin x ∧
      (best ≤ x - tol x → ∀ u q, 0 ≤ u → IsStat P u q → (u ≤ x - tol x → q ≤ z ^ 2) ∧ (x + tol x ≤ u → z ^ 2 ≤ q)) := by
    rintro v (h1 | h1 | ⟨x, h1, h2⟩)
    · exact .inl h1
    · exact .inr (.inl h1)
    · exact .inr (.inr ⟨x, h1, key x h2⟩)
  rcases hr with ⟨l, -, rfl, -, h2, -⟩ | ⟨v', ⟨h1, -⟩ | ⟨-, rfl, h2⟩⟩ | ⟨_, _, h1, -⟩
  · obtain ⟨x, hx, rfl⟩ := List.mem_map.mp hv
    exact .inr (.inr ⟨x, rfl, key x (h2 x hx)⟩)
  · cases h1
  · rw [List.mem_singleton] at hv
    exact hv ▸ side _ h2
  · cases h1

/-- The first scan finds it, if strength zero or the lower end of the window is below and the upper end above the threshold. -/
theorem right_found {nll : ℝ → F} {P Q : ℝ → ℝ} {c best z u : ℝ} (hP : Concave P) (hQ : ∀ v, 0 ≤ v → P v = Q v + c) (hn : ∀ v, 0 ≤ v → nll v = fin (-(Q v))) (hb : IsBest P best)
    (hglob : ∀ v, 0 ≤ v → P v ≤ P best) {tol : ℝ → ℝ} (h0 : ∀ x, 0 ≤ tol x) {toms brent : UpperLimit.Solver} (ht : Sound tol toms) (hs : UpperLimit.Succeeds toms) {minimize : Minimizer} {s : ℝ}
    (hs0 : 0 < s) {δ : ℝ} (hlow : 2 * (P best - P (max 0 (best - max (6 * s) 3))) < z ^ 2) (hu : 2 * (P best - P u) = z ^ 2) (hbu : best < u) (hu1 : u < best + max (6 * s) 3) (hmax : best + max (6 * s) 3 ≤ 1e5)
    (hδ : ∀ x, 0 ≤ x → x ≤ best + max (6 * s) 3 → tol x ≤ δ) (hd : δ + 1e-12 < u - best) (nMulti : ℕ) :
    ∃ y, |y - u| ≤ tol y ∧ ∀ fuel, chi2Test fuel toms brent minimize nll (fin (z ^ 2)) .right (poiProblem .right false best (fin (-(Q best))) (fin s)) 3 nMulti = some (.ok [fin y]) := by
  obtain ⟨W, hW⟩ : ∃ W, W = max (6 * s) 3 := ⟨_, rfl⟩
  rw [← hW] at hlow hu1 hmax hδ
  have s3 : 3 ≤ W := hW ▸ le_max_right _ _
  have hb0 := hb.1
  have e1 : (poiProblem .right false best (fin (-(Q best))) (fin s)).scanLo = max 0 (best - W) := by
    simp only [poiProblem, positiveOr1, if_pos hs0, abs_of_pos hs0, Bool.false_or, reduceCtorEq, decide_false, Bool.or_false, Bool.false_eq_true, if_false, ← hW]
    exact max_eq_right (le_trans (by norm_num) (le_max_left _ _))
  have e2 : (poiProblem .right false best (fin (-(Q best))) (fin s)).scanHi = best + W := by
    simp only [poiProblem, positiveOr1, if_pos hs0, abs_of_pos hs0, ← hW]
    exact min_eq_right hmax
  have hlo0 : 0 ≤ max 0 (best - W) := le_max_left _ _
  have hlob : max 0 (best - W) ≤ best := max_le hb0 (by linarith)
  have hval : Valley (Chi2.profile nll (fin (-(Q best))) (fin (z ^ 2))) (max 0 (best - W)) (best + W) (max 0 (best - W) - 1) u := by
    intro x k1 k2
    have hx0 : 0 ≤ x := hlo0.trans k1
    refine ⟨2 * (P best - P x) - z ^ 2, ?_, ?_⟩
    · unfold Chi2.profile
      rw [hn x hx0, hQ x hx0, hQ best hb0]
      simp only [sub, add, neg, scale]
      congr 1
      ring
    have below : x < u → 2 * (P best - P x) < z ^ 2 := by
      intro hxu
      obtain ⟨lo, hlo⟩ : ∃ lo, lo = max 0 (best - W) := ⟨_, rfl⟩
      rw [← hlo] at hlow k1 hlo0 hlob
      have hlu : 0 < u - lo := by linarith
      have := hP lo u ((u - x) / (u - lo)) ((x - lo) / (u - lo)) hlo0 (by linarith) (div_nonneg (by linarith) hlu.le) (div_nonneg (by linarith) hlu.le) (by field_simp; ring)
      rw [show (u - x) / (u - lo) * lo + (x - lo) / (u - lo) * u = x by field_simp; ring] at this
      have hp : 0 < (u - x) / (u - lo) := div_pos (by linarith) hlu
      have hs1 : (x - lo) / (u - lo) = 1 - (u - x) / (u - lo) := by field_simp; ring
      rw [hs1] at this
      nlinarith
    have above : u < x → z ^ 2 < 2 * (P best - P x) := by
      intro hxu
      have hz : 0 ≤ 2 * (P best - P (max 0 (best - W))) := by linarith [hglob _ hlo0]
      have hxb : 0 < x - best := by linarith
      have := hP best x ((x - u) / (x - best)) ((u - best) / (x - best)) hb0 hx0 (div_nonneg (by linarith) hxb.le) (div_nonneg (by linarith) hxb.le) (by field_simp; ring)
      rw [show (x - u) / (x - best) * best + (u - best) / (x - best) * x = u by field_simp; ring] at this
      have hp : 0 < (x - u) / (x - best) := div_pos (by linarith) hxb
      have hp' : 0 < (u - best) / (x - best) := div_pos (by linarith) hxb
      have hs1 : (u - best) / (x - best) = 1 - (x - u) / (x - best) := by field_simp; ring
      rw [hs1] at this hp'
      have hpos : 0 < P best - P u := by linarith
      nlinarith
    constructor
    · constructor
      · exact fun hle => ⟨by linarith, not_lt.mp fun hlt => by linarith [above hlt]⟩
      · rintro ⟨-, hle⟩
        rcases hle.eq_or_lt with rfl | hlt
        · linarith
        · linarith [below hlt]
    · constructor
      · refine fun hlt => ⟨by linarith, not_le.mp fun hle => ?_⟩
        rcases hle.eq_or_lt with rfl | hle
        · linarith
        · linarith [above hle]
      · exact fun hlt => by linarith [below hlt.2]
  obtain ⟨y, k1, k2, k3, k4⟩ := scan_one (brent := brent) h0 ht hs hval (by linarith) (by linarith) hu1
  refine ⟨y, k2, fun fuel => search_right (m := fin (-(Q best))) (ref := best) (l := []) ?_ (by rw [e1, e2]; exact k1) (by simp) ?_⟩
  · rw [e1, e2]
    refine refineMin_points fun x hx => ?_
    have hx0 : 0 ≤ x := hlo0.trans (linspace_mem (le_max_left _ _) (by linarith) hx).1
    rw [hn x hx0]
    intro hlt
    have h5 : -(Q x) < -(Q best) := hlt
    have := hglob x hx0
    rw [hQ x hx0, hQ best hb0] at this
    linarith
  · have n1 := hδ y (hlo0.trans k3) k4
    rw [abs_le] at k2
    linarith

variable {S : Solver} (hS : Exact S) (hT : Finds S) (hC : Interface.Constrained S)
include hS hT hC

/-- The fits of `chi2_test` of bins: best fit for signals that are not negative, and likelihood. -/
theorem bins_fits {E : Ext} (draw : Vec × List Vec → ℕ → List Vec) {bins : List Bin} {m : Backend.Model} {N : ℕ} (h : Describes bins m N) (hv : Valid bins) (e : Expect) (g : Bool)
    (ntoys : Size) (available : Calc → Bool) (percentile : List F → F → F) :
    ∃ (Q : ℝ → ℝ) (c best : ℝ), (∀ v, 0 ≤ v → Uncorrelated.profile E.gammaln (seen e bins) v = Q v + c) ∧ IsBest (Uncorrelated.profile E.gammaln (seen e bins)) best ∧
      Ends (Plain N) ((modelMethods S (plugged E draw m) g none ntoys available percentile).maximize e false none) (.ok (.one best, fin (-(Q best)))) ∧
      ∀ v, 0 ≤ v → Ends (Plain N) ((modelMethods S (plugged E draw m) g none ntoys available percentile).likelihood e none v) (.ok (fin (-(Q v)))) := by
  cases h with
  | uncorrelated h =>
    obtain ⟨lo, hsim⟩ := simple (E := E) h hv
    have hB := hsim.binned draw
    have hl := argsOf_length bins
    obtain ⟨hd, hp⟩ := seen_data (E := E) hv e
    obtain ⟨w, hw⟩ : ∃ w : World, Plain (bins.length + 1) w := ⟨⟨List.replicate (bins.length + 1) 0, none, none⟩, rfl, rfl, by simp⟩
    rw [hl] at hB
    obtain ⟨hlik, hmax, -⟩ := model_ends hS hB.usual g ntoys available percentile e w hw
    obtain ⟨best, l, h1, h2⟩ := hB.fit_default hS hT hC false e g hw
    obtain ⟨k1, k2⟩ := max_all hv.1 hd h1
    refine ⟨_, 0, best, fun v _ => (_root_.add_zero _).symm, hp ▸ k2, ?_, fun v hv0 => ?_⟩
    · rw [← hp, ← k1]
      exact hmax _ _ _ h2
    · obtain ⟨l, ⟨θ, h3⟩, h4⟩ := hB.at_default hS hT hC e (v := v) (hB.low.trans hv0) g hw
      rw [← hp, ← (max_at hv.1 hd hv0 h3).1]
      exact hlik _ _ _ h4
  | poisson h hσ =>
    obtain ⟨lo, hB⟩ := counts_single E draw h hv
    obtain ⟨x, hx⟩ := counts_best E.gammaln (seen_valid e hv)
    obtain ⟨xA, hxA⟩ := counts_best E.gammaln (asimov_valid 0 (seen_valid e hv))
    have hb : IsBest (counts E.gammaln (seen e bins)) x := ⟨hx.1, hx.2.1, fun y k0 k10 => (hx.2.2 y k0 k10).1⟩
    have hs : ∀ v, 0 ≤ v → Uncorrelated.profile E.gammaln (seen e bins) v = counts E.gammaln (seen e bins) v + (seen e bins).length * Backend.stdLog 0 :=
      fun v hv0 => counts_profile _ (seen_valid e hv).1 (seen_sigma e hσ) hv0
    have := single_all hS hT hB (counts_none E draw h e) (counts_log E draw h e _ (by simp [seen_length]) fun i hi => asimov_bin e 0 hi)
      (counts_asimov E draw h hv e hσ le_rfl) hx hxA g ntoys available percentile
    exact ⟨_, _, x, hs, best_shift hs hb, this.best, fun v _ => this.likelihood v⟩

end Verif.Interval
