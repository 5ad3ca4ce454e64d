import Verif.Toys.Many

/-!
# Quantiles of many toys of Gaussian models
-/

namespace Verif.Toys
open MeasureTheory ProbabilityTheory Filter Topology
open Verif.Py F Verif.Hypotest Verif.Chain
open Verif.Uncorrelated (IsBest IsStat stat_unique stat_nonneg)

/-- The statistic of the strength `v` if `a` is measured. -/
noncomputable def statOf (σ v a : ℝ) : ℝ := if nearest 0 a ≤ v then max (2 * (parabola σ a (nearest 0 a) - parabola σ a v)) 0 else 0

variable {σ v : ℝ} (hσ : 0 < σ)
include hσ

theorem statOf_is (a : ℝ) : IsStat (parabola σ a) v (statOf σ v a) := by
  refine ⟨_, parabola_best hσ a, fun h => ?_, fun h => ?_⟩
  · rw [statOf, if_pos h]
  · rw [statOf, if_neg (not_le.mpr h)]

theorem statOf_map {α : Type} {f : α → ℝ} {ds : List α} {qs : List ℝ} (h : List.Forall₂ (fun D q => IsStat (parabola σ (f D)) v q) ds qs) : qs = (ds.map f).map (statOf σ v) := by
  induction h with
  | nil => rfl
  | cons h1 _ ih =>
    rw [ih, stat_unique (parabola_concave hσ _) h1 (statOf_is hσ _)]
    simp

variable (hv : 0 < v) (hv' : v ≤ 10)
include hv hv'

theorem statOf_le {t : ℝ} (ht : t < v) (a : ℝ) : statOf σ v t ≤ statOf σ v a ↔ a ≤ t :=
  parabola_stat hσ (statOf_is hσ t) (statOf_is hσ a) (parabola_pos hσ hv hv' ht (statOf_is hσ t))

theorem statOf_zero {a : ℝ} (ha : v ≤ a) : statOf σ v a = 0 := by
  have hb : v ≤ nearest 0 a := le_min (ha.trans (le_max_left _ _)) hv'
  unfold statOf
  split
  · rename_i h
    rw [le_antisymm h hb]
    simp
  · rfl

/-- Statistics of at least `c`, between those of two strengths. -/
theorem count_between {t t' c : ℝ} (ht : t < v) (ht' : t' < v) (h1 : statOf σ v t' ≤ c) (h2 : c ≤ statOf σ v t) (x : ℕ → ℝ) (n : ℕ) :
    upTo x t n ≤ (((List.range n).map x).map (statOf σ v)).countP (fun q => decide (c ≤ q)) ∧
      (((List.range n).map x).map (statOf σ v)).countP (fun q => decide (c ≤ q)) ≤ upTo x t' n := by
  unfold upTo
  rw [List.countP_map (f := statOf σ v)]
  constructor
  · refine List.countP_mono_left fun a _ ha => ?_
    simp only [decide_eq_true_eq, Function.comp] at ha ⊢
    exact h2.trans ((statOf_le hσ hv hv' ht a).mpr ha)
  · refine List.countP_mono_left fun a _ ha => ?_
    simp only [decide_eq_true_eq, Function.comp] at ha ⊢
    exact (statOf_le hσ hv hv' ht' a).mp (h1.trans ha)

theorem upTo_compl (x : ℕ → ℝ) (t : ℝ) (n : ℕ) : ((List.range n).map x).countP (fun y => decide (t < y)) + upTo x t n = n := by
  have := List.length_eq_countP_add_countP (fun y => decide (y ≤ t)) (l := (List.range n).map x)
  simp only [List.length_map, List.length_range] at this
  have hc : ((List.range n).map x).countP (fun y => decide (t < y)) = ((List.range n).map x).countP (fun y => decide ¬decide (y ≤ t) = true) :=
    List.countP_congr fun y _ => by simp
  unfold upTo
  omega

/-- The quantiles of the statistics lie between those of strengths on both sides of the quantile. -/
theorem quantile_sandwich {x : ℕ → ℝ} {p t t' f f' : ℝ} (hp : 0 ≤ p) (hp' : p ≤ 1) (ht : t < v) (ht' : t' < v) (h : Tendsto (fun n : ℕ => (upTo x t n : ℝ) / n) atTop (𝓝 f))
    (h' : Tendsto (fun n : ℕ => (upTo x t' n : ℝ) / n) atTop (𝓝 f')) (hf : f < 1 - p) (hf' : 1 - p < f') :
    ∀ᶠ n in atTop, statOf σ v t' ≤ quantile (((List.range n).map x).map (statOf σ v)) p ∧ quantile (((List.range n).map x).map (statOf σ v)) p ≤ statOf σ v t := by
  have hinv : Tendsto (fun n : ℕ => (1 : ℝ) / n) atTop (𝓝 0) := tendsto_one_div_atTop_nhds_zero_nat
  have g1 : ∀ᶠ n : ℕ in atTop, (upTo x t n : ℝ) / n + 1 / n < 1 - p := by
    have := h.add hinv
    rw [_root_.add_zero] at this
    exact this.eventually (gt_mem_nhds hf)
  have g2 : ∀ᶠ n : ℕ in atTop, 1 - p < (upTo x t' n : ℝ) / n - 1 / n := by
    have := h'.sub hinv
    rw [sub_zero] at this
    exact this.eventually (lt_mem_nhds hf')
  filter_upwards [g1, g2, eventually_gt_atTop 0] with n k1 k2 hn
  have hn' : (0 : ℝ) < n := by exact_mod_cast hn
  rw [← add_div, div_lt_iff₀ hn'] at k1
  rw [← sub_div, lt_div_iff₀ hn'] at k2
  obtain ⟨l, hl⟩ : ∃ l, l = ((List.range n).map x).map (statOf σ v) := ⟨_, rfl⟩
  have hlen : l.length = n := by simp [hl]
  have hne : l ≠ [] := by
    rintro rfl
    simp at hlen
    omega
  obtain ⟨c1, c2⟩ := quantile_counts hne hp hp'
  have hn1 : ((n - 1 : ℕ) : ℝ) = (n : ℝ) - 1 := by
    rw [Nat.cast_sub hn]
    simp
  rw [hlen, hn1] at c1 c2
  rw [← hl]
  constructor
  · by_contra hc
    rw [not_le] at hc
    have h3 : l.countP (fun y => decide (y ≤ quantile l p)) ≤ ((List.range n).map x).countP fun y => decide (t' < y) := by
      rw [hl, List.countP_map, ← hl]
      refine List.countP_mono_left fun a _ ha => ?_
      simp only [decide_eq_true_eq, Function.comp] at ha ⊢
      by_contra hle
      exact absurd ((statOf_le hσ hv hv' ht' a).mpr (not_lt.mp hle)) (not_le.mpr (ha.trans_lt hc))
    have h4 := upTo_compl hσ hv hv' x t' n
    have h5 : (l.countP (fun y => decide (y ≤ quantile l p)) : ℝ) + upTo x t' n ≤ n := by
      rw [← Nat.cast_add]
      exact_mod_cast (by omega)
    nlinarith
  · by_contra hc
    rw [not_le] at hc
    have h3 : l.countP (fun y => decide (quantile l p ≤ y)) ≤ upTo x t n := by
      unfold upTo
      rw [hl, List.countP_map, ← hl]
      refine List.countP_mono_left fun a _ ha => ?_
      simp only [decide_eq_true_eq, Function.comp] at ha ⊢
      exact (statOf_le hσ hv hv' ht a).mp (hc.le.trans ha)
    have h5 : (l.countP (fun y => decide (quantile l p ≤ y)) : ℝ) ≤ upTo x t n := by exact_mod_cast h3
    nlinarith

/-- If more toys than asked for fit best beyond `v`, the quantile vanishes. -/
theorem quantile_zero {x : ℕ → ℝ} {p f : ℝ} (hp : 0 ≤ p) (hp' : p ≤ 1) (h : Tendsto (fun n : ℕ => (upTo x v n : ℝ) / n) atTop (𝓝 f)) (hf : f < 1 - p) :
    ∀ᶠ n in atTop, quantile (((List.range n).map x).map (statOf σ v)) p ≤ 0 := by
  have hinv : Tendsto (fun n : ℕ => (1 : ℝ) / n) atTop (𝓝 0) := tendsto_one_div_atTop_nhds_zero_nat
  have g1 : ∀ᶠ n : ℕ in atTop, (upTo x v n : ℝ) / n + 1 / n < 1 - p := by
    have := h.add hinv
    rw [_root_.add_zero] at this
    exact this.eventually (gt_mem_nhds hf)
  filter_upwards [g1, eventually_gt_atTop 0] with n k1 hn
  have hn' : (0 : ℝ) < n := by exact_mod_cast hn
  rw [← add_div, div_lt_iff₀ hn'] at k1
  obtain ⟨l, hl⟩ : ∃ l, l = ((List.range n).map x).map (statOf σ v) := ⟨_, rfl⟩
  have hlen : l.length = n := by simp [hl]
  have hne : l ≠ [] := by
    rintro rfl
    simp at hlen
    omega
  obtain ⟨c1, c2⟩ := quantile_counts hne hp hp'
  have hn1 : ((n - 1 : ℕ) : ℝ) = (n : ℝ) - 1 := by
    rw [Nat.cast_sub hn]
    simp
  rw [hlen, hn1] at c1 c2
  rw [← hl]
  by_contra hc
  rw [not_le] at hc
  have h3 : l.countP (fun y => decide (quantile l p ≤ y)) ≤ upTo x v n := by
    unfold upTo
    rw [hl, List.countP_map, ← hl]
    refine List.countP_mono_left fun a _ ha => ?_
    simp only [decide_eq_true_eq, Function.comp] at ha ⊢
    by_contra hle
    rw [statOf_zero hσ hv hv' (not_le.mp hle).le] at ha
    linarith
  have h5 : (l.countP (fun y => decide (quantile l p ≤ y)) : ℝ) ≤ upTo x v n := by exact_mod_cast h3
  nlinarith

/-- The number of toys beyond the quantile. -/
theorem beyond_tendsto {x z : ℕ → ℝ} {p t : ℝ} (hp : 0 ≤ p) (hp' : p ≤ 1) (ht : t < v) {f G : ℝ → ℝ} (hx : ∀ m : ℕ, Tendsto (fun n : ℕ => (upTo x (t + 1 / (m + 1)) n : ℝ) / n) atTop (𝓝 (f (t + 1 / (m + 1)))))
    (hx' : ∀ m : ℕ, Tendsto (fun n : ℕ => (upTo x (t - 1 / (m + 1)) n : ℝ) / n) atTop (𝓝 (f (t - 1 / (m + 1)))))
    (hz : ∀ m : ℕ, Tendsto (fun n : ℕ => (upTo z (t + 1 / (m + 1)) n : ℝ) / n) atTop (𝓝 (G (t + 1 / (m + 1)))))
    (hz' : ∀ m : ℕ, Tendsto (fun n : ℕ => (upTo z (t - 1 / (m + 1)) n : ℝ) / n) atTop (𝓝 (G (t - 1 / (m + 1)))))
    (hf : StrictMono f) (hft : f t = 1 - p) (hG : ContinuousAt G t) :
    Tendsto (fun n : ℕ => ((((List.range n).map z).map (statOf σ v)).countP (fun q => decide (quantile (((List.range n).map x).map (statOf σ v)) p ≤ q)) : ℝ) / n) atTop (𝓝 (G t)) := by
  have hinv : Tendsto (fun m : ℕ => (1 : ℝ) / ((m : ℝ) + 1)) atTop (𝓝 0) := tendsto_one_div_add_atTop_nhds_zero_nat
  have up : Tendsto (fun m : ℕ => G (t + 1 / ((m : ℝ) + 1))) atTop (𝓝 (G t)) := hG.tendsto.comp (by simpa using tendsto_const_nhds.add hinv)
  have dn : Tendsto (fun m : ℕ => G (t - 1 / ((m : ℝ) + 1))) atTop (𝓝 (G t)) := hG.tendsto.comp (by simpa using tendsto_const_nhds.sub hinv)
  have small : ∀ᶠ m : ℕ in atTop, t + 1 / ((m : ℝ) + 1) < v := by
    have : Tendsto (fun m : ℕ => t + 1 / ((m : ℝ) + 1)) atTop (𝓝 t) := by simpa using tendsto_const_nhds.add hinv
    exact this.eventually (gt_mem_nhds ht)
  have key : ∀ m : ℕ, t + 1 / ((m : ℝ) + 1) < v → ∀ᶠ n : ℕ in atTop,
      upTo z (t - 1 / ((m : ℝ) + 1)) n ≤ (((List.range n).map z).map (statOf σ v)).countP (fun q => decide (quantile (((List.range n).map x).map (statOf σ v)) p ≤ q)) ∧
      (((List.range n).map z).map (statOf σ v)).countP (fun q => decide (quantile (((List.range n).map x).map (statOf σ v)) p ≤ q)) ≤ upTo z (t + 1 / ((m : ℝ) + 1)) n := by
    intro m hm
    have hpos : (0 : ℝ) < 1 / ((m : ℝ) + 1) := by positivity
    have hlt : t - 1 / ((m : ℝ) + 1) < v := by linarith
    filter_upwards [quantile_sandwich hσ hv hv' hp hp' hlt hm (hx' m) (hx m) (by rw [← hft]; exact hf (by linarith)) (by rw [← hft]; exact hf (by linarith))] with n hn
    exact count_between hσ hv hv' hlt hm hn.1 hn.2 z n
  rw [tendsto_order]
  constructor
  · intro c hc
    obtain ⟨m, hm1, hm2⟩ := ((dn.eventually (lt_mem_nhds hc)).and small).exists
    filter_upwards [key m hm2, (hz' m).eventually (lt_mem_nhds hm1)] with n h1 h2
    exact h2.trans_le (div_le_div_of_nonneg_right (by exact_mod_cast h1.1) (by positivity))
  · intro c hc
    obtain ⟨m, hm1, hm2⟩ := ((up.eventually (gt_mem_nhds hc)).and small).exists
    filter_upwards [key m hm2, (hz m).eventually (gt_mem_nhds hm1)] with n h1 h2
    exact (div_le_div_of_nonneg_right (by exact_mod_cast h1.2) (by positivity)).trans_lt h2

end Verif.Toys
