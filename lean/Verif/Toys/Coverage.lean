import Verif.Toys.ManyExpected
import Verif.Toys.ManyBins
import Verif.Py.NormalStrict
import Verif.Uncorrelated.LimitProps

/-!
# Levels of random data
-/

namespace Verif.Toys
open MeasureTheory ProbabilityTheory Filter Topology
open Verif.Py F Verif.Config Verif.Optimizer Verif.Hypotest Verif.Chain
open Verif.Interface (MuHat Data Toys World Size Plain Solver StartFree perfect)
open Verif.Backend (Ext Vec Args Built at')
open Verif.Stats (Expect Calc Levels gaussianLog gaussianLevel levelsOf)
open Verif.Uncorrelated (IsBest IsStat stat_unique stat_nonneg stat_shift fit_stat answer answer_eq answer_levels entry level_list entry_mono entries_lt stat_strength)
open Verif.UpperLimit (Expected Band Limit Entries Sound Reaches)

section
variable {S : Solver} (hS : Exact S) (hT : Finds S) {E : Ext} (draw : Vec × List Vec → ℕ → List Vec) {a : Args} {m : Backend.Model} {P : ℕ → ℕ → ℝ} {y : Vec} (h : Case E a m P y)
  (g : Bool) (ntoys : Size) (available : Calc → Bool) (hav : available .asymptotic = true) (percentile : List F → F → F)
include hS hT h hav

/-- The levels of Gaussian models from the two statistics, whatever strength is measured. -/
theorem gaussian_stats (e : Expect) {est σ : ℝ} (hest : est = estimate a.data.length P (at' y) (at' a.background) (at' (used a e))) (hσ : σ = deviation a.data.length P (at' y))
    {mu : Mu} {v : ℝ} (hmu : mu.Is v) (hv : 0 ≤ v) (w : World) (hw : Plain 1 w) :
    (exclusion (modelMethods S (plugged E draw m) g none ntoys available percentile) mu e false .asymptotic w).1 = .ok (levelsOf e false (statOf σ v est) (statOf σ v 0)) := by
  obtain ⟨lo, h1, h2, h3⟩ := h.single draw
  obtain ⟨c, hc⟩ := h.log draw e (used a e) (used_length h.fits e)
  obtain ⟨D, c', hD, hc'⟩ := h.asimov draw e 0
  rw [← hest, ← hσ] at hc
  rw [← hσ] at hc'
  have hσ0 : 0 < σ := hσ ▸ deviation_pos h.informative
  have b1 := nearest_is_best (c := c) (x := est) hσ0 (by norm_num : (0 : ℝ) ≤ 10)
  have b2 := nearest_is_best (c := c') (x := 0) hσ0 (by norm_num : (0 : ℝ) ≤ 10)
  have i1 : IsBest (gaussianLog c σ est) (nearest 0 est) := ⟨b1.1, b1.2.1, fun y k0 k10 => (b1.2.2 y k0 k10).1⟩
  have i2 : IsBest (gaussianLog c' σ 0) (nearest 0 0) := ⟨b2.1, b2.2.1, fun y k0 k10 => (b2.2.2 y k0 k10).1⟩
  obtain ⟨q, hq, s1⟩ := fit_stat (v := v) (l0 := fin (-(gaussianLog c σ est 0))) i1
  obtain ⟨qA, hqA, s2⟩ := fit_stat (v := v) (l0 := fin (-(gaussianLog c' σ 0 0))) i2
  have e1 : q = statOf σ v est := stat_unique (parabola_concave hσ0 _) (stat_shift (c := -c) hv (fun y _ => by unfold parabola gaussianLog; ring) hq) (statOf_is hσ0 _)
  have e2 : qA = statOf σ v 0 := stat_unique (parabola_concave hσ0 _) (stat_shift (c := -c') hv (fun y _ => by unfold parabola gaussianLog; ring) hqA) (statOf_is hσ0 _)
  rw [single_levels hS hT h1 (fun u => by rw [plugged_none E draw (measurement_built h.model h.modifiers) h.fits, hc u]) hc' hD (negative := false) (by simpa using b1) (by simpa using b2)
    hmu hv g ntoys available percentile w hw, answer_eq (stat_nonneg hq) (stat_nonneg hqA) s1 s2 e, hav, answer_levels e (stat_nonneg hq) (stat_nonneg hqA), e1, e2]

/-- The observed level of Gaussian models: strengths above the tested one count as this one. -/
theorem gaussian_observed {est σ : ℝ} (hest : est = estimate a.data.length P (at' y) (at' a.background) (at' a.data)) (hσ : σ = deviation a.data.length P (at' y))
    {mu : Mu} {v : ℝ} (hmu : mu.Is v) (hv : 0 < v) (hv10 : v ≤ 10) (w : World) (hw : Plain 1 w) :
    (exclusion (modelMethods S (plugged E draw m) g none ntoys available percentile) mu .observed false .asymptotic w).1 = .ok (.one [fin (gaussianLevel σ (min est v) v)]) := by
  have hσ0 : 0 < σ := hσ ▸ deviation_pos h.informative
  rcases le_or_gt est v with hle | hgt
  · rw [min_eq_left hle]
    exact (C118_levels hS hT draw h .observed hest hσ (hle.trans hv10) (negative := false) (fun hn => by simp at hn) hmu hv g ntoys available hav percentile w hw).1 rfl hle
  · rw [min_eq_right hgt.le, gaussian_stats hS hT draw h g ntoys available hav percentile .observed hest hσ hmu hv.le w hw, statOf_zero hσ0 hv hv10 hgt.le]
    have hA : statOf σ v 0 = (v / σ) ^ 2 := by
      have h0 : nearest 0 (0 : ℝ) = 0 := by simp [nearest]
      rw [statOf, h0, if_pos hv.le, max_eq_left]
      · unfold parabola gaussianLog
        field_simp
        ring
      · have := (parabola_best (σ := σ) hσ0 0).2.2 v hv.le hv10
        rw [h0] at this
        linarith
    have hp : 0 < v / σ := div_pos hv hσ0
    rw [hA, levelsOf, Stats.observedOf, if_neg (by simp)]
    simp only [Bool.false_eq_true, if_false, Stats.eq66, Real.sqrt_zero, Real.sqrt_sq hp.le, gaussianLevel]
    rw [if_pos (by positivity)]
    simp

end

/-- Data with a multivariate normal distribution: every linear combination is normal, with the mean of `r` and the variance of the covariance matrix `C`. -/
def NormalData {Ω : Type} [MeasurableSpace Ω] (μ : Measure Ω) (C : ℕ → ℕ → ℝ) (r : Vec) (X : Ω → Vec) : Prop := ∀ c : ℕ → ℝ,
  AEMeasurable (fun ω => combined r.length c (X ω)) μ ∧ μ.map (fun ω => combined r.length c (X ω)) = gaussianReal (combined r.length c r) (form r.length C c c).toNNReal

section
variable {Ω : Type} [MeasurableSpace Ω] {μ : Measure Ω} [IsProbabilityMeasure μ]

/-- The distribution of the measured strength. -/
theorem measured_law {k : ℕ} {P C : ℕ → ℕ → ℝ} (hP : ∀ i j, P i j = P j i) (hC : Inverse k P C) {s : ℕ → ℝ} (hs : 0 < form k P s s) {b r : Vec} (hr : r.length = k) {X : Ω → Vec}
    (hX : NormalData μ C r X) (t : ℝ) :
    μ.real {ω | estimate k P s (at' b) (at' (X ω)) ≤ t} = Phi ((t - estimate k P s (at' b) (at' r)) / deviation k P s) ∧
    μ.real {ω | t ≤ estimate k P s (at' b) (at' (X ω))} = Phi ((estimate k P s (at' b) (at' r) - t) / deviation k P s) := by
  subst hr
  obtain ⟨h1, h2⟩ := hX (weights r.length P s)
  simp only [estimate_combined]
  obtain ⟨z, hz⟩ : ∃ z, z = combined r.length (weights r.length P s) b := ⟨_, rfl⟩
  rw [← hz]
  have hm : Measurable fun x : ℝ => x - z := by fun_prop
  have hσ : 0 < deviation r.length P s := deviation_pos hs
  have hv : form r.length C (weights r.length P s) (weights r.length P s) = deviation r.length P s ^ 2 := by
    rw [weights_variance hP hC hs, deviation, div_pow, Real.sq_sqrt hs.le, one_pow]
  have key := AEMeasurable.map_map_of_aemeasurable hm.aemeasurable h1
  rw [h2, gaussianReal_map_sub_const, hv] at key
  have hme : AEMeasurable ((fun x : ℝ => x - z) ∘ fun ω => combined r.length (weights r.length P s) (X ω)) μ := hm.comp_aemeasurable h1
  have l1 : ∀ A : Set ℝ, MeasurableSet A → μ.real {ω | combined r.length (weights r.length P s) (X ω) - z ∈ A} =
      (gaussianReal (combined r.length (weights r.length P s) r - z) (deviation r.length P s ^ 2).toNNReal).real A := by
    intro A hA
    rw [key, map_measureReal_apply_of_aemeasurable hme hA]
    rfl
  refine ⟨by rw [← gaussian_cdf hσ]; exact l1 _ measurableSet_Iic, ?_⟩
  have hne : (deviation r.length P s ^ 2).toNNReal ≠ 0 := by
    rw [Ne, Real.toNNReal_eq_zero]
    have := pow_pos hσ 2
    linarith
  have := nullSingletonClass_gaussianReal (μ := combined r.length (weights r.length P s) r - z) hne
  have e := l1 _ (measurableSet_Ici (a := t))
  refine e.trans ?_
  rw [measureReal_congr Ioi_ae_eq_Ici.symm, ← Set.compl_Iic, probReal_compl_eq_one_sub measurableSet_Iic, gaussian_cdf hσ, ← neg_sub t, neg_div, Phi_neg]

end

/-- Probabilities are uniform at most: outcomes with probability `α` at most of something not below have together this probability at most. -/
theorem tail_uniform {A : Type} [Countable A] [MeasurableSpace A] (μ : Measure A) [IsFiniteMeasure μ] (T : A → ℝ) {α : ℝ} (hα : 0 ≤ α) (S : Set A) (hS : ∀ c ∈ S, μ.real {c' | T c ≤ T c'} ≤ α) :
    μ.real S ≤ α := by
  have hsub : S ⊆ ⋃ c : S, {c' | T c ≤ T c'} := fun c hc => Set.mem_iUnion.mpr ⟨⟨c, hc⟩, le_rfl (a := T c)⟩
  have hdir : Directed (· ⊆ ·) fun c : S => {c' | T c ≤ T c'} := by
    intro c d
    rcases le_total (T c) (T d) with h | h
    · exact ⟨c, subset_rfl, fun x hx => h.trans hx⟩
    · exact ⟨d, fun x hx => h.trans hx, subset_rfl⟩
  have hle : μ S ≤ ENNReal.ofReal α := by
    refine (measure_mono hsub).trans ?_
    rw [hdir.measure_iUnion]
    refine iSup_le fun c => ?_
    rw [← ofReal_measureReal]
    exact ENNReal.ofReal_le_ofReal (hS c c.2)
  exact ENNReal.toReal_le_of_le_ofReal hα hle

end Verif.Toys
