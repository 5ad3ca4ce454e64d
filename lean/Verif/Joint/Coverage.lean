import Verif.Toys.CoverageProps
import Verif.Joint.GaussianProps
import Mathlib.Probability.Independence.CharacteristicFunction

/-!
# Levels of combinations for random data
-/

namespace Verif.Joint
open MeasureTheory ProbabilityTheory
open Verif.Py F Verif.Hypotest Verif.Chain
open Verif.Interface (MuHat Data World Size Plain Solver perfect)
open Verif.Stats (Expect Calc Levels gaussianLog gaussianLevel levelsOf)
open Verif.Backend (Ext Vec Args Fits at')
open Verif.Toys (statOf statOf_is statOf_zero parabola parabola_best parabola_concave gaussian_cdf weights weights_variance estimate_combined)
open Verif.Uncorrelated (IsBest IsStat stat_unique stat_nonneg stat_shift fit_stat answer_eq answer_levels)

/-! ### Sums of independent normal numbers -/

section
variable {Ω : Type} [MeasurableSpace Ω] {μ : Measure Ω} [IsProbabilityMeasure μ]

theorem sum_law {ι : Type} [Fintype ι] {Y : ι → Ω → ℝ} (hm : ∀ i, AEMeasurable (Y i) μ) (hind : iIndepFun Y μ) {e : ι → ℝ} {v : ι → NNReal} (hl : ∀ i, μ.map (Y i) = gaussianReal (e i) (v i)) :
    μ.map (fun ω => ∑ i, Y i ω) = gaussianReal (∑ i, e i) (∑ i, v i) := by
  have hmm : AEMeasurable (fun ω => ∑ i, Y i ω) μ := by
    have := Finset.aemeasurable_fun_sum Finset.univ fun i _ => hm i
    exact this
  have : IsProbabilityMeasure (μ.map fun ω => ∑ i, Y i ω) := Measure.isProbabilityMeasure_map hmm
  refine Measure.ext_of_charFun ?_
  rw [hind.charFun_map_fun_sum_eq_prod hm]
  funext t
  simp only [Finset.prod_apply, hl, charFun_gaussianReal]
  rw [← Complex.exp_sum]
  congr 1
  push_cast
  rw [Finset.sum_sub_distrib, Finset.mul_sum, Finset.sum_mul, Finset.sum_mul, Finset.sum_div]

/-- Probabilities of a normal number. -/
theorem normal_probability {Z : Ω → ℝ} (hm : AEMeasurable Z μ) {e σ : ℝ} (hσ : 0 < σ) (hl : μ.map Z = gaussianReal e (σ ^ 2).toNNReal) (t : ℝ) :
    μ.real {ω | Z ω ≤ t} = Phi ((t - e) / σ) ∧ μ.real {ω | t ≤ Z ω} = Phi ((e - t) / σ) := by
  have l1 : ∀ A : Set ℝ, MeasurableSet A → μ.real {ω | Z ω ∈ A} = (gaussianReal e (σ ^ 2).toNNReal).real A := by
    intro A hA
    rw [← hl, map_measureReal_apply_of_aemeasurable hm hA]
    rfl
  refine ⟨by rw [← gaussian_cdf hσ]; exact l1 _ measurableSet_Iic, ?_⟩
  have hne : (σ ^ 2).toNNReal ≠ 0 := by
    rw [Ne, Real.toNNReal_eq_zero]
    have := pow_pos hσ 2
    linarith
  have := nullSingletonClass_gaussianReal (μ := e) hne
  have e := l1 _ (measurableSet_Ici (a := t))
  refine e.trans ?_
  rw [measureReal_congr Ioi_ae_eq_Ici.symm, ← Set.compl_Iic, probReal_compl_eq_one_sub measurableSet_Iic, gaussian_cdf hσ, ← neg_sub t, neg_div, Phi_neg]

end

/-- Random data `X i` of independent experiments `i < n` with a signal of the same strength `u`, and the models that describe them. -/
structure Together {Ω : Type} [MeasurableSpace Ω] (μ : Measure Ω) (n : ℕ) (E : Ext) (a : ℕ → Args) (P C : ℕ → ℕ → ℕ → ℝ) (y : ℕ → Vec) (u : ℝ) (X : ℕ → Ω → Vec) (m : ℕ → Ω → Backend.Model) : Prop where
  each : ∀ i < n, Toys.Experiments μ E (a i) (P i) (C i) (y i) u (X i) (m i)
  independent : ∀ c : ℕ → ℕ → ℝ, iIndepFun (fun (i : Fin n) ω => Toys.combined (a i).background.length (c i) (X i ω)) μ

section
variable {Ω : Type} [MeasurableSpace Ω] {μ : Measure Ω} [IsProbabilityMeasure μ] {n : ℕ} {E : Ext} {a : ℕ → Args} {P C : ℕ → ℕ → ℕ → ℝ} {y : ℕ → Vec} {u : ℝ} {X : ℕ → Ω → Vec}
  {m : ℕ → Ω → Backend.Model} (hx : Together μ n E a P C y u X m)
include hx

/-- The strength that experiment `i` measures. -/
noncomputable def measuredBy (a : ℕ → Args) (P : ℕ → ℕ → ℕ → ℝ) (y : ℕ → Vec) (X : ℕ → Ω → Vec) (ω : Ω) (i : ℕ) : ℝ :=
  estimate (a i).background.length (P i) (at' (y i)) (at' (a i).background) (at' (X i ω))

/-- Its standard deviation. -/
noncomputable def deviationOf (a : ℕ → Args) (P : ℕ → ℕ → ℕ → ℝ) (y : ℕ → Vec) (i : ℕ) : ℝ := deviation (a i).background.length (P i) (at' (y i))

theorem Together.law {i : ℕ} (hi : i < n) : AEMeasurable (fun ω => measuredBy a P y X ω i) μ ∧ μ.map (fun ω => measuredBy a P y X ω i) = gaussianReal u (deviationOf a P y i ^ 2).toNNReal := by
  have he := hx.each i hi
  obtain ⟨ω⟩ : Nonempty Ω := nonempty_of_isProbabilityMeasure μ
  have hs := he.informative
  obtain ⟨h1, h2⟩ := he.law (weights (a i).background.length (P i) (at' (y i)))
  have e0 := estimate_expected (b := at' (a i).background) hs u
  rw [estimate_combined] at e0
  rw [List.length_map, List.length_range] at h1 h2
  unfold measuredBy deviationOf
  simp only [estimate_combined]
  obtain ⟨z, hz⟩ : ∃ z, z = Toys.combined (a i).background.length (weights (a i).background.length (P i) (at' (y i))) (a i).background := ⟨_, rfl⟩
  rw [← hz] at e0 ⊢
  have hm : Measurable fun x : ℝ => x - z := by fun_prop
  have key := AEMeasurable.map_map_of_aemeasurable hm.aemeasurable h1
  rw [h2, gaussianReal_map_sub_const, e0, weights_variance (measurement_symm (he.models ω).model) he.covariance hs] at key
  refine ⟨hm.comp_aemeasurable h1, ?_⟩
  rw [deviation, div_pow, Real.sq_sqrt hs.le, one_pow]
  exact key.symm

theorem Together.positive {i : ℕ} (hi : i < n) : 0 < deviationOf a P y i := deviation_pos (hx.each i hi).informative

/-- The weighted mean has a normal distribution around the true strength. -/
theorem Together.strength (hn : 0 < n) (t : ℝ) :
    μ.real {ω | pooled n (measuredBy a P y X ω) (deviationOf a P y) ≤ t} = Phi ((t - u) / pooledDeviation n (deviationOf a P y)) ∧
    μ.real {ω | t ≤ pooled n (measuredBy a P y X ω) (deviationOf a P y)} = Phi ((u - t) / pooledDeviation n (deviationOf a P y)) := by
  have hσ : 0 < pooledDeviation n (deviationOf a P y) := pooledDeviation_pos hn fun i hi => hx.positive hi
  obtain ⟨W, hW⟩ : ∃ W, W = ∑ i : Fin n, 1 / deviationOf a P y i ^ 2 := ⟨_, rfl⟩
  have hWr : ∑ i ∈ Finset.range n, 1 / deviationOf a P y i ^ 2 = W := by rw [hW, Finset.sum_range fun i => 1 / deviationOf a P y i ^ 2]
  have hW0 : 0 < W := by
    rw [hW]
    have : Nonempty (Fin n) := ⟨⟨0, hn⟩⟩
    exact Finset.sum_pos (fun i _ => by have := hx.positive i.2; positivity) Finset.univ_nonempty
  have hind := (hx.independent fun i => weights (a i).background.length (P i) (at' (y i))).comp
    (fun i x => 1 / deviationOf a P y i ^ 2 / W * (x - Toys.combined (a i).background.length (weights (a i).background.length (P i) (at' (y i))) (a i).background)) fun i => by fun_prop
  have e1 : ∀ ω, pooled n (measuredBy a P y X ω) (deviationOf a P y) = ∑ i : Fin n, 1 / deviationOf a P y i ^ 2 / W * measuredBy a P y X ω i := by
    intro ω
    unfold pooled
    rw [hWr, Finset.sum_div, Finset.sum_range fun i => measuredBy a P y X ω i / deviationOf a P y i ^ 2 / W]
    exact Finset.sum_congr rfl fun i _ => by ring
  have hlaw := sum_law (μ := μ) (Y := fun (i : Fin n) ω => 1 / deviationOf a P y i ^ 2 / W * measuredBy a P y X ω i) (fun i => ((hx.law i.2).1.const_mul _))
    (by
      convert hind using 1
      funext i ω
      simp only [Function.comp, measuredBy, estimate_combined]) (e := fun i => 1 / deviationOf a P y i ^ 2 / W * u)
    (v := fun i => (1 / deviationOf a P y i ^ 2 / W ^ 2).toNNReal) fun i => by
      have h1 := gaussianReal_map_const_mul (μ := u) (v := (deviationOf a P y i ^ 2).toNNReal) (1 / deviationOf a P y i ^ 2 / W)
      rw [← (hx.law i.2).2, AEMeasurable.map_map_of_aemeasurable (by fun_prop) (hx.law i.2).1] at h1
      refine h1.trans ?_
      congr 1
      have hp := hx.positive i.2
      ext
      rw [NNReal.coe_mul, NNReal.coe_mk, Real.coe_toNNReal _ (by positivity), Real.coe_toNNReal _ (by positivity)]
      field_simp
  have e2 : ∑ i : Fin n, 1 / deviationOf a P y i ^ 2 / W * u = u := by
    rw [← Finset.sum_mul, ← Finset.sum_div, ← hW, div_self hW0.ne', one_mul]
  have e3 : ∑ i : Fin n, (1 / deviationOf a P y i ^ 2 / W ^ 2).toNNReal = (pooledDeviation n (deviationOf a P y) ^ 2).toNNReal := by
    rw [← Real.toNNReal_sum_of_nonneg fun i _ => by positivity, ← Finset.sum_div, ← hW, pooledDeviation, hWr, div_pow, Real.sq_sqrt hW0.le]
    congr 1
    field_simp
  rw [e2, e3] at hlaw
  simp only [e1]
  refine normal_probability ?_ hσ hlaw t
  exact Finset.aemeasurable_fun_sum Finset.univ fun i _ => (hx.law i.2).1.const_mul _

end

/-! ### Levels for every weighted mean -/

section
variable {fit : Minimizer (ℕ → World)} (hfit : Reliable fit) {S : Solver} (hS : Exact S) (hT : Finds S) {E : Ext} (draw) {n : ℕ} (hn : 0 < n)
  {a : ℕ → Args} {m : ℕ → Backend.Model} {Q : ℕ → ℕ → ℕ → ℝ} {y : ℕ → Vec} (h : ∀ i < n, Case E (a i) (m i) (Q i) (y i)) {name : ℕ → String}
  (hname : Distinct n name) {inv : List (List ℝ) → Except Interface.Err (List (List ℝ))} (hinv : InvertsNumbers inv) (g : Bool) (ntoys : Size)
  (available : ℕ → Calc → Bool) (hav : ∀ i < n, available i .asymptotic = true) (percentile percentile' : List F → F → F) (e : Expect) {est dev : ℕ → ℝ}
  (hest : ∀ i < n, est i = estimate (a i).data.length (Q i) (at' (y i)) (at' (a i).background) (at' (used (a i) e)))
  (hdev : ∀ i < n, dev i = deviation (a i).data.length (Q i) (at' (y i))) {x σ : ℝ} (hx : x = pooled n est dev) (hσ : σ = pooledDeviation n dev)
include hfit hS hT hn h hname hinv hav hest hdev hx hσ

theorem joint_stats {mu : Mu} {v : ℝ} (hmu : mu.Is v) (hv : 0 ≤ v) :
    Ends (All n fun _ => 1) (exclusion (combined fit (members n name S inv E draw m g ntoys available percentile') percentile) mu e false .asymptotic)
      (.ok (levelsOf e false (statOf σ v x) (statOf σ v 0))) := by
  obtain ⟨low, c, c', hl0, hlow, hc⟩ := gaussian_calls hfit hS hT draw hn h hname.nodup hinv g ntoys available percentile' e hest hdev
  rw [← hx, ← hσ] at hc
  have hσ0 : 0 < σ := hσ ▸ pooledDeviation_pos hn fun i hi => hdev i hi ▸ deviation_pos (h i hi).informative
  obtain ⟨w, hw⟩ := plain_exists 1
  have hm : Interface.mayBeNegative "qtilde" = false := by simp [Interface.mayBeNegative]
  have hst : strength "qtilde" = 0 := by simp [strength]
  have hA := hc.bestA "qtilde"
  have hAl := fun u => hc.asimov "qtilde" u
  have hB := hc.best false
  rw [hm, hst] at hA
  simp only [hst] at hAl
  simp only [Bool.false_eq_true, if_false] at hA hB
  have hL := C107_levels (I := All n fun _ => 1) (combined fit (members n name S inv E draw m g ntoys available percentile') percentile) ⟨fun _ => w, fun _ _ => hw⟩ mu v hmu e
    false .asymptotic _ _ _ _ ⟨hB, hc.likelihood v, hc.likelihood 0⟩ _ _ _ _ (fun _ => ⟨hA, hAl v, hAl 0⟩) [] [] [] [] (by simp) (by simp) (by simp)
    (by simp) (by simp)
  have hav' := members_available (name := name) (S := S) (inv := inv) (E := E) (draw := draw) (m := m) (g := g) (ntoys := ntoys) (percentile := percentile) (fit := fit)
    (percentile' := percentile') hav
  have b1 := nearest_is_best (c := c) (x := x) hσ0 (by norm_num : (0 : ℝ) ≤ 10)
  have b2 := nearest_is_best (c := c' "qtilde") (x := 0) hσ0 (by norm_num : (0 : ℝ) ≤ 10)
  have i1 : IsBest (gaussianLog c σ x) (nearest 0 x) := ⟨b1.1, b1.2.1, fun y k0 k10 => (b1.2.2 y k0 k10).1⟩
  have i2 : IsBest (gaussianLog (c' "qtilde") σ 0) (nearest 0 0) := ⟨b2.1, b2.2.1, fun y k0 k10 => (b2.2.2 y k0 k10).1⟩
  obtain ⟨q, hq, s1⟩ := fit_stat (v := v) (l0 := fin (-(gaussianLog c σ x 0))) i1
  obtain ⟨qA, hqA, s2⟩ := fit_stat (v := v) (l0 := fin (-(gaussianLog (c' "qtilde") σ 0 0))) i2
  have e1 : q = statOf σ v x := stat_unique (parabola_concave hσ0 _) (stat_shift (c := -c) hv (fun y _ => by unfold parabola gaussianLog; ring) hq) (statOf_is hσ0 _)
  have e2 : qA = statOf σ v 0 := stat_unique (parabola_concave hσ0 _) (stat_shift (c := -(c' "qtilde")) hv (fun y _ => by unfold parabola gaussianLog; ring) hqA) (statOf_is hσ0 _)
  rw [answer_eq (stat_nonneg hq) (stat_nonneg hqA) s1 s2 e, hav', answer_levels e (stat_nonneg hq) (stat_nonneg hqA), e1, e2] at hL
  exact hL

/-- The observed level: weighted means above the tested strength count as this one. -/
theorem joint_observed (he : e = .observed) {mu : Mu} {v : ℝ} (hmu : mu.Is v) (hv : 0 < v) (hv10 : v ≤ 10) :
    Ends (All n fun _ => 1) (exclusion (combined fit (members n name S inv E draw m g ntoys available percentile') percentile) mu e false .asymptotic)
      (.ok (.one [fin (gaussianLevel σ (min x v) v)])) := by
  have hσ0 : 0 < σ := hσ ▸ pooledDeviation_pos hn fun i hi => hdev i hi ▸ deviation_pos (h i hi).informative
  rcases le_or_gt x v with hle | hgt
  · rw [min_eq_left hle]
    exact (C123_levels hfit hS hT draw hn h hname hinv g ntoys available hav percentile percentile' e hest hdev hx hσ false (by simp) (hle.trans hv10) hmu hv).1 he hle
  · have hs := joint_stats hfit hS hT draw hn h hname hinv g ntoys available hav percentile percentile' e hest hdev hx hσ hmu hv.le
    rw [statOf_zero hσ0 hv hv10 hgt.le] at hs
    have hA : statOf σ v 0 = (v / σ) ^ 2 := by
      have h0 : nearest 0 (0 : ℝ) = 0 := by simp [nearest]
      rw [statOf, h0, if_pos hv.le, max_eq_left]
      · unfold parabola gaussianLog
        field_simp
        ring
      · have := (parabola_best (σ := σ) hσ0 0).2.2 v hv.le hv10
        rw [h0] at this
        linarith
    have hp : 0 < v / σ := div_pos hv hσ0
    subst he
    rw [hA, levelsOf, Stats.observedOf, if_neg (by simp)] at hs
    simp only [Bool.false_eq_true, if_false, Stats.eq66, Real.sqrt_zero, Real.sqrt_sq hp.le] at hs
    rw [if_pos (by positivity)] at hs
    rw [min_eq_right hgt.le]
    simpa [gaussianLevel] using hs

end

end Verif.Joint
