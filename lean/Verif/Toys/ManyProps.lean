import Verif.Toys.ManyExpected
import Mathlib.Probability.ProductMeasure
import Mathlib.Probability.Independence.InfinitePi

/-!
# Property C180: many toys
-/

namespace Verif.Toys
open MeasureTheory ProbabilityTheory Filter Topology
open Verif.Py F Verif.Config Verif.Optimizer Verif.Hypotest Verif.Chain
open Verif.Interface (MuHat Data Toys World Size Plain Solver perfect)
open Verif.Backend (Ext Vec Args Built at')
open Verif.Stats (Expect Calc Levels gaussianLevel)
open Verif.Uncorrelated (Bin profile IsBest Describes poisson_exists fitted)
open scoped Function

section
variable {Ω : Type} [MeasurableSpace Ω] (μ : Measure Ω)

/-- What is assumed of the random numbers for `k` bins with covariance matrix `C`: for all expected values the toys are the first of a sequence of independent toys with this normal distribution. -/
def Normals (k : ℕ) (C : ℕ → ℕ → ℝ) (draw : Ω → Vec × List Vec → ℕ → List Vec) : Prop := (∀ ω, Vectors (draw ω)) ∧
  ∀ r : Vec, r.length = k → ∃ X : ℕ → Ω → Vec, (∀ ω n, draw ω (r, []) n = (List.range n).map fun j => X j ω) ∧ NormalToys μ C r X

/-- What is assumed of the random numbers for a count: for every rate the numbers of events in the toys are the first of a sequence of independent ones with the Poisson distribution, whatever auxiliary
data are drawn after them. -/
def Counts (draw : Ω → Vec × List Vec → ℕ → List Vec) : Prop := (∀ ω, Samples (draw ω)) ∧
  ∀ r : ℝ, 0 < r → ∃ X : ℕ → Ω → ℝ, (∀ ω s n, (draw ω ([r], s) n).map (fun D => at' D 0) = (List.range n).map fun j => X j ω) ∧
    (∀ j, AEMeasurable (X j) μ) ∧ (∀ j, μ.map (X j) = (poissonMeasure r.toNNReal).map fun k : ℕ => (k : ℝ)) ∧ Pairwise ((· ⟂ᵢ[μ] ·) on X)

end

/-- The probability of at most `d` events where `r` are expected. -/
noncomputable def poissonUpTo (d : ℕ) (r : ℝ) : ℝ := ∑ k ∈ Finset.range (d + 1), Real.exp (-r) * r ^ k / k.factorial

theorem poisson_cdf {r : ℝ} (hr : 0 < r) (d : ℕ) : ((poissonMeasure r.toNNReal).map fun k : ℕ => (k : ℝ)).real (Set.Iic (d : ℝ)) = poissonUpTo d r := by
  rw [map_measureReal_apply (by fun_prop) measurableSet_Iic]
  have : (fun k : ℕ => (k : ℝ)) ⁻¹' Set.Iic (d : ℝ) = ↑(Finset.range (d + 1)) := by
    ext k
    simp [Nat.lt_succ_iff]
  rw [this, ← sum_measureReal_singleton]
  refine Finset.sum_congr rfl fun k _ => ?_
  rw [poissonMeasure_real_singleton, Real.coe_toNNReal _ hr.le]

theorem poissonUpTo_pos (d : ℕ) {r : ℝ} (hr : 0 < r) : 0 < poissonUpTo d r := Finset.sum_pos (fun k _ => by positivity) ⟨0, by simp⟩

section
variable {Ω : Type} [MeasurableSpace Ω] {μ : Measure Ω} [IsProbabilityMeasure μ]
  {S : Solver} (hS : Exact S) (hT : Finds S) (hC : Interface.Constrained S) {E : Ext} {draw : Ω → Vec × List Vec → ℕ → List Vec}
  {mu : Mu} {v : ℝ} (hmu : mu.Is v) (g : Bool) {available : Calc → Bool} (hav : available .toy = true) (percentile : List F → F → F)
include hS hT hC hmu hav

/-- C180: for Gaussian models (independent bins or a covariance matrix) the observed level with toys converges, almost surely, to the one of the asymptotic formula, as their number grows. -/
theorem C180_gaussian (hav' : available .asymptotic = true) {a : Args} {m : Backend.Model} {P C : ℕ → ℕ → ℝ} {y : Vec} (h : Case E a m P y) (hPC : Inverse a.data.length P C)
    (hd : Normals μ a.data.length C draw) (hv : 0 < v) (hv' : v ≤ 10) (hlt : strength a P y a.data < v) :
    ∃ l : ℝ, (∀ ω n w, Plain 1 w → (exclusion (modelMethods S (plugged E (draw ω) m) g none (.int n) available percentile) mu .observed false .asymptotic w).1 = .ok (.one [fin l])) ∧
      ∀ᵐ ω ∂μ, ∃ L : ℕ → ℝ, (∀ n, 0 < n → Ends (Plain 1) (exclusion (modelMethods S (plugged E (draw ω) m) g none (.int n) available percentile) mu .observed false .toy) (.ok (.one [fin (L n)]))) ∧
        Tendsto L atTop (𝓝 l) := by
  have hσ := deviation_pos h.informative
  refine ⟨gaussianLevel (deviation a.data.length P (at' y)) (strength a P y a.data) v, fun ω n w hw => ?_, ?_⟩
  · exact (C118_levels hS hT (draw ω) h .observed rfl rfl (hlt.le.trans hv') (negative := false) (by simp) hmu hv g (.int n) available hav' percentile w hw).1 rfl hlt.le
  obtain ⟨hd1, hd2⟩ := hd
  have hP := measurement_symm h.model
  obtain ⟨X, hX, hXn⟩ := hd2 ((List.range a.data.length).map fun i => v * at' y i + at' a.background i) (by simp)
  obtain ⟨Y, hY, hYn⟩ := hd2 a.background h.fits.1
  have t1 := strength_law hP hPC h.informative (b := a.background) (by simp) hXn (strength a P y a.data)
  have t2 := strength_law hP hPC h.informative (b := a.background) h.fits.1 hYn (strength a P y a.data)
  rw [estimate_expected h.informative v] at t1
  have e0 : estimate a.data.length P (at' y) (at' a.background) (at' a.background) = 0 := by
    unfold estimate form
    simp
  rw [e0, sub_zero] at t2
  filter_upwards [t1, t2] with ω h1 h2
  have hr := ratio_tendsto h1 h2 (Phi_pos _)
  refine ⟨_, fun n hn => C179_measured hS hT hC (hd1 ω) h hmu g hn hav (percentile := percentile) hv hv' hlt, ?_⟩
  have hle : Phi ((strength a P y a.data - v) / deviation a.data.length P (at' y)) / Phi (strength a P y a.data / deviation a.data.length P (at' y)) ≤ 1 := by
    rw [div_le_one (Phi_pos _)]
    exact Phi_mono (div_le_div_of_nonneg_right (by linarith) hσ.le)
  rw [min_eq_left hle] at hr
  refine hr.congr fun n => ?_
  unfold measuredRatio upTo
  rw [hX, hY]
  simp only [List.map_map]
  rfl

/-- C180: the levels that are expected with toys for Gaussian models converge as well, almost surely. For deviations `k` with `-kσ < v` (up, none, or down by less than the tested strength) the limit is
the level of the asymptotic formula, but beyond it is zero. -/
theorem C180_expected (hav' : available .asymptotic = true) {a : Args} {m : Backend.Model} {P C : ℕ → ℕ → ℝ} {y : Vec} (h : Case E a m P y) (hPC : Inverse a.data.length P C)
    (hd : Normals μ a.data.length C draw) (hM : Linear percentile) (hv : 0 < v) (hv' : v ≤ 10) {e : Expect} (he : e = .apriori ∨ e = .aposteriori) (h10 : strength a P y (used a e) ≤ 10)
    {σ : ℝ} (hσ : σ = deviation a.data.length P (at' y)) :
    ∃ l : ℝ → ℝ, (∀ k, 0 < l k) ∧ (∀ ω n w, Plain 1 w → (exclusion (modelMethods S (plugged E (draw ω) m) g none (.int n) available percentile) mu e false .asymptotic w).1 =
        .ok (.one ([2, 1, 0, -1, -2].map fun k => fin (l k)))) ∧
      ∀ᵐ ω ∂μ, ∃ L : ℕ → ℝ → ℝ, (∀ n, 0 < n → Ends (Plain 1) (exclusion (modelMethods S (plugged E (draw ω) m) g none (.int n) available percentile) mu e false .toy)
          (.ok (.one ([2, 1, 0, -1, -2].map fun k => fin (L n k))))) ∧
        ∀ k ∈ [(2 : ℝ), 1, 0, -1, -2], (-(k * σ) < v → Tendsto (fun n => L n k) atTop (𝓝 (l k))) ∧ (v < -(k * σ) → Tendsto (fun n => L n k) atTop (𝓝 0)) := by
  have hσ0 : 0 < σ := hσ ▸ deviation_pos h.informative
  refine ⟨fun k => gaussianLevel σ (-(k * σ)) v, fun k => ?_, fun ω n w hw => ?_, ?_⟩
  · unfold gaussianLevel
    rw [sub_pos, div_lt_one (Phi_pos _)]
    exact Phi_strictMono (div_lt_div_of_pos_right (by linarith) hσ0)
  · rw [(C118_levels hS hT (draw ω) h e rfl hσ h10 (negative := false) (by simp) hmu hv g (.int n) available hav' percentile w hw).2 he]
    simp only [List.map_cons, List.map_nil, neg_mul, neg_neg, zero_mul, neg_zero]
  obtain ⟨hd1, hd2⟩ := hd
  have hP := measurement_symm h.model
  obtain ⟨X, hX, hXn⟩ := hd2 ((List.range a.data.length).map fun i => v * at' y i + at' a.background i) (by simp)
  obtain ⟨Y, hY, hYn⟩ := hd2 a.background h.fits.1
  have t1 : ∀ t, ∀ᵐ ω ∂μ, Tendsto (fun n : ℕ => (upTo (fun i => strength a P y (X i ω)) t n : ℝ) / n) atTop (𝓝 (Phi ((t - v) / σ))) := by
    intro t
    have := strength_law hP hPC h.informative (b := a.background) (by simp) hXn t
    rw [estimate_expected h.informative v, ← hσ] at this
    exact this
  have t2 : ∀ t, ∀ᵐ ω ∂μ, Tendsto (fun n : ℕ => (upTo (fun i => strength a P y (Y i ω)) t n : ℝ) / n) atTop (𝓝 (Phi (t / σ))) := by
    intro t
    have := strength_law hP hPC h.informative (b := a.background) h.fits.1 hYn t
    have e0 : estimate a.data.length P (at' y) (at' a.background) (at' a.background) = 0 := by
      unfold estimate form
      simp
    rw [e0, sub_zero, ← hσ] at this
    exact this
  have bands : ∀ᵐ ω ∂μ, ∀ k ∈ ({2, 1, 0, -1, -2} : Set ℝ), ∀ j : ℕ,
      Tendsto (fun n : ℕ => (upTo (fun i => strength a P y (X i ω)) (-(k * σ) + 1 / (j + 1)) n : ℝ) / n) atTop (𝓝 (Phi ((-(k * σ) + 1 / (j + 1) - v) / σ))) ∧
      Tendsto (fun n : ℕ => (upTo (fun i => strength a P y (X i ω)) (-(k * σ) - 1 / (j + 1)) n : ℝ) / n) atTop (𝓝 (Phi ((-(k * σ) - 1 / (j + 1) - v) / σ))) ∧
      Tendsto (fun n : ℕ => (upTo (fun i => strength a P y (Y i ω)) (-(k * σ) + 1 / (j + 1)) n : ℝ) / n) atTop (𝓝 (Phi ((-(k * σ) + 1 / (j + 1)) / σ))) ∧
      Tendsto (fun n : ℕ => (upTo (fun i => strength a P y (Y i ω)) (-(k * σ) - 1 / (j + 1)) n : ℝ) / n) atTop (𝓝 (Phi ((-(k * σ) - 1 / (j + 1)) / σ))) := by
    rw [ae_ball_iff (by simp)]
    intro k _
    rw [ae_all_iff]
    intro j
    filter_upwards [t1 (-(k * σ) + 1 / (j + 1)), t1 (-(k * σ) - 1 / (j + 1)), t2 (-(k * σ) + 1 / (j + 1)), t2 (-(k * σ) - 1 / (j + 1))] with ω h1 h2 h3 h4
    exact ⟨h1, h2, h3, h4⟩
  filter_upwards [bands, t2 v] with ω hb hz
  have run : ∀ n, 0 < n → Ends (Plain 1) (exclusion (modelMethods S (plugged E (draw ω) m) g none (.int n) available percentile) mu e false .toy)
      (.ok (.one ([(2 : ℝ), 1, 0, -1, -2].map fun k => fin (ratio (quantile (((List.range n).map fun j => strength a P y (Y j ω)).map (statOf σ v)) (Phi k))
        (((List.range n).map fun j => strength a P y (X j ω)).map (statOf σ v)) (((List.range n).map fun j => strength a P y (Y j ω)).map (statOf σ v)))))) := by
    intro n hn
    obtain ⟨q, qs, qb, h1, h2, h3, h4⟩ := C179_levels hS hT hC (hd1 ω) h hmu g hn hav hv.le hM e hσ
    have e1 := statOf_map hσ0 h2
    have e2 := statOf_map hσ0 h3
    have ec : ∀ Z : ℕ → Ω → Vec, ((List.range n).map fun j => Z j ω).map (strength a P y) = (List.range n).map fun j => strength a P y (Z j ω) := fun Z => by
      rw [List.map_map]
      rfl
    rw [hX, ec] at e1
    rw [hY, ec] at e2
    rw [e1, e2] at h4
    rcases he with rfl | rfl <;> exact h4
  refine ⟨_, run, fun k hk => ⟨fun hlt => ?_, fun hlt => ?_⟩⟩
  · have hb := hb k (by simpa using hk)
    have hp : Phi (-(k * σ) / σ) = 1 - Phi k := by
      rw [← Phi_neg]
      congr 1
      field_simp
    have hmono : StrictMono fun t => Phi (t / σ) := fun s t hst => Phi_strictMono (div_lt_div_of_pos_right hst hσ0)
    have b1 := beyond_tendsto hσ0 hv hv' (Phi_nonneg k) (Phi_le_one k) hlt (x := fun j => strength a P y (Y j ω)) (z := fun j => strength a P y (X j ω)) (f := fun t => Phi (t / σ))
      (G := fun t => Phi ((t - v) / σ)) (fun j => (hb j).2.2.1) (fun j => (hb j).2.2.2) (fun j => (hb j).1) (fun j => (hb j).2.1) hmono hp (Phi_continuous.comp (by fun_prop)).continuousAt
    have b2 := beyond_tendsto hσ0 hv hv' (Phi_nonneg k) (Phi_le_one k) hlt (x := fun j => strength a P y (Y j ω)) (z := fun j => strength a P y (Y j ω)) (f := fun t => Phi (t / σ))
      (G := fun t => Phi (t / σ)) (fun j => (hb j).2.2.1) (fun j => (hb j).2.2.2) (fun j => (hb j).2.2.1) (fun j => (hb j).2.2.2) hmono hp (Phi_continuous.comp (by fun_prop)).continuousAt
    have hr := ratio_tendsto b1 b2 (Phi_pos _)
    have hle : Phi ((-(k * σ) - v) / σ) / Phi (-(k * σ) / σ) ≤ 1 := by
      rw [div_le_one (Phi_pos _)]
      exact Phi_mono (div_le_div_of_nonneg_right (by linarith) hσ0.le)
    rw [min_eq_left hle] at hr
    exact hr
  · have hf : Phi (v / σ) < 1 - Phi k := by
      rw [← Phi_neg]
      apply Phi_strictMono
      rw [div_lt_iff₀ hσ0]
      linarith
    have hq := quantile_zero hσ0 hv hv' (Phi_nonneg k) (Phi_le_one k) hz hf
    refine tendsto_const_nhds.congr' ?_
    filter_upwards [hq, eventually_gt_atTop 0] with n h0 hn
    have all : ∀ Z : ℕ → ℝ, (((List.range n).map Z).map (statOf σ v)).countP (fun q => decide (quantile (((List.range n).map fun j => strength a P y (Y j ω)).map (statOf σ v)) (Phi k) ≤ q)) = n := by
      intro Z
      have hlen : (((List.range n).map Z).map (statOf σ v)).length = n := by simp
      refine Eq.trans (List.countP_eq_length.mpr ?_) hlen
      intro q hq
      obtain ⟨x, -, rfl⟩ := List.mem_map.mp hq
      rw [decide_eq_true_iff]
      exact h0.trans (Uncorrelated.stat_nonneg (statOf_is hσ0 x))
    unfold ratio
    simp only [all]
    have : (n : ℝ) ≠ 0 := by positivity
    simp [hn.ne', this]

/-- C180: for a single count, with or without uncertainty, the observed level of a strength beyond the one that fits best converges to one minus the ratio of the probabilities of at most as many
events as were seen, with the rates that fit the data best for this strength and without signal. -/
theorem C180_count {s b σ : ℝ} {d : ℕ} (hs : 0 < s) (hb : 1 / 10 ^ 20 ≤ b) (hσ : 0 ≤ σ) {m : Backend.Model} {N : ℕ} (h : Describes (one s b σ d) m N) (hd : Counts μ draw) (hv : 0 ≤ v)
    {best : ℝ} (hbest : IsBest (profile E.gammaln (one s b σ d)) best) (hbv : best < v) (hlt : profile E.gammaln (one s b σ d) v < profile E.gammaln (one s b σ d) best) :
    ∀ᵐ ω ∂μ, ∃ L : ℕ → ℝ, (∀ n, 0 < n → Ends (Plain N) (exclusion (modelMethods S (plugged E (draw ω) m) g none (.int n) available percentile) mu .observed false .toy) (.ok (.one [fin (L n)]))) ∧
      Tendsto L atTop (𝓝 (1 - min (poissonUpTo d (fitted d b σ (v * s)) / poissonUpTo d (fitted d b σ 0)) 1)) := by
  obtain ⟨hd1, hd2⟩ := hd
  obtain ⟨X, hX, x1, x2, x3⟩ := hd2 (fitted d b σ (v * s)) (Uncorrelated.fitted_pos _ _ _ _)
  obtain ⟨Y, hY, y1, y2, y3⟩ := hd2 (fitted d b σ 0) (Uncorrelated.fitted_pos _ _ _ _)
  have t1 := upTo_tendsto x1 x2 x3 d
  have t2 := upTo_tendsto y1 y2 y3 d
  rw [poisson_cdf (Uncorrelated.fitted_pos _ _ _ _)] at t1 t2
  filter_upwards [t1, t2] with ω h1 h2
  have hr := ratio_tendsto h1 h2 (poissonUpTo_pos d (Uncorrelated.fitted_pos _ _ _ _))
  refine ⟨_, fun n hn => ?_, hr⟩
  obtain ⟨t, t0, hE⟩ := C168_count hS hT hC (hd1 ω) hmu hv g hn hav percentile hs hb hσ (Nat.cast_nonneg d) h hbest hbv hlt
  rw [zero_mul] at hE
  have e : ∀ (r : ℝ) (t : List Vec) (Z : ℕ → Ω → ℝ), (∀ ω s n, (draw ω ([r], s) n).map (fun D => at' D 0) = (List.range n).map fun j => Z j ω) →
      (draw ω ([r], t) n).countP (fun D => decide (at' D 0 ≤ d)) = upTo (fun j => Z j ω) d n := by
    intro r t Z hZ
    unfold upTo
    rw [← hZ ω t n, List.countP_map]
    rfl
  unfold countRatio at hE
  simp only [e _ _ X hX, e _ _ Y hY] at hE
  exact hE

end

/-- Independent standard normal numbers, one for each toy and bin, added to the expected values. -/
noncomputable def exGenerator (ω : ℕ × ℕ → ℝ) (r : Vec × List Vec) (n : ℕ) : List Vec := (List.range n).map fun j => (List.range r.1.length).map fun i => at' r.1 i + ω (j, i)

theorem exGenerator_normals : Normals (Measure.infinitePi fun _ : ℕ × ℕ => gaussianReal 0 1) 2 (diagonal (at' [1, 1])) exGenerator := by
  refine ⟨fun ω r n => ⟨by simp [exGenerator], fun D hD => ?_⟩, fun r hr => ⟨fun j ω => (List.range r.length).map fun i => at' r i + ω (j, i), fun ω n => rfl, ?_⟩⟩
  · obtain ⟨j, -, rfl⟩ := List.mem_map.mp hD
    simp
  · refine bins_normal (Z := fun p ω => at' r p.2 + ω p) (fun p => by fun_prop) ?_ (fun j i hi => ?_) (fun j ω i hi => ?_)
    · exact iIndepFun_infinitePi (P := fun _ : ℕ × ℕ => gaussianReal 0 1) (𝓧 := fun _ => ℝ) (X := fun p x => at' r p.2 + x) (fun p => by fun_prop)
    · have h1 := Measure.infinitePi_map_eval (fun _ : ℕ × ℕ => gaussianReal 0 1) (j, i)
      have h2 := gaussianReal_map_const_add (μ := 0) (v := 1) (at' r i)
      rw [← h1, Measure.map_map (by fun_prop) (by fun_prop)] at h2
      have h3 : (at' [1, 1] i ^ 2).toNNReal = 1 := by
        rw [hr] at hi
        interval_cases i <;> simp [at']
      rw [h3, _root_.zero_add] at *
      exact h2
    · simp [at', List.getD_eq_getElem?_getD, hi]

/-- Independent numbers with Poisson distributions, one for each toy and rate, and zeros for auxiliary data. -/
noncomputable def exEvents (ω : ℕ × ℝ → ℕ) (r : Vec × List Vec) (n : ℕ) : List Vec := (List.range n).map fun j => r.1.map (fun x => (ω (j, x) : ℝ)) ++ r.2.map fun _ => 0

theorem exEvents_counts : Counts (Measure.infinitePi fun p : ℕ × ℝ => poissonMeasure p.2.toNNReal) exEvents := by
  refine ⟨fun ω r s n => ⟨by simp [exEvents], fun D hD => ?_⟩, fun r hr => ⟨fun j ω => (ω (j, r) : ℝ), fun ω s n => ?_, fun j => ?_, fun j => ?_, fun j j' hjj => ?_⟩⟩
  · obtain ⟨j, -, rfl⟩ := List.mem_map.mp hD
    refine ⟨by simp, fun h => by simp [h], fun i hi => ⟨ω (j, r[i]), ?_⟩⟩
    simp [at', List.getD, List.getElem?_append_left, hi]
  · simp [exEvents, at', Function.comp_def]
  · exact (by fun_prop : Measurable fun ω : ℕ × ℝ → ℕ => (ω (j, r) : ℝ)).aemeasurable
  · have := Measure.infinitePi_map_eval (fun p : ℕ × ℝ => poissonMeasure p.2.toNNReal) (j, r)
    rw [← this, Measure.map_map (by fun_prop) (by fun_prop)]
    rfl
  · have := iIndepFun_infinitePi (P := fun p : ℕ × ℝ => poissonMeasure p.2.toNNReal) (𝓧 := fun _ => ℝ) (m𝓧 := fun _ => inferInstance) (X := fun _ x => (x : ℝ)) (fun p => by fun_prop)
    exact this.indepFun (i := (j, r)) (j := (j', r)) (by simpa using hjj)

theorem exGauss_data : strength exGaussArgs (independent (at' [1, 1])) [2, 1] exGaussArgs.data = 1 := by
  rw [exGauss_strength]
  norm_num [exGaussArgs, at']

theorem exGauss_inverse : Inverse exGaussArgs.data.length (independent (at' [1, 1])) (diagonal (at' [1, 1])) := diagonal_inverse fun i hi => by
  have hi : i < 2 := hi
  interval_cases i <;> simp [at']

/-- Signal 2 and 1, background 5 and 5, uncertainty 1 in both bins, data 7 and 6, which measure the strength 1: with independent normal numbers, the hypotheses of `C180_gaussian` hold for the strength
2. -/
example (E : Ext) (g : Bool) (percentile : List F → F → F) : ∃ m, ∃ l : ℝ,
    (∀ ω n w, Plain 1 w → (exclusion (modelMethods perfect (plugged E (exGenerator ω) m) g none (.int n) (fun _ => true) percentile) (.float 2) .observed false .asymptotic w).1 = .ok (.one [fin l])) ∧
      ∀ᵐ ω ∂(Measure.infinitePi fun _ : ℕ × ℕ => gaussianReal 0 1), ∃ L : ℕ → ℝ, (∀ n, 0 < n →
        Ends (Plain 1) (exclusion (modelMethods perfect (plugged E (exGenerator ω) m) g none (.int n) (fun _ => true) percentile) (.float 2) .observed false .toy) (.ok (.one [fin (L n)]))) ∧
        Tendsto L atTop (𝓝 l) := by
  obtain ⟨m, h⟩ := exGauss_model E
  exact ⟨m, C180_gaussian Hypotest.perfect_exact perfect_finds Interface.perfect_constrained (mu := .float 2) (v := 2) rfl g rfl percentile rfl h exGauss_inverse exGenerator_normals (by norm_num)
    (by norm_num) (by rw [exGauss_data]; norm_num)⟩

/-- C180: the levels expected with toys do not all converge to those of the asymptotic formula. For signal 2 and 1 with uncertainty 1, the strength is measured with a standard deviation of 0.447; two
standard deviations down exceed the strength 1/2, and there toys exclude nothing, but the formula something. -/
theorem C180_expected_fails (E : Ext) (g : Bool) : ∃ m, ∃ l : ℝ → ℝ, 0 < l (-2) ∧
    (∀ ω n w, Plain 1 w → (exclusion (modelMethods perfect (plugged E (exGenerator ω) m) g none (.int n) (fun _ => true) exPercentile) (.float (1 / 2)) .apriori false .asymptotic w).1 =
      .ok (.one ([2, 1, 0, -1, -2].map fun k => fin (l k)))) ∧
    ∀ᵐ ω ∂(Measure.infinitePi fun _ : ℕ × ℕ => gaussianReal 0 1), ∃ L : ℕ → ℝ → ℝ, (∀ n, 0 < n →
      Ends (Plain 1) (exclusion (modelMethods perfect (plugged E (exGenerator ω) m) g none (.int n) (fun _ => true) exPercentile) (.float (1 / 2)) .apriori false .toy)
        (.ok (.one ([2, 1, 0, -1, -2].map fun k => fin (L n k))))) ∧ Tendsto (fun n => L n (-2)) atTop (𝓝 0) := by
  obtain ⟨m, h⟩ := exGauss_model E
  have h0 : strength exGaussArgs (independent (at' [1, 1])) [2, 1] (used exGaussArgs .apriori) = 0 := by
    rw [exGauss_strength]
    norm_num [exGaussArgs, at', used]
  obtain ⟨l, l1, l2, l3⟩ := C180_expected Hypotest.perfect_exact perfect_finds Interface.perfect_constrained (mu := .float (1 / 2)) (v := 1 / 2) rfl g (available := fun _ => true) rfl exPercentile rfl h
    exGauss_inverse exGenerator_normals exPercentile_linear (by norm_num) (by norm_num) (e := .apriori) (Or.inl rfl) (by rw [h0]; norm_num) rfl
  refine ⟨m, l, l1 _, l2, ?_⟩
  filter_upwards [l3] with ω ⟨L, h1, h2⟩
  refine ⟨L, h1, (h2 (-2) (by simp)).2 ?_⟩
  have e : form exGaussArgs.data.length (independent (at' [1, 1])) (at' [2, 1]) (at' [2, 1]) = 5 := by
    show form 2 _ _ _ = 5
    rw [form_independent]
    norm_num [Finset.sum_range_succ, at']
  unfold deviation
  rw [e]
  have : Real.sqrt 5 < 4 := by
    rw [Real.sqrt_lt' (by norm_num)]
    norm_num
  have h5 : 0 < Real.sqrt 5 := Real.sqrt_pos.mpr (by norm_num)
  rw [neg_mul, neg_neg, mul_one_div, lt_div_iff₀ h5]
  linarith

/-- Signal 2 over a known background of 3, one event seen: with independent Poisson numbers, the level of the strength 1 converges to one minus 6 exp(-5) over 4 exp(-3), which is 0.797. The hypotheses of
`C180_count` hold. -/
example (E : Ext) (g : Bool) (percentile : List F → F → F) : ∃ m N, ∀ᵐ ω ∂(Measure.infinitePi fun p : ℕ × ℝ => poissonMeasure p.2.toNNReal), ∃ L : ℕ → ℝ, (∀ n, 0 < n →
      Ends (Plain N) (exclusion (modelMethods perfect (plugged E (exEvents ω) m) g none (.int n) (fun _ => true) percentile) (.float 1) .observed false .toy) (.ok (.one [fin (L n)]))) ∧
      Tendsto L atTop (𝓝 (1 - min (6 * Real.exp (-5) / (4 * Real.exp (-3))) 1)) := by
  obtain ⟨m, h⟩ := poisson_exists (one 2 3 0 1) (by simp [one])
  obtain ⟨k1, k2⟩ := ex_best E.gammaln
  have k := C180_count (s := 2) (b := 3) (σ := 0) (d := 1) Hypotest.perfect_exact perfect_finds Interface.perfect_constrained (mu := .float 1) (v := 1) rfl g (available := fun _ => true) rfl percentile (by norm_num)
    (by norm_num) le_rfl (by simpa using h) exEvents_counts (by norm_num) (by simpa using k1) (by norm_num) (by simpa using k2)
  have f1 : fitted ((1 : ℕ) : ℝ) 3 0 (1 * 2) = 5 := by
    rw [Uncorrelated.fitted_none (by norm_num) (by norm_num)]
    norm_num
  have f2 : fitted ((1 : ℕ) : ℝ) 3 0 0 = 3 := by
    rw [Uncorrelated.fitted_none (by norm_num) (by norm_num)]
    norm_num
  rw [f1, f2] at k
  have p5 : poissonUpTo 1 5 = 6 * Real.exp (-5) := by
    simp [poissonUpTo, Finset.sum_range_succ]
    ring
  have p3 : poissonUpTo 1 3 = 4 * Real.exp (-3) := by
    simp [poissonUpTo, Finset.sum_range_succ]
    ring
  rw [p5, p3] at k
  exact ⟨m, _, k⟩

end Verif.Toys
