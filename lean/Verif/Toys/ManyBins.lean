import Verif.Toys.ManyProps

/-!
# Property C180: many toys of several bins
-/

namespace Verif.Toys
open MeasureTheory ProbabilityTheory Filter Topology
open Verif.Py F Verif.Config Verif.Optimizer Verif.Hypotest Verif.Chain
open Verif.Interface (MuHat Data Toys World Size Plain Solver perfect)
open Verif.Backend (Ext Vec Args Built at')
open Verif.Stats (Expect Calc Levels)
open Verif.Uncorrelated (Bin profile IsBest IsStat Describes Valid profile_concave stat_unique uncorrelated_exists fitted)
open scoped Function

/-- Numbers of events as data. -/
def dataOf {k : ℕ} (c : Fin k → ℕ) : Vec := List.ofFn fun i => (c i : ℝ)

/-- Independent numbers of events with rates `r`. -/
noncomputable def poissons (k : ℕ) (r : Vec) : Measure (Fin k → ℕ) := Measure.pi fun i => poissonMeasure (at' r i).toNNReal

/-- What is assumed of the random numbers for `k` bins: for all rates the numbers of events in the toys are the first of a sequence of independent ones with Poisson distributions, whatever auxiliary data
are drawn after them. -/
def Events {Ω : Type} [MeasurableSpace Ω] (μ : Measure Ω) (k : ℕ) (draw : Ω → Vec × List Vec → ℕ → List Vec) : Prop := (∀ ω, Samples (draw ω)) ∧
  ∀ r : Vec, r.length = k → (∀ x ∈ r, 0 < x) → ∃ X : ℕ → Ω → Fin k → ℕ, (∀ ω s n, (draw ω (r, s) n).map (List.take k) = (List.range n).map fun j => dataOf (X j ω)) ∧
    (∀ j, AEMeasurable (X j) μ) ∧ (∀ j, μ.map (X j) = poissons k r) ∧ Pairwise ((· ⟂ᵢ[μ] ·) on X)

/-- The probability that the statistic of numbers of events with rates `r` reaches `q`. -/
noncomputable def reaching (G : ℝ → ℝ) (bins : List Bin) (v q : ℝ) (r : Vec) : ℝ :=
  (poissons bins.length r).real {c | ∃ q', IsStat (profile G (measured bins (dataOf c))) v q' ∧ q ≤ q'}

open Classical in
/-- The statistic of numbers of events. -/
noncomputable def statAt (G : ℝ → ℝ) (bins : List Bin) (v : ℝ) (c : Fin bins.length → ℕ) : ℝ :=
  if h : ∃ q, IsStat (profile G (measured bins (dataOf c))) v q then h.choose else -1

theorem measured_take (bins : List Bin) (D : Vec) : measured bins (D.take bins.length) = measured bins D := by
  unfold measured
  refine List.map_congr_left fun i hi => ?_
  have := List.mem_range.mp hi
  simp [at', List.getD_eq_getElem?_getD, List.getElem?_take, this]

theorem dataOf_at {k : ℕ} (c : Fin k → ℕ) {i : ℕ} (hi : i < k) : at' (dataOf c) i = c ⟨i, hi⟩ := by simp [dataOf, at', List.getD_eq_getElem?_getD, hi]

section
variable {G : ℝ → ℝ} {bins : List Bin} (hvd : Valid bins) {v : ℝ}
include hvd

theorem statAt_eq {c : Fin bins.length → ℕ} {q : ℝ} (h : IsStat (profile G (measured bins (dataOf c))) v q) : statAt G bins v c = q := by
  have hx : ∃ q, IsStat (profile G (measured bins (dataOf c))) v q := ⟨q, h⟩
  rw [statAt, dif_pos hx]
  refine stat_unique (profile_concave G (measured_valid hvd fun i hi => ?_).1) hx.choose_spec h
  rw [dataOf_at c hi]
  positivity

theorem statAt_reaches {q : ℝ} (hq : 0 ≤ q) (c : Fin bins.length → ℕ) : q ≤ statAt G bins v c ↔ ∃ q', IsStat (profile G (measured bins (dataOf c))) v q' ∧ q ≤ q' := by
  constructor
  · intro h
    by_cases hx : ∃ q, IsStat (profile G (measured bins (dataOf c))) v q
    · obtain ⟨q', h'⟩ := hx
      exact ⟨q', h', statAt_eq hvd h' ▸ h⟩
    · rw [statAt, dif_neg hx] at h
      linarith
  · rintro ⟨q', h, hle⟩
    rwa [statAt_eq hvd h]

theorem stats_map {ds : List Vec} {qs : List ℝ} {cs : List (Fin bins.length → ℕ)} (hc : ds.map (List.take bins.length) = cs.map dataOf)
    (h : List.Forall₂ (fun D q => IsStat (profile G (measured bins D)) v q) ds qs) : qs = cs.map (statAt G bins v) := by
  induction h generalizing cs with
  | nil =>
    cases cs with
    | nil => rfl
    | cons => simp at hc
  | @cons D q ds qs h1 _ ih =>
    cases cs with
    | nil => simp at hc
    | cons c cs =>
      simp only [List.map_cons, List.cons.injEq] at hc
      rw [ih hc.2, List.map_cons, statAt_eq hvd (q := q)]
      rw [← hc.1, measured_take]
      exact h1

variable {Ω : Type} [MeasurableSpace Ω] {μ : Measure Ω} [IsProbabilityMeasure μ]

theorem reaching_tendsto {q : ℝ} (hq : 0 ≤ q) {r : Vec} {X : ℕ → Ω → Fin bins.length → ℕ} (h1 : ∀ j, AEMeasurable (X j) μ) (h2 : ∀ j, μ.map (X j) = poissons bins.length r)
    (h3 : Pairwise ((· ⟂ᵢ[μ] ·) on X)) : ∀ᵐ ω ∂μ, Tendsto (fun n : ℕ => ((((List.range n).map fun j => X j ω).map (statAt G bins v)).countP (fun x => decide (q ≤ x)) : ℝ) / n) atTop
      (𝓝 (reaching G bins v q r)) := by
  have hm : Measurable fun c : Fin bins.length → ℕ => -statAt G bins v c := measurable_of_countable _
  have key := upTo_tendsto (X := fun j ω => -statAt G bins v (X j ω)) (ν := (poissons bins.length r).map fun c => -statAt G bins v c) (fun j => hm.comp_aemeasurable (h1 j))
    (fun j => by rw [← h2 j, AEMeasurable.map_map_of_aemeasurable hm.aemeasurable (h1 j)]; rfl) (fun i j hij => (h3 hij).comp hm hm) (-q)
  have e : ((poissons bins.length r).map fun c => -statAt G bins v c).real (Set.Iic (-q)) = reaching G bins v q r := by
    rw [map_measureReal_apply hm measurableSet_Iic]
    unfold reaching
    congr 1
    ext c
    rw [Set.mem_setOf_eq, ← statAt_reaches hvd hq]
    simp
  rw [e] at key
  filter_upwards [key] with ω h
  refine h.congr fun n => ?_
  unfold upTo
  rw [List.countP_map, List.countP_map, List.countP_map]
  congr 2
  refine List.countP_congr fun j _ => ?_
  simp

/-- Every number of events is possible. -/
theorem reaching_pos {q : ℝ} {r : Vec} (hr : r.length = bins.length) (hr0 : ∀ x ∈ r, 0 < x) {c : Fin bins.length → ℕ} (hc : IsStat (profile G (measured bins (dataOf c))) v q) : 0 < reaching G bins v q r := by
  have h1 : (poissons bins.length r).real {c} ≤ reaching G bins v q r := measureReal_mono (by
    rintro x rfl
    exact ⟨q, hc, le_rfl⟩) (by
      have : IsProbabilityMeasure (poissons bins.length r) := by
        unfold poissons
        infer_instance
      exact measure_ne_top _ _)
  refine lt_of_lt_of_le ?_ h1
  unfold poissons
  rw [measureReal_def, Measure.pi_singleton, ENNReal.toReal_prod]
  refine Finset.prod_pos fun i _ => ?_
  have hi : 0 < at' r i := by
    have : at' r i = r[(i : ℕ)]'(by rw [hr]; exact i.2) := Uncorrelated.getD_get _
    rw [this]
    exact hr0 _ (List.getElem_mem _)
  have := poissonMeasure_real_singleton (at' r i).toNNReal (c i)
  rw [measureReal_def] at this
  rw [this]
  have : (0 : ℝ) < (at' r i).toNNReal := by
    rw [Real.coe_toNNReal _ hi.le]
    exact hi
  positivity

end

section
variable {Ω : Type} [MeasurableSpace Ω] {μ : Measure Ω} [IsProbabilityMeasure μ]
  {S : Solver} (hS : Exact S) (hT : Finds S) (hC : Interface.Constrained S) {E : Ext} {draw : Ω → Vec × List Vec → ℕ → List Vec}
  {mu : Mu} {v : ℝ} (hmu : mu.Is v) (g : Bool) {available : Calc → Bool} (hav : available .toy = true) (percentile : List F → F → F)
include hS hT hC hmu hav

/-- C180: for counts in any number of bins, with independent uncertainties or none, the observed level converges to one minus the ratio of two probabilities: that the statistic of numbers of events with
Poisson distributions reaches the one of the data, with the rates that fit the data best for the tested strength, and without signal. -/
theorem C180_bins {bins : List Bin} {m : Backend.Model} {N : ℕ} (h : Describes bins m N) (hvd : Valid bins) (hnat : ∀ x ∈ bins, ∃ k : ℕ, x.d = k) (hd : Events μ bins.length draw) (hv : 0 ≤ v) :
    ∃ q, IsStat (profile E.gammaln bins) v q ∧ ∀ᵐ ω ∂μ, ∃ L : ℕ → ℝ,
      (∀ n, 0 < n → Ends (Plain N) (exclusion (modelMethods S (plugged E (draw ω) m) g none (.int n) available percentile) mu .observed false .toy) (.ok (.one [fin (L n)]))) ∧
      Tendsto L atTop (𝓝 (1 - min (reaching E.gammaln bins v q (rates bins v) / reaching E.gammaln bins v q (rates bins 0)) 1)) := by
  obtain ⟨hd1, hd2⟩ := hd
  have hr : ∀ v, (rates bins v).length = bins.length ∧ ∀ x ∈ rates bins v, 0 < x := by
    intro v
    refine ⟨by simp [rates], fun x hx => ?_⟩
    obtain ⟨b, -, rfl⟩ := List.mem_map.mp hx
    exact Uncorrelated.fitted_pos _ _ _ _
  obtain ⟨X, hX, x1, x2, x3⟩ := hd2 (rates bins v) (hr v).1 (hr v).2
  obtain ⟨Y, hY, y1, y2, y3⟩ := hd2 (rates bins 0) (hr 0).1 (hr 0).2
  obtain ⟨ω₀⟩ : Nonempty Ω := nonempty_of_isProbabilityMeasure μ
  obtain ⟨s, s0, q, qs, qb, hq, -, -, -⟩ := C168_levels hS hT hC (hd1 ω₀) hmu hv g Nat.one_pos hav percentile h hvd
  have hq0 : 0 ≤ q := Uncorrelated.stat_nonneg hq
  have t1 := reaching_tendsto (G := E.gammaln) hvd (v := v) hq0 x1 x2 x3
  have t2 := reaching_tendsto (G := E.gammaln) hvd (v := v) hq0 y1 y2 y3
  have hpos : 0 < reaching E.gammaln bins v q (rates bins 0) := by
    have hnat' := hnat
    choose! f hf using hnat'
    refine reaching_pos hvd (hr 0).1 (hr 0).2 (c := fun i => f bins[i]) ?_
    have : measured bins (dataOf fun i : Fin bins.length => f bins[i]) = bins := by
      apply List.ext_getElem
      · simp [measured]
      · intro i hi hi'
        have e : Uncorrelated.bin bins i = bins[i] := Uncorrelated.getD_get hi'
        simp only [measured, List.getElem_map, List.getElem_range, dataOf_at _ hi', e]
        have := hf bins[i] (List.getElem_mem _)
        simp only [Fin.getElem_fin, ← this]
    rwa [this]
  refine ⟨q, hq, ?_⟩
  filter_upwards [t1, t2] with ω h1 h2
  have hl := ratio_tendsto h1 h2 hpos
  refine ⟨_, fun n hn => ?_, hl⟩
  obtain ⟨s, s0, q', qs, qb, hq', hs, hb, hE⟩ := C168_levels hS hT hC (hd1 ω) hmu hv g hn hav percentile h hvd
  have e1 := stats_map hvd (cs := (List.range n).map fun j => X j ω) (by rw [hX, List.map_map]; rfl) hs
  have e2 := stats_map hvd (cs := (List.range n).map fun j => Y j ω) (by rw [hY, List.map_map]; rfl) hb
  rw [stat_unique (profile_concave _ hvd.1) hq' hq, e1, e2] at hE
  exact hE

end

/-- Independent numbers with Poisson distributions, one for each toy, bin and rate, and zeros for auxiliary data. -/
noncomputable def exCounts (ω : ℕ × ℕ × ℝ → ℕ) (r : Vec × List Vec) (n : ℕ) : List Vec :=
  (List.range n).map fun j => (List.range r.1.length).map (fun i => (ω (j, i, at' r.1 i) : ℝ)) ++ r.2.map fun _ => 0

theorem exCounts_events (k : ℕ) : Events (Measure.infinitePi fun p : ℕ × ℕ × ℝ => poissonMeasure p.2.2.toNNReal) k exCounts := by
  refine ⟨fun ω r s n => ⟨by simp [exCounts], fun D hD => ?_⟩, fun r hr hr0 => ⟨fun j ω i => ω (j, i, at' r i), fun ω s n => ?_, fun j => ?_, fun j => ?_, fun j j' hjj => ?_⟩⟩
  · obtain ⟨j, -, rfl⟩ := List.mem_map.mp hD
    refine ⟨by simp, fun h => by simp [h], fun i hi => ⟨ω (j, i, at' r i), ?_⟩⟩
    simp [at', List.getD, List.getElem?_append_left, hi]
  · unfold exCounts dataOf
    rw [List.map_map]
    refine List.map_congr_left fun j _ => ?_
    simp only [Function.comp]
    rw [List.take_append_of_le_length (by simp [hr]), List.take_of_length_le (by simp [hr])]
    apply List.ext_getElem
    · simp [hr]
    · intro i h1 h2
      simp
  · exact (by fun_prop : Measurable fun (ω : ℕ × ℕ × ℝ → ℕ) (i : Fin k) => ω (j, i, at' r i)).aemeasurable
  · have hi := iIndepFun_infinitePi (P := fun p : ℕ × ℕ × ℝ => poissonMeasure p.2.2.toNNReal) (𝓧 := fun _ => ℕ) (m𝓧 := fun _ => inferInstance) (X := fun _ x => x) (fun p => by fun_prop)
    have hinj : Function.Injective fun i : Fin k => ((j, (i : ℕ), at' r i) : ℕ × ℕ × ℝ) := fun a b h => by
      simp only [Prod.mk.injEq] at h
      exact Fin.ext h.2.1
    have hp : iIndepFun (fun (i : Fin k) (ω : ℕ × ℕ × ℝ → ℕ) => ω (j, (i : ℕ), at' r i)) (Measure.infinitePi fun p : ℕ × ℕ × ℝ => poissonMeasure p.2.2.toNNReal) := hi.precomp hinj
    rw [iIndepFun_iff_map_fun_eq_pi_map fun i => (measurable_pi_apply _).aemeasurable] at hp
    rw [hp]
    unfold poissons
    congr 1
    funext i
    exact Measure.infinitePi_map_eval (fun p : ℕ × ℕ × ℝ => poissonMeasure p.2.2.toNNReal) (j, (i : ℕ), at' r i)
  · have hi := iIndepFun_infinitePi (P := fun p : ℕ × ℕ × ℝ => poissonMeasure p.2.2.toNNReal) (𝓧 := fun _ => ℕ) (m𝓧 := fun _ => inferInstance) (X := fun _ x => x) (fun p => by fun_prop)
    have hdis : Disjoint (Finset.univ.image fun i : Fin k => ((j, (i : ℕ), at' r i) : ℕ × ℕ × ℝ)) (Finset.univ.image fun i : Fin k => ((j', (i : ℕ), at' r i) : ℕ × ℕ × ℝ)) := by
      rw [Finset.disjoint_left]
      intro p h1 h2
      obtain ⟨a, -, rfl⟩ := Finset.mem_image.mp h1
      obtain ⟨b, -, h3⟩ := Finset.mem_image.mp h2
      exact hjj (Prod.ext_iff.mp h3).1.symm
    have key := hi.indepFun_finset _ _ hdis fun p => measurable_pi_apply p
    have mk : ∀ j : ℕ, Measurable fun (z : (Finset.univ.image fun i : Fin k => ((j, (i : ℕ), at' r i) : ℕ × ℕ × ℝ)) → ℕ) (i : Fin k) =>
        z ⟨(j, (i : ℕ), at' r i), Finset.mem_image_of_mem (fun i : Fin k => ((j, (i : ℕ), at' r i) : ℕ × ℕ × ℝ)) (Finset.mem_univ i)⟩ :=
      fun j => measurable_pi_lambda _ fun i => measurable_pi_apply _
    exact key.comp (mk j) (mk j')

/-- Two bins with uncertain backgrounds: the hypotheses of `C180_bins` hold. -/
example (E : Ext) (g : Bool) (percentile : List F → F → F) : ∃ m q, IsStat (profile E.gammaln [⟨2, 3, 1, 1⟩, ⟨1, 4, 2, 6⟩]) 1 q ∧
    ∀ᵐ ω ∂(Measure.infinitePi fun p : ℕ × ℕ × ℝ => poissonMeasure p.2.2.toNNReal), ∃ L : ℕ → ℝ,
      (∀ n, 0 < n → Ends (Plain 3) (exclusion (modelMethods perfect (plugged E (exCounts ω) m) g none (.int n) (fun _ => true) percentile) (.float 1) .observed false .toy) (.ok (.one [fin (L n)]))) ∧
      Tendsto L atTop (𝓝 (1 - min (reaching E.gammaln [⟨2, 3, 1, 1⟩, ⟨1, 4, 2, 6⟩] 1 q [fitted 1 3 1 2, fitted 6 4 2 1] /
        reaching E.gammaln [⟨2, 3, 1, 1⟩, ⟨1, 4, 2, 6⟩] 1 q [fitted 1 3 1 0, fitted 6 4 2 0]) 1)) := by
  obtain ⟨m, h⟩ := uncorrelated_exists [⟨2, 3, 1, 1⟩, ⟨1, 4, 2, 6⟩]
  obtain ⟨q, hq, hL⟩ := C180_bins Hypotest.perfect_exact perfect_finds Interface.perfect_constrained (E := E) (mu := .float 1) (v := 1) rfl g (available := fun _ => true) rfl percentile h (by
      refine ⟨fun x hx => ?_, ⟨2, 3, 1, 1⟩, by simp, by norm_num⟩
      simp only [List.mem_cons, List.not_mem_nil, or_false] at hx
      rcases hx with rfl | rfl <;> norm_num [Bin.Proper]) (by
      intro x hx
      simp only [List.mem_cons, List.not_mem_nil, or_false] at hx
      rcases hx with rfl | rfl
      · exact ⟨1, by norm_num⟩
      · exact ⟨6, by norm_num⟩) (exCounts_events 2) zero_le_one
  simp only [rates, List.map_cons, List.map_nil, one_mul, zero_mul] at hL
  exact ⟨m, q, hq, hL⟩

end Verif.Toys
