import Verif.Toys.Coverage

/-!
# Property C182: how often a signal that exists is excluded
-/

namespace Verif.Toys
open MeasureTheory ProbabilityTheory Filter Topology
open Verif.Py F Verif.Config Verif.Optimizer Verif.Hypotest Verif.Chain
open Verif.Interface (MuHat Data Toys World Size Plain Solver StartFree perfect)
open Verif.Backend (Ext Vec Args Built at')
open Verif.Stats (Expect Calc Levels gaussianLog gaussianLevel levelsOf)
open Verif.Uncorrelated (Bin profile IsBest IsStat Describes Valid stat_unique stat_nonneg stat_shift entry level_list entry_mono stat_strength fitted_none bin bin_mem uncorrelated_exists)
open Verif.UpperLimit (Expected Band Limit Entries Sound Reaches)

/-- Random data `X` of experiments with a signal of strength `u`, and the models that describe them: Gaussian models of spey that differ by the data only. The data have the covariance matrix of the models. -/
structure Experiments {Ω : Type} [MeasurableSpace Ω] (μ : Measure Ω) (E : Ext) (a : Args) (P C : ℕ → ℕ → ℝ) (y : Vec) (u : ℝ) (X : Ω → Vec) (m : Ω → Backend.Model) : Prop where
  models : ∀ ω, Case E { a with data := X ω } (m ω) P y
  covariance : Inverse a.background.length P C
  law : NormalData μ C ((List.range a.background.length).map fun i => u * at' y i + at' a.background i) X

section
variable {Ω : Type} [MeasurableSpace Ω] {μ : Measure Ω} [IsProbabilityMeasure μ] {E : Ext} {a : Args} {P C : ℕ → ℕ → ℝ} {y : Vec} {u : ℝ} {X : Ω → Vec} {m : Ω → Backend.Model}
  (hx : Experiments μ E a P C y u X m)
include hx

theorem Experiments.length (ω : Ω) : (X ω).length = a.background.length := (hx.models ω).fits.1.symm

theorem Experiments.informative : 0 < form a.background.length P (at' y) (at' y) := by
  obtain ⟨ω⟩ : Nonempty Ω := nonempty_of_isProbabilityMeasure μ
  have := (hx.models ω).informative
  rwa [show ({ a with data := X ω } : Args).data.length = _ from hx.length ω] at this

/-- The strength that is measured has a normal distribution around the true one. -/
theorem Experiments.strength (t : ℝ) :
    μ.real {ω | estimate a.background.length P (at' y) (at' a.background) (at' (X ω)) ≤ t} = Phi ((t - u) / deviation a.background.length P (at' y)) ∧
    μ.real {ω | t ≤ estimate a.background.length P (at' y) (at' a.background) (at' (X ω))} = Phi ((u - t) / deviation a.background.length P (at' y)) := by
  obtain ⟨ω⟩ : Nonempty Ω := nonempty_of_isProbabilityMeasure μ
  have := measured_law (b := a.background) (measurement_symm (hx.models ω).model) hx.covariance hx.informative (by simp) hx.law t
  rwa [estimate_expected hx.informative] at this

variable {S : Solver} (hS : Exact S) (hT : Finds S) (draw : Vec × List Vec → ℕ → List Vec) (g : Bool) (ntoys : Size) (available : Calc → Bool) (hav : available .asymptotic = true)
  (percentile : List F → F → F)
include hS hT

include hav in
theorem Experiments.observed {mu : Mu} {v : ℝ} (hmu : mu.Is v) (hv : 0 < v) (hv10 : v ≤ 10) (ω : Ω) (w : World) (hw : Plain 1 w) :
    (exclusion (modelMethods S (plugged E draw (m ω)) g none ntoys available percentile) mu .observed false .asymptotic w).1 =
      .ok (.one [fin (gaussianLevel (deviation a.background.length P (at' y)) (min (estimate a.background.length P (at' y) (at' a.background) (at' (X ω))) v) v)]) := by
  refine gaussian_observed hS hT draw (hx.models ω) g ntoys available hav percentile ?_ ?_ hmu hv hv10 w hw
  · rw [show ({ a with data := X ω } : Args).data.length = _ from hx.length ω]
  · rw [show ({ a with data := X ω } : Args).data.length = _ from hx.length ω]

include hav in
/-- C182. Data of Gaussian models (independent bins or a covariance matrix, any number of bins) with a signal of strength `u`: the probability that `exclusion_confidence_level` reports a level of at least `CL`
for a strength that is not larger is at most `1 - CL`. For confidence levels of at least one half. -/
theorem C182_excluded {mu : Mu} {v : ℝ} (hmu : mu.Is v) (hv : 0 < v) (hv10 : v ≤ 10) (hvu : v ≤ u) {CL : ℝ} (hCL : 1 / 2 ≤ CL) (hCL1 : CL < 1) :
    μ.real {ω | ∃ l, CL ≤ l ∧ ∀ w, Plain 1 w → (exclusion (modelMethods S (plugged E draw (m ω)) g none ntoys available percentile) mu .observed false .asymptotic w).1 = .ok (.one [fin l])} ≤ 1 - CL := by
  have hσ : 0 < deviation a.background.length P (at' y) := deviation_pos hx.informative
  have hlaw := fun t => (hx.strength t).1
  have hobs := fun ω => hx.observed hS hT draw g ntoys available hav percentile hmu hv hv10 ω ⟨[0], none, none⟩ ⟨rfl, rfl, rfl⟩
  generalize deviation a.background.length P (at' y) = σ at *
  obtain ⟨t, ht⟩ := Phi_surj (p := 1 - CL) (by linarith) (by linarith)
  have ht0 : t ≤ 0 := by
    by_contra hlt
    have := Phi_strictMono (not_le.mp hlt)
    rw [Phi_zero, ht] at this
    linarith
  have hsub : {ω | ∃ l, CL ≤ l ∧ ∀ w, Plain 1 w → (exclusion (modelMethods S (plugged E draw (m ω)) g none ntoys available percentile) mu .observed false .asymptotic w).1 = .ok (.one [fin l])} ⊆
      {ω | estimate a.background.length P (at' y) (at' a.background) (at' (X ω)) ≤ v + t * σ} := by
    rintro ω ⟨l, hl, hw⟩
    have h1 := hw ⟨[0], none, none⟩ ⟨rfl, rfl, rfl⟩
    rw [hobs ω] at h1
    simp only [Except.ok.injEq, Levels.one.injEq, List.cons.injEq, fin.injEq, and_true] at h1
    show estimate a.background.length P (at' y) (at' a.background) (at' (X ω)) ≤ v + t * σ
    generalize estimate a.background.length P (at' y) (at' a.background) (at' (X ω)) = x at *
    unfold gaussianLevel at h1
    have hp := Phi_pos (min x v / σ)
    have h2 : Phi ((min x v - v) / σ) < Phi t := by
      rw [ht]
      have h3 : Phi ((min x v - v) / σ) / Phi (min x v / σ) ≤ 1 - CL := by linarith
      rw [div_le_iff₀ hp] at h3
      have := mul_lt_mul_of_pos_left (Phi_lt_one (min x v / σ)) (by linarith : 0 < 1 - CL)
      linarith
    have h3 : (min x v - v) / σ < t := by
      by_contra hge
      exact absurd h2 (not_lt.mpr (Phi_mono (not_lt.mp hge)))
    rw [div_lt_iff₀ hσ] at h3
    have h4 : t * σ ≤ 0 := mul_nonpos_of_nonpos_of_nonneg ht0 hσ.le
    have h5 : x < v := by
      by_contra hge
      rw [min_eq_right (not_lt.mp hge)] at h3
      linarith
    rw [min_eq_left h5.le] at h3
    linarith
  refine (measureReal_mono hsub).trans ?_
  rw [hlaw, ← ht]
  refine Phi_mono ?_
  rw [div_le_iff₀ hσ]
  linarith

include hav in
/-- C182. This is false for smaller confidence levels: every measurement excludes the strength if the confidence level is at most `1 - 1 / (2 * Phi (v / σ))`, which is between zero and one half. -/
theorem C182_low_fails {mu : Mu} {v : ℝ} (hmu : mu.Is v) (hv : 0 < v) (hv10 : v ≤ 10) :
    ∃ CL, 0 < CL ∧ CL < 1 / 2 ∧ μ.real {ω | ∃ l, CL ≤ l ∧ ∀ w, Plain 1 w →
      (exclusion (modelMethods S (plugged E draw (m ω)) g none ntoys available percentile) mu .observed false .asymptotic w).1 = .ok (.one [fin l])} = 1 := by
  have hσ : 0 < deviation a.background.length P (at' y) := deviation_pos hx.informative
  have hobs := fun ω => hx.observed hS hT draw g ntoys available hav percentile hmu hv hv10 ω
  generalize deviation a.background.length P (at' y) = σ at *
  have hp := Phi_pos (v / σ)
  have h12 : 1 / 2 < Phi (v / σ) := by
    have := Phi_strictMono (div_pos hv hσ)
    rwa [Phi_zero] at this
  have h1 := Phi_lt_one (v / σ)
  refine ⟨1 - 1 / 2 / Phi (v / σ), ?_, ?_, ?_⟩
  · rw [sub_pos, div_lt_one hp]
    exact h12
  · have : 1 / 2 < 1 / 2 / Phi (v / σ) := by
      rw [lt_div_iff₀ hp]
      linarith
    linarith
  · refine Eq.trans (congrArg μ.real (?_ : _ = Set.univ)) probReal_univ
    refine Set.eq_univ_of_forall fun ω => ⟨_, ?_, fun w hw => hobs ω w hw⟩
    generalize estimate a.background.length P (at' y) (at' a.background) (at' (X ω)) = x
    unfold gaussianLevel
    have hm := Phi_ratio_mono (div_nonneg hv.le hσ.le) (div_le_div_of_nonneg_right (min_le_right x v) hσ.le)
    rw [sub_self, Phi_zero] at hm
    rw [sub_div]
    linarith

/-- C182. Without signal, the p-value that `significance` reports is at most `α` with probability `α` at most. -/
theorem C182_discovery (h0 : u = 0) {α : ℝ} (hα : 0 < α) (hα1 : α < 1 / 2) :
    μ.real {ω | ∃ p, p ≤ α ∧ ∀ w, Plain 1 w → ∃ A Z l, (significance (modelMethods S (plugged E draw (m ω)) g none ntoys available percentile) .observed w).1 = .ok (A, Z, [fin p], l)} ≤ α := by
  have hσ : 0 < deviation a.background.length P (at' y) := deviation_pos hx.informative
  have hlaw := fun t => (hx.strength t).2
  obtain ⟨t, ht⟩ := Phi_surj (p := α) hα (by linarith)
  have ht0 : t < 0 := by
    by_contra hge
    have := Phi_mono (not_lt.mp hge)
    rw [Phi_zero, ht] at this
    linarith
  have hsub : {ω | ∃ p, p ≤ α ∧ ∀ w, Plain 1 w → ∃ A Z l, (significance (modelMethods S (plugged E draw (m ω)) g none ntoys available percentile) .observed w).1 = .ok (A, Z, [fin p], l)} ⊆
      {ω | -t * deviation a.background.length P (at' y) ≤ estimate a.background.length P (at' y) (at' a.background) (at' (X ω))} := by
    rintro ω ⟨p, hp, hw⟩
    have hc := hx.models ω
    obtain ⟨lo, h1, h2, h3⟩ := hc.single draw
    obtain ⟨c, hc1⟩ := hc.log draw .observed (X ω) rfl
    obtain ⟨D, c', hD, hc2⟩ := hc.asimov draw .observed 1
    obtain ⟨A, Z, l, h4⟩ := hw ⟨[0], none, none⟩ ⟨rfl, rfl, rfl⟩
    have hk : ({ a with data := X ω } : Args).data.length = a.background.length := hx.length ω
    rw [hk] at hc1 hc2
    rw [single_significance hS hT h1 (e := .observed) (fun u => by rw [plugged_none E draw (measurement_built hc.model hc.modifiers) hc.fits]; exact hc1 u) hc2 hD (nearest_is_best hσ (by norm_num))
      (nearest_is_best hσ (by norm_num)) g ntoys available percentile _ ⟨rfl, rfl, rfl⟩] at h4
    simp only [Stats.discovery, Except.ok.injEq, Prod.mk.injEq, List.cons.injEq, fin.injEq, and_true] at h4
    obtain ⟨-, -, h4, -⟩ := h4
    show -t * deviation a.background.length P (at' y) ≤ estimate a.background.length P (at' y) (at' a.background) (at' (X ω))
    change 1 - Phi √(2 * (gaussianLog c (deviation a.background.length P (at' y)) (estimate a.background.length P (at' y) (at' a.background) (at' (X ω)))
      (nearest 0 (estimate a.background.length P (at' y) (at' a.background) (at' (X ω)))) - _)) = p at h4
    generalize estimate a.background.length P (at' y) (at' a.background) (at' (X ω)) = x at *
    generalize deviation a.background.length P (at' y) = σ at *
    by_contra hlt
    rw [not_le, neg_mul] at hlt
    have h5 : √(2 * (gaussianLog c σ x (nearest 0 x) - gaussianLog c σ x 0)) < -t := by
      rcases le_or_gt x 0 with hx0 | hx0
      · have : nearest 0 x = 0 := by simp [nearest, hx0]
        rw [this]
        simp [ht0]
      · have hle : √(2 * (gaussianLog c σ x (nearest 0 x) - gaussianLog c σ x 0)) ≤ x / σ := by
          refine Real.sqrt_le_iff.mpr ⟨by positivity, ?_⟩
          have e : 2 * (gaussianLog c σ x (nearest 0 x) - gaussianLog c σ x 0) = (x / σ) ^ 2 - ((nearest 0 x - x) / σ) ^ 2 := by
            unfold gaussianLog
            field_simp
            ring
          rw [e]
          linarith [sq_nonneg ((nearest 0 x - x) / σ)]
        refine hle.trans_lt ?_
        rw [div_lt_iff₀ hσ]
        linarith
    have h6 := Phi_strictMono h5
    rw [Phi_neg, ht] at h6
    linarith
  refine (measureReal_mono hsub).trans ?_
  rw [hlaw, ← ht, h0]
  refine le_of_eq ?_
  congr 1
  field_simp
  ring

include hav in
/-- C182. The expected levels are quantiles of the observed one: with a signal of strength `u`, or none, the observed level reaches the expected one for data `n = i - 2` standard deviations above the background with
probability `Phi (n - u / σ)`, if these data measure less than the tested strength. -/
theorem C182_band {mu : Mu} {v : ℝ} (hmu : mu.Is v) (hv : 0 < v) (hv10 : v ≤ 10) {i : ℕ} (hi : i < 5) (hin : ((i : ℝ) - 2) * deviation a.background.length P (at' y) < v) :
    μ.real {ω | ∃ l l' ls, l' ≤ l ∧ ls[i]? = some (fin l') ∧ ∀ w, Plain 1 w →
      (exclusion (modelMethods S (plugged E draw (m ω)) g none ntoys available percentile) mu .observed false .asymptotic w).1 = .ok (.one [fin l]) ∧
      (exclusion (modelMethods S (plugged E draw (m ω)) g none ntoys available percentile) mu .apriori false .asymptotic w).1 = .ok (.one ls)} =
    Phi ((i : ℝ) - 2 - u / deviation a.background.length P (at' y)) := by
  have hσ : 0 < deviation a.background.length P (at' y) := deviation_pos hx.informative
  have hlaw := (hx.strength (((i : ℝ) - 2) * deviation a.background.length P (at' y))).1
  have hobs := fun ω => hx.observed hS hT draw g ntoys available hav percentile hmu hv hv10 ω
  have hexp : ∀ ω w, Plain 1 w → (exclusion (modelMethods S (plugged E draw (m ω)) g none ntoys available percentile) mu .apriori false .asymptotic w).1 =
      .ok (.one ([-2, -1, 0, 1, 2].map fun n => fin (gaussianLevel (deviation a.background.length P (at' y)) (n * deviation a.background.length P (at' y)) v))) := by
    intro ω w hw
    have hk : ({ a with data := X ω } : Args).data.length = a.background.length := hx.length ω
    refine (C118_levels hS hT draw (hx.models ω) .apriori (est := 0) ?_ (by rw [hk]) (by norm_num) (negative := false) (fun hn => by simp at hn) hmu hv g ntoys available hav percentile w hw).2 (.inl rfl)
    simp [used, estimate, form]
  rw [sub_div, mul_div_assoc, div_self hσ.ne', mul_one] at hlaw
  rw [← hlaw]
  generalize deviation a.background.length P (at' y) = σ at *
  congr 1
  ext ω
  simp only [Set.mem_ofPred_eq]
  have key : ∀ x z : ℝ, x < v → (gaussianLevel σ x v ≤ gaussianLevel σ (min z v) v ↔ z ≤ x) := by
    intro x z hxv
    unfold gaussianLevel
    rw [sub_div, sub_div]
    constructor
    · intro h
      by_contra hlt
      have hlt : x < min z v := lt_min (not_le.mp hlt) hxv
      have := Phi_ratio_strict (div_pos hv hσ) (div_lt_div_of_pos_right hlt hσ)
      linarith
    · intro h
      have := Phi_ratio_mono (div_nonneg hv.le hσ.le) (div_le_div_of_nonneg_right ((min_le_left z v).trans h) hσ.le)
      linarith
  have hget : ([-2, -1, 0, 1, 2].map fun n => fin (gaussianLevel σ (n * σ) v))[i]? = some (fin (gaussianLevel σ (((i : ℝ) - 2) * σ) v)) := by
    interval_cases i <;> simp <;> norm_num
  rw [← key _ _ hin]
  constructor
  · rintro ⟨l, l', ls, h1, h2, h3⟩
    obtain ⟨h4, h5⟩ := h3 ⟨[0], none, none⟩ ⟨rfl, rfl, rfl⟩
    rw [hobs ω _ ⟨rfl, rfl, rfl⟩] at h4
    rw [hexp ω _ ⟨rfl, rfl, rfl⟩] at h5
    simp only [Except.ok.injEq, Levels.one.injEq, List.cons.injEq, fin.injEq, and_true] at h4
    rw [Except.ok.injEq, Levels.one.injEq] at h5
    rw [← h5, hget, Option.some.injEq, fin.injEq] at h2
    rw [h2, h4]
    exact h1
  · exact fun h => ⟨_, _, _, h, hget, fun w hw => ⟨hobs ω w hw, hexp ω w hw⟩⟩

include hav in
/-- C182. The observed upper limit that `poi_upper_limit` returns is below the true strength (with the tolerance of the root finder) with probability `1 - CL` at most. -/
theorem C182_limit (hF : StartFree S) (hu : 0 < u) (hu10 : u ≤ 10) {CL : ℝ} (hCL : 1 / 2 ≤ CL) (hCL1 : CL < 1) (inv : List (List ℝ) → Except Interface.Err (List (List ℝ))) (fuel : ℕ)
    (T : Finder) (tol : ℝ → ℝ) (hsound : Sound tol T.solver) (low hig : Option ℝ) (hlow : low = none ∨ hig = none ∨ ∃ z, low = some z ∧ 1e-10 ≤ z) (band : Band) (w : World) (hw : Plain 1 w) :
    μ.real {ω | ∃ L w' mu, poiUpperLimit fuel T (modelMethods S (plugged E draw (m ω)) g none ntoys available percentile)
        (modelSigma S inv (plugged E draw (m ω)) g ntoys available percentile) true .observed CL low hig band w = (.ok (some L), w') ∧ fin mu ∈ L.values ∧ mu + tol mu ≤ u} ≤ 1 - CL := by
  refine (measureReal_mono ?_).trans (C182_excluded hx hS hT draw g ntoys available hav percentile (mu := .float u) rfl hu hu10 le_rfl hCL hCL1)
  rintro ω ⟨L, w', mu, hr, hmem, hle⟩
  have hc := hx.models ω
  have hk : ({ a with data := X ω } : Args).data.length = a.background.length := hx.length ω
  have hfix : ∀ n, ((plugged E draw (m ω)).config n).fixed = none := by
    intro n
    show (Backend.configOf (m ω) n 10).fixed = none
    unfold Backend.configOf
    split
    · exact built_fixed (measurement_built hc.model hc.modifiers) hc.fits
    · rfl
  have hM := C110_model hF (plugged E draw (m ω)) hfix g none ntoys available percentile 1
  have hsig := modelSigma_steady hF inv (plugged E draw (m ω)) hfix g ntoys available percentile 1
  obtain ⟨-, h2⟩ := C113_level _ hM hav _ hsig fuel T tol hsound .observed CL low hig band w w' hw L hr
  have hL : L.values = [fin mu] := by
    simp only [Entries] at h2
    generalize L.values = vs at h2 hmem
    cases h2 with
    | cons a b =>
      cases b
      simp only [List.mem_singleton] at hmem
      rw [hmem]
  rw [hL] at h2
  simp only [Entries, List.forall₂_cons, List.forall₂_nil_left_iff, and_true] at h2
  rcases h2 with ⟨mu', h3, -, z, r, h4, ⟨h5, h6⟩, h7⟩ | ⟨h3, -⟩
  · rw [fin.injEq] at h3
    subst h3
    have hz0 : 0 < z := lt_of_lt_of_le (by norm_num) (h5 hlow)
    have hzu : z ≤ u := by linarith [(abs_le.mp h4).1, (abs_le.mp h4).2]
    obtain ⟨ls, hE, hls⟩ := h6
    have e1 := (hE w hw).1
    rw [Expected.toExpect, gaussian_stats hS hT draw hc g ntoys available hav percentile .observed rfl rfl (mu := .float z) rfl hz0.le w hw] at e1
    simp only [levelsOf, Except.ok.injEq, Levels.one.injEq] at e1
    subst e1
    simp only [List.getElem?_cons_zero, Option.some.injEq, fin.injEq] at hls
    have hσ : 0 < deviation ({ a with data := X ω } : Args).data.length P (at' y) := deviation_pos hc.informative
    refine ⟨_, ?_, fun w hw => gaussian_stats hS hT draw hc g ntoys available hav percentile .observed rfl rfl (mu := .float u) rfl hu.le w hw⟩
    have h8 := fun x => statOf_is (v := z) hσ x
    have h9 := fun x => statOf_is (v := u) hσ x
    have := entry_mono .observed (stat_nonneg (h8 _)) (stat_strength (parabola_concave hσ _) hzu (h8 (estimate ({ a with data := X ω } : Args).data.length P (at' y) (at' a.background) (at' (X ω)))) (h9 _))
      (stat_nonneg (h8 0)) (stat_strength (parabola_concave hσ 0) hzu (h8 0) (h9 0)) 0
    simp only [entry] at this
    rw [← hls] at h7
    exact h7.trans this
  · exact absurd h3 (by simp)

end

/-- Data with signal 2 and 1 in two bins with background 5 and uncertainty 1. -/
theorem exGauss_measurable (E : Ext) (u : ℝ) :
    ∃ X m, Experiments (Measure.infinitePi fun _ : ℕ × ℕ => gaussianReal 0 1) E exGaussArgs (independent (at' [1, 1])) (diagonal (at' [1, 1])) [2, 1] u X m ∧ ∀ c, Measurable fun ω => combined 2 c (X ω) := by
  obtain ⟨h1, h2⟩ := exGenerator_normals
  obtain ⟨X, hX, hn⟩ := h2 ((List.range exGaussArgs.background.length).map fun i => u * at' [2, 1] i + at' exGaussArgs.background i) (by simp [exGaussArgs])
  have hl : ∀ ω, (X 0 ω).length = 2 := by
    intro ω
    have := (h1 ω ((List.range exGaussArgs.background.length).map fun i => u * at' [2, 1] i + at' exGaussArgs.background i) 1).2 (X 0 ω) (by rw [hX]; simp)
    simpa [exGaussArgs] using this
  have hm : ∀ ω, ∃ m, Case E { exGaussArgs with data := X 0 ω } m (independent (at' [1, 1])) [2, 1] := by
    intro ω
    have : ∃ m, Backend.gaussian { exGaussArgs with data := X 0 ω } [1, 1] = .ok m := by
      unfold Backend.gaussian Backend.simpleConfig
      simp only [exGaussArgs, Backend.minimumPoi, exGauss_alive, if_true, Backend.ok_bind, Backend.sigBounds]
      exact ⟨_, rfl⟩
    obtain ⟨m, hm⟩ := this
    have e : ({ exGaussArgs with data := X 0 ω } : Args).data.length = 2 := hl ω
    refine ⟨m, .normal [1, 1] hm (by rw [e]; rfl) fun i hi => ?_, ⟨by rw [e]; rfl, by rw [e]; rfl⟩, rfl, rfl, rfl, ?_, ⟨0, by rw [e]; norm_num, by simp [at']⟩, fun i hi => ?_⟩
    · rw [e] at hi
      interval_cases i <;> simp [at']
    · rw [e, form_independent]
      norm_num [Finset.sum_range_succ, at']
    · rw [e] at hi
      interval_cases i <;> simp [exGaussArgs, at']
  choose m hm using hm
  refine ⟨X 0, m, ⟨hm, exGauss_inverse, fun c => ⟨(hn c).1 0, (hn c).2.1 0⟩⟩, fun c => ?_⟩
  have e : ∀ ω, X 0 ω = (List.range 2).map fun i => at' ((List.range 2).map fun i => u * at' [2, 1] i + at' exGaussArgs.background i) i + ω (0, i) := by
    intro ω
    have := hX ω 1
    simp only [exGenerator, List.range_one, List.map_cons, List.map_nil, List.cons.injEq, and_true, List.length_map, List.length_range] at this
    exact this.symm
  simp only [combined, e, Finset.sum_range_succ, Finset.sum_range_zero]
  simp only [at', List.range_succ, List.range_zero]
  simp
  fun_prop

theorem exGauss_experiments (E : Ext) (u : ℝ) :
    ∃ X m, Experiments (Measure.infinitePi fun _ : ℕ × ℕ => gaussianReal 0 1) E exGaussArgs (independent (at' [1, 1])) (diagonal (at' [1, 1])) [2, 1] u X m := by
  obtain ⟨X, m, h, -⟩ := exGauss_measurable E u
  exact ⟨X, m, h⟩

/-- A signal of strength 2 is excluded at 95% confidence level at most once in twenty times. -/
example (E : Ext) (draw : Vec × List Vec → ℕ → List Vec) (g : Bool) (ntoys : Size) (percentile : List F → F → F) : ∃ m : (ℕ × ℕ → ℝ) → Backend.Model,
    (Measure.infinitePi fun _ : ℕ × ℕ => gaussianReal 0 1).real {ω | ∃ l, 95 / 100 ≤ l ∧ ∀ w, Plain 1 w →
      (exclusion (modelMethods perfect (plugged E draw (m ω)) g none ntoys (fun _ => true) percentile) (.float 2) .observed false .asymptotic w).1 = .ok (.one [fin l])} ≤ 1 - 95 / 100 := by
  obtain ⟨X, m, h⟩ := exGauss_experiments E 2
  exact ⟨m, C182_excluded h perfect_exact perfect_finds draw g ntoys (fun _ => true) rfl percentile (mu := .float 2) rfl two_pos (by norm_num) le_rfl (by norm_num) (by norm_num)⟩

/-- A signal of strength 2 is always excluded at a confidence level below one half. -/
example (E : Ext) (draw : Vec × List Vec → ℕ → List Vec) (g : Bool) (ntoys : Size) (percentile : List F → F → F) : ∃ (m : (ℕ × ℕ → ℝ) → Backend.Model) (CL : ℝ), 0 < CL ∧ CL < 1 / 2 ∧
    (Measure.infinitePi fun _ : ℕ × ℕ => gaussianReal 0 1).real {ω | ∃ l, CL ≤ l ∧ ∀ w, Plain 1 w →
      (exclusion (modelMethods perfect (plugged E draw (m ω)) g none ntoys (fun _ => true) percentile) (.float 2) .observed false .asymptotic w).1 = .ok (.one [fin l])} = 1 := by
  obtain ⟨X, m, h⟩ := exGauss_experiments E 2
  exact ⟨m, C182_low_fails h perfect_exact perfect_finds draw g ntoys (fun _ => true) rfl percentile (mu := .float 2) rfl two_pos (by norm_num)⟩

/-- A p-value of 1% without signal. -/
example (E : Ext) (draw : Vec × List Vec → ℕ → List Vec) (g : Bool) (ntoys : Size) (percentile : List F → F → F) : ∃ m : (ℕ × ℕ → ℝ) → Backend.Model,
    (Measure.infinitePi fun _ : ℕ × ℕ => gaussianReal 0 1).real {ω | ∃ p, p ≤ 1 / 100 ∧ ∀ w, Plain 1 w → ∃ A Z l,
      (significance (modelMethods perfect (plugged E draw (m ω)) g none ntoys (fun _ => true) percentile) .observed w).1 = .ok (A, Z, [fin p], l)} ≤ 1 / 100 := by
  obtain ⟨X, m, h⟩ := exGauss_experiments E 0
  exact ⟨m, C182_discovery h perfect_exact perfect_finds draw g ntoys (fun _ => true) percentile rfl (by norm_num) (by norm_num)⟩

/-- Without signal, the observed level for the strength 1 reaches the expected one (index 2) in half of the cases. -/
example (E : Ext) (draw : Vec × List Vec → ℕ → List Vec) (g : Bool) (ntoys : Size) (percentile : List F → F → F) : ∃ m : (ℕ × ℕ → ℝ) → Backend.Model,
    (Measure.infinitePi fun _ : ℕ × ℕ => gaussianReal 0 1).real {ω | ∃ l l' ls, l' ≤ l ∧ ls[2]? = some (fin l') ∧ ∀ w, Plain 1 w →
      (exclusion (modelMethods perfect (plugged E draw (m ω)) g none ntoys (fun _ => true) percentile) (.float 1) .observed false .asymptotic w).1 = .ok (.one [fin l]) ∧
      (exclusion (modelMethods perfect (plugged E draw (m ω)) g none ntoys (fun _ => true) percentile) (.float 1) .apriori false .asymptotic w).1 = .ok (.one ls)} = 1 / 2 := by
  obtain ⟨X, m, h⟩ := exGauss_experiments E 0
  refine ⟨m, (C182_band h perfect_exact perfect_finds draw g ntoys (fun _ => true) rfl percentile (mu := .float 1) rfl one_pos (by norm_num) (i := 2) (by norm_num) (by norm_num)).trans ?_⟩
  simp [Phi_zero]

/-- The upper limit at 95% confidence level. -/
example (E : Ext) (draw : Vec × List Vec → ℕ → List Vec) (g : Bool) (ntoys : Size) (percentile : List F → F → F) (inv : List (List ℝ) → Except Interface.Err (List (List ℝ))) (fuel : ℕ) (T : Finder) (tol : ℝ → ℝ)
    (hT : Sound tol T.solver) : ∃ m : (ℕ × ℕ → ℝ) → Backend.Model, (Measure.infinitePi fun _ : ℕ × ℕ => gaussianReal 0 1).real {ω | ∃ L w' mu,
      poiUpperLimit fuel T (modelMethods perfect (plugged E draw (m ω)) g none ntoys (fun _ => true) percentile) (modelSigma perfect inv (plugged E draw (m ω)) g ntoys (fun _ => true) percentile) true
        .observed (95 / 100) none none .nominal ⟨[0], none, none⟩ = (.ok (some L), w') ∧ fin mu ∈ L.values ∧ mu + tol mu ≤ 3} ≤ 1 - 95 / 100 := by
  obtain ⟨X, m, h⟩ := exGauss_experiments E 3
  exact ⟨m, C182_limit h perfect_exact perfect_finds draw g ntoys (fun _ => true) rfl percentile Interface.perfect_free (by norm_num) (by norm_num) (by norm_num) (by norm_num) inv fuel T tol hT none none
    (.inl rfl) .nominal ⟨[0], none, none⟩ ⟨rfl, rfl, rfl⟩⟩

/-! ## Counts -/

theorem measured_twice (bins : List Bin) (D D' : Vec) : measured (measured bins D) D' = measured bins D' := by
  unfold measured
  rw [List.length_map, List.length_range]
  refine List.map_congr_left fun i hi => ?_
  have := measured_bin bins D (List.mem_range.mp hi)
  unfold measured at this
  rw [this]

theorem reaching_measured (G : ℝ → ℝ) (bins : List Bin) (v q : ℝ) (r D : Vec) : reaching G (measured bins D) v q r = reaching G bins v q r := by
  have : ∀ k l, k = l → (poissons k r).real {c | ∃ q', IsStat (profile G (measured bins (dataOf c))) v q' ∧ q ≤ q'} =
      (poissons l r).real {c | ∃ q', IsStat (profile G (measured bins (dataOf c))) v q' ∧ q ≤ q'} := by
    rintro k _ rfl
    rfl
  unfold reaching
  simp only [measured_twice]
  exact this _ _ (measured_length bins D)

theorem rates_measured {bins : List Bin} (hvd : Valid bins) (hσ : ∀ x ∈ bins, x.σ = 0) {v : ℝ} (hv : 0 ≤ v) (D : Vec) : rates (measured bins D) v = bins.map fun x => v * x.s + x.b := by
  apply List.ext_getElem
  · simp [rates, measured]
  · intro i h1 h2
    have hi : i < bins.length := by simpa using h2
    have e : bin bins i = bins[i] := Uncorrelated.getD_get hi
    obtain ⟨p1, p2, -, -⟩ := hvd.1 _ (List.getElem_mem hi)
    simp only [rates, measured, List.getElem_map, List.getElem_range, e, hσ _ (List.getElem_mem hi)]
    exact fitted_none p2 (mul_nonneg hv p1)

section
variable {Ω : Type} [MeasurableSpace Ω] {μ : Measure Ω} [IsProbabilityMeasure μ]
  {S : Solver} (hS : Exact S) (hT : Finds S) (hC : Interface.Constrained S) {E : Ext} {draw : Ω → Vec × List Vec → ℕ → List Vec}
  {mu : Mu} {v : ℝ} (hmu : mu.Is v) (g : Bool) {available : Calc → Bool} (hav : available .toy = true) (percentile : List F → F → F)
include hS hT hC hmu hav

/-- C182. Counts in any number of bins with known backgrounds, and a signal of the tested strength: the level from many toys is at least `CL` with probability `1 - CL` at most. -/
theorem C182_counts {bins : List Bin} {m : (Fin bins.length → ℕ) → Backend.Model} {N : ℕ} (hvd : Valid bins) (hσ : ∀ x ∈ bins, x.σ = 0)
    (h : ∀ c, Describes (measured bins (dataOf c)) (m c) N) (hd : Events μ bins.length draw) (hv : 0 ≤ v) :
    ∃ level : (Fin bins.length → ℕ) → ℝ, (∀ c, ∀ᵐ ω ∂μ, ∃ L : ℕ → ℝ,
      (∀ n, 0 < n → Ends (Plain N) (exclusion (modelMethods S (plugged E (draw ω) (m c)) g none (.int n) available percentile) mu .observed false .toy) (.ok (.one [fin (L n)]))) ∧
      Tendsto L atTop (𝓝 (level c))) ∧
    ∀ CL, 0 < CL → CL ≤ 1 → (poissons bins.length (bins.map fun x => v * x.s + x.b)).real {c | CL ≤ level c} ≤ 1 - CL := by
  have hval : ∀ c : Fin bins.length → ℕ, Valid (measured bins (dataOf c)) := fun c => measured_valid hvd fun i hi => by
    rw [dataOf_at c hi]
    positivity
  have key := fun c => C180_bins hS hT hC (E := E) (μ := μ) hmu g hav percentile (h c) (hval c) (fun x hx => by
    obtain ⟨i, hi, rfl⟩ := measured_mem hx
    exact ⟨c ⟨i, hi⟩, dataOf_at c hi⟩) (by rw [measured_length]; exact hd) hv
  choose q hq hL using key
  simp only [reaching_measured, rates_measured hvd hσ hv, rates_measured hvd hσ le_rfl] at hL
  refine ⟨fun c => 1 - min (reaching E.gammaln bins v (q c) (bins.map fun x => v * x.s + x.b) / reaching E.gammaln bins v (q c) (bins.map fun x => 0 * x.s + x.b)) 1, hL, fun CL h0 h1 => ?_⟩
  have : IsProbabilityMeasure (poissons bins.length (bins.map fun x => v * x.s + x.b)) := by
    unfold poissons
    infer_instance
  have : IsProbabilityMeasure (poissons bins.length (bins.map fun x => 0 * x.s + x.b)) := by
    unfold poissons
    infer_instance
  refine tail_uniform _ (statAt E.gammaln bins v) (by linarith) _ fun c hc => ?_
  have e : statAt E.gammaln bins v c = q c := statAt_eq hvd (hq c)
  have hr : (poissons bins.length (bins.map fun x => v * x.s + x.b)).real {c' | statAt E.gammaln bins v c ≤ statAt E.gammaln bins v c'} =
      reaching E.gammaln bins v (q c) (bins.map fun x => v * x.s + x.b) := by
    unfold reaching
    congr 1
    ext c'
    rw [e]
    exact statAt_reaches hvd (stat_nonneg (hq c)) c'
  show (poissons bins.length (bins.map fun x => v * x.s + x.b)).real {c' | statAt E.gammaln bins v c ≤ statAt E.gammaln bins v c'} ≤ 1 - CL
  rw [hr]
  change CL ≤ 1 - min (reaching E.gammaln bins v (q c) (bins.map fun x => v * x.s + x.b) / reaching E.gammaln bins v (q c) (bins.map fun x => 0 * x.s + x.b)) 1 at hc
  have hR1 : reaching E.gammaln bins v (q c) (bins.map fun x => 0 * x.s + x.b) ≤ 1 := measureReal_le_one
  have hR0 : 0 ≤ reaching E.gammaln bins v (q c) (bins.map fun x => 0 * x.s + x.b) := measureReal_nonneg
  have hpos : 0 < reaching E.gammaln bins v (q c) (bins.map fun x => 0 * x.s + x.b) := by
    refine reaching_pos hvd (by simp) (fun x hx => ?_) (hq c)
    obtain ⟨b, hb, rfl⟩ := List.mem_map.mp hx
    have := (hvd.1 b hb).2.1
    have h20 : (0 : ℝ) < 1 / 10 ^ 20 := by norm_num
    linarith
  rcases min_choice (reaching E.gammaln bins v (q c) (bins.map fun x => v * x.s + x.b) / reaching E.gammaln bins v (q c) (bins.map fun x => 0 * x.s + x.b)) 1 with hm | hm
  · rw [hm] at hc
    have h3 : reaching E.gammaln bins v (q c) (bins.map fun x => v * x.s + x.b) / reaching E.gammaln bins v (q c) (bins.map fun x => 0 * x.s + x.b) ≤ 1 - CL := by linarith
    rw [div_le_iff₀ hpos] at h3
    nlinarith
  · rw [hm] at hc
    linarith

end

/-- Two bins with a signal of strength 1. -/
example (E : Ext) (g : Bool) (percentile : List F → F → F) : ∃ (m : (Fin 2 → ℕ) → Backend.Model) (level : (Fin 2 → ℕ) → ℝ),
    (∀ c, ∀ᵐ ω ∂(Measure.infinitePi fun p : ℕ × ℕ × ℝ => poissonMeasure p.2.2.toNNReal), ∃ L : ℕ → ℝ,
      (∀ n, 0 < n → Ends (Plain 3) (exclusion (modelMethods perfect (plugged E (exCounts ω) (m c)) g none (.int n) (fun _ => true) percentile) (.float 1) .observed false .toy) (.ok (.one [fin (L n)]))) ∧
      Tendsto L atTop (𝓝 (level c))) ∧
    ∀ CL, 0 < CL → CL ≤ 1 → (poissons 2 [1 * 2 + 3, 1 * 1 + 4]).real {c | CL ≤ level c} ≤ 1 - CL := by
  have hm : ∀ c : Fin 2 → ℕ, ∃ m, Describes (measured [⟨2, 3, 0, 0⟩, ⟨1, 4, 0, 0⟩] (dataOf c)) m 3 := fun c => uncorrelated_exists _
  choose m hm using hm
  exact ⟨m, C182_counts Hypotest.perfect_exact perfect_finds Interface.perfect_constrained (E := E) (mu := .float 1) (v := 1) rfl g (available := fun _ => true) rfl percentile
    (bins := [⟨2, 3, 0, 0⟩, ⟨1, 4, 0, 0⟩]) (by
      refine ⟨fun x hx => ?_, ⟨2, 3, 0, 0⟩, by simp, by norm_num⟩
      simp only [List.mem_cons, List.not_mem_nil, or_false] at hx
      rcases hx with rfl | rfl <;> norm_num [Bin.Proper]) (by
      intro x hx
      simp only [List.mem_cons, List.not_mem_nil, or_false] at hx
      rcases hx with rfl | rfl <;> rfl) hm (exCounts_events 2) zero_le_one⟩

end Verif.Toys
