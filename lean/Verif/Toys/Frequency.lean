import Mathlib.Probability.StrongLaw
import Mathlib.Probability.Distributions.Poisson.Basic
import Verif.Py.Normal

/-!
# Frequencies of many toys
-/

namespace Verif.Toys
open MeasureTheory ProbabilityTheory Filter Topology
open scoped Function

variable {Ω : Type} [MeasurableSpace Ω] {μ : Measure Ω}

/-- How many of the first `n` variables are at most `t`. -/
noncomputable def upTo (X : ℕ → ℝ) (t : ℝ) (n : ℕ) : ℕ := ((List.range n).map X).countP fun x => decide (x ≤ t)

theorem upTo_sum (X : ℕ → ℝ) (t : ℝ) (n : ℕ) : (upTo X t n : ℝ) = ∑ i ∈ Finset.range n, (Set.Iic t).indicator (fun _ => (1 : ℝ)) (X i) := by
  unfold upTo
  induction n with
  | zero => simp
  | succ n ih =>
    rw [List.range_succ, List.map_append, List.countP_append, Finset.sum_range_succ, Nat.cast_add, ih]
    congr 1
    by_cases h : X n ≤ t <;> simp [h]

/-- The law of large numbers for the fraction of variables up to `t`. -/
theorem upTo_tendsto [IsProbabilityMeasure μ] {X : ℕ → Ω → ℝ} (hX : ∀ i, AEMeasurable (X i) μ) {ν : Measure ℝ} (hν : ∀ i, μ.map (X i) = ν) (hind : Pairwise ((· ⟂ᵢ[μ] ·) on X)) (t : ℝ) :
    ∀ᵐ ω ∂μ, Tendsto (fun n : ℕ => (upTo (fun i => X i ω) t n : ℝ) / n) atTop (𝓝 (ν.real (Set.Iic t))) := by
  have hm : Measurable ((Set.Iic t).indicator fun _ => (1 : ℝ)) := measurable_const.indicator measurableSet_Iic
  have hid : ∀ i, IdentDistrib (X i) (X 0) μ μ := fun i => ⟨hX i, hX 0, by rw [hν, hν]⟩
  have key := strong_law_ae_real (μ := μ) (fun i ω => (Set.Iic t).indicator (fun _ => (1 : ℝ)) (X i ω)) ?_ (fun i j hij => (hind hij).comp hm hm) fun i => (hid i).comp hm
  · have e : μ[fun ω => (Set.Iic t).indicator (fun _ => (1 : ℝ)) (X 0 ω)] = ν.real (Set.Iic t) := by
      rw [← hν 0, ← integral_map (hX 0) hm.aestronglyMeasurable (f := (Set.Iic t).indicator fun _ => (1 : ℝ)), integral_indicator_const _ measurableSet_Iic]
      simp
    rw [e] at key
    filter_upwards [key] with ω h
    simpa only [upTo_sum] using h
  · refine Integrable.of_bound (hm.comp_aemeasurable (hX 0)).aestronglyMeasurable 1 (ae_of_all _ fun ω => ?_)
    by_cases h : X 0 ω ∈ Set.Iic t <;> simp [h]

/-- The fraction of two counts. -/
theorem ratio_tendsto {a b : ℕ → ℕ} {p p' : ℝ} (ha : Tendsto (fun n : ℕ => (a n : ℝ) / n) atTop (𝓝 p)) (hb : Tendsto (fun n : ℕ => (b n : ℝ) / n) atTop (𝓝 p')) (hp : 0 < p') :
    Tendsto (fun n => if b n = 0 then (1 : ℝ) else 1 - min ((a n : ℝ) / b n) 1) atTop (𝓝 (1 - min (p / p') 1)) := by
  have h1 : Tendsto (fun n : ℕ => 1 - min (((a n : ℝ) / n) / ((b n : ℝ) / n)) 1) atTop (𝓝 (1 - min (p / p') 1)) :=
    tendsto_const_nhds.sub ((ha.div hb hp.ne').min tendsto_const_nhds)
  refine h1.congr' ?_
  filter_upwards [hb.eventually (lt_mem_nhds hp), eventually_gt_atTop 0] with n hn h0
  have hb0 : b n ≠ 0 := by
    intro h
    simp [h] at hn
  have : (n : ℝ) ≠ 0 := by positivity
  rw [if_neg hb0, div_div_div_cancel_right₀ this]

end Verif.Toys
