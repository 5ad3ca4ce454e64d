import Verif.Uncorrelated.LimitProps
import Verif.Uncorrelated.InformationSpec
import Mathlib.Analysis.SpecialFunctions.Log.Deriv

/-!
# The curvature of the likelihood of counts
-/

namespace Verif.Uncorrelated
open Verif.Backend (poissonLog Vec hessianOf partialDeriv)
open Filter Topology

/-- The first derivative. -/
noncomputable def score (bins : List Bin) (mu : ℝ) : ℝ := (bins.map fun x => x.d * x.s / (mu * x.s + x.b) - x.s).sum

/-- All expected numbers are above the bound. -/
def Clear (bins : List Bin) (mu : ℝ) : Prop := ∀ x ∈ bins, 1 / 10 ^ 20 < mu * x.s + x.b

theorem clear_near {bins : List Bin} {mu : ℝ} (h : Clear bins mu) : ∀ᶠ t in 𝓝 mu, Clear bins t := by
  unfold Clear at *
  induction bins with
  | nil => simp
  | cons x l ih =>
    simp only [List.forall_mem_cons] at h ⊢
    refine Filter.Eventually.and ?_ (ih h.2)
    have : Continuous fun t : ℝ => t * x.s + x.b := by fun_prop
    exact this.continuousAt.eventually (lt_mem_nhds h.1)

theorem counts_deriv (G : ℝ → ℝ) {bins : List Bin} {mu : ℝ} (h : Clear bins mu) : HasDerivAt (counts G bins) (score bins mu) mu := by
  unfold counts score
  induction bins with
  | nil => simpa using hasDerivAt_const mu (0 : ℝ)
  | cons x l ih =>
    unfold Clear at h
    simp only [List.forall_mem_cons] at h
    simp only [List.map_cons, List.sum_cons]
    refine HasDerivAt.add ?_ (ih h.2)
    have h0 : (0 : ℝ) < mu * x.s + x.b := lt_trans (by norm_num) h.1
    have h1 : HasDerivAt (fun t : ℝ => t * x.s + x.b) x.s mu := by simpa using ((hasDerivAt_id mu).mul_const x.s).add_const x.b
    have h2 : HasDerivAt (fun t : ℝ => poissonLog G x.d (t * x.s + x.b)) (x.d * x.s / (mu * x.s + x.b) - x.s) mu := by
      unfold poissonLog
      exact ((((h1.log h0.ne').const_mul x.d).sub h1).sub_const _).congr_deriv (by ring)
    refine h2.congr_of_eventuallyEq ?_
    filter_upwards [h1.continuousAt.eventually (lt_mem_nhds h.1)] with t ht
    rw [max_eq_left ht.le]

theorem score_deriv {bins : List Bin} {mu : ℝ} (h : Clear bins mu) : HasDerivAt (score bins) (-(information bins mu)) mu := by
  unfold information score
  induction bins with
  | nil => simpa using hasDerivAt_const mu (0 : ℝ)
  | cons x l ih =>
    unfold Clear at h
    simp only [List.forall_mem_cons] at h
    simp only [List.map_cons, List.sum_cons]
    rw [neg_add]
    refine HasDerivAt.add ?_ (ih h.2)
    have h0 : (0 : ℝ) < mu * x.s + x.b := lt_trans (by norm_num) h.1
    have h1 : HasDerivAt (fun t : ℝ => t * x.s + x.b) x.s mu := by simpa using ((hasDerivAt_id mu).mul_const x.s).add_const x.b
    refine (((hasDerivAt_const mu (x.d * x.s)).fun_div h1 h0.ne').sub_const x.s).congr_deriv ?_
    field_simp
    ring

theorem counts_second (G : ℝ → ℝ) {bins : List Bin} {mu : ℝ} (h : Clear bins mu) (f : Vec → Except Backend.Err ℝ) (hf : ∀ u, f [u] = .ok (counts G bins u)) :
    hessianOf f [mu] = .ok [[-(information bins mu)]] := by
  have h1 : ∀ u, Clear bins u → partialDeriv (Backend.valueOf f) 0 [u] = score bins u := by
    intro u hu
    have : (fun t => Backend.valueOf f ([u].set 0 t)) = fun t => counts G bins t := by
      funext t
      simp [Backend.valueOf, hf]
    unfold partialDeriv
    rw [this]
    simpa using (counts_deriv G hu).deriv
  have h2 : partialDeriv (partialDeriv (Backend.valueOf f) 0) 0 [mu] = -(information bins mu) := by
    have : (fun t => partialDeriv (Backend.valueOf f) 0 ([mu].set 0 t)) =ᶠ[𝓝 mu] score bins := by
      filter_upwards [clear_near h] with t ht
      simp only [List.set_cons_zero]
      exact h1 t ht
    unfold partialDeriv
    have := ((score_deriv h).congr_of_eventuallyEq this).deriv
    simpa [partialDeriv] using this
  simp [hessianOf, hf, h2]

theorem information_pos {bins : List Bin} (h : ∀ x ∈ bins, x.Proper) {mu : ℝ} (hmu : 0 ≤ mu) (hd : ∃ x ∈ bins, 0 < x.s ∧ 0 < x.d) : 0 < information bins mu := by
  have h0 : ∀ x ∈ bins, 0 ≤ x.d * x.s ^ 2 / (mu * x.s + x.b) ^ 2 := fun x hx => div_nonneg (mul_nonneg (h x hx).2.2.2 (sq_nonneg _)) (sq_nonneg _)
  obtain ⟨x, hx, hs, hd⟩ := hd
  have hb : 0 < x.b := lt_of_lt_of_le (by norm_num) (h x hx).2.1
  have h1 : 0 < x.d * x.s ^ 2 / (mu * x.s + x.b) ^ 2 := by positivity
  refine lt_of_lt_of_le h1 (List.single_le_sum (l := bins.map fun x => x.d * x.s ^ 2 / (mu * x.s + x.b) ^ 2) ?_ _ (List.mem_map_of_mem hx))
  intro y hy
  obtain ⟨z, hz, rfl⟩ := List.mem_map.mp hy
  exact h0 z hz

/-- Strength zero is allowed. -/
theorem counts_low {E : Backend.Ext} (draw : Vec × List Vec → ℕ → List Vec) {bins : List Bin} {m : Backend.Model}
    (h : Backend.poisson (bins.map Bin.s) (bins.map Bin.b) (bins.map Bin.d) none = .ok m) (hv : Valid bins) : ∃ lo ≤ 0, Chain.Single (Chain.plugged E draw m) lo := by
  have hf := argsOf_fits bins
  have hB : Backend.Built (argsOf bins) m := .poisson _ none ⟨rfl, rfl, rfl, rfl⟩ h
  obtain ⟨-, -, h3⟩ := Backend.C52_minimum _ m hB hf _ rfl
  obtain ⟨lo, h4, -, h5⟩ := h3 (signal_index hv)
  obtain ⟨c, hc, -, -, -, h6⟩ := Backend.poisson_ok h
  refine ⟨lo, not_lt.mp fun hlt => ?_, Chain.plugged_single E draw hB hf ((Backend.C51_simple_rate _ hf).2.2.1 _ m rfl h).1 ?_ h4⟩
  · obtain ⟨i, hi, -, h7⟩ := h5 0 hlt
    rw [argsOf_length] at hi
    have h8 := (hv.1 _ (bin_mem hi)).2.1
    have h9 : Backend.at' (argsOf bins).background i = (bin bins i).b := at_map Bin.b hi
    rw [h9] at h7
    have : (0 : ℝ) < 1 / 10 ^ 20 := by norm_num
    linarith
  rcases h6 with ⟨-, -, -, h6⟩ | ⟨s', h7, -⟩
  · exact h6
  · simp at h7

end Verif.Uncorrelated
