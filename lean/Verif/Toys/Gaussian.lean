import Verif.Toys.Models
import Verif.Toys.Strict

/-!
# Toys of Gaussian models
-/

namespace Verif.Toys
open Verif.Py F Verif.Config Verif.Optimizer Verif.Hypotest Verif.Chain
open Verif.Interface (MuHat Data Toys World Size Plain Solver)
open Verif.Backend (Ext Vec Args Built at')
open Verif.Stats (Expect Calc Levels gaussianLog)
open Verif.Uncorrelated (IsBest IsStat stat_falls stat_nonneg stat_unique Concave Rises stat_shift)

/-- What is assumed of the random numbers: `draw (r, []) n` are `n` data sets with an entry for each of the expected values `r`. -/
def Vectors (draw : Vec × List Vec → ℕ → List Vec) : Prop := ∀ r n, (draw (r, []) n).length = n ∧ ∀ D ∈ draw (r, []) n, D.length = r.length

/-- The log-likelihood of a strength that is measured as `a ± σ`, but for a constant. -/
noncomputable def parabola (σ a : ℝ) (y : ℝ) : ℝ := gaussianLog 0 σ a y

theorem parabola_gains {σ a a' x y : ℝ} (hσ : 0 < σ) (haa : a < a') (hxy : x < y) : parabola σ a y - parabola σ a x < parabola σ a' y - parabola σ a' x := by
  have e : (parabola σ a' y - parabola σ a' x) - (parabola σ a y - parabola σ a x) = (a' - a) * (y - x) / σ ^ 2 := by
    unfold parabola gaussianLog
    field_simp
    ring
  have : 0 < (a' - a) * (y - x) / σ ^ 2 := div_pos (mul_pos (by linarith) (by linarith)) (by positivity)
  linarith

theorem parabola_best {σ : ℝ} (hσ : 0 < σ) (a : ℝ) : IsBest (parabola σ a) (nearest 0 a) := by
  obtain ⟨h1, h2, h3⟩ := nearest_is_best (c := 0) (σ := σ) (x := a) hσ (by norm_num : (0 : ℝ) ≤ 10)
  exact ⟨h1, h2, fun mu k1 k2 => (h3 mu k1 k2).1⟩

theorem parabola_concave {σ : ℝ} (hσ : 0 < σ) (a : ℝ) : Concave (parabola σ a) := by
  intro x x' p p' _ _ hp hp' hpp
  have e : parabola σ a (p * x + p' * x') - (p * parabola σ a x + p' * parabola σ a x') = p * p' * (x - x') ^ 2 / (2 * σ ^ 2) := by
    obtain rfl : p' = 1 - p := by linarith
    unfold parabola gaussianLog
    field_simp
    ring
  have : 0 ≤ p * p' * (x - x') ^ 2 / (2 * σ ^ 2) := by positivity
  linarith

/-- Smaller measured strengths have larger statistics. -/
theorem parabola_stat {σ a a' v q q' : ℝ} (hσ : 0 < σ) (hq : IsStat (parabola σ a) v q) (hq' : IsStat (parabola σ a') v q') (h0 : 0 < q) : q ≤ q' ↔ a' ≤ a := by
  constructor
  · intro h
    by_contra hlt
    exact absurd h (not_le.mpr (stat_below (fun x y _ hxy => parabola_gains hσ (not_le.mp hlt) hxy) hq hq' h0))
  · intro h
    refine stat_falls (parabola_concave hσ a') (fun x y _ hxy => ?_) hq' hq
    rcases h.eq_or_lt with rfl | h
    · exact le_rfl
    · rcases hxy.eq_or_lt with rfl | hxy
      · simp
      · exact (parabola_gains hσ h hxy).le

/-- The statistic of a strength beyond the measured one is positive. -/
theorem parabola_pos {σ a v q : ℝ} (hσ : 0 < σ) (hv : 0 < v) (hv' : v ≤ 10) (hav : a < v) (hq : IsStat (parabola σ a) v q) : 0 < q := by
  have hn : nearest 0 a < v := by
    unfold nearest
    exact lt_of_le_of_lt (min_le_left _ _) (max_lt hav hv)
  rw [stat_unique (parabola_concave hσ a) hq ⟨_, parabola_best hσ a, fun _ => rfl, fun hlt => absurd hlt (not_lt.mpr hn.le)⟩]
  refine lt_of_lt_of_le ?_ (le_max_left _ _)
  have e : parabola σ a (nearest 0 a) - parabola σ a v = (v - nearest 0 a) * (v + nearest 0 a - 2 * a) / (2 * σ ^ 2) := by
    unfold parabola gaussianLog
    field_simp
    ring
  have h1 : a ≤ nearest 0 a := le_min (le_max_left _ _) (by linarith)
  have : 0 < (v - nearest 0 a) * (v + nearest 0 a - 2 * a) / (2 * σ ^ 2) := div_pos (mul_pos (by linarith) (by linarith)) (by positivity)
  linarith

section
variable {E : Ext} {draw : Vec × List Vec → ℕ → List Vec} {a : Args} {m : Backend.Model} {P : ℕ → ℕ → ℝ} {y : Vec} (h : Case E a m P y)
include h

theorem gaussian_sampler (u : ℝ) : (plugged E draw m).sampler [u] = .ok (draw ((List.range a.data.length).map fun i => u * at' y i + at' a.background i, [])) := by
  have he := measurement_expected h.model h.fits h.parameters h.signal u
  have hc : m.constraint = none := by
    obtain ⟨r1, r2, -⟩ := Backend.C51_simple_rate a h.fits
    cases h.model with
    | normal sigma h1 hl hσ => exact (r1 _ _ h1).2.1
    | common s h1 hs => exact (r1 _ _ h1).2.1
    | multivariate cov h1 hi1 hi2 hsym => exact (r2 _ _ h1).2.1
  unfold Backend.expectedData at he
  simp only [hc] at he
  have : Backend.sampler m [u] true = .ok ((List.range a.data.length).map fun i => u * at' y i + at' a.background i, []) := by
    unfold Backend.sampler
    simp only [hc, he, Backend.ok_bind]
    rfl
  simp only [plugged, this, Except.map, Except.mapError]

variable {S : Solver} (hS : Exact S) (hT : Finds S) (hC : Interface.Constrained S)

/-- The strength that data measure. -/
noncomputable abbrev strength (a : Args) (P : ℕ → ℕ → ℝ) (y D : Vec) : ℝ := estimate a.data.length P (at' y) (at' a.background) (at' D)

include hS hT in
theorem gaussian_fitted {d : Option Data} {D : Vec} (hd : d = some D ∨ d = none ∧ D = used a e) (hD : D.length = a.data.length) (g : Bool) :
    ∃ c, Fitted S (plugged E draw m) 1 g e (gaussianLog c (deviation a.data.length P (at' y)) (strength a P y D)) d := by
  obtain ⟨lo, hB, -, -⟩ := h.single draw
  obtain ⟨c, hc⟩ := h.log draw e D hD
  have hlog : ∀ u, (plugged E draw m).logpdf (expectation e) d [u] = fin (gaussianLog c (deviation a.data.length P (at' y)) (strength a P y D) u) := by
    intro u
    rcases hd with rfl | ⟨rfl, rfl⟩
    · exact hc u
    · rw [plugged_none E draw (measurement_built h.model h.modifiers) h.fits, hc u]
  have hb := nearest_is_best (c := c) (x := strength a P y D) (deviation_pos h.informative) (by norm_num : (0 : ℝ) ≤ 10)
  refine ⟨c, fun w hw => ⟨⟨_, ⟨hb.1, hb.2.1, fun mu k1 k2 => (hb.2.2 mu k1 k2).1⟩, single_best hS hT hB hlog (by simpa using hb) g w hw⟩, fun v _ => single_likelihood hB hlog v true g w hw⟩⟩

include hS hT hC in
theorem gaussian_toys (hd : Vectors draw) (e : Expect) {mu : Mu} {v : ℝ} (hmu : mu.Is v) (hv : 0 ≤ v) (g : Bool) {n : ℕ} (hn : 0 < n) {available : Calc → Bool} (hav : available .toy = true)
    {percentile : List F → F → F} (hM : e ≠ .observed → Linear percentile) {σ : ℝ} (hσ : σ = deviation a.data.length P (at' y)) :
    ∃ q qs qb, IsStat (parabola σ (strength a P y (used a e))) v q ∧
      List.Forall₂ (fun D q => IsStat (parabola σ (strength a P y D)) v q) (draw ((List.range a.data.length).map fun i => v * at' y i + at' a.background i, []) n) qs ∧
      List.Forall₂ (fun D q => IsStat (parabola σ (strength a P y D)) v q) (draw (a.background, []) n) qb ∧
      Ends (Plain 1) (exclusion (modelMethods S (plugged E draw m) g none (.int n) available percentile) mu e false .toy) (.ok (toyLevels e q qs qb)) := by
  subst hσ
  obtain ⟨lo, hB, -, -⟩ := h.single draw
  have hone : ∀ (x : List ℝ) u, x.length = 1 → x[0]? = some u → x = [u] := by
    intro x u h1 h2
    obtain ⟨y, rfl⟩ := List.length_eq_one_iff.mp h1
    simpa using h2
  have hprof : ∀ u, 0 ≤ u → ∃ x, Profile (plugged E draw m) 1 0 true (expectation e) none u x := by
    intro u hu
    refine ⟨[u], rfl, rfl, ?_, ?_, ?_⟩
    · intro j b y hj hb hy
      rcases j with _ | j
      · exact absurd rfl hj
      · simp at hy
    · rw [hB.constraints]
      intro c hc
      simp at hc
    · intro x' k1 k2 _ _ hne
      rw [hone x' u k1 k2] at hne ⊢
      exact Interface.le_self hne
  have hf : ∀ x : List ℝ, x.length = 1 → (plugged E draw m).sampler x = .ok (samplerOf (plugged E draw m) x) := by
    intro x hx
    obtain ⟨u, rfl⟩ := List.length_eq_one_iff.mp hx
    unfold samplerOf
    rw [gaussian_sampler h u]
  have hf' : ∀ (x : List ℝ) u, x = [u] → samplerOf (plugged E draw m) x = draw ((List.range a.data.length).map fun i => u * at' y i + at' a.background i, []) := by
    rintro x u rfl
    unfold samplerOf
    rw [gaussian_sampler h u]
  have hlen : ∀ (u : ℝ), ∀ D ∈ draw ((List.range a.data.length).map fun i => u * at' y i + at' a.background i, []) n, D.length = a.data.length := by
    intro u D hD
    rw [(hd _ _).2 D hD]
    simp
  have hobj : ∀ (g : Bool) e d, ∃ f g', Interface.getObjective (plugged E draw m) e d g = .ok (f, g') ∧ ∀ x, f x = neg ((plugged E draw m).logpdf e d x) := by
    intro g e d
    obtain ⟨f, g', hf⟩ := hB.total g e d
    exact ⟨f, g', hf, hB.objective hf⟩
  obtain ⟨c0, hc0⟩ := gaussian_fitted h hS hT (draw := draw) (e := e) (.inr ⟨rfl, rfl⟩) (used_length h.fits e) g
  have hcD : ∀ D : Vec, ∃ c, D.length = a.data.length → Fitted S (plugged E draw m) 1 g e (gaussianLog c (deviation a.data.length P (at' y)) (strength a P y D)) (some D) := by
    intro D
    by_cases hD : D.length = a.data.length
    · obtain ⟨c, hc⟩ := gaussian_fitted h hS hT (draw := draw) (e := e) (.inl rfl) hD g
      exact ⟨c, fun _ => hc⟩
    · exact ⟨0, fun h => absurd h hD⟩
  choose c hc using hcD
  obtain ⟨x, x0, q, qs, qb, hx, hx0, k1, k2, k3, k4⟩ := toy_level hS hT hC hB.usual hobj e hmu hv hprof hf g hn
    (fun x hx => by
      obtain ⟨u, rfl⟩ := List.length_eq_one_iff.mp hx
      rw [hf' _ u rfl]; exact (hd _ _).1)
    (P := fun D => gaussianLog (c D) (deviation a.data.length P (at' y)) (strength a P y D)) hc0
    (fun x u hu hx D hD => by
      rw [hf' x u (hone x u hx.1 hx.2.1)] at hD
      exact hc D (hlen u D hD)) hav hM
  rw [hf' x v (hone x v hx.1 hx.2.1)] at k2
  rw [hf' x0 0 (hone x0 0 hx0.1 hx0.2.1)] at k3
  have hshift : ∀ c z q, IsStat (gaussianLog c (deviation a.data.length P (at' y)) z) v q → IsStat (parabola (deviation a.data.length P (at' y)) z) v q :=
    fun c z q hq => stat_shift (c := -c) hv (fun y _ => by unfold parabola gaussianLog; ring) hq
  have conv : ∀ {ds : List Vec} {qs : List ℝ}, List.Forall₂ (fun D q => IsStat (gaussianLog (c D) (deviation a.data.length P (at' y)) (strength a P y D)) v q) ds qs →
      List.Forall₂ (fun D q => IsStat (parabola (deviation a.data.length P (at' y)) (strength a P y D)) v q) ds qs := fun hq => hq.imp fun D q => hshift _ _ q
  have hb : ((List.range a.data.length).map fun i => (0 : ℝ) * at' y i + at' a.background i) = a.background := by
    apply List.ext_getElem
    · simp [h.fits.1]
    · intro i hi hi'
      simp [at', List.getD_eq_getElem?_getD, hi']
  rw [hb] at k3
  exact ⟨q, qs, qb, hshift _ _ _ k1, conv k2, conv k3, k4⟩

end

end Verif.Toys
