import Verif.Chain.Lemmas
import Verif.Chain.Spec

/-!
# Property C118: levels and significances of the Gaussian models of spey
-/

namespace Verif.Chain
open Verif.Py F Verif.Config Verif.Optimizer Verif.Hypotest
open Verif.Interface (MuHat Data Toys World Size Plain Solver perfect)
open Verif.Backend (Ext Vec Args Built Fits at' signalAt stdLog mvnLog)
open Verif.Stats (Expect Calc Levels gaussianLog gaussianFit gaussianLevel)
open Finset

theorem nearest_is_best {c σ x lo : ℝ} (hσ : 0 < σ) (hlo : lo ≤ 10) : Best (gaussianLog c σ x) lo (nearest lo x) := by
  refine ⟨le_min (le_max_right _ _) hlo, min_le_right _ _, fun y h1 h2 => ?_⟩
  obtain ⟨h3, h4⟩ := nearest_best (c := c) (x := x) hσ hlo h1 h2
  exact ⟨by linarith, fun h => h4 (by linarith)⟩

/-- The level when all fits are those of Gaussian likelihoods. -/
theorem gaussian_formula {c c' σ a lo : ℝ} (hσ : 0 < σ) (hlo : lo ≤ 0) {negative : Bool} (ha : negative = true → lo ≤ a) (ha' : a ≤ 10) {v : ℝ} (hv : 0 < v) (e : Expect)
    {available : Calc → Bool} (hA : available .asymptotic = true) (percentile : List F → F → F) {B : Stats.Backend}
    (hB : B = ⟨fitOf v (nearest (if negative then lo else 0) a) (fin (-(gaussianLog c σ a (nearest (if negative then lo else 0) a)))) (fin (-(gaussianLog c σ a v)))
        (fin (-(gaussianLog c σ a 0))),
      fitOf v (nearest (if negative then lo else 0) 0) (fin (-(gaussianLog c' σ 0 (nearest (if negative then lo else 0) 0)))) (fin (-(gaussianLog c' σ 0 v)))
        (fin (-(gaussianLog c' σ 0 0))), [], [], percentile, available⟩) :
    (e = .observed → a ≤ v → (Stats.exclusionConfidenceLevel B (fin v) e negative .asymptotic).mapError Hypotest.Err.stats = .ok (.one [fin (gaussianLevel σ a v)])) ∧
    (e = .apriori ∨ e = .aposteriori → (Stats.exclusionConfidenceLevel B (fin v) e negative .asymptotic).mapError Hypotest.Err.stats =
      .ok (.one ([-2, -1, 0, 1, 2].map fun n => fin (gaussianLevel σ (n * σ) v)))) := by
  subst hB
  have hn : nearest (if negative then lo else 0) a = if (!negative) then max a 0 else a := by
    unfold nearest
    cases negative
    · simp [ha']
    · simp [ha, ha']
  have hn0 : nearest (if negative then lo else 0) 0 = if (!negative) then max 0 0 else 0 := by
    unfold nearest
    cases negative <;> simp [hlo]
  rw [level_congr ⟨fitOf v _ _ _ _, fitOf v _ _ _ _, _, _, _, _⟩ ⟨gaussianFit c σ a (!negative), gaussianFit c' σ 0 (!negative), [], [], percentile, available⟩ (fin v) e negative rfl
    (fun t => fitOf_gaussian c σ a v _ t (!negative) hn) (fun t => fitOf_gaussian c' σ 0 v _ t (!negative) hn0)]
  constructor
  · rintro rfl hav
    rw [Stats.C105_observed _ c c' σ a v negative (!negative) (!negative) (by cases negative <;> simp) (by cases negative <;> simp) hσ hv hav hA rfl rfl]
    rfl
  · intro he
    rw [Stats.C105_expected _ c c' σ a v e he negative (!negative) (!negative) (by cases negative <;> simp) (by cases negative <;> simp) hσ hv hA rfl rfl]
    rfl

/-- The test statistics of a Gaussian likelihood without signal. -/
theorem gaussian_roots {c σ a : ℝ} (hσ : 0 < σ) (ha : a ≤ 10) : √(2 * (gaussianLog c σ a (nearest 0 a) - gaussianLog c σ a 0)) = max a 0 / σ := by
  have h2 : nearest 0 a = max a 0 := by simp [nearest, ha]
  rw [h2, ← Stats.sqrt_ratio (le_max_right a 0) hσ]
  congr 1
  unfold gaussianLog
  rcases le_total a 0 with h0 | h0
  · rw [max_eq_right h0]
    simp
  · rw [max_eq_left h0]
    field_simp
    ring

section
variable {S : Solver} (hS : Exact S) (hT : Finds S) {B : Interface.Backend} {lo : ℝ} (hB : Single B lo)
include hS hT hB

theorem gaussian_levels {e : Expect} {D : Data} {c c' σ a : ℝ} (hl : ∀ y, B.logpdf (expectation e) none [y] = fin (gaussianLog c σ a y))
    (hlA : ∀ y, B.logpdf (expectation e) (some D) [y] = fin (gaussianLog c' σ 0 y)) (hD : B.expectedData [0] = .ok D) (hσ : 0 < σ) (hlo : lo ≤ 0)
    {negative : Bool} (ha : negative = true → lo ≤ a) (ha' : a ≤ 10) {mu : Mu} {v : ℝ} (hmu : mu.Is v) (hv : 0 < v) (g : Bool) (ntoys : Size)
    (available : Calc → Bool) (hA : available .asymptotic = true) (percentile : List F → F → F) (w : World) (hw : Plain 1 w) :
    (e = .observed → a ≤ v → (exclusion (modelMethods S B g none ntoys available percentile) mu e negative .asymptotic w).1 =
      .ok (.one [fin (gaussianLevel σ a v)])) ∧
    (e = .apriori ∨ e = .aposteriori → (exclusion (modelMethods S B g none ntoys available percentile) mu e negative .asymptotic w).1 =
      .ok (.one ([-2, -1, 0, 1, 2].map fun n => fin (gaussianLevel σ (n * σ) v)))) := by
  have hl10 : (if negative then lo else 0) ≤ 10 := by split <;> linarith
  rw [single_levels hS hT hB hl hlA hD (nearest_is_best hσ hl10) (nearest_is_best hσ hl10) hmu hv.le g ntoys available percentile w hw]
  exact gaussian_formula hσ hlo ha ha' hv e hA percentile rfl

theorem gaussian_significance {e : Expect} {D : Data} {c c' σ a : ℝ} (hl : ∀ y, B.logpdf (expectation e) none [y] = fin (gaussianLog c σ a y))
    (hlA : ∀ y, B.logpdf (expectation e) (some D) [y] = fin (gaussianLog c' σ 1 y)) (hD : B.expectedData [1] = .ok D) (hσ : 0 < σ)
    (ha' : a ≤ 10) (g : Bool) (ntoys : Size)
    (available : Calc → Bool) (percentile : List F → F → F) (w : World) (hw : Plain 1 w) :
    (significance (modelMethods S B g none ntoys available percentile) e w).1 = .ok (Stats.discovery (1 / σ) (max a 0 / σ)) := by
  have h := single_significance hS hT hB hl hlA hD (nearest_is_best hσ (by norm_num)) (nearest_is_best hσ (by norm_num)) g ntoys available percentile w hw
  rw [h]
  have e1 := gaussian_roots (c := c') (a := 1) hσ (by norm_num)
  rw [max_eq_left zero_le_one] at e1
  rw [e1, gaussian_roots hσ ha']

end

/-- A quadratic function of the signal strength, written with its maximum. -/
theorem form_square {n : ℕ} {P : ℕ → ℕ → ℝ} (hP : ∀ i j, P i j = P j i) {s b d : ℕ → ℝ} (hs : 0 < form n P s s) (k : ℝ) :
    ∃ c, ∀ y, k - form n P (fun i => d i - (y * s i + b i)) (fun i => d i - (y * s i + b i)) / 2 =
      gaussianLog c (deviation n P s) (estimate n P s b d) y := by
  have hsym : form n P (fun i => d i - b i) s = form n P s (fun i => d i - b i) := by
    unfold form
    rw [sum_comm]
    refine sum_congr rfl fun i _ => sum_congr rfl fun j _ => ?_
    rw [hP j i]
    ring
  refine ⟨k - form n P (fun i => d i - b i) (fun i => d i - b i) / 2 + form n P s (fun i => d i - b i) ^ 2 / (2 * form n P s s), fun y => ?_⟩
  have hexp : form n P (fun i => d i - (y * s i + b i)) (fun i => d i - (y * s i + b i)) =
      form n P (fun i => d i - b i) (fun i => d i - b i) - y * form n P s (fun i => d i - b i) - y * form n P (fun i => d i - b i) s + y ^ 2 * form n P s s := by
    unfold form
    simp only [mul_sum, ← sum_sub_distrib, ← sum_add_distrib]
    refine sum_congr rfl fun i _ => sum_congr rfl fun j _ => ?_
    ring
  have hd : deviation n P s ^ 2 = 1 / form n P s s := by
    unfold deviation
    rw [div_pow, Real.sq_sqrt hs.le, one_pow]
  unfold gaussianLog
  rw [hexp, hsym, hd]
  unfold estimate
  field_simp
  ring

/-- The Gaussian models of spey with a given signal and no signal parameters, and the precision matrix of their measurements: independent bins, each
with its own uncertainty or all with the same, or a covariance matrix (whose inverse is symmetric). -/
inductive Measurement (E : Ext) (a : Args) (m : Backend.Model) : (ℕ → ℕ → ℝ) → Prop
  | normal (sigma : Vec) (h : Backend.gaussian a sigma = .ok m) (hl : sigma.length = a.data.length) (hσ : ∀ i < a.data.length, 0 < at' sigma i) :
      Measurement E a m (independent (at' sigma))
  | common (s : ℝ) (h : Backend.gaussian a [s] = .ok m) (hs : 0 < s) : Measurement E a m (independent fun _ => s)
  | multivariate (cov : List Vec) (h : Backend.multivariate a cov = .ok m) (hi1 : (E.inv cov).length = a.data.length)
      (hi2 : ∀ r ∈ E.inv cov, r.length = a.data.length) (hsym : ∀ i j : ℕ, at' ((E.inv cov).getD i []) j = at' ((E.inv cov).getD j []) i) :
      Measurement E a m fun i j => at' ((E.inv cov).getD i []) j

theorem form_independent (n : ℕ) (σ x y : ℕ → ℝ) : form n (independent σ) x y = ∑ i ∈ range n, x i * y i / σ i ^ 2 := by
  unfold form
  refine sum_congr rfl fun i hi => ?_
  rw [sum_eq_single i]
  · simp only [independent, if_true]
    ring
  · intro j _ hj
    simp [independent, Ne.symm hj]
  · intro h
    exact absurd hi h

section
variable {E : Ext} {a : Args} {m : Backend.Model} {P : ℕ → ℕ → ℝ} (hm : Measurement E a m P) (hf : Fits a) (hmod : a.modifiers = none) (hnsp : a.nsp = 0)
  {y : Vec} (hy : a.signal = .array y)
include hm

theorem measurement_symm (i j : ℕ) : P i j = P j i := by
  cases hm with
  | normal sigma h hl hσ =>
    by_cases hij : i = j
    · rw [hij]
    · simp [independent, hij, Ne.symm hij]
  | common s h hs =>
    by_cases hij : i = j
    · rw [hij]
    · simp [independent, hij, Ne.symm hij]
  | multivariate cov h hi1 hi2 hsym => exact hsym i j

theorem measurement_built (hmod : a.modifiers = none) : Built a m := by
  cases hm with
  | normal sigma h hl hσ => exact .gaussian _ hmod h
  | common s h hs => exact .gaussian _ hmod h
  | multivariate cov h hi1 hi2 hsym => exact .multivariate _ hmod h

include hf

theorem measurement_config : m.config.npar = 1 + a.nsp ∧ m.positivity = [] := by
  cases hm with
  | normal sigma h hl hσ =>
    obtain ⟨c, -, rfl⟩ := Backend.gaussian_ok h
    exact ⟨((Backend.C51_simple_rate a hf).1 sigma _ h).1, rfl⟩
  | common s h hs =>
    obtain ⟨c, -, rfl⟩ := Backend.gaussian_ok h
    exact ⟨((Backend.C51_simple_rate a hf).1 _ _ h).1, rfl⟩
  | multivariate cov h hi1 hi2 hsym =>
    obtain ⟨c, -, -, rfl⟩ := Backend.multivariate_ok h
    exact ⟨((Backend.C51_simple_rate a hf).2.1 cov _ h).1, rfl⟩

include hnsp hy

/-- The likelihood is that of a normal distribution with precision matrix `P`. -/
theorem measurement_form : ∃ K, ∀ (e : Backend.Expectation) (D : Vec), D.length = a.data.length → ∀ u, Backend.logpdf E m e (some D) [u] =
    .ok (K - form a.data.length P (fun i => at' D i - (u * at' y i + at' a.background i)) (fun i => at' D i - (u * at' y i + at' a.background i)) / 2) := by
  have hn : ([0] : Vec).length = m.config.npar := by rw [(measurement_config hm hf).1, hnsp]; rfl
  have hlen : ∀ u : ℝ, ([u] : Vec).length = m.config.npar := fun u => by rw [← hn]; rfl
  have hsig : ∀ (u : ℝ) i, signalAt a [u] i = at' y i := by intro u i; simp [signalAt, hy]
  have h0 : ∀ u : ℝ, at' [u] 0 = u := fun u => rfl
  have ind : ∀ σ : ℕ → ℝ, (∀ i < a.data.length, 0 < σ i) → ∀ (D : Vec) (u : ℝ), ∑ i ∈ range a.data.length,
      (stdLog ((at' D i - (u * at' y i + at' a.background i)) / σ i) - Real.log (σ i)) =
      (∑ i ∈ range a.data.length, (-(Real.log (2 * Real.pi) / 2) - Real.log (σ i))) -
        form a.data.length (independent σ) (fun i => at' D i - (u * at' y i + at' a.background i)) (fun i => at' D i - (u * at' y i + at' a.background i)) / 2 := by
    intro σ hσ D u
    rw [form_independent, sum_div, ← sum_sub_distrib]
    refine sum_congr rfl fun i hi => ?_
    have := hσ i (mem_range.mp hi)
    unfold stdLog
    field_simp
    ring
  cases hm with
  | normal sigma h hl hσ =>
    refine ⟨∑ i ∈ range a.data.length, (-(Real.log (2 * Real.pi) / 2) - Real.log (at' sigma i)), fun e D hD u => ?_⟩
    rw [Backend.C53_loglik_gaussian E a sigma m h hl hf [u] D (hlen u) hD, ← ind _ hσ D u]
    simp only [hsig, h0]
  | common s h hs' =>
    refine ⟨∑ i ∈ range a.data.length, (-(Real.log (2 * Real.pi) / 2) - Real.log s), fun e D hD u => ?_⟩
    rw [Backend.C53_loglik_common E a s m h hf [u] D (hlen u) hD, ← ind _ (fun _ _ => hs') D u]
    simp only [hsig, h0]
  | multivariate cov h hi1 hi2 hsym' =>
    refine ⟨-((a.data.length * Real.log (2 * Real.pi) + E.logdet cov) / 2), fun e D hD u => ?_⟩
    rw [Backend.C53_loglik_multivariate E a cov m h hf hi1 hi2 [u] D (hlen u) hD]
    simp only [hsig, h0, mvnLog, form]
    congr 1
    ring

theorem measurement_log (hs : 0 < form a.data.length P (at' y) (at' y)) (e : Backend.Expectation) (D : Vec) (hD : D.length = a.data.length) :
    ∃ c, ∀ u, Backend.logpdf E m e (some D) [u] =
      .ok (gaussianLog c (deviation a.data.length P (at' y)) (estimate a.data.length P (at' y) (at' a.background) (at' D)) u) := by
  obtain ⟨K, hK⟩ := measurement_form hm hf hnsp hy
  obtain ⟨c, hc⟩ := form_square (measurement_symm hm) (s := at' y) (b := at' a.background) (d := at' D) hs K
  exact ⟨c, fun u => by rw [hK e D hD u, hc u]⟩

theorem measurement_expected (u : ℝ) :
    Backend.expectedData m [u] true = .ok ((List.range a.data.length).map fun i => u * at' y i + at' a.background i) := by
  have hlen : ([u] : Vec).length = m.config.npar := by rw [(measurement_config hm hf).1, hnsp]; rfl
  have hsig : ∀ (u : ℝ) i, signalAt a [u] i = at' y i := by intro u i; simp [signalAt, hy]
  have h0 : at' [u] 0 = u := rfl
  obtain ⟨h1, h2, -⟩ := Backend.C53_expected_simple a hf true
  cases hm with
  | normal sigma h hl hσ => rw [h1 sigma m h [u] hlen]; simp only [hsig, h0]
  | common s h hs => rw [h1 _ m h [u] hlen]; simp only [hsig, h0]
  | multivariate cov h hi1 hi2 hsym => rw [h2 cov m h [u] hlen]; simp only [hsig, h0]

end

theorem estimate_expected {n : ℕ} {P : ℕ → ℕ → ℝ} {s b : ℕ → ℝ} (hs : 0 < form n P s s) (u : ℝ) :
    estimate n P s b (at' ((List.range n).map fun i => u * s i + b i)) = u := by
  have : form n P s (fun i => at' ((List.range n).map fun i => u * s i + b i) i - b i) = u * form n P s s := by
    unfold form
    rw [mul_sum]
    refine sum_congr rfl fun i hi => ?_
    rw [mul_sum]
    refine sum_congr rfl fun j hj => ?_
    simp only [at', List.getD_eq_getElem?_getD, List.getElem?_map, List.getElem?_range (mem_range.mp hj), Option.map_some, Option.getD_some]
    ring
  unfold estimate
  rw [this, mul_div_assoc, div_self hs.ne', mul_one]

/-- The data that spey uses when it is given none. -/
def used (a : Args) : Expect → Vec
  | .apriori => a.background
  | _ => a.data

theorem plugged_none (E : Ext) (draw) {a : Args} {m : Backend.Model} (h : Built a m) (hf : Fits a) (e : Expect) (x : Vec) :
    (plugged E draw m).logpdf (expectation e) none x = (plugged E draw m).logpdf (expectation e) (some (used a e)) x := by
  obtain ⟨h1, h2, h3, -⟩ := Backend.C59_data E a m h hf
  simp only [plugged]
  cases e <;> simp only [expectation, used]
  · rw [(h2 .observed x).1]
  · rw [(h3 .aposteriori x).1]
  · rw [(h1 .apriori x).1]
  · rw [(h2 .observed x).1]

theorem used_length {a : Args} (hf : Fits a) (e : Expect) : (used a e).length = a.data.length := by
  cases e <;> simp [used, hf.1]

/-- Everything that C118 asks of the model: one of the Gaussian models of spey, with a signal that has no parameters, yields of the right lengths,
non-negative backgrounds and at least one positive signal yield. -/
structure Case (E : Ext) (a : Args) (m : Backend.Model) (P : ℕ → ℕ → ℝ) (y : Vec) : Prop where
  model : Measurement E a m P
  fits : Fits a
  modifiers : a.modifiers = none
  parameters : a.nsp = 0
  signal : a.signal = .array y
  informative : 0 < form a.data.length P (at' y) (at' y)
  positive : ∃ i < a.data.length, 0 < at' y i
  background : ∀ i < a.data.length, 0 ≤ at' a.background i

theorem Case.single {E : Ext} (draw) {a : Args} {m : Backend.Model} {P : ℕ → ℕ → ℝ} {y : Vec} (h : Case E a m P y) :
    ∃ lo, Single (plugged E draw m) lo ∧ lo ≤ 0 ∧ ∀ mu, (∀ i < a.data.length, 0 < at' y i → 0 ≤ mu * at' y i + at' a.background i) → lo ≤ mu := by
  have hb := measurement_built h.model h.modifiers
  obtain ⟨h1, h2⟩ := measurement_config h.model h.fits
  obtain ⟨-, -, h3⟩ := Backend.C52_minimum a m hb h.fits y h.signal
  obtain ⟨lo, h4, -, h5⟩ := h3 h.positive
  have key : ∀ mu, (∀ i < a.data.length, 0 < at' y i → 0 ≤ mu * at' y i + at' a.background i) → lo ≤ mu := by
    intro mu hmu
    by_contra hlt
    obtain ⟨i, hi, h6, h7⟩ := h5 mu (not_le.mp hlt)
    exact absurd (hmu i hi h6) (not_le.mpr h7)
  refine ⟨lo, plugged_single E draw hb h.fits (by rw [h1, h.parameters]) h2 h4, key 0 fun i hi _ => ?_, key⟩
  simpa using h.background i hi

theorem deviation_pos {n : ℕ} {P : ℕ → ℕ → ℝ} {s : ℕ → ℝ} (h : 0 < form n P s s) : 0 < deviation n P s := div_pos one_pos (Real.sqrt_pos.mpr h)

theorem Case.log {E : Ext} (draw) {a : Args} {m : Backend.Model} {P : ℕ → ℕ → ℝ} {y : Vec} (h : Case E a m P y) (e : Expect) (D : Vec)
    (hD : D.length = a.data.length) :
    ∃ c, ∀ u, (plugged E draw m).logpdf (expectation e) (some D) [u] =
      fin (gaussianLog c (deviation a.data.length P (at' y)) (estimate a.data.length P (at' y) (at' a.background) (at' D)) u) := by
  obtain ⟨c, hc⟩ := measurement_log h.model h.fits h.parameters h.signal h.informative (expectation e) D hD
  exact ⟨c, fun u => by simp only [plugged, hc u, value]⟩

theorem Case.asimov {E : Ext} (draw) {a : Args} {m : Backend.Model} {P : ℕ → ℕ → ℝ} {y : Vec} (h : Case E a m P y) (e : Expect) (z : ℝ) :
    ∃ D c, (plugged E draw m).expectedData [z] = .ok D ∧
      ∀ u, (plugged E draw m).logpdf (expectation e) (some D) [u] = fin (gaussianLog c (deviation a.data.length P (at' y)) z u) := by
  obtain ⟨c, hc⟩ := h.log draw e ((List.range a.data.length).map fun i => z * at' y i + at' a.background i) (by simp)
  refine ⟨(List.range a.data.length).map fun i => z * at' y i + at' a.background i, c, ?_, fun u => ?_⟩
  · simp only [plugged, measurement_expected h.model h.fits h.parameters h.signal z, Except.mapError]
  · rw [hc u, estimate_expected h.informative z]

/-- C118. `exclusion_confidence_level` of a Gaussian model of spey (independent bins or a covariance matrix, any number of bins), when the
minimiser is exact. The measurement determines a signal strength by generalised least squares, `estimate`, with uncertainty `deviation`. If that strength
is at most 10 (the end of the allowed range), the observed level for a tested strength `v` not below it is that of one Gaussian measurement of the strength
itself, and the five expected levels are those of measurements -2, -1, 0, 1, 2 standard deviations away from zero. With the test statistic for negative
strengths the predicted yields at the strength that is measured must not be negative. -/
theorem C118_levels {S : Solver} (hS : Exact S) (hT : Finds S) {E : Ext} (draw) {a : Args} {m : Backend.Model} {P : ℕ → ℕ → ℝ} {y : Vec}
    (h : Case E a m P y) (e : Expect) {est σ : ℝ} (hest : est = estimate a.data.length P (at' y) (at' a.background) (at' (used a e)))
    (hσ : σ = deviation a.data.length P (at' y)) (h10 : est ≤ 10) {negative : Bool}
    (hneg : negative = true → ∀ i < a.data.length, 0 < at' y i → 0 ≤ est * at' y i + at' a.background i) {mu : Mu} {v : ℝ} (hmu : mu.Is v) (hv : 0 < v)
    (g : Bool) (ntoys : Size) (available : Calc → Bool) (hA : available .asymptotic = true) (percentile : List F → F → F) (w : World) (hw : Plain 1 w) :
    (e = .observed → est ≤ v →
      (exclusion (modelMethods S (plugged E draw m) g none ntoys available percentile) mu e negative .asymptotic w).1 =
        .ok (.one [fin (gaussianLevel σ est v)])) ∧
    (e = .apriori ∨ e = .aposteriori →
      (exclusion (modelMethods S (plugged E draw m) g none ntoys available percentile) mu e negative .asymptotic w).1 =
        .ok (.one ([-2, -1, 0, 1, 2].map fun n => fin (gaussianLevel σ (n * σ) v)))) := by
  obtain ⟨lo, h1, h2, h3⟩ := h.single draw
  obtain ⟨c, hc⟩ := h.log draw e (used a e) (used_length h.fits e)
  obtain ⟨D, c', hD, hc'⟩ := h.asimov draw e 0
  rw [← hest, ← hσ] at hc
  rw [← hσ] at hc'
  exact gaussian_levels hS hT h1 (fun u => by rw [plugged_none E draw (measurement_built h.model h.modifiers) h.fits, hc u]) hc' hD
    (hσ ▸ deviation_pos h.informative) h2 (fun hn => h3 est (hneg hn)) h10 hmu hv g ntoys available hA percentile w hw

/-- Two bins with signal 2 and 1, background 5 in both. -/
def exGaussArgs : Args := ⟨.array [2, 1], [5, 5], [7, 6], none, 0, none⟩

theorem exGauss_alive : Backend.isAlive (.array [2, 1]) = true := (Backend.isAlive_array _).mpr ⟨0, by simp, by simp [at']⟩

theorem exGauss_case {E : Ext} {m : Backend.Model} {P : ℕ → ℕ → ℝ} (h : Measurement E exGaussArgs m P) (hP : 0 < form 2 P (at' [2, 1]) (at' [2, 1])) :
    Case E exGaussArgs m P [2, 1] := by
  refine ⟨h, ⟨rfl, rfl⟩, rfl, rfl, rfl, hP, ⟨0, by simp [exGaussArgs], by simp [at']⟩, fun i hi => ?_⟩
  have hi : i < 2 := hi
  interval_cases i <;> simp [exGaussArgs, at']

/-- Both with uncertainty 1: the measured strength is `1 ± 1/√5`. -/
theorem exGauss_normal (E : Ext) : ∃ m P, Case E exGaussArgs m P [2, 1] ∧ estimate 2 P (at' [2, 1]) (at' [5, 5]) (at' [7, 6]) = 1 ∧
    deviation 2 P (at' [2, 1]) = 1 / √5 := by
  have : ∃ m, Backend.gaussian exGaussArgs [1, 1] = .ok m := by
    unfold Backend.gaussian Backend.simpleConfig
    simp only [exGaussArgs, Backend.minimumPoi, exGauss_alive, if_true, Backend.ok_bind, Backend.sigBounds]
    exact ⟨_, rfl⟩
  obtain ⟨m, hm⟩ := this
  have hform : ∀ x y, form 2 (independent (at' [1, 1])) x y = x 0 * y 0 + x 1 * y 1 := by
    intro x y
    rw [form_independent]
    simp [Finset.sum_range_succ, at']
  refine ⟨m, _, exGauss_case (.normal [1, 1] hm rfl fun i hi => ?_) (by rw [hform]; norm_num [at']), ?_, ?_⟩
  · have hi : i < 2 := hi
    interval_cases i <;> simp [at']
  · unfold estimate
    rw [hform, hform]
    norm_num [at']
  · unfold deviation
    rw [hform]
    norm_num [at']

/-- A covariance matrix with inverse `[[2, -1], [-1, 2]]`: the form is 6 for this signal. -/
theorem exGauss_multi : ∃ m P, Case ⟨fun _ => 0, fun _ => [[2, -1], [-1, 2]], fun _ => 0⟩ exGaussArgs m P [2, 1] ∧ deviation 2 P (at' [2, 1]) = 1 / √6 := by
  have : ∃ m, Backend.multivariate exGaussArgs [[2 / 3, 1 / 3], [1 / 3, 2 / 3]] = .ok m := by
    unfold Backend.multivariate Backend.simpleConfig
    simp only [exGaussArgs, Backend.minimumPoi, exGauss_alive, if_true, Backend.ok_bind, Backend.sigBounds]
    exact ⟨_, rfl⟩
  obtain ⟨m, hm⟩ := this
  have hform : ∀ x y, form 2 (fun i j => at' ([[2, -1], [-1, 2]].getD i []) j) x y = 2 * x 0 * y 0 - x 0 * y 1 - x 1 * y 0 + 2 * x 1 * y 1 := by
    intro x y
    simp [form, Finset.sum_range_succ, at']
    ring
  refine ⟨m, _, exGauss_case (.multivariate _ hm rfl ?_ ?_) ?_, ?_⟩
  · intro r hr
    simp only [List.mem_cons, List.not_mem_nil, or_false] at hr
    rcases hr with rfl | rfl <;> rfl
  · intro i j
    rcases i with _ | _ | i <;> rcases j with _ | _ | j <;> simp [at']
  · rw [hform]; norm_num [at']
  · unfold deviation
    rw [hform]
    norm_num [at']

example (E : Ext) (draw) : ∃ m, (exclusion (modelMethods perfect (plugged E draw m) true none (.int 100) (fun _ => true) fun _ _ => nan) (.float 2) .observed true
    .asymptotic (⟨[1], none, none⟩ : World)).1 = .ok (.one [fin (gaussianLevel (1 / √5) 1 2)]) := by
  obtain ⟨m, P, h, h1, h2⟩ := exGauss_normal E
  exact ⟨m, (C118_levels perfect_exact perfect_finds draw h .observed h1.symm h2.symm (by norm_num) (negative := true) (fun _ i hi _ => by
    have hi : i < 2 := hi
    interval_cases i <;> norm_num [exGaussArgs, at']) (mu := .float 2) rfl zero_lt_two true (.int 100) (fun _ => true) rfl (fun _ _ => nan) ⟨[1], none, none⟩
    ⟨rfl, rfl, rfl⟩).1 rfl (by norm_num)⟩

example (draw) : ∃ E m, (exclusion (modelMethods perfect (plugged E draw m) true none (.int 100) (fun _ => true) fun _ _ => nan) (.float 2) .apriori false
    .asymptotic (⟨[1], none, none⟩ : World)).1 = .ok (.one ([-2, -1, 0, 1, 2].map fun n => fin (gaussianLevel (1 / √6) (n * (1 / √6)) 2))) := by
  obtain ⟨m, P, h, h2⟩ := exGauss_multi
  have h0 : estimate 2 P (at' [2, 1]) (at' [5, 5]) (at' [5, 5]) = 0 := by
    unfold estimate form
    simp
  exact ⟨_, m, (C118_levels perfect_exact perfect_finds draw h .apriori h0.symm h2.symm (by norm_num) (negative := false) (fun hn => by simp at hn)
    (mu := .float 2) rfl zero_lt_two true (.int 100) (fun _ => true) rfl (fun _ _ => nan) ⟨[1], none, none⟩ ⟨rfl, rfl, rfl⟩).2 (.inl rfl)⟩

/-- C118. `significance` of the same models: the strength that is measured over its uncertainty (zero if it is negative), and for the Asimov data, made with
strength one, one over the uncertainty. -/
theorem C118_significance {S : Solver} (hS : Exact S) (hT : Finds S) {E : Ext} (draw) {a : Args} {m : Backend.Model} {P : ℕ → ℕ → ℝ} {y : Vec}
    (h : Case E a m P y) (e : Expect) {est σ : ℝ} (hest : est = estimate a.data.length P (at' y) (at' a.background) (at' (used a e)))
    (hσ : σ = deviation a.data.length P (at' y)) (h10 : est ≤ 10)
    (g : Bool) (ntoys : Size) (available : Calc → Bool) (percentile : List F → F → F) (w : World) (hw : Plain 1 w) :
    (significance (modelMethods S (plugged E draw m) g none ntoys available percentile) e w).1 = .ok (Stats.discovery (1 / σ) (max est 0 / σ)) := by
  obtain ⟨lo, h1, h2, h3⟩ := h.single draw
  obtain ⟨c, hc⟩ := h.log draw e (used a e) (used_length h.fits e)
  obtain ⟨D, c', hD, hc'⟩ := h.asimov draw e 1
  rw [← hest, ← hσ] at hc
  rw [← hσ] at hc'
  exact gaussian_significance hS hT h1 (fun u => by rw [plugged_none E draw (measurement_built h.model h.modifiers) h.fits, hc u]) hc' hD
    (hσ ▸ deviation_pos h.informative) h10 g ntoys available percentile w hw

example (E : Ext) (draw) : ∃ m, (significance (modelMethods perfect (plugged E draw m) true none (.int 100) (fun _ => true) fun _ _ => nan) .observed
    (⟨[1], none, none⟩ : World)).1 = .ok (Stats.discovery (1 / (1 / √5)) (1 / (1 / √5))) := by
  obtain ⟨m, P, h, h1, h2⟩ := exGauss_normal E
  have hp := C118_significance perfect_exact perfect_finds draw h .observed h1.symm h2.symm (by norm_num) true (.int 100) (fun _ => true) (fun _ _ => nan)
    ⟨[1], none, none⟩ ⟨rfl, rfl, rfl⟩
  exact ⟨m, by rw [hp]; norm_num⟩

end Verif.Chain
