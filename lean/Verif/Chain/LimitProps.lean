import Verif.Chain.GaussianProps
import Verif.Hypotest.SigmaProps
import Verif.Hypotest.Bisection

/-!
# Property C121: uncertainties and upper limits of the Gaussian models of spey
-/

namespace Verif.Chain
open Verif.Py F Verif.Config Verif.Optimizer Verif.Hypotest
open Verif.Interface (MuHat Data Toys World Size Plain Solver Candidate Allowed InBounds perfect)
open Verif.Backend (Ext Vec Args Built Fits at' partialDeriv hessianOf)
open Verif.Stats (Expect Calc Levels gaussianLog gaussianFit gaussianLevel)
open Verif.UpperLimit (Expected Band Limit Entries Sound Succeeds Inputs)

/-- `np.linalg.inv` for a matrix with one entry. -/
def InvertsNumbers (inv : List (List ℝ) → Except Interface.Err (List (List ℝ))) : Prop := ∀ x : ℝ, x ≠ 0 → inv [[x]] = .ok [[1 / x]]

theorem gaussian_second {c σ a : ℝ} (f : Vec → Except Backend.Err ℝ) (hf : ∀ u, f [u] = .ok (gaussianLog c σ a u)) (x : ℝ) :
    hessianOf f [x] = .ok [[-(1 / σ ^ 2)]] := by
  have h1 : ∀ u, partialDeriv (Backend.valueOf f) 0 [u] = -((u - a) / σ ^ 2) := by
    intro u
    have : (fun t => Backend.valueOf f ([u].set 0 t)) = fun t => gaussianLog c σ a t := by
      funext t
      simp [Backend.valueOf, hf]
    unfold partialDeriv
    rw [this]
    have hd : HasDerivAt (fun t => gaussianLog c σ a t) (-((u - a) / σ ^ 2)) u := by
      unfold gaussianLog
      have := ((((hasDerivAt_id u).sub_const a).pow 2).div_const (2 * σ ^ 2)).const_sub c
      refine this.congr_deriv ?_
      by_cases hs : σ = 0
      · simp [hs]
      · simp
        field_simp
    simpa using hd.deriv
  have h2 : partialDeriv (partialDeriv (Backend.valueOf f) 0) 0 [x] = -(1 / σ ^ 2) := by
    have : (fun t => partialDeriv (Backend.valueOf f) 0 ([x].set 0 t)) = fun t => -((t - a) / σ ^ 2) := by
      funext t
      simp only [List.set_cons_zero]
      exact h1 t
    rw [partialDeriv, this]
    have hd : HasDerivAt (fun t => -((t - a) / σ ^ 2)) (-(1 / σ ^ 2)) x := (((hasDerivAt_id x).sub_const a).div_const (σ ^ 2)).neg
    simpa using hd.deriv
  unfold hessianOf
  rw [hf]
  simp [h2]

section
variable {S : Solver} (hS : Exact S) (hT : Finds S) {B : Interface.Backend} {lo : ℝ} (hB : Single B lo)
include hS hT hB

/-- A fit of a model with one parameter, which is given. -/
theorem single_hessian {e : Expect} {h : ℝ → ℝ} (hl : ∀ y, B.logpdf (expectation e) none [y] = fin (h y)) {H : List ℝ → List (List ℝ)} (hH : B.hessian (expectation e) = .ok H)
    {s : ℝ} (hs : s < 0) {v : ℝ} (hv : lo ≤ v) (hHv : H [v] = [[s]]) {inv} (hinv : InvertsNumbers inv) (g : Bool) :
    Ends (Plain 1) (modelHessian S inv B g none (.float v) e) (.ok (fin (√(1 / -s)))) := by
  intro w hw
  have hfree := Interface.sigmaMuFromHessian_free hS.free inv B hB.usual.fixed (.float v) (expectation e) g none hw hw
  refine ⟨?_, hfree.2⟩
  unfold modelHessian ofInterface toPoi
  dsimp only
  suffices h : (Interface.sigmaMuFromHessian S inv B (.float v) (expectation e) g none w).1 = .ok (fin (√(1 / -s))) by rw [h]; rfl
  obtain ⟨ws, wi, wc⟩ := w
  obtain ⟨h1, h2, h3⟩ := hw
  dsimp only at h1 h2 h3
  subst h1 h2
  obtain ⟨s0, rfl⟩ := List.length_eq_one_iff.mp h3
  obtain ⟨f, b, ho⟩ := hB.total g (expectation e) none
  have hf := hB.objective ho
  have hb : Allowed (adjust (fin lo) (fun v low => pyMax (fin (v + 1)) low) (some (fin lo), some (fin 10)) v) v :=
    Interface.adjust_allowed (Or.inr ⟨rfl, rfl⟩) (Or.inr hv)
  have hp := solver_fixed hS hT hb f (by rw [hf, hl]; simp [neg]) b
  have hsl : slot 1 0 = some 0 := rfl
  have hbt := hB.bounds true
  rw [if_pos rfl] at hbt
  have hi : inv [[-1 * s]] = .ok [[1 / -s]] := by
    rw [show -1 * s = -s by ring]
    exact hinv _ (by linarith)
  simp only [Interface.sigmaMuFromHessian, hH, Interface.prepareForFit, ho, Interface.resolvePoi, Interface.runFit, fit, fitBounds, fixedPoiBounds,
    Interface.config, Option.map_none, Option.getD_none, List.nil_append, Except.map, FixedPoi.pairs]
  simp only [hB.constraints, hbt, hB.usual.fixed true, hB.poi, hB.minimum, List.length_singleton, List.replicate_one, setFixed, Option.getD_none, setSuggested, hsl,
    List.modify_cons, List.set_cons_zero, if_true, Except.mapError, hp, hHv, List.map_cons, List.map_nil, hi]
  have hq : (0 : ℝ) ≤ 1 / -s := by
    apply div_nonneg zero_le_one
    linarith
  simp [Interface.entry, slot]
  rw [one_div, inv_neg] at hq
  exact Stats.sqrt_fin hq

/-- All fits of the upper limit. -/
theorem single_all {e : Expect} {D : Data} {h hA : ℝ → ℝ} (hl : ∀ y, B.logpdf (expectation e) none [y] = fin (h y))
    (hlA : ∀ y, B.logpdf (expectation e) (some D) [y] = fin (hA y)) (hD : B.expectedData [0] = .ok D) {x xA : ℝ} (hx : Best h 0 x) (hxA : Best hA 0 xA) (g : Bool)
    (ntoys : Size) (available : Calc → Bool) (percentile : List F → F → F) :
    AllFits (Plain 1) (modelMethods S B g none ntoys available percentile) e x (fin (-(h x))) (fun v => fin (-(h v))) xA (fin (-(hA xA))) fun v => fin (-(hA v)) := by
  obtain ⟨w, hw⟩ : ∃ w : World, Plain 1 w := ⟨⟨[0], none, none⟩, rfl, rfl, rfl⟩
  obtain ⟨hlik, hmax, hasi⟩ := model_ends hS hB.usual g ntoys available percentile e w hw
  have h4 := single_asimov hS hT hB hl "qtilde" g w hw
  rw [if_neg (by simp), hD] at h4
  obtain ⟨hlikA, hmaxA⟩ := hasi "qtilde" _ h4
  have hneg : Interface.mayBeNegative "qtilde" = false := by simp [Interface.mayBeNegative]
  exact ⟨hmax none false _ (single_best hS hT hB hl (n := false) (by simpa using hx) g w hw), fun v => hlik none v _ (single_likelihood hB hl v true g w hw),
    hmaxA _ (by rw [hneg]; exact single_best hS hT hB hlA (n := false) (by simpa using hxA) g w hw), fun v => hlikA v _ (single_likelihood hB hlA v true g w hw)⟩

end

/-- The same for Gaussian likelihoods, as `Verif.Stats` has them. -/
theorem fitted_gaussian' {c c' σ a m : ℝ} (hm : m = max a 0) (av : Calc → Bool) :
    (fitted m (fin (-(gaussianLog c σ a m))) (fun v => fin (-(gaussianLog c σ a v))) 0 (fin (-(gaussianLog c' σ 0 0)))
      (fun v => fin (-(gaussianLog c' σ 0 v))) av).data = gaussianFit c σ a true ∧
    (fitted m (fin (-(gaussianLog c σ a m))) (fun v => fin (-(gaussianLog c σ a v))) 0 (fin (-(gaussianLog c' σ 0 0)))
      (fun v => fin (-(gaussianLog c' σ 0 v))) av).asimov = gaussianFit c' σ 0 true := by
  have : ∀ c b, negated (fun v => fin (-(gaussianLog c σ b v))) = Stats.lift (gaussianLog c σ b) := by
    intro c b
    funext x
    cases x <;> simp [negated, Stats.lift, neg]
  simp [fitted, gaussianFit, this, hm]

theorem Case.sigma {S : Solver} (hS : Exact S) (hT : Finds S) {E : Ext} (draw) {a : Args} {m : Backend.Model} {P : ℕ → ℕ → ℝ} {y : Vec} (h : Case E a m P y)
    {inv : List (List ℝ) → Except Interface.Err (List (List ℝ))} (hinv : InvertsNumbers inv) {lo : ℝ} (h1 : Single (plugged E draw m) lo) {v : ℝ} (hv : lo ≤ v) (e : Expect) (g : Bool) (ntoys : Size)
    (available : Calc → Bool) (percentile : List F → F → F) :
    Ends (Plain 1) (modelSigma S inv (plugged E draw m) g ntoys available percentile e v) (.ok (fin (deviation a.data.length P (at' y)))) := by
  obtain ⟨c, hc⟩ := h.log draw e (used a e) (used_length h.fits e)
  have hlog : ∀ u, (plugged E draw m).logpdf (expectation e) none [u] = fin (gaussianLog c (deviation a.data.length P (at' y))
      (estimate a.data.length P (at' y) (at' a.background) (at' (used a e))) u) := fun u => by
    rw [plugged_none E draw (measurement_built h.model h.modifiers) h.fits, hc u]
  have hσ := deviation_pos h.informative
  have hH : (plugged E draw m).hessian (expectation e) = .ok fun x => match Backend.hessianLogpdf E m (expectation e) none x with
    | .ok h => h
    | .error _ => [] := rfl
  have hval : ∀ u, Backend.logpdf E m (expectation e) none [u] = .ok (gaussianLog c (deviation a.data.length P (at' y))
      (estimate a.data.length P (at' y) (at' a.background) (at' (used a e))) u) := by
    intro u
    have := hlog u
    simp only [plugged] at this
    cases hb : Backend.logpdf E m (expectation e) none [u] with
    | ok r => rw [hb] at this; simpa [value] using this
    | error r => rw [hb] at this; simp [value] at this
  have hs := single_hessian hS hT h1 hlog hH (s := -(1 / deviation a.data.length P (at' y) ^ 2)) (by
    have : 0 < 1 / deviation a.data.length P (at' y) ^ 2 := by positivity
    linarith) hv (by
    simp only [Backend.hessianLogpdf, gaussian_second _ hval]) hinv g
  have e1 : √(1 / -(-(1 / deviation a.data.length P (at' y) ^ 2))) = deviation a.data.length P (at' y) := by
    rw [neg_neg, one_div_one_div, Real.sqrt_sq hσ.le]
  rw [e1] at hs
  intro w hw
  obtain ⟨k1, k2⟩ := hs w hw
  unfold modelSigma sigmaMu hessianOr
  simp only [Option.map_some]
  cases hr : modelHessian S inv (plugged E draw m) g none (.float v) e w with
  | mk r w' =>
    rw [hr] at k1 k2
    dsimp only at k1 k2
    subst k1
    exact ⟨rfl, k2⟩

/-- C121. `sigma_mu` of a Gaussian model of spey is the standard deviation of the least squares estimate, for every signal strength `v` at which no expected
yield is negative: the code inverts the second derivative of the likelihood. -/
theorem C121_sigma {S : Solver} (hS : Exact S) (hT : Finds S) {E : Ext} (draw) {a : Args} {m : Backend.Model} {P : ℕ → ℕ → ℝ} {y : Vec} (h : Case E a m P y)
    {inv : List (List ℝ) → Except Interface.Err (List (List ℝ))} (hinv : InvertsNumbers inv) {v : ℝ}
    (hv : ∀ i < a.data.length, 0 < at' y i → 0 ≤ v * at' y i + at' a.background i) (e : Expect) (g : Bool) (ntoys : Size)
    (available : Calc → Bool) (percentile : List F → F → F) :
    Ends (Plain 1) (modelSigma S inv (plugged E draw m) g ntoys available percentile e v) (.ok (fin (deviation a.data.length P (at' y)))) := by
  obtain ⟨lo, h1, -, h3⟩ := h.single draw
  exact h.sigma hS hT draw hinv h1 (h3 v hv) e g ntoys available percentile

example (E : Ext) (draw) : ∃ m, Ends (Plain 1) (modelSigma perfect (fun M => .ok [[1 / (M.getD 0 []).getD 0 0]]) (plugged E draw m) true (.int 100) (fun _ => true)
    (fun _ _ => nan) .observed 2) (.ok (fin (1 / √5))) := by
  obtain ⟨m, P, h, -, h2⟩ := exGauss_normal E
  have := C121_sigma perfect_exact perfect_finds draw h (inv := fun M => .ok [[1 / (M.getD 0 []).getD 0 0]]) (fun x _ => rfl) (v := 2) (fun i hi hy => by have := h.background i hi; positivity) .observed true (.int 100)
    (fun _ => true) fun _ _ => nan
  change Ends _ _ (.ok (fin (deviation 2 P (at' [2, 1])))) at this
  rw [h2] at this
  exact ⟨m, this⟩

/-- C121. `poi_upper_limit` of a Gaussian model of spey (independent bins or a covariance matrix, any number of bins), when the minimiser is exact, gives the
exact CLs limits of a measurement of the signal strength itself with the least squares estimate and its standard deviation, up to the tolerance of the root finder.
Conditions: the estimate is at most 10, the limits are between `1e-10` and `1e5`, and the starting points are not both the limit itself. -/
theorem C121_limit {S : Solver} (hS : Exact S) (hT : Finds S) {E : Ext} (draw) {a : Args} {m : Backend.Model} {P : ℕ → ℕ → ℝ} {y : Vec} (h : Case E a m P y)
    (e : Expected) {est σ CL : ℝ} (hest : est = estimate a.data.length P (at' y) (at' a.background) (at' (used a e.toExpect)))
    (hσ : σ = deviation a.data.length P (at' y)) (h10 : est ≤ 10) (hCL : 1 / 2 < CL) (hCL' : CL ≤ 1) (T : Finder) (tol : ℝ → ℝ)
    (hs : Sound tol T.solver) (hok : Succeeds T.solver) {inv : List (List ℝ) → Except Interface.Err (List (List ℝ))} (hinv : InvertsNumbers inv) (g g' : Bool)
    (ntoys : Size) (available : Calc → Bool) (hav : available .asymptotic = true) (percentile : List F → F → F) (band : Band) (hb : band ≠ .unknown)
    (low hig : Option ℝ) (z : ℕ → ℝ) (hz : ∀ i ∈ Entries e band, ExactLimit e σ est CL i (z i) ∧ 1e-10 ≤ z i ∧ z i ≤ 1e5 ∧ Reasonable (z i) low hig) :
    ∃ L : Limit, L.Shaped (Entries e band).length ∧ List.Forall₂ (fun i x => ∃ mu, x = fin mu ∧ |mu - z i| ≤ tol mu) (Entries e band) L.values ∧
      ∃ N, ∀ n ≥ N, Ends (Plain 1) (poiUpperLimit n T (modelMethods S (plugged E draw m) g none ntoys available percentile)
        (modelSigma S inv (plugged E draw m) g' ntoys available percentile) true e CL low hig band) (.ok (some L)) := by
  obtain ⟨lo, k1, k2, -⟩ := h.single draw
  obtain ⟨c, hc⟩ := h.log draw e.toExpect (used a e.toExpect) (used_length h.fits e.toExpect)
  obtain ⟨D, c', hD, hc'⟩ := h.asimov draw e.toExpect 0
  rw [← hest, ← hσ] at hc
  rw [← hσ] at hc'
  have hpos : 0 < σ := hσ ▸ deviation_pos h.informative
  have hn : nearest 0 est = max est 0 := by unfold nearest; exact min_eq_left (max_le h10 (by norm_num))
  have hn0 : nearest 0 0 = 0 := by norm_num [nearest]
  have hx := nearest_is_best (c := c) (x := est) hpos (by norm_num : (0 : ℝ) ≤ 10)
  have hxA := nearest_is_best (c := c') (x := 0) hpos (by norm_num : (0 : ℝ) ≤ 10)
  rw [hn] at hx
  rw [hn0] at hxA
  have hf := single_all hS hT k1 (fun u => by rw [plugged_none E draw (measurement_built h.model h.modifiers) h.fits, hc u]) hc' hD hx hxA g ntoys available percentile
  have hag := fun n => C113_agrees hf (modelSigma S inv (plugged E draw m) g' ntoys available percentile) σ low hig
    (fun _ hm => hσ ▸ h.sigma hS hT draw hinv k1 (by linarith) e.toExpect g' ntoys available percentile) n T true CL band
  obtain ⟨J, hJ⟩ : ∃ J : Inputs, J = ⟨true, fitted (max est 0) (fin (-(gaussianLog c σ est (max est 0)))) (fun v => fin (-(gaussianLog c σ est v))) 0
    (fin (-(gaussianLog c' σ 0 0))) (fun v => fin (-(gaussianLog c' σ 0 v))) available, max est 0, fun _ => σ⟩ := ⟨_, rfl⟩
  have hstart := reasonable_starts J (by rw [hJ]) hpos hb fun i hi => (hz i hi).2.2.2
  have hDA := fitted_gaussian' (c := c) (c' := c') (σ := σ) (a := est) rfl available
  obtain ⟨L, ⟨N, hN⟩, h1, h2⟩ := gaussian_limit (J := J) (c := c) (c' := c') (by rw [hJ]) hpos (by rw [hJ]; exact hav) (by rw [hJ]; exact hDA.1)
    (by rw [hJ]; exact hDA.2) hCL hCL' hs hok hb (low := low) (hig := hig) z
    (fun i hi => ⟨(hz i hi).1, (hz i hi).2.1, (hz i hi).2.2.1, hstart.2.2 i hi⟩) hstart.1 hstart.2.1
  refine ⟨L, h1, h2, N, fun n hn => ?_⟩
  have h := hag n
  have hN := hN n hn
  dsimp only at hN
  rw [hJ] at hN
  change Ends (Plain 1) _ (outcome (UpperLimit.poiUpperLimit n T.solver ⟨true, fitted _ _ _ _ _ _ available, _, _⟩ _ _ _ _ _)) at h
  rw [hN] at h
  exact h

/-- `1 ± 1/√5` excludes 10 at 95%. -/
theorem exGauss_exact : ∃ z, 1 ≤ z ∧ z ≤ 10 ∧ gaussianLevel (1 / √5) 1 z = 0.95 := by
  have h5 : 0 < √5 := Real.sqrt_pos.mpr (by norm_num)
  have hσ : 0 < 1 / √5 := by positivity
  obtain ⟨z, h1, -, h2⟩ := exact_exists (σ := 1 / √5) (m := 1) (CL := 0.95) hσ (by norm_num) (by norm_num)
  refine ⟨z, (le_max_left _ _).trans h1, ?_, h2⟩
  by_contra h
  have h3 := level_mono (m := 1) hσ (not_le.mp h)
  have hsq : √5 * √5 = 5 := Real.mul_self_sqrt (by norm_num)
  have h4 : 0.95 < gaussianLevel (1 / √5) 1 10 := by
    unfold gaussianLevel
    have k5 := Phi_ratio_exp (a := 10 * √5) (by positivity) (√5)
    have k6 := exp_small (x := 10 * √5 * √5 - (10 * √5) ^ 2 / 2) (by nlinarith)
    have k7 := Phi_pos (√5)
    have k8 : Phi (√5 - 10 * √5) / Phi (√5) ≤ Real.exp (10 * √5 * √5 - (10 * √5) ^ 2 / 2) := by rwa [div_le_iff₀ k7]
    have e1 : (1 - 10) / (1 / √5) = √5 - 10 * √5 := by field_simp
    have e2 : 1 / (1 / √5) = √5 := by field_simp
    rw [e1, e2]
    linarith
  linarith

/-- The observed limit of this measurement, found by bisection from the default starting points: within 0.001 of the exact one. -/
example (E : Ext) (draw) : ∃ m z L N, gaussianLevel (1 / √5) 1 z = 0.95 ∧ 1 ≤ z ∧ |L - z| ≤ 0.001 ∧ ∀ n ≥ N, Ends (Plain 1)
    (poiUpperLimit n (bisection 0.001) (modelMethods perfect (plugged E draw m) true none (.int 100) (fun _ => true) fun _ _ => nan)
      (modelSigma perfect (fun M => .ok [[1 / (M.getD 0 []).getD 0 0]]) (plugged E draw m) true (.int 100) (fun _ => true) fun _ _ => nan) true .observed 0.95
      (some 2) (some 3) .nominal) (.ok (some (.one (fin L)))) := by
  obtain ⟨m, P, h, h1, h2⟩ := exGauss_normal E
  obtain ⟨z, k1, k2, k3⟩ := exGauss_exact
  obtain ⟨L, g1, g2, N, g3⟩ := C121_limit perfect_exact perfect_finds draw h .observed (CL := 0.95) h1.symm h2.symm (by norm_num) (by norm_num) (by norm_num)
    (bisection 0.001) (fun _ => 0.001) (bisection_sound (by norm_num)) (bisection_succeeds (by norm_num)) (inv := fun M => .ok [[1 / (M.getD 0 []).getD 0 0]])
    (fun x _ => rfl) true true (.int 100) (fun _ => true) rfl (fun _ _ => nan) .nominal (by simp) (some 2) (some 3) (fun _ => z) fun i _ =>
      ⟨by simpa [ExactLimit, centre] using k3, by linarith, by linarith, by norm_num, by norm_num, by norm_num⟩
  cases L with
  | one x =>
    simp only [Entries, Limit.values, List.forall₂_cons, List.forall₂_nil_left_iff, and_true] at g2
    obtain ⟨mu, rfl, g4⟩ := g2
    exact ⟨m, z, mu, N, k3, k1, g4, g3⟩
  | many l => exact absurd rfl g1.1

end Verif.Chain
