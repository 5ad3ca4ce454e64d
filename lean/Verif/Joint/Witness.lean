import Verif.Joint.Members
import Verif.Chain.LimitProps

/-!
# A combination for the examples

A Gaussian model and a simplified likelihood, with a library that cannot invert matrices: the individual fits raise and the starting value is zero.
-/

namespace Verif.Joint
open Verif.Py F Verif.Config Verif.Optimizer Verif.Hypotest Verif.Chain
open Verif.Interface (MuHat Data World Size Plain Solver Allowed perfect)
open Verif.Stats (Expect Calc gaussianLog)
open Verif.Backend (Ext Vec Args Fits at')

/-- `numpy.linalg.LinAlgError`. -/
def noInverse : List (List ℝ) → Except Interface.Err (List (List ℝ)) := fun _ => .error (.other 5)

/-- `sigma_mu` passes the exception on. -/
theorem sigma_raises {S : Solver} (hS : Exact S) (hT : Finds S) {B : Interface.Backend} {lo : ℝ} (hB : Single B lo) {e : Expect} {h : ℝ → ℝ}
    (hl : ∀ y, B.logpdf (expectation e) none [y] = fin (h y)) {H : List ℝ → List (List ℝ)} (hH : B.hessian (expectation e) = .ok H) {v : ℝ} (hv : lo ≤ v) (g : Bool)
    (ntoys : Size) (available : Calc → Bool) (percentile : List F → F → F) :
    Ends (Plain 1) (modelSigma S noInverse B g ntoys available percentile e v) (.error (.call (.other 5))) := by
  have key : Ends (Plain 1) (modelHessian S noInverse B g none (.float v) e) (.error (.call (.other 5))) := by
    intro w hw
    have hfree := Interface.sigmaMuFromHessian_free hS.free noInverse B hB.usual.fixed (.float v) (expectation e) g none hw hw
    refine ⟨?_, hfree.2⟩
    unfold modelHessian ofInterface toPoi
    dsimp only
    suffices h : (Interface.sigmaMuFromHessian S noInverse B (.float v) (expectation e) g none w).1 = .error (.other 5) by rw [h]; rfl
    obtain ⟨ws, wi, wc⟩ := w
    obtain ⟨h1, h2, h3⟩ := hw
    dsimp only at h1 h2 h3
    subst h1 h2
    obtain ⟨s0, rfl⟩ := List.length_eq_one_iff.mp h3
    obtain ⟨f, b, ho⟩ := hB.total g (expectation e) none
    have hf := hB.objective ho
    have hb : Allowed (adjust (fin lo) (fun v low => pyMax (fin (v + 1)) low) (some (fin lo), some (fin 10)) v) v :=
      Interface.adjust_allowed (Or.inr ⟨rfl, rfl⟩) (Or.inr hv)
    have hp := solver_fixed hS hT hb f (by rw [hf, hl]; simp [neg]) b
    have hsl : slot 1 0 = some 0 := rfl
    have hbt := hB.bounds true
    rw [if_pos rfl] at hbt
    simp only [Interface.sigmaMuFromHessian, hH, Interface.prepareForFit, ho, Interface.resolvePoi, Interface.runFit, fit, fitBounds, fixedPoiBounds,
      Interface.config, Option.map_none, Option.getD_none, List.nil_append, Except.map, FixedPoi.pairs]
    simp only [hB.constraints, hbt, hB.usual.fixed true, hB.poi, hB.minimum, List.length_singleton, List.replicate_one, setFixed, Option.getD_none, setSuggested, hsl,
      List.modify_cons, List.set_cons_zero, if_true, Except.mapError, hp, noInverse]
  intro w hw
  obtain ⟨k1, k2⟩ := key w hw
  unfold modelSigma sigmaMu hessianOr
  simp only [Option.map_some]
  cases hr : modelHessian S noInverse B g none (.float v) e w with
  | mk r w' =>
    rw [hr] at k1 k2
    dsimp only at k1 k2
    subst k1
    exact ⟨rfl, k2⟩

/-- The starting value of a combination whose first model has no nuisance parameters. -/
theorem start_single {S : Solver} (hS : Exact S) (hT : Finds S) {B : Interface.Backend} {lo : ℝ} (hB : Single B lo) {e : Expect} {h : ℝ → ℝ}
    (hl : ∀ y, B.logpdf (expectation e) none [y] = fin (h y)) {H : List ℝ → List (List ℝ)} (hH : B.hessian (expectation e) = .ok H) (g : Bool) (ntoys : Size) (available : Calc → Bool)
    (percentile : List F → F → F) {mu : ℝ} {r : F} (hmu : lo ≤ mu) (hb : Ends (Plain 1) ((modelMethods S B g none ntoys available percentile).maximize e true none) (.ok (.one mu, r)))
    {n : ℕ} (hn : 0 < n) {N : ℕ → ℕ} (hN : N 0 = 1) (name : String) (l : List (Member (ℕ → World))) {s : ℕ → World} (hs : All n N s) :
    (guess (member 0 name S noInverse B g ntoys available percentile :: l) e s).1 = .ok (fin 0) := by
  have hb' := focus_ends (N := N) hn (hN.symm ▸ hb)
  have hs' := focus_ends (N := N) hn (hN.symm ▸ sigma_raises hS hT hB hl hH hmu g ntoys available percentile)
  have hi : Ends (All n N) (individual e (member 0 name S noInverse B g ntoys available percentile :: l)) (.error (.call (.other 5))) := by
    unfold individual
    exact hb'.bind hs'.bind_error
  unfold guess
  cases hr : individual e (member 0 name S noInverse B g ntoys available percentile :: l) s with
  | mk r s' =>
    have := (hi s hs).1
    rw [hr] at this
    dsimp only at this
    subst this
    rfl

/-- The starting value of a combination whose first model is Gaussian. -/
theorem start_zero {S : Solver} (hS : Exact S) (hT : Finds S) {E : Ext} (draw) {a : Args} {m : Backend.Model} {Q : ℕ → ℕ → ℝ} {y : Vec} (h : Case E a m Q y) {n : ℕ}
    (hn : 0 < n) {N : ℕ → ℕ} (hN : N 0 = 1) (name : String) (g : Bool) (ntoys : Size) (available : Calc → Bool) (percentile : List F → F → F)
    (l : List (Member (ℕ → World))) (e : Expect) {s : ℕ → World} (hs : All n N s) :
    (guess (member 0 name S noInverse (plugged E draw m) g ntoys available percentile :: l) e s).1 = .ok (fin 0) := by
  obtain ⟨lo, h1, h2, -⟩ := h.single draw
  obtain ⟨c, hc⟩ := h.log draw e (used a e) (used_length h.fits e)
  have hl : ∀ u, (plugged E draw m).logpdf (expectation e) none [u] = _ := fun u => by
    rw [plugged_none E draw (measurement_built h.model h.modifiers) h.fits, hc u]
  have hw : Plain 1 (s 0) := hN ▸ hs 0 hn
  have hb := (model_ends hS h1.usual g ntoys available percentile e (s 0) hw).2.1 none true _ (single_best hS hT h1 hl (n := true)
    (nearest_is_best (lo := lo) (deviation_pos h.informative) (by linarith)) g (s 0) hw)
  exact start_single hS hT h1 hl (H := fun x => match Backend.hessianLogpdf E m (expectation e) none x with
    | .ok h => h
    | .error _ => []) rfl g ntoys available percentile (le_min (le_max_right _ _) (by linarith)) hb hn hN name l hs

/-- The first model is Gaussian, `1 ± 1/√5`, the second is the simplified likelihood `exModel`. -/
theorem exPair (E : Ext) (e : Expect) (draw) : ∃ (m : ℕ → Backend.Model) (P : ℕ → Part) (lo : ℕ → ℝ) (N : ℕ → ℕ), (∀ i < 2, Described E e (m i) (P i) (lo i) (N i)) ∧
    N 0 = 1 ∧ N 1 = 3 ∧ (P 1).expected 1 (fun _ => 0) 0 = 55 ∧ ∀ (name : ℕ → String) (g : Bool) (ntoys : Size) (available : ℕ → Calc → Bool) (percentile : List F → F → F) (s : ℕ → World),
      All 2 N s → (guess ((List.range 2).map fun i => member i (name i) perfect noInverse (plugged E draw (m i)) g ntoys (available i) percentile) e s).1 = .ok (fin 0) := by
  obtain ⟨m0, Q, h0, -⟩ := exGauss_normal E
  obtain ⟨m1, lo1, h1⟩ := exModel E
  obtain ⟨K, hK⟩ := measurement_form h0.model h0.fits h0.parameters h0.signal
  obtain ⟨lo0, k1, -⟩ := h0.single draw
  have hlo : m0.config.minimumPoi = fin lo0 := by
    have := k1.minimum true
    simpa only [plugged, Backend.configOf, and_self, if_true] using this
  obtain ⟨P0, d0⟩ : ∃ P, Described E e m0 P lo0 1 := ⟨_, .gaussian h0 hlo fun D hD u => hK _ D hD u⟩
  obtain ⟨P1, hP1, d1⟩ : ∃ P : Part, P.expected 1 (fun _ => 0) 0 = 55 ∧ Described E e m1 P lo1 3 := ⟨_, by norm_num [expectedIn, at'], .simple h1⟩
  refine ⟨fun i => if i = 0 then m0 else m1, fun i => if i = 0 then P0 else P1, fun i => if i = 0 then lo0 else lo1, fun i => if i = 0 then 1 else 3, fun i hi => ?_, rfl, rfl, hP1, fun name g ntoys available percentile s hs => ?_⟩
  · interval_cases i
    · exact d0
    · exact d1
  · exact start_zero perfect_exact perfect_finds draw h0 (by norm_num) rfl _ g ntoys _ percentile _ e hs

end Verif.Joint
