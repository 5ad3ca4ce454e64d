import Verif.Region.GradientProps
import Verif.Region.Examples

/-!
# A case that meets the hypotheses of C162

The model of `Examples.lean`: the second signal parameter is profiled, the profile NLL of the first one is `a² / 2` up to a constant.
-/

namespace Verif.Region
open Verif.Py F Verif.Optimizer
open Verif.Config (Bound)
open Verif.Contour (Num Vec Target Bounds Minimiser Setup Gen Result Choice insertPoi assemble signalIndices Embedded Partition)
open Verif.Interface (Backend Solver World Allowed Satisfies InBounds Plain)
open Verif.Chain (plugged)
open Verif.Backend (Ext)
open Classical

/-- `g` is the gradient of `f` at `x`. -/
def IsGradient (f : List ℝ → F) (x g : List ℝ) : Prop :=
  ∃ (n : ℕ) (y : Fin n → ℝ) (φ : (Fin n → ℝ) → ℝ) (D : (Fin n → ℝ) →L[ℝ] ℝ), x = List.ofFn y ∧ (∀ᶠ z in nhds y, f (List.ofFn z) = fin (φ z)) ∧
    HasFDerivAt φ D y ∧ g = List.ofFn fun j => D (Pi.single j 1)

theorem IsGradient.unique {f : List ℝ → F} {x g g' : List ℝ} (h : IsGradient f x g) (h' : IsGradient f x g') : g = g' := by
  obtain ⟨n, y, φ, D, rfl, h1, h2, rfl⟩ := h
  obtain ⟨n', y', φ', D', e, h1', h2', rfl⟩ := h'
  obtain rfl : n = n' := by simpa using congrArg List.length e
  obtain rfl : y = y' := List.ofFn_injective e
  have hφ : φ =ᶠ[nhds y] φ' := by
    filter_upwards [h1, h1'] with z a b
    rw [a] at b
    simpa using b
  rw [h2.unique (h2'.congr_of_eventuallyEq hφ)]

/-- A library with exact derivatives. -/
noncomputable def gradLib : Lib :=
  { rayLib with autograd := fun f x => if h : ∃ g, IsGradient f x g then .ok (some h.choose) else .ok none }

theorem gradLib_differentiates : Differentiates gradLib := by
  intro n f φ y D h1 h2
  have h : IsGradient f (List.ofFn y) (List.ofFn fun j => D (Pi.single j 1)) := ⟨n, y, φ, D, rfl, h1, h2, rfl⟩
  have hex : ∃ g, IsGradient f (List.ofFn y) g := ⟨_, h⟩
  simp only [gradLib, dif_pos hex]
  rw [hex.choose_spec.unique h]

theorem ex_smooth (E : Ext) (draw) {x : List ℝ} (hx : x.length = 3) : Smooth (plugged E draw exModel) x := by
  refine ⟨3, fun j => x.getD j 0, fun z => -((z 0 * (1 + z 1) - 1) ^ 2 / 2 + (z 0 * (z 1 + z 2)) ^ 2 / 2 + Real.log (2 * Real.pi)), ?_, .of_forall fun z => ?_, by fun_prop⟩
  · obtain ⟨a, b, c, rfl⟩ := three hx
    simp [List.ofFn_succ]
  · simpa [List.ofFn_succ] using ex_loglik E draw (z 0) (z 1) (z 2)

/-- The hypotheses of `C162_gradient`, and what it gives: the gradient of `a² / 2` is `a`. -/
example (E : Ext) (draw) (t : Vec 1) (c : Choice Bound)
    (hc : c = ⟨[1], [2], [(none, none)]⟩) :
    Contour.choose 3 0 ((plugged E draw exModel).config true).bounds ((plugged E draw exModel).config true).names (some [1]) none = .ok c ∧
      (target gradLib ((plugged E draw exModel).logpdf .observed none) (decide ((plugged E draw exModel).constraints ≠ [])) 0
        ⟨[1], [2], [(none, none)]⟩ [(none, none)] [0]).grad (some t) = .ok (some t) := by
  subst hc
  have hchoose : Contour.choose 3 0 ((plugged E draw exModel).config true).bounds ((plugged E draw exModel).config true).names (some [1]) none =
      .ok ⟨[1], [2], [(none, none)]⟩ := by
    rw [ex_bounds]
    simp [Contour.choose, Contour.contourIndices, Contour.profileIndices, signalIndices, List.range, List.range.loop, Contour.pyGets, Contour.pyGet, Contour.positions, plugged,
      Backend.configOf, exModel]
  refine ⟨hchoose, ?_⟩
  have hG : HasFDerivAt (fun t : Vec 1 => t 0 ^ 2 / 2 + Real.log (2 * Real.pi)) (t 0 • ContinuousLinearMap.proj (R := ℝ) (φ := fun _ : Fin 1 => ℝ) 0) t := by
    have h1 : HasFDerivAt (fun t : Vec 1 => t 0) (ContinuousLinearMap.proj (R := ℝ) (φ := fun _ : Fin 1 => ℝ) 0) t := hasFDerivAt_apply 0 t
    have h2 := ((h1.pow 2).mul_const (1 / 2)).add_const (Real.log (2 * Real.pi))
    refine (h2.congr_fderiv ?_).congr_of_eventuallyEq (.of_forall fun z => by simp; ring)
    ext v
    simp
    ring
  obtain ⟨-, h⟩ := C162_gradient (plugged E draw exModel) 3 0 (by norm_num) (ex_constraints E draw) gradLib (calm_solves 3) gradLib_differentiates
    (by simp [gradLib, rayLib, calm]) (some [1]) (by simp) none ⟨[1], [2], [(none, none)]⟩ hchoose [(none, none)] (by rw [ex_bounds]; rfl) [0] rfl
    (fun t : Vec 1 => t 0 ^ 2 / 2 + Real.log (2 * Real.pi)) (ex_profile_nll E draw) t _ hG (fun x hx _ => ex_smooth E draw hx.length)
  rw [h]
  congr 2
  funext j
  obtain rfl : j = 0 := Subsingleton.elim (α := Fin 1) _ _
  simp

end Verif.Region
