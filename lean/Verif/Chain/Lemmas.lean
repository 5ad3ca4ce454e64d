import Verif.Chain.Single
import Verif.Backend.Asimov

/-!
# The backends of spey have the properties that the theorems about `StatisticalModel` ask for
-/

namespace Verif.Chain
open Verif.Py F Verif.Config Verif.Optimizer Verif.Hypotest
open Verif.Interface (MuHat Data Toys World Size Plain Solver)
open Verif.Backend (Ext Vec Args Built Fits at' signalAt)

theorem built_fixed {a : Args} {m : Backend.Model} (h : Built a m) (hf : Fits a) : m.config.fixed = none := by
  cases h with
  | simplified bin h =>
    obtain ⟨n, g, pdf, hm, _⟩ := h.shape hf
    obtain ⟨unc, c, hu, hc, h1, h2, _, hcfg, _⟩ := Backend.simplified_ok hm
    unfold Backend.baseConfig at hc
    obtain ⟨x, -, hc⟩ := Backend.bind_ok.mp hc
    obtain ⟨y, -, hc⟩ := Backend.bind_ok.mp hc
    cases hc
    rw [hcfg]
  | poisson y sigma ha h =>
    obtain ⟨c, hc, -, -, -, h⟩ := Backend.poisson_ok h
    unfold Backend.simpleConfig at hc
    obtain ⟨x, -, hc⟩ := Backend.bind_ok.mp hc
    obtain ⟨y, -, hc⟩ := Backend.bind_ok.mp hc
    cases hc
    rcases h with ⟨-, -, h, -⟩ | ⟨s, -, -, -, h, -⟩ <;> rw [h]
  | gaussian sigma ha h =>
    obtain ⟨c, hc, rfl⟩ := Backend.gaussian_ok h
    unfold Backend.simpleConfig at hc
    obtain ⟨x, -, hc⟩ := Backend.bind_ok.mp hc
    obtain ⟨y, -, hc⟩ := Backend.bind_ok.mp hc
    cases hc
    rfl
  | multivariate cov ha h =>
    obtain ⟨c, hc, -, rfl⟩ := Backend.multivariate_ok h
    unfold Backend.simpleConfig at hc
    obtain ⟨x, -, hc⟩ := Backend.bind_ok.mp hc
    obtain ⟨y, -, hc⟩ := Backend.bind_ok.mp hc
    cases hc
    rfl

theorem plugged_consistent (E : Ext) (draw) (m : Backend.Model) : Interface.Consistent (plugged E draw m) := by
  intro g e d f h x
  simp only [plugged, Except.ok.injEq] at h
  rw [← h]
  obtain ⟨h1, h2⟩ := Backend.C70_objective E m e d x
  simp only [plugged]
  cases hl : Backend.logpdf E m e d x with
  | ok v => rw [h1 v hl]; rfl
  | error r => rw [h2 r hl]; rfl

theorem plugged_usual (E : Ext) (draw) {a : Args} {m : Backend.Model} (h : Built a m) (hf : Fits a) : Usual (plugged E draw m) m.config.npar 0 where
  fallback := ⟨fun _ _ _ _ => rfl, fun _ _ _ _ => rfl, fun _ _ _ => rfl, fun _ _ _ => rfl⟩
  consistent := plugged_consistent E draw m
  fixed := by
    intro n
    have := built_fixed h hf
    simp only [plugged, Backend.configOf]
    split
    · exact this
    · rfl
  length := fun n => ((Backend.C51_sizes a m h hf).2.2.2.2 n 10).2.1
  poi := by
    intro n
    obtain ⟨-, h1, -, -, h2⟩ := Backend.C51_sizes a m h hf
    have := (h2 n 10).2.2.2.1
    simp only [plugged]
    rw [this]
    unfold slot
    simp
    omega
  bounds := by
    intro n b hb
    obtain ⟨h1, -, h3⟩ := Backend.C87_poi_bounds_partial a m h hf 10
    simp only [plugged] at hb
    cases n
    · rw [h1, Option.some.injEq] at hb
      subst hb
      simp
    · rw [h3, Option.some.injEq] at hb
      subst hb
      simp

/-- A model of spey without nuisance parameters. -/
theorem plugged_single (E : Ext) (draw) {a : Args} {m : Backend.Model} (h : Built a m) (hf : Fits a) (hn : m.config.npar = 1) (hp : m.positivity = []) {lo : ℝ}
    (hlo : m.config.minimumPoi = fin lo) : Single (plugged E draw m) lo where
  usual := hn ▸ plugged_usual E draw h hf
  bounds := by
    intro n
    obtain ⟨h1, -, h3⟩ := Backend.C87_poi_bounds_partial a m h hf 10
    have hl := ((Backend.C51_sizes a m h hf).2.2.2.2 n 10).2.1
    rw [hn] at hl
    obtain ⟨b, hb⟩ := List.length_eq_one_iff.mp hl
    simp only [plugged]
    rw [hb]
    cases n
    · rw [hb] at h1
      simpa using h1
    · rw [hb, hlo] at h3
      simpa using h3
  minimum := by
    intro n
    simp only [plugged, Backend.configOf]
    split <;> exact hlo
  poi := fun n => ((Backend.C51_sizes a m h hf).2.2.2.2 n 10).2.2.2.1
  constraints := by simp [plugged, hp]
  total := fun g e d => ⟨_, _, rfl⟩

end Verif.Chain
