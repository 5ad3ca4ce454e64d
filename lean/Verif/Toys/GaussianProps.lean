import Verif.Toys.Gaussian
import Verif.Toys.ExpectedProps

/-!
# Property C179: levels from toys of Gaussian models
-/

namespace Verif.Toys
open Verif.Py F Verif.Config Verif.Optimizer Verif.Hypotest Verif.Chain
open Verif.Interface (MuHat Data Toys World Size Plain Solver perfect)
open Verif.Backend (Ext Vec Args Built at')
open Verif.Stats (Expect Calc Levels)
open Verif.Uncorrelated (IsBest IsStat stat_unique)

/-- One minus the fraction of the numbers of toys that measure at most the strength `m`, with signal and without, if it is at most one. -/
noncomputable def measuredRatio (m : ℝ) (sig bkg : List ℝ) : ℝ :=
  let a := sig.countP fun x => decide (x ≤ m)
  let b := bkg.countP fun x => decide (x ≤ m)
  if b = 0 then 1 else 1 - min ((a : ℝ) / b) 1

theorem gaussian_counted {σ z v q : ℝ} (hσ : 0 < σ) (hq : IsStat (parabola σ z) v q) (h0 : 0 < q) {f : Vec → ℝ} {ds : List Vec} {qs : List ℝ}
    (h : List.Forall₂ (fun D q => IsStat (parabola σ (f D)) v q) ds qs) : qs.countP (fun x => decide (q ≤ x)) = (ds.map f).countP fun x => decide (x ≤ z) := by
  induction h with
  | nil => rfl
  | cons h1 _ ih =>
    rw [List.map_cons, List.countP_cons, List.countP_cons, ih]
    simp only [parabola_stat hσ hq h1 h0]

section
variable {S : Solver} (hS : Exact S) (hT : Finds S) (hC : Interface.Constrained S) {E : Ext} {draw : Vec × List Vec → ℕ → List Vec} (hd : Vectors draw)
  {a : Args} {m : Backend.Model} {P : ℕ → ℕ → ℝ} {y : Vec} (h : Case E a m P y)
  {mu : Mu} {v : ℝ} (hmu : mu.Is v) (g : Bool) {n : ℕ} (hn : 0 < n) {available : Calc → Bool} (hav : available .toy = true) {percentile : List F → F → F}
include hS hT hC hd h hmu hn hav

/-- C179: levels with toys of Gaussian models (independent bins or a covariance matrix). The toys are drawn at the expected values with signal of the tested strength and without signal; data and toys
count as the strength that they measure (generalised least squares), and the statistics are those of a Gaussian measurement of the strength. -/
theorem C179_levels (hv : 0 ≤ v) (hM : Linear percentile) (e : Expect) {σ : ℝ} (hσ : σ = deviation a.data.length P (at' y)) : ∃ q qs qb, IsStat (parabola σ (strength a P y (used a e))) v q ∧
    List.Forall₂ (fun D q => IsStat (parabola σ (strength a P y D)) v q) (draw ((List.range a.data.length).map fun i => v * at' y i + at' a.background i, []) n) qs ∧
    List.Forall₂ (fun D q => IsStat (parabola σ (strength a P y D)) v q) (draw (a.background, []) n) qb ∧
    Ends (Plain 1) (exclusion (modelMethods S (plugged E draw m) g none (.int n) available percentile) mu e false .toy) (.ok (toyLevels e q qs qb)) :=
  gaussian_toys h hS hT hC hd e hmu hv g hn hav (fun _ => hM) hσ

/-- C179: the observed level of a strength beyond the measured one compares the numbers of toys which measure at most as much as the data. -/
theorem C179_measured (hv : 0 < v) (hv' : v ≤ 10) (hlt : strength a P y a.data < v) :
    Ends (Plain 1) (exclusion (modelMethods S (plugged E draw m) g none (.int n) available percentile) mu .observed false .toy)
      (.ok (.one [fin (measuredRatio (strength a P y a.data) ((draw ((List.range a.data.length).map fun i => v * at' y i + at' a.background i, []) n).map (strength a P y))
        ((draw (a.background, []) n).map (strength a P y)))])) := by
  obtain ⟨q, qs, qb, h1, h2, h3, h4⟩ := gaussian_toys h hS hT hC hd .observed hmu hv.le g hn hav (percentile := percentile) (fun h => absurd rfl h) rfl
  have hσ := deviation_pos h.informative
  have hq := parabola_pos hσ hv hv' hlt h1
  have e1 := gaussian_counted hσ h1 hq h2
  have e2 := gaussian_counted hσ h1 hq h3
  have : ratio q qs qb = measuredRatio (strength a P y a.data) ((draw ((List.range a.data.length).map fun i => v * at' y i + at' a.background i, []) n).map (strength a P y))
      ((draw (a.background, []) n).map (strength a P y)) := by
    unfold ratio measuredRatio
    rw [e1, e2]
    rfl
  rw [← this]
  exact h4

/-- C179: a strength up to the measured one is not excluded at all, whatever the toys are. -/
theorem C179_zero (hv : 0 ≤ v) (hv' : v ≤ 10) (hle : v ≤ strength a P y a.data) :
    Ends (Plain 1) (exclusion (modelMethods S (plugged E draw m) g none (.int n) available percentile) mu .observed false .toy) (.ok (.one [fin 0])) := by
  obtain ⟨q, qs, qb, h1, h2, h3, h4⟩ := gaussian_toys h hS hT hC hd .observed hmu hv g hn hav (percentile := percentile) (fun h => absurd rfl h) rfl
  have hσ := deviation_pos h.informative
  have hb : v ≤ nearest 0 (strength a P y a.data) := le_min (hle.trans (le_max_left _ _)) hv'
  have hq : q = 0 := stat_unique (parabola_concave hσ _) h1 ⟨_, parabola_best hσ _, fun hle => by
    have e : nearest 0 (strength a P y (used a .observed)) = v := le_antisymm hle hb
    rw [e]
    simp, fun _ => rfl⟩
  have : ratio q qs qb = 0 := by
    subst hq
    unfold ratio
    simp only [all_counted h2, all_counted h3, (hd _ _).1]
    have : (n : ℝ) ≠ 0 := by positivity
    simp [hn.ne', this]
  rw [← this]
  exact h4

end

/-- Random numbers as they are assumed: the expected values, then always one less. -/
noncomputable def exNormals (r : Vec × List Vec) (n : ℕ) : List Vec := (List.range n).map fun i => r.1.map (fun x => x - i)

theorem exNormals_vectors : Vectors exNormals := by
  intro r n
  refine ⟨by simp [exNormals], fun D hD => ?_⟩
  obtain ⟨j, -, rfl⟩ := List.mem_map.mp hD
  simp

theorem exGauss_strength (D : Vec) : strength exGaussArgs (independent (at' [1, 1])) [2, 1] D = (2 * (at' D 0 - 5) + (at' D 1 - 5)) / 5 := by
  have hform : ∀ x y, form 2 (independent (at' [1, 1])) x y = x 0 * y 0 + x 1 * y 1 := by
    intro x y
    rw [form_independent]
    simp [Finset.sum_range_succ, at']
  show form 2 _ _ _ / form 2 _ _ _ = _
  rw [hform, hform]
  norm_num [at', exGaussArgs]

theorem exGauss_model (E : Ext) : ∃ m, Case E exGaussArgs m (independent (at' [1, 1])) [2, 1] := by
  have : ∃ m, Backend.gaussian exGaussArgs [1, 1] = .ok m := by
    unfold Backend.gaussian Backend.simpleConfig
    simp only [exGaussArgs, Backend.minimumPoi, exGauss_alive, if_true, Backend.ok_bind, Backend.sigBounds]
    exact ⟨_, rfl⟩
  obtain ⟨m, hm⟩ := this
  refine ⟨m, exGauss_case (.normal [1, 1] hm rfl fun i hi => ?_) ?_⟩
  · have hi : i < 2 := hi
    interval_cases i <;> simp [at']
  · rw [form_independent]
    norm_num [Finset.sum_range_succ, at']

/-- Signal 2 and 1, background 5 and 5, uncertainty 1 in both bins: the data 7 and 6 measure the strength 1. For the strength 2, the toys with signal measure 2, 1.4 and 0.8, those without 0, -0.6 and
-1.2: the level is 2/3. The hypotheses of `C179_measured` hold. -/
example (E : Ext) (g : Bool) (percentile : List F → F → F) : ∃ m, Case E exGaussArgs m (independent (at' [1, 1])) [2, 1] ∧
    Ends (Plain 1) (exclusion (modelMethods perfect (plugged E exNormals m) g none (.int 3) (fun _ => true) percentile) (.float 2) .observed false .toy) (.ok (.one [fin (2 / 3)])) := by
  obtain ⟨m, h⟩ := exGauss_model E
  have e0 : strength exGaussArgs (independent (at' [1, 1])) [2, 1] exGaussArgs.data = 1 := by
    rw [exGauss_strength]
    norm_num [exGaussArgs, at']
  have hE := C179_measured Hypotest.perfect_exact perfect_finds Interface.perfect_constrained exNormals_vectors h (mu := .float 2) (v := 2) rfl g (n := 3) (by norm_num)
    (available := fun _ => true) rfl (percentile := percentile) (by norm_num) (by norm_num) (by rw [e0]; norm_num)
  refine ⟨m, h, ?_⟩
  rw [e0] at hE
  have : measuredRatio 1 ((exNormals ((List.range exGaussArgs.data.length).map fun i => 2 * at' [2, 1] i + at' exGaussArgs.background i, []) 3).map (strength exGaussArgs (independent (at' [1, 1])) [2, 1]))
      ((exNormals (exGaussArgs.background, []) 3).map (strength exGaussArgs (independent (at' [1, 1])) [2, 1])) = 2 / 3 := by
    have hs : strength exGaussArgs (independent (at' [1, 1])) [2, 1] = fun D => (2 * (at' D 0 - 5) + (at' D 1 - 5)) / 5 := funext exGauss_strength
    rw [hs]
    norm_num [measuredRatio, exNormals, exGaussArgs, at', List.range_succ, List.countP_cons]
  rwa [this] at hE

/-- The hypotheses of `C179_levels` and, at strength 1, of `C179_zero` hold. -/
example (E : Ext) : ∃ m, Case E exGaussArgs m (independent (at' [1, 1])) [2, 1] ∧ Vectors exNormals ∧ Linear exPercentile ∧ (1 : ℝ) ≤ strength exGaussArgs (independent (at' [1, 1])) [2, 1] exGaussArgs.data := by
  obtain ⟨m, h⟩ := exGauss_model E
  refine ⟨m, h, exNormals_vectors, exPercentile_linear, ?_⟩
  rw [exGauss_strength]
  norm_num [exGaussArgs, at']

end Verif.Toys
