import Verif.Hypotest.Gaussian

/-!
# Property C112 with bounds given by the caller

`par_bounds` of the caller replaces all bounds, the lower bound zero for tests without negative signals too.
-/

namespace Verif.Hypotest
open Verif.Py F Verif.Config Verif.Optimizer
open Verif.Interface (MuHat Data Toys World Size Plain Solver perfect Candidate perfect_spec Allowed InBounds)
open Verif.Stats (Expect Calc Levels gaussianLog gaussianFit gaussianLevel)
open Classical

theorem candidate_between {s l h y : ℝ} : Candidate [] [s] [false] [(some (fin l), some (fin h))] [y] ↔ l ≤ y ∧ y ≤ h := by
  constructor
  · rintro ⟨-, -, hb, -⟩
    have := hb 0 _ y rfl rfl
    have h1 := this.1 _ rfl
    have h2 := this.2 _ rfl
    simpa [le] using And.intro h1 h2
  · rintro ⟨h1, h2⟩
    refine ⟨rfl, ?_, ?_, by intro c hc; simp at hc⟩
    · intro k hk
      rcases k with _ | k <;> simp at hk
    · intro k b z hb hz
      rcases k with _ | k
      · simp only [List.getElem?_cons_zero, Option.some.injEq] at hb hz
        subst hb hz
        refine ⟨fun l hl => ?_, fun l hl => ?_⟩ <;> simp only [Option.some.injEq] at hl <;> subst hl <;> simpa [le]
      · simp at hb

theorem perfect_between {c σ x l h : ℝ} (hσ : 0 < σ) (h1 : l ≤ x) (h2 : x ≤ h) (f : List ℝ → F) (hf : ∀ y, f [y] = fin (-(gaussianLog c σ x y))) (g : Bool) (s : ℝ) :
    perfect f g [] 0 [s] [false] [(some (fin l), some (fin h))] = .ok (fin (-(gaussianLog c σ x x)), [x]) := by
  have hbest : ∀ y, -(gaussianLog c σ x x) ≤ -(gaussianLog c σ x y) ∧ (-(gaussianLog c σ x y) ≤ -(gaussianLog c σ x x) → y = x) := by
    intro y
    have h2 : 0 < 2 * σ ^ 2 := by positivity
    unfold gaussianLog
    rw [sub_self, zero_pow two_ne_zero, zero_div]
    have h3 : 0 ≤ (y - x) ^ 2 / (2 * σ ^ 2) := by positivity
    refine ⟨by linarith, fun h4 => ?_⟩
    have h5 : (y - x) ^ 2 / (2 * σ ^ 2) = 0 := by linarith
    rw [div_eq_zero_iff, or_iff_left h2.ne'] at h5
    have := pow_eq_zero_iff two_ne_zero |>.mp h5
    linarith
  have hex : ∃ v y, perfect f g [] 0 [s] [false] [(some (fin l), some (fin h))] = .ok (v, y) := by
    unfold perfect
    rw [dif_pos]
    · exact ⟨_, _, rfl⟩
    refine ⟨by simp, [x], candidate_between.mpr ⟨h1, h2⟩, fun x' hx' _ => ?_⟩
    obtain ⟨y, rfl⟩ := List.length_eq_one_iff.mp hx'.1
    rw [hf, hf]
    exact (hbest y).1
  obtain ⟨v, z, hz⟩ := hex
  obtain ⟨k1, -, k2, k3⟩ := perfect_spec hz
  obtain ⟨y, rfl⟩ := List.length_eq_one_iff.mp k2.1
  have h4 := k3 [x] (candidate_between.mpr ⟨h1, h2⟩) (by rw [hf]; simp)
  rw [hf, hf] at h4
  have := (hbest y).2 h4
  subst this
  rw [hz, k1, hf]

section
variable {c σ a lo l h : ℝ}

theorem gauss_best_between (hσ : 0 < σ) (e : Backend.Expectation) (n : Bool) (d : Option Data) (h1 : l ≤ (d.getD [a]).getD 0 0) (h2 : (d.getD [a]).getD 0 0 ≤ h)
    (g : Bool) (w : World) (hw : Plain 1 w) :
    (Interface.maximize perfect (gaussB c σ a lo) true e n d none none g (some [(some (fin l), some (fin h))]) w).1 =
      .ok (.one ((d.getD [a]).getD 0 0), fin (-(gaussianLog c σ ((d.getD [a]).getD 0 0) ((d.getD [a]).getD 0 0)))) := by
  obtain ⟨ws, wi, wc⟩ := w
  obtain ⟨w1, w2, w3⟩ := hw
  dsimp only at w1 w2 w3
  subst w1 w2
  obtain ⟨s, rfl⟩ := List.length_eq_one_iff.mp w3
  obtain ⟨x, hx⟩ : ∃ x, x = (d.getD [a]).getD 0 0 := ⟨_, rfl⟩
  rw [← hx] at h1 h2 ⊢
  have hp := perfect_between (c := c) hσ h1 h2 (fun y => fin (-(gaussianLog c σ x (y.getD 0 0)))) (fun y => rfl) false s
  have ho : Interface.getObjective (gaussB c σ a lo) e d g = .ok (fun y => fin (-(gaussianLog c σ x (y.getD 0 0))), false) := by
    cases g <;> simp [Interface.getObjective, gaussB, hx]
  have hm : (gaussB c σ a lo).minNegLL e n d none = .error .notImplemented := rfl
  simp only [Interface.maximize, hm, Interface.resolveFixed, Interface.prepareForFit, ho, Interface.runFit, fit, fitBounds,
    Interface.config, Option.map_none, Option.getD_none, List.nil_append, FixedPoi.pairs]
  have hc : (gaussB c σ a lo).constraints = [] := rfl
  have hf : ((gaussB c σ a lo).config n).fixed = none := rfl
  have hi : ((gaussB c σ a lo).config n).poiIndex = 0 := rfl
  have hl : ((gaussB c σ a lo).config n).bounds.length = 1 := rfl
  simp only [hc, hf, hi, hl, List.length_singleton, List.replicate_one, setFixed, Option.getD_none, setSuggested, hp, Except.mapError]
  simp [Interface.estimates, Interface.readKey, resolveKey, Interface.item, slot, gaussB, Except.map, Interface.scaleOut, neg]
  rw [hx, List.getD_eq_getElem?_getD]

theorem gauss_likelihood_any (v : ℝ) (e : Backend.Expectation) (n : Bool) (d : Option Data) (g : Bool) (b : Option (List Bound)) (w : World) (hw : Plain 1 w) :
    (Interface.likelihood perfect (gaussB c σ a lo) (.float v) e true d false n g b w).1 =
      .ok (.value (fin (-(gaussianLog c σ ((d.getD [a]).getD 0 0) v)))) := by
  obtain ⟨ws, wi, wc⟩ := w
  obtain ⟨h1, h2, h3⟩ := hw
  dsimp only at h3
  have ho : ∃ f, Interface.getObjective (gaussB c σ a lo) e d g = .ok f := by
    cases g <;> exact ⟨_, rfl⟩
  obtain ⟨⟨f, b⟩, ho⟩ := ho
  have hm : (gaussB c σ a lo).negLL (.float v) e d false = .error .notImplemented := rfl
  simp only [Interface.likelihood, hm, Interface.profile, Interface.prepareForFit, ho, Interface.config, ModelConfig.npar, h3]
  simp [gaussB, Except.map, Interface.scaleOut, neg]

theorem gauss_asimov_between (e : Backend.Expectation) (ts : String) (g : Bool) (h1 : l ≤ if ts = "q0" then 1 else 0) (h2 : (if ts = "q0" then 1 else 0) ≤ h) (w : World)
    (hw : Plain 1 w) :
    (Interface.generateAsimov perfect (gaussB c σ a lo) e ts g (some [(some (fin l), some (fin h))]) w).1 = .ok [if ts = "q0" then 1 else 0] := by
  obtain ⟨ws, wi, wc⟩ := w
  obtain ⟨w1, w2, w3⟩ := hw
  dsimp only at w1 w2 w3
  subst w1 w2
  obtain ⟨s, rfl⟩ := List.length_eq_one_iff.mp w3
  obtain ⟨z, hz⟩ : ∃ z : ℝ, z = if ts = "q0" then 1 else 0 := ⟨_, rfl⟩
  rw [← hz] at h1 h2 ⊢
  have ho : ∃ f b, Interface.getObjective (gaussB c σ a lo) e none g = .ok (f, b) := by
    cases g <;> exact ⟨_, _, rfl⟩
  obtain ⟨f, b, ho⟩ := ho
  have hb : Allowed (some (fin l), some (fin h)) z := by
    refine ⟨fun l' hl => ?_, fun l' hl => ?_⟩ <;> simp only [Option.some.injEq] at hl <;> subst hl <;> simpa [le]
  have hp := perfect_fixed hb f b
  simp only [Interface.generateAsimov, Interface.prepareForFit, ho, Interface.runFit, fit, fitBounds, ← hz,
    Interface.config, Option.map_none, Option.getD_none, List.nil_append, FixedPoi.pairs]
  have hc : (gaussB c σ a lo).constraints = [] := rfl
  have hf : ∀ n, ((gaussB c σ a lo).config n).fixed = none := fun _ => rfl
  have hi : ∀ n, ((gaussB c σ a lo).config n).poiIndex = 0 := fun _ => rfl
  have hl : ∀ n, ((gaussB c σ a lo).config n).bounds.length = 1 := fun _ => rfl
  have hs : slot 1 0 = some 0 := rfl
  simp only [hc, hf, hi, hl, List.length_singleton, List.replicate_one, setFixed, Option.getD_none, setSuggested, hs,
    List.set_cons_zero, if_true, Except.mapError, hp]
  rfl

/-- C112: with `par_bounds` that contain the measured value and zero the level is that of a Gaussian measurement, for every measured value, also above 10 and also
if negative: the bounds of the caller replace those of the model. -/
theorem C112_bounds (hσ : 0 < σ) (hl : l ≤ 0) (hh : 0 ≤ h) (ha : l ≤ a) (ha' : a ≤ h) {v : ℝ} (hv : 0 < v) (hav : a ≤ v) (negative : Bool) (mu : Mu)
    (hmu : mu.Is v) (doGrad : Bool) (ntoys : Size) (available : Calc → Bool) (hA : available .asymptotic = true) (percentile : List F → F → F)
    (w : World) (hw : Plain 1 w) :
    (exclusion (modelMethods perfect (gaussB c σ a lo) doGrad (some [(some (fin l), some (fin h))]) ntoys available percentile) mu .observed negative .asymptotic w).1 =
      .ok (.one [fin (gaussianLevel σ a v)]) := by
  have hq : (if (if negative then "q" else "qtilde") = "q0" then (1 : ℝ) else 0) = 0 := by cases negative <;> simp
  have key := C107_arguments perfect_exact (gaussB c σ a lo) 1 0 (gauss_usual c σ a lo) doGrad (some [(some (fin l), some (fin h))]) ntoys available percentile mu v hmu .observed
    negative w hw _ _ _ _ _ _ _ _ [0] (gauss_best_between hσ _ negative none (by simpa using ha) (by simpa using ha') doGrad w hw)
    (gauss_likelihood_any v _ true none doGrad _ w hw) (gauss_likelihood_any 0 _ true none doGrad _ w hw)
    (by rw [gauss_asimov_between _ _ doGrad (by rw [hq]; exact hl) (by rw [hq]; exact hh) w hw, hq])
    (gauss_best_between hσ _ negative (some [0]) (by simpa using hl) (by simpa using hh) doGrad w hw)
    (gauss_likelihood_any v _ true (some [0]) doGrad _ w hw) (gauss_likelihood_any 0 _ true (some [0]) doGrad _ w hw)
  rw [(key w hw).1]
  simp only [Option.getD_none, Option.getD_some, List.getD_cons_zero]
  have hf : ∀ m x : ℝ, x = m → ∀ t, (fitOf v x (fin (-(gaussianLog c σ m x))) (fin (-(gaussianLog c σ m v))) (fin (-(gaussianLog c σ m 0)))).stat t (fin v) =
      (gaussianFit c σ m false).stat t (fin v) ∨ ¬ (t = Stats.qmu ∨ t = Stats.qmuTilde) := fun m x hx t => fitOf_gaussian c σ m v x t false (by simpa using hx)
  have hc := level_congr ⟨fitOf v a (fin (-(gaussianLog c σ a a))) (fin (-(gaussianLog c σ a v))) (fin (-(gaussianLog c σ a 0))),
    fitOf v 0 (fin (-(gaussianLog c σ 0 0))) (fin (-(gaussianLog c σ 0 v))) (fin (-(gaussianLog c σ 0 0))), [], [], percentile, available⟩
    ⟨gaussianFit c σ a false, gaussianFit c σ 0 false, [], [], percentile, available⟩ (fin v) .observed negative rfl (hf a a rfl) (hf 0 0 rfl)
  rw [hc]
  rw [Stats.C105_observed _ c c σ a v negative false false (by cases negative <;> simp) (by cases negative <;> simp) hσ hv hav hA rfl rfl]
  rfl

end

/-- A measured value above the default bound: the level is that of a Gaussian measurement as soon as the caller allows it. -/
example : (exclusion (modelMethods perfect (gaussB 5 2 15 (-3)) true (some [(some (fin (-1)), some (fin 50))]) (.int 100) (fun _ => true) fun _ _ => nan) (.float 17) .observed false
    .asymptotic ⟨[1], none, none⟩).1 = .ok (.one [fin (gaussianLevel 2 15 17)]) :=
  C112_bounds (by norm_num) (by norm_num) (by norm_num) (by norm_num) (by norm_num) (by norm_num) (by norm_num) _ (.float 17) rfl _ _ _ rfl _ _ ⟨rfl, rfl, rfl⟩

end Verif.Hypotest
