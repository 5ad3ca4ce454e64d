import Verif.Hypotest.ModelProps
import Verif.Interface.RatioFits

/-!
# Property C112: a Gaussian measurement, from `exclusion_confidence_level` to the closed formula
-/

namespace Verif.Hypotest
open Verif.Py F Verif.Config Verif.Optimizer
open Verif.Interface (MuHat Data Toys World Size Plain Solver perfect Candidate perfect_spec Allowed InBounds)
open Verif.Stats (Expect Calc Levels gaussianLog gaussianFit gaussianLevel)
open Classical

/-- A backend with one parameter whose likelihood is Gaussian: the measured value is `a`, or the first entry of other data, with uncertainty `σ`. The
signal strength is between `lo` (or zero) and 10, the default of `poi_upper_bound`
(`/repo/src/spey/backends/default_pdf/__init__.py` L396-436). The expected data are the parameters. -/
noncomputable def gaussB (c σ a lo : ℝ) : Interface.Backend where
  config n := ⟨0, fin lo, [], [(some (if n then fin lo else fin 0), some (fin 10))], none, none⟩
  objective g _ d := if g then .error .notImplemented else .ok fun x => fin (-(gaussianLog c σ ((d.getD [a]).getD 0 0) (x.getD 0 0)))
  logpdf _ d x := fin (gaussianLog c σ ((d.getD [a]).getD 0 0) (x.getD 0 0))
  constraints := []
  expectedData x := .ok x
  hessian _ := .error .notImplemented
  sampler _ := .error .notImplemented
  negLL _ _ _ _ := .error .notImplemented
  minNegLL _ _ _ _ := .error .notImplemented
  asimovNegLL _ _ _ := .error .notImplemented
  minAsimovNegLL _ _ _ := .error .notImplemented

theorem gauss_usual (c σ a lo : ℝ) : Usual (gaussB c σ a lo) 1 0 where
  fallback := ⟨fun _ _ _ _ => rfl, fun _ _ _ _ => rfl, fun _ _ _ => rfl, fun _ _ _ => rfl⟩
  consistent := by
    intro g e d f h x
    simp only [gaussB] at h
    split at h
    · simp at h
    · simp only [Except.ok.injEq] at h
      rw [← h]
      simp [gaussB, neg]
  fixed := fun _ => rfl
  length := fun _ => rfl
  poi := fun _ => rfl
  bounds := by
    intro n b h
    simp only [gaussB, List.getElem?_cons_zero, Option.some.injEq] at h
    subst h
    exact ⟨rfl, rfl⟩

theorem perfect_exact : Exact perfect :=
  ⟨Interface.perfect_honest, Interface.perfect_optimal, Interface.perfect_inside, Interface.perfect_free⟩

/-- What is best for the measured value `x` between `lo` and 10. -/
noncomputable def nearest (lo x : ℝ) : ℝ := min (max x lo) 10

theorem nearest_best {c σ x lo y : ℝ} (hσ : 0 < σ) (hlo : lo ≤ 10) (h1 : lo ≤ y) (h2 : y ≤ 10) :
    -(gaussianLog c σ x (nearest lo x)) ≤ -(gaussianLog c σ x y) ∧
      (-(gaussianLog c σ x (nearest lo x)) = -(gaussianLog c σ x y) → y = nearest lo x) := by
  have key : (nearest lo x - x) ^ 2 ≤ (y - x) ^ 2 ∧ ((nearest lo x - x) ^ 2 = (y - x) ^ 2 → y = nearest lo x) := by
    unfold nearest
    rcases le_total x lo with h | h
    · rw [max_eq_right h, min_eq_left hlo]
      constructor
      · nlinarith
      · intro h'
        nlinarith [sq_nonneg (y - lo), mul_nonneg (sub_nonneg.mpr h1) (sub_nonneg.mpr h)]
    · rw [max_eq_left h]
      rcases le_total x 10 with h' | h'
      · rw [min_eq_left h']
        constructor
        · simp [sq_nonneg]
        · intro h''
          have : (y - x) ^ 2 = 0 := by rw [← h'']; ring
          nlinarith
      · rw [min_eq_right h']
        constructor
        · nlinarith
        · intro h''
          nlinarith [sq_nonneg (y - 10), mul_nonneg (sub_nonneg.mpr h2) (sub_nonneg.mpr h')]
  have h2 : 0 < 2 * σ ^ 2 := by positivity
  unfold gaussianLog
  constructor
  · have := div_le_div_of_nonneg_right key.1 h2.le
    linarith
  · intro h
    apply key.2
    have : (nearest lo x - x) ^ 2 / (2 * σ ^ 2) = (y - x) ^ 2 / (2 * σ ^ 2) := by linarith
    field_simp at this
    linarith

theorem candidate_one {s lo y : ℝ} {f : Bool} (hf : f = true → y = s) :
    Candidate [] [s] [f] [(some (fin lo), some (fin 10))] [y] ↔ lo ≤ y ∧ y ≤ 10 := by
  constructor
  · rintro ⟨-, -, h, -⟩
    have := h 0 _ y rfl rfl
    have h1 := this.1 _ rfl
    have h2 := this.2 _ rfl
    simpa [le] using And.intro h1 h2
  · rintro ⟨h1, h2⟩
    refine ⟨rfl, ?_, ?_, by intro c hc; simp at hc⟩
    · intro k hk
      rcases k with _ | k
      · simp only [List.getElem?_cons_zero, Option.some.injEq] at hk ⊢
        exact hf hk
      · simp at hk
    · intro k b z hb hz
      rcases k with _ | k
      · simp only [List.getElem?_cons_zero, Option.some.injEq] at hb hz
        subst hb hz
        refine ⟨fun l hl => ?_, fun l hl => ?_⟩ <;> simp only [Option.some.injEq] at hl <;> subst hl <;> simpa [le]
      · simp at hb

theorem perfect_one {c σ x lo : ℝ} (hσ : 0 < σ) (hlo : lo ≤ 10) (f : List ℝ → F) (hf : ∀ y, f [y] = fin (-(gaussianLog c σ x y))) (g : Bool) (s : ℝ) :
    perfect f g [] 0 [s] [false] [(some (fin lo), some (fin 10))] =
      .ok (fin (-(gaussianLog c σ x (nearest lo x))), [nearest lo x]) := by
  have hn : lo ≤ nearest lo x ∧ nearest lo x ≤ 10 := ⟨le_min (le_max_right _ _) hlo, min_le_right _ _⟩
  have hex : ∃ v y, perfect f g [] 0 [s] [false] [(some (fin lo), some (fin 10))] = .ok (v, y) := by
    unfold perfect
    rw [dif_pos]
    · exact ⟨_, _, rfl⟩
    refine ⟨by simp, [nearest lo x], (candidate_one (by simp)).mpr hn, fun x' hx' _ => ?_⟩
    obtain ⟨y, rfl⟩ := List.length_eq_one_iff.mp hx'.1
    have := (candidate_one (by simp)).mp hx'
    rw [hf, hf]
    exact (nearest_best hσ hlo this.1 this.2).1
  obtain ⟨v, z, hz⟩ := hex
  obtain ⟨h1, -, h2, h3⟩ := perfect_spec hz
  obtain ⟨y, rfl⟩ := List.length_eq_one_iff.mp h2.1
  have hy := (candidate_one (by simp)).mp h2
  have h4 := h3 [nearest lo x] ((candidate_one (by simp)).mpr hn) (by rw [hf]; simp)
  rw [hf, hf] at h4
  have h5 := nearest_best (c := c) (x := x) hσ hlo hy.1 hy.2
  have := h5.2 (le_antisymm h5.1 h4)
  subst this
  rw [hz, h1, hf]

theorem perfect_fixed {s : ℝ} {b : Bound} (hb : Allowed b s) (f : List ℝ → F) (g : Bool) : perfect f g [] 0 [s] [true] [b] = .ok (f [s], [s]) := by
  have hin : InBounds [b] [s] := by
    intro k b' z hb' hz
    rcases k with _ | k
    · simp only [List.getElem?_cons_zero, Option.some.injEq] at hb' hz
      subst hb' hz
      exact hb
    · simp at hb'
  have huniq : ∀ x', Candidate [] [s] [true] [b] x' → x' = [s] := by
    intro x' hx'
    obtain ⟨y, rfl⟩ := List.length_eq_one_iff.mp hx'.1
    have := hx'.2.1 0 rfl
    simpa using this
  have hex : ∃ v y, perfect f g [] 0 [s] [true] [b] = .ok (v, y) := by
    unfold perfect
    rw [dif_pos]
    · exact ⟨_, _, rfl⟩
    refine ⟨by simp, [s], ⟨rfl, fun _ _ => rfl, hin, by intro c hc; simp at hc⟩, fun x' hx' hn => ?_⟩
    rw [huniq x' hx'] at hn ⊢
    exact Interface.le_self hn
  obtain ⟨v, z, hz⟩ := hex
  obtain ⟨h1, -, h2, -⟩ := perfect_spec hz
  rw [hz, h1, huniq z h2]

theorem gauss_best {c σ a lo : ℝ} (hσ : 0 < σ) (hlo : lo ≤ 0) (e : Backend.Expectation) (n : Bool) (d : Option Data) (g : Bool) (w : World)
    (hw : Plain 1 w) :
    (Interface.maximize perfect (gaussB c σ a lo) true e n d none none g none w).1 =
      .ok (.one (nearest (if n then lo else 0) ((d.getD [a]).getD 0 0)),
        fin (-(gaussianLog c σ ((d.getD [a]).getD 0 0) (nearest (if n then lo else 0) ((d.getD [a]).getD 0 0))))) := by
  obtain ⟨ws, wi, wc⟩ := w
  obtain ⟨h1, h2, h3⟩ := hw
  dsimp only at h1 h2 h3
  subst h1 h2
  obtain ⟨s, rfl⟩ := List.length_eq_one_iff.mp h3
  obtain ⟨x, hx⟩ : ∃ x, x = (d.getD [a]).getD 0 0 := ⟨_, rfl⟩
  rw [← hx]
  obtain ⟨lo', hlo'⟩ : ∃ lo' : ℝ, lo' = if n then lo else 0 := ⟨_, rfl⟩
  rw [← hlo']
  have hb : (if n then fin lo else fin 0) = fin lo' := by rw [hlo']; cases n <;> rfl
  have hl : lo' ≤ 10 := by rw [hlo']; split <;> linarith
  have hp := perfect_one (c := c) (x := x) hσ hl (fun y => fin (-(gaussianLog c σ x (y.getD 0 0)))) (fun y => rfl) false s
  have ho : Interface.getObjective (gaussB c σ a lo) e d g = .ok (fun y => fin (-(gaussianLog c σ x (y.getD 0 0))), false) := by
    cases g <;> simp [Interface.getObjective, gaussB, hx]
  have hm : (gaussB c σ a lo).minNegLL e n d none = .error .notImplemented := rfl
  simp only [Interface.maximize, hm, Interface.resolveFixed, Interface.prepareForFit, ho, Interface.runFit, fit, fitBounds, fixedPoiBounds,
    Interface.config, Option.map_none, Option.getD_none, List.nil_append, Except.map, FixedPoi.pairs]
  have hc : (gaussB c σ a lo).constraints = [] := rfl
  have hb' : ((gaussB c σ a lo).config n).bounds = [(some (fin lo'), some (fin 10))] := by rw [← hb]; rfl
  have hf : ((gaussB c σ a lo).config n).fixed = none := rfl
  have hi : ((gaussB c σ a lo).config n).poiIndex = 0 := rfl
  simp only [hc, hb', hf, hi, List.length_singleton, List.replicate_one, setFixed, Option.getD_none, setSuggested, hp, Except.mapError]
  simp [Interface.estimates, Interface.readKey, resolveKey, Interface.item, slot, gaussB, Except.map, Interface.scaleOut, neg]
  rw [hx, List.getD_eq_getElem?_getD]

theorem gauss_likelihood (c σ a lo v : ℝ) (e : Backend.Expectation) (n : Bool) (d : Option Data) (g : Bool) (w : World) (hw : Plain 1 w) :
    (Interface.likelihood perfect (gaussB c σ a lo) (.float v) e true d false n g none w).1 =
      .ok (.value (fin (-(gaussianLog c σ ((d.getD [a]).getD 0 0) v)))) := by
  obtain ⟨ws, wi, wc⟩ := w
  obtain ⟨h1, h2, h3⟩ := hw
  dsimp only at h3
  have ho : ∃ f, Interface.getObjective (gaussB c σ a lo) e d g = .ok f := by
    cases g <;> exact ⟨_, rfl⟩
  obtain ⟨⟨f, b⟩, ho⟩ := ho
  have hm : (gaussB c σ a lo).negLL (.float v) e d false = .error .notImplemented := rfl
  simp only [Interface.likelihood, hm, Interface.profile, Interface.prepareForFit, ho, Interface.config, ModelConfig.npar, h3]
  simp [gaussB, Except.map, Interface.scaleOut, neg]

theorem gauss_asimov (c σ a lo : ℝ) (e : Backend.Expectation) (ts : String) (g : Bool) (w : World) (hw : Plain 1 w) :
    (Interface.generateAsimov perfect (gaussB c σ a lo) e ts g none w).1 = .ok [if ts = "q0" then 1 else 0] := by
  obtain ⟨ws, wi, wc⟩ := w
  obtain ⟨h1, h2, h3⟩ := hw
  dsimp only at h1 h2 h3
  subst h1 h2
  obtain ⟨s, rfl⟩ := List.length_eq_one_iff.mp h3
  obtain ⟨n, hn⟩ : ∃ n, n = Interface.mayBeNegative ts := ⟨_, rfl⟩
  obtain ⟨z, hz⟩ : ∃ z : ℝ, z = if ts = "q0" then 1 else 0 := ⟨_, rfl⟩
  have hz0 : 0 ≤ z := by rw [hz]; split <;> norm_num
  have ho : ∃ f b, Interface.getObjective (gaussB c σ a lo) e none g = .ok (f, b) := by
    cases g <;> exact ⟨_, _, rfl⟩
  obtain ⟨f, b, ho⟩ := ho
  have hb : Allowed (adjust (fin lo) (fun v low => pyMax (fin (v + 1)) low) (some (if n then fin lo else fin 0), some (fin 10)) z) z :=
    Interface.adjust_allowed (Or.inr ⟨rfl, rfl⟩) (Or.inl hz0)
  have hp := perfect_fixed hb f b
  rw [← hz]
  simp only [Interface.generateAsimov, Interface.prepareForFit, ho, Interface.runFit, fit, fitBounds, fixedPoiBounds, ← hn, ← hz,
    Interface.config, Option.map_none, Option.getD_none, List.nil_append, Except.map, FixedPoi.pairs]
  have hc : (gaussB c σ a lo).constraints = [] := rfl
  have hb' : ((gaussB c σ a lo).config n).bounds = [(some (if n then fin lo else fin 0), some (fin 10))] := rfl
  have hm' : ((gaussB c σ a lo).config n).minimumPoi = fin lo := rfl
  have hf : ((gaussB c σ a lo).config n).fixed = none := rfl
  have hi : ((gaussB c σ a lo).config n).poiIndex = 0 := rfl
  have hs : slot 1 0 = some 0 := rfl
  simp only [hc, hb', hf, hi, hm', List.length_singleton, List.replicate_one, setFixed, Option.getD_none, setSuggested, hs, List.modify_cons,
    List.set_cons_zero, if_true, Except.mapError, hp]
  rfl

/-- Only the likelihoods at the tested value and at zero matter. -/
theorem level_congr (B B' : Stats.Backend) (mu : F) (e : Expect) (neg : Bool) (ha : B.available = B'.available)
    (hD : ∀ t, B.data.stat t mu = B'.data.stat t mu ∨ ¬ (t = Stats.qmu ∨ t = Stats.qmuTilde))
    (hA : ∀ t, B.asimov.stat t mu = B'.asimov.stat t mu ∨ ¬ (t = Stats.qmu ∨ t = Stats.qmuTilde)) :
    Stats.exclusionConfidenceLevel B mu e neg .asymptotic = Stats.exclusionConfidenceLevel B' mu e neg .asymptotic := by
  obtain ⟨t, ht⟩ := Stats.getName_ok neg
  have hcases : t = Stats.qmu ∨ t = Stats.qmuTilde := by
    cases neg
    · right; simpa [Stats.get_qtilde] using ht.symm
    · left; simpa [Stats.get_q] using ht.symm
  have h1 := (hD t).resolve_right (not_not.mpr hcases)
  have h2 := (hA t).resolve_right (not_not.mpr hcases)
  unfold Stats.exclusionConfidenceLevel
  simp only [Stats.calculatorPvalues, Stats.asymptoticPvalues, ha]
  rw [Stats.compute_eq ht, Stats.compute_eq ht, h1, h2]

theorem fitOf_gaussian (c σ m v x : ℝ) (t : Stats.TestStat) (r : Bool) (hx : x = if r then max m 0 else m) :
    (fitOf v x (fin (-(gaussianLog c σ m x))) (fin (-(gaussianLog c σ m v))) (fin (-(gaussianLog c σ m 0)))).stat t (fin v) =
      (gaussianFit c σ m r).stat t (fin v) ∨ ¬ (t = Stats.qmu ∨ t = Stats.qmuTilde) := by
  by_cases h : t = Stats.qmu ∨ t = Stats.qmuTilde
  swap
  · exact Or.inr h
  left
  have hv : ∀ y, (fin y : F) = fin v ∨ (fin y : F) = fin 0 → (fitOf v x (fin (-(gaussianLog c σ m x))) (fin (-(gaussianLog c σ m v)))
      (fin (-(gaussianLog c σ m 0)))).logpdf (fin y) = (gaussianFit c σ m r).logpdf (fin y) := by
    intro y hy
    simp only [fitOf, gaussianFit, Stats.lift]
    by_cases h1 : (fin y : F) = fin v
    · rw [if_pos h1]
      simp only [fin.injEq] at h1
      simp [neg, h1]
    · have h2 := hy.resolve_left h1
      rw [if_neg h1, if_pos h2]
      simp only [fin.injEq] at h2
      simp [neg, h2]
  have e1 := hv v (Or.inl rfl)
  have e2 := hv 0 (Or.inr rfl)
  have e3 : (fitOf v x (fin (-(gaussianLog c σ m x))) (fin (-(gaussianLog c σ m v))) (fin (-(gaussianLog c σ m 0)))).muhat =
      (gaussianFit c σ m r).muhat := by simp [fitOf, gaussianFit, hx]
  have e4 : (fitOf v x (fin (-(gaussianLog c σ m x))) (fin (-(gaussianLog c σ m v))) (fin (-(gaussianLog c σ m 0)))).nll =
      (gaussianFit c σ m r).nll := by simp [fitOf, gaussianFit, hx]
  rcases h with rfl | rfl
  · simp only [Stats.Fit.stat, Stats.qmu, e1, e3, e4]
  · simp only [Stats.Fit.stat, Stats.qmuTilde, e1, e2, e3, e4]

/-- C112: `exclusion_confidence_level` of a model with one parameter and a Gaussian likelihood is the exact CLs of a Gaussian
measurement, whatever was asked before, if the measured value is inside the bounds. -/
theorem C112_levels_partial (c σ a lo v : ℝ) (hσ : 0 < σ) (hlo : lo ≤ 0) (ha : lo ≤ a) (ha' : a ≤ 10) (hv : 0 < v) (hav : a ≤ v) (negative : Bool) (mu : Mu)
    (hmu : mu.Is v) (doGrad : Bool) (ntoys : Size) (available : Calc → Bool) (hA : available .asymptotic = true) (percentile : List F → F → F)
    (w : World) (hw : Plain 1 w) :
    (exclusion (modelMethods perfect (gaussB c σ a lo) doGrad none ntoys available percentile) mu .observed negative .asymptotic w).1 =
      .ok (.one [fin (gaussianLevel σ a v)]) := by
  have hn : nearest (if negative then lo else 0) a = if (!negative) then max a 0 else a := by
    unfold nearest
    cases negative
    · simp [ha']
    · simp [ha, ha']
  have hn0 : nearest (if negative then lo else 0) 0 = if (!negative) then max 0 0 else 0 := by
    unfold nearest
    cases negative <;> simp [hlo]
  obtain ⟨m, l, mA, lA, hb, hbA, -, -, -, -, -, -, -, h⟩ := C107_profile perfect_exact (gaussB c σ a lo) 1 0 (gauss_usual c σ a lo) doGrad ntoys
    available percentile mu v hmu hv.le .observed negative w hw _ _ _ _ _ _ _ (gauss_best hσ hlo _ negative none doGrad w hw)
    (gauss_likelihood c σ a lo v _ true none doGrad w hw) (gauss_likelihood c σ a lo 0 _ true none doGrad w hw)
    (gauss_asimov c σ a lo _ _ doGrad w hw) (gauss_best hσ hlo _ negative (some _) doGrad w hw)
    (gauss_likelihood c σ a lo v _ true (some _) doGrad w hw) (gauss_likelihood c σ a lo 0 _ true (some _) doGrad w hw)
  have hq : (if (if negative then "q" else "qtilde") = "q0" then (1 : ℝ) else 0) = 0 := by cases negative <;> simp
  simp only [Option.getD_none, Option.getD_some, List.getD_cons_zero, hq, Prod.mk.injEq, MuHat.one.injEq] at hb hbA h
  obtain ⟨rfl, rfl⟩ := hb
  obtain ⟨rfl, rfl⟩ := hbA
  rw [(h w hw).1]
  rw [level_congr ⟨fitOf v _ _ _ _, fitOf v _ _ _ _, _, _, _, _⟩ ⟨gaussianFit c σ a (!negative), gaussianFit c σ 0 (!negative), [], [], percentile, available⟩ (fin v) .observed negative rfl
    (fun t => fitOf_gaussian c σ a v _ t (!negative) hn) (fun t => fitOf_gaussian c σ 0 v _ t (!negative) hn0)]
  rw [Stats.C105_observed _ c c σ a v negative (!negative) (!negative) (by cases negative <;> simp) (by cases negative <;> simp) hσ hv hav hA rfl rfl]
  rfl

example : (exclusion (modelMethods perfect (gaussB 5 2 1 (-3)) true none (.int 100) (fun _ => true) fun _ _ => nan) (.float 4) .observed false
    .asymptotic ⟨[1], none, none⟩).1 = .ok (.one [fin (gaussianLevel 2 1 4)]) :=
  C112_levels_partial 5 2 1 (-3) 4 (by norm_num) (by norm_num) (by norm_num) (by norm_num) (by norm_num) (by norm_num) _ (.float 4) rfl _ _ _ rfl _ _
    ⟨rfl, rfl, rfl⟩

/-- The significance of a Gaussian measurement `a`: that of the value between zero and 10 next to it. -/
theorem gauss_significance (c σ a lo : ℝ) (hσ : 0 < σ) (hlo : lo ≤ 0) (doGrad : Bool) (ntoys : Size) (available : Calc → Bool)
    (percentile : List F → F → F) (w : World) (hw : Plain 1 w) :
    (significance (modelMethods perfect (gaussB c σ a lo) doGrad none ntoys available percentile) .observed w).1 =
      .ok (Stats.discovery (1 / σ) (Real.sqrt ((a ^ 2 - (nearest 0 a - a) ^ 2) / σ ^ 2))) := by
  obtain ⟨hlik, hmax, hasi⟩ := model_ends perfect_exact (gauss_usual c σ a lo) doGrad ntoys available percentile .observed w hw
  obtain ⟨hlikA, hmaxA⟩ := hasi "q0" _ (gauss_asimov c σ a lo _ _ doGrad w hw)
  have h0 : nearest 0 1 = 1 := by norm_num [nearest]
  have hneg : Interface.mayBeNegative "q0" = false := by simp [Interface.mayBeNegative]
  have hb := hmax none false _ (gauss_best hσ hlo _ false none doGrad w hw)
  have hl := hlik none 0 _ (gauss_likelihood c σ a lo 0 _ true none doGrad w hw)
  have hbA := hmaxA _ (by rw [hneg]; exact gauss_best hσ hlo _ false (some _) doGrad w hw)
  have hlA := hlikA 0 _ (gauss_likelihood c σ a lo 0 _ true (some _) doGrad w hw)
  simp only [Option.getD_none, Option.getD_some, List.getD_cons_zero, if_true, Bool.false_eq_true, if_false, h0] at hb hl hbA hlA
  have h := (C107_significance _ ⟨w, hw⟩ .observed _ _ _ ⟨hb, hl, hl⟩ _ _ _ ⟨hbA, hlA, hlA⟩ w hw).1
  rw [h]
  have hn : 0 ≤ nearest 0 a := le_min (le_max_right _ _) (by norm_num)
  have hbest : (nearest 0 a - a) ^ 2 ≤ a ^ 2 := by
    have := (nearest_best (c := 0) (x := a) hσ (by norm_num) (le_refl (0 : ℝ)) (by norm_num)).1
    unfold gaussianLog at this
    have h2 : 0 < 2 * σ ^ 2 := by positivity
    have h3 : (nearest 0 a - a) ^ 2 / (2 * σ ^ 2) ≤ (0 - a) ^ 2 / (2 * σ ^ 2) := by linarith
    have := (div_le_div_iff_of_pos_right h2).mp h3
    simpa using this
  have e1 : (fitOf 0 (nearest 0 a) (fin (-(gaussianLog c σ a (nearest 0 a)))) (fin (-(gaussianLog c σ a 0))) (fin (-(gaussianLog c σ a 0)))).stat
      Stats.q0 (fin 0) = fin ((a ^ 2 - (nearest 0 a - a) ^ 2) / σ ^ 2) := by
    simp only [Stats.Fit.stat, Stats.q0, fitOf, lt, not_lt.mpr hn, if_false, if_true, neg, sub, add, scale, clip0]
    refine Stats.clip_eq ?_ (div_nonneg (sub_nonneg.mpr hbest) (by positivity))
    unfold gaussianLog
    field_simp
    ring
  have e2 : (fitOf 0 1 (fin (-(gaussianLog c σ 1 1))) (fin (-(gaussianLog c σ 1 0))) (fin (-(gaussianLog c σ 1 0)))).stat
      Stats.q0 (fin 0) = fin (1 ^ 2 / σ ^ 2) := by
    simp only [Stats.Fit.stat, Stats.q0, fitOf, lt, not_lt.mpr zero_le_one, if_false, if_true, neg, sub, add, scale, clip0]
    refine Stats.clip_eq ?_ (by positivity)
    unfold gaussianLog
    field_simp
    ring
  rw [Stats.C11_significance _ _ _ _ (div_nonneg (sub_nonneg.mpr hbest) (by positivity)) (by positivity) e1 e2, Stats.sqrt_ratio zero_le_one hσ]
  rfl

/-- C112: with a best fit inside the bounds the significance is that of a Gaussian measurement. -/
theorem C112_discovery_partial (c σ a lo : ℝ) (hσ : 0 < σ) (hlo : lo ≤ 0) (ha : 0 ≤ a) (ha' : a ≤ 10) (doGrad : Bool) (ntoys : Size)
    (available : Calc → Bool) (percentile : List F → F → F) (w : World) (hw : Plain 1 w) :
    (significance (modelMethods perfect (gaussB c σ a lo) doGrad none ntoys available percentile) .observed w).1 =
      .ok (Stats.discovery (1 / σ) (a / σ)) := by
  have h := gauss_significance c σ a lo hσ hlo doGrad ntoys available percentile w hw
  have hn : nearest 0 a = a := by simp [nearest, ha, ha']
  rw [h, hn, sub_self, ← Stats.sqrt_ratio ha hσ]
  simp

/-- It is not if the best value is above the bound of the signal strength, 10 unless told otherwise: the significance is then underestimated. -/
theorem C112_bound_fails (c σ a lo : ℝ) (hσ : 0 < σ) (hlo : lo ≤ 0) (ha : 10 < a) (doGrad : Bool) (ntoys : Size)
    (available : Calc → Bool) (percentile : List F → F → F) (w : World) (hw : Plain 1 w) :
    ∃ z, (significance (modelMethods perfect (gaussB c σ a lo) doGrad none ntoys available percentile) .observed w).1 =
      .ok (Stats.discovery (1 / σ) z) ∧ z < a / σ := by
  have h := gauss_significance c σ a lo hσ hlo doGrad ntoys available percentile w hw
  have hn : nearest 0 a = 10 := by
    unfold nearest
    rw [max_eq_left (by linarith), min_eq_right ha.le]
  refine ⟨_, h, ?_⟩
  rw [hn, ← Stats.sqrt_ratio (by linarith : 0 ≤ a) hσ]
  apply Real.sqrt_lt_sqrt
  · apply div_nonneg _ (by positivity)
    nlinarith
  · apply div_lt_div_of_pos_right _ (by positivity)
    nlinarith

example : ∃ z, (significance (modelMethods perfect (gaussB 5 1 15 (-3)) true none (.int 100) (fun _ => true) fun _ _ => nan) .observed
    ⟨[1], none, none⟩).1 = .ok (Stats.discovery (1 / 1) z) ∧ z < 15 / 1 :=
  C112_bound_fails 5 1 15 (-3) (by norm_num) (by norm_num) (by norm_num) _ _ _ _ _ ⟨rfl, rfl, rfl⟩

end Verif.Hypotest
