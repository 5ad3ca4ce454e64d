import Verif.Hypotest.BoundsProps

/-!
# Property C125: the level from toys of a Gaussian measurement
-/

namespace Verif.Hypotest
open Verif.Py F Verif.Config Verif.Optimizer
open Verif.Interface (MuHat Data Toys World Size Plain Solver perfect Candidate perfect_spec Allowed InBounds)
open Verif.Stats (Expect Calc Levels gaussianLog gaussianFit gaussianLevel)
open Classical

/-- The model with one parameter of `gaussB`, and a sampler: `draw v n` are the `n` values drawn for the signal strength `v`. -/
noncomputable def gaussS (c σ a lo : ℝ) (draw : ℝ → ℕ → List ℝ) : Interface.Backend :=
  { gaussB c σ a lo with sampler := fun x => .ok fun n => (draw (x.getD 0 0) n).map fun y => [y] }

theorem gaussS_usual (c σ a lo : ℝ) (draw : ℝ → ℕ → List ℝ) : Usual (gaussS c σ a lo draw) 1 0 := by
  obtain ⟨h1, h2, h3, h4, h5, h6⟩ := gauss_usual c σ a lo
  exact ⟨⟨h1.1, h1.2, h1.3, h1.4⟩, h2, h3, h4, h5, h6⟩

/-- The statistic of a Gaussian measurement of `m`, as a number. -/
noncomputable def gaussStat (negative : Bool) (σ v m : ℝ) : ℝ :=
  if v < m then 0 else if negative ∨ 0 ≤ m then (v - m) ^ 2 / σ ^ 2 else (v ^ 2 - 2 * v * m) / σ ^ 2

theorem gaussStat_nonneg {negative : Bool} {σ v m : ℝ} (hv : 0 ≤ v) : 0 ≤ gaussStat negative σ v m := by
  unfold gaussStat
  split_ifs with h1 h2
  · exact le_rfl
  · positivity
  · have : m < 0 := not_le.mp fun h => h2 (Or.inr h)
    apply div_nonneg _ (by positivity)
    nlinarith

theorem gaussStat_le {negative : Bool} {σ v a x : ℝ} (hσ : 0 < σ) (hv : 0 < v) (ha : a < v) :
    gaussStat negative σ v a ≤ gaussStat negative σ v x ↔ x ≤ a := by
  have hs : 0 < σ ^ 2 := by positivity
  unfold gaussStat
  rw [if_neg (not_lt.mpr ha.le)]
  by_cases h1 : v < x
  · rw [if_pos h1]
    refine ⟨fun h => ?_, fun h => absurd (h.trans_lt ha) (not_lt.mpr h1.le)⟩
    exfalso
    split_ifs at h with h2
    · have : 0 < (v - a) ^ 2 / σ ^ 2 := div_pos (pow_pos (by linarith) 2) hs
      linarith
    · have h3 : a < 0 := not_le.mp fun h => h2 (Or.inr h)
      rw [div_le_iff₀ hs] at h
      nlinarith
  · rw [if_neg h1]
    rw [not_lt] at h1
    have main : ∀ p q : ℝ, (p / σ ^ 2 ≤ q / σ ^ 2 ↔ p ≤ q) := fun p q => div_le_div_iff_of_pos_right hs
    cases negative
    · simp only [Bool.false_eq_true, false_or]
      by_cases h2 : 0 ≤ a <;> by_cases h3 : 0 ≤ x
      · rw [if_pos h2, if_pos h3, main]
        constructor <;> intro h <;> nlinarith
      · rw [if_pos h2, if_neg h3, main]
        rw [not_le] at h3
        constructor <;> intro h <;> nlinarith
      · rw [if_neg h2, if_pos h3, main]
        rw [not_le] at h2
        constructor <;> intro h <;> nlinarith
      · rw [if_neg h2, if_neg h3, main]
        rw [not_le] at h2 h3
        constructor <;> intro h <;> nlinarith
    · simp only [true_or, if_true]
      rw [main]
      constructor <;> intro h <;> nlinarith

theorem gauss_stat {c σ m v x : ℝ} (hσ : 0 < σ) (hv : 0 ≤ v) (negative r : Bool) (hr : negative = true → r = false) (hx : x = if r then max m 0 else m) {t : Stats.TestStat}
    (ht : Stats.getTestStatistic (if negative then "q" else "qtilde") = .ok t) :
    (fitOf v x (fin (-(gaussianLog c σ m x))) (fin (-(gaussianLog c σ m v))) (fin (-(gaussianLog c σ m 0)))).stat t (fin v) = fin (gaussStat negative σ v m) := by
  have hcases : (negative = true ∧ t = Stats.qmu) ∨ (negative = false ∧ t = Stats.qmuTilde) := by
    cases negative
    · right; exact ⟨rfl, by simpa [Stats.get_qtilde] using ht.symm⟩
    · left; exact ⟨rfl, by simpa [Stats.get_q] using ht.symm⟩
  have h := (fitOf_gaussian c σ m v x t r hx).resolve_right (not_not.mpr (hcases.imp And.right And.right))
  rw [h]
  unfold gaussStat
  rcases lt_or_ge v m with h1 | h1
  · rw [if_pos h1]
    rcases hcases with ⟨rfl, rfl⟩ | ⟨rfl, rfl⟩
    · simp [Stats.Fit.stat, Stats.qmu, gaussianFit, lt, h1, hr rfl]
    · cases r <;> simp [Stats.Fit.stat, Stats.qmuTilde, gaussianFit, lt, h1]
  · rw [if_neg (not_lt.mpr h1)]
    rcases hcases with ⟨rfl, rfl⟩ | ⟨rfl, rfl⟩
    · rw [hr rfl, Stats.gaussian_q hσ h1]; simp
    · rw [Stats.gaussian_qtilde hσ h1 hv]; simp

/-- What the CLs criterion says of toys: one minus the fraction of the number of values up to `a` drawn with signal and without, if it is at most one. -/
noncomputable def toyCount (a : ℝ) (sig bkg : List ℝ) : ℝ :=
  let p := sig.countP fun x => decide (x ≤ a)
  let q := bkg.countP fun x => decide (x ≤ a)
  if q = 0 then 1 else 1 - min ((p : ℝ) / q) 1

variable {c σ a lo l h : ℝ}

theorem toy_fits {draw : ℝ → ℕ → List ℝ} (hσ : 0 < σ) (v : ℝ) (negative doGrad : Bool) (ntoys : Size) (available : Calc → Bool) (percentile : List F → F → F) (d : Option Data)
    (x : ℝ) (hx : x = (d.getD [a]).getD 0 0) (h1 : l ≤ x) (h2 : x ≤ h) :
    Fits (Plain 1) (modelMethods perfect (gaussS c σ a lo draw) doGrad (some [(some (fin l), some (fin h))]) ntoys available percentile) .observed negative d v x
      (fin (-(gaussianLog c σ x x))) (fin (-(gaussianLog c σ x v))) (fin (-(gaussianLog c σ x 0))) := by
  have hw : Plain 1 ⟨[1], none, none⟩ := ⟨rfl, rfl, rfl⟩
  obtain ⟨hlik, hmax, -⟩ := arguments_end perfect_exact (gaussS_usual c σ a lo draw) doGrad (some [(some (fin l), some (fin h))]) ntoys available percentile .observed _ hw
  subst hx
  exact ⟨hmax _ _ _ (gauss_best_between hσ (expectation .observed) negative d h1 h2 doGrad _ hw), hlik _ _ _ (gauss_likelihood_any v (expectation .observed) true d doGrad _ _ hw),
    hlik _ _ _ (gauss_likelihood_any 0 (expectation .observed) true d doGrad _ _ hw)⟩

theorem float_draws {draw : ℝ → ℕ → List ℝ} {u : ℝ} (doGrad : Bool) (n : ℕ) (b : Option (List Bound)) (available : Calc → Bool) (percentile : List F → F → F) :
    Ends (Plain 1) ((modelMethods perfect (gaussS c σ a lo draw) doGrad b (.int n) available percentile).sampler .observed (.float u))
      (.ok (.data ((draw u n).map fun y => [y]))) := by
  intro w hw
  obtain ⟨ws, wi, wc⟩ := w
  obtain ⟨w1, w2, w3⟩ := hw
  dsimp only at w1 w2 w3
  subst w1 w2
  have ho : ∃ f, Interface.getObjective (gaussB c σ a lo) .observed none doGrad = .ok f := by
    cases doGrad <;> exact ⟨_, rfl⟩
  obtain ⟨⟨f, b'⟩, ho⟩ := ho
  have ho : Interface.getObjective (gaussS c σ a lo draw) .observed none doGrad = .ok (f, b') := ho
  constructor
  all_goals
    simp only [modelMethods, ofInterface, toPoi, Interface.fixedPoiSampler, Interface.profile, Interface.prepareForFit, expectation, ho, Interface.config, ModelConfig.npar, w3]
    simp [gaussS, gaussB, Except.mapError, Plain, w3]

theorem toy_draws {draw : ℝ → ℕ → List ℝ} {mu : Mu} {u : ℝ} (hmu : mu.Is u) (hint : (∃ k, mu = .int k) → l ≤ u ∧ u ≤ h) (doGrad : Bool) (n : ℕ) (available : Calc → Bool) (percentile : List F → F → F) :
    Ends (Plain 1) ((modelMethods perfect (gaussS c σ a lo draw) doGrad (some [(some (fin l), some (fin h))]) (.int n) available percentile).sampler .observed mu)
      (.ok (.data ((draw u n).map fun y => [y]))) := by
  intro w hw
  obtain ⟨ws, wi, wc⟩ := w
  obtain ⟨w1, w2, w3⟩ := hw
  dsimp only at w1 w2 w3
  subst w1 w2
  have ho : ∃ f, Interface.getObjective (gaussB c σ a lo) .observed none doGrad = .ok f := by
    cases doGrad <;> exact ⟨_, rfl⟩
  obtain ⟨⟨f, b'⟩, ho⟩ := ho
  have ho : Interface.getObjective (gaussS c σ a lo draw) .observed none doGrad = .ok (f, b') := ho
  by_cases hk : ∃ k, mu = .int k
  · obtain ⟨hl, hh⟩ := hint hk
    obtain ⟨k, rfl⟩ := hk
    have hk : (k : ℝ) = u := hmu
    obtain ⟨s, rfl⟩ := List.length_eq_one_iff.mp w3
    have hb : Allowed (some (fin l), some (fin h)) u := by
      refine ⟨fun l' hl' => ?_, fun l' hl' => ?_⟩ <;> simp only [Option.some.injEq] at hl' <;> subst hl' <;> simpa [le]
    have hp := perfect_fixed hb f b'
    have hc : (gaussS c σ a lo draw).constraints = [] := rfl
    have hf : ∀ n, ((gaussS c σ a lo draw).config n).fixed = none := fun _ => rfl
    have hi : ∀ n, ((gaussS c σ a lo draw).config n).poiIndex = 0 := fun _ => rfl
    have hl : ∀ n, ((gaussS c σ a lo draw).config n).bounds.length = 1 := fun _ => rfl
    have hs : slot 1 0 = some 0 := rfl
    constructor
    all_goals
      simp only [modelMethods, ofInterface, toPoi, Interface.fixedPoiSampler, Interface.profile, Interface.prepareForFit, expectation, ho, Interface.config, ModelConfig.npar,
        Interface.resolvePoi, hk, Interface.runFit, fit, fitBounds, Option.map_none, Option.getD_none, List.nil_append, FixedPoi.pairs, hc, hf, hi, hl, List.length_singleton,
        List.replicate_one, setFixed, setSuggested, hs, List.set_cons_zero, if_true, Except.mapError, hp]
      simp [gaussS, gaussB, Except.mapError, Plain]
  · have hp : toPoi mu = .float u := by
      cases mu <;> simp_all [Mu.Is, toPoi]
    constructor
    all_goals
      simp only [modelMethods, ofInterface, hp, Interface.fixedPoiSampler, Interface.profile, Interface.prepareForFit, expectation, ho, Interface.config, ModelConfig.npar, w3]
      simp [gaussS, gaussB, Except.mapError, Plain, w3]

/-- Both versions of C125 at once. -/
theorem count_level {draw : ℝ → ℕ → List ℝ} (hσ : 0 < σ) {v : ℝ} (hv : 0 < v) {n : ℕ} (hn : 0 < n) (hs : (draw v n).length = n) (hb : (draw 0 n).length = n) (negative : Bool) {mu : Mu}
    (hmu : mu.Is v) (M : Methods World) (hA : M.available .toy = true) (t : Stats.TestStat) (ht : Stats.getTestStatistic (if negative then "q" else "qtilde") = .ok t)
    (hfit : ∀ (d : Option Data) (x : ℝ), x = (d.getD [a]).getD 0 0 → (x = a ∨ x ∈ draw v n ∨ x ∈ draw 0 n) →
      ∃ m l lv l0, Fits (Plain 1) M .observed negative d v m l lv l0 ∧ (fitOf v m l lv l0).stat t (fin v) = fin (gaussStat negative σ v x))
    (h1 : Ends (Plain 1) (M.sampler .observed mu) (.ok (.data ((draw v n).map fun y => [y]))))
    (h2 : Ends (Plain 1) (M.sampler .observed (.float 0)) (.ok (.data ((draw 0 n).map fun y => [y])))) (w : World) (hw : Plain 1 w) :
    (exclusion M mu .observed negative .toy w).1 = .ok (.one [fin (if a < v then toyCount a (draw v n) (draw 0 n) else 0)]) := by
  obtain ⟨m, l, lv, l0, hD, hq⟩ := hfit none a (by simp) (Or.inl rfl)
  have key : ∀ ys : List ℝ, (∀ y ∈ ys, y ∈ draw v n ∨ y ∈ draw 0 n) → ∃ fs, AllFit (Plain 1) M .observed negative v (ys.map fun y => [y]) fs ∧
      fs.map (·.stat t (fin v)) = (ys.map (gaussStat negative σ v)).map fin := by
    intro ys
    induction ys with
    | nil => intro _; exact ⟨[], List.Forall₂.nil, rfl⟩
    | cons y ys ih =>
      intro hy
      obtain ⟨fs, k1, k2⟩ := ih fun z hz => hy z (List.mem_cons_of_mem _ hz)
      obtain ⟨m, l, lv, l0, k3, k4⟩ := hfit (some [y]) y (by simp) (Or.inr (hy y List.mem_cons_self))
      refine ⟨fitOf v m l lv l0 :: fs, List.Forall₂.cons ⟨m, l, lv, l0, k3, rfl⟩ k1, ?_⟩
      rw [List.map_cons, k4, k2]
      rfl
  obtain ⟨fs, hfs, hqs⟩ := key (draw v n) fun _ => Or.inl
  obtain ⟨fb, hfb, hqb⟩ := key (draw 0 n) fun _ => Or.inr
  have hc := C108_counts (I := Plain 1) M ⟨w, hw⟩ mu v hmu negative hA m l lv l0 hD _ _ fs fb h1 h2 n hn (by simpa using hs) (by simpa using hb) hfs hfb t ht _ _ _ hq hqs hqb
  rw [(hc w hw).1]
  by_cases hav : a < v
  · rw [if_pos hav]
    have cnt : ∀ ys : List ℝ, (ys.map (gaussStat negative σ v)).countP (fun x => decide (gaussStat negative σ v a ≤ x)) = ys.countP fun x => decide (x ≤ a) := by
      intro ys
      rw [List.countP_map]
      refine List.countP_congr fun y _ => ?_
      simp [gaussStat_le hσ hv hav]
    simp only [cnt]
    rfl
  · rw [if_neg hav]
    have zero : gaussStat negative σ v a = 0 := by
      rcases lt_or_eq_of_le (not_lt.mp hav) with h1 | h1
      · unfold gaussStat; rw [if_pos h1]
      · subst h1; unfold gaussStat; simp [hv.le]
    have cnt : ∀ ys : List ℝ, (ys.map (gaussStat negative σ v)).countP (fun x => decide (gaussStat negative σ v a ≤ x)) = ys.length := by
      intro ys
      rw [zero, List.countP_eq_length.mpr]
      · simp
      · intro y hy
        obtain ⟨x, -, rfl⟩ := List.mem_map.mp hy
        simpa using gaussStat_nonneg hv.le
    have h0 : (n : ℝ) ≠ 0 := by exact_mod_cast hn.ne'
    simp only [cnt, hs, hb, hn.ne', if_false, div_self h0, min_self, sub_self]

/-- C125, with `par_bounds`: for a Gaussian measurement and any sampler, the level from toys counts the toys at or below the measured value, whatever was asked before and
for both test statistics; a signal strength at or below the measured value is not excluded at all. (An `int` leads to a fit, so it has to be inside the bounds.) -/
theorem C125_bounds (hσ : 0 < σ) (draw : ℝ → ℕ → List ℝ) {v : ℝ} (hv : 0 < v) (ha : l ≤ a) (ha' : a ≤ h) (n : ℕ) (hn : 0 < n)
    (hs : (draw v n).length = n) (hb : (draw 0 n).length = n) (hs' : ∀ y ∈ draw v n, l ≤ y ∧ y ≤ h) (hb' : ∀ y ∈ draw 0 n, l ≤ y ∧ y ≤ h) (negative doGrad : Bool) (mu : Mu)
    (hmu : mu.Is v) (hint : (∃ k, mu = .int k) → l ≤ v ∧ v ≤ h) (available : Calc → Bool) (hA : available .toy = true) (percentile : List F → F → F) (w : World) (hw : Plain 1 w) :
    (exclusion (modelMethods perfect (gaussS c σ a lo draw) doGrad (some [(some (fin l), some (fin h))]) (.int n) available percentile) mu .observed negative .toy w).1 =
      .ok (.one [fin (if a < v then toyCount a (draw v n) (draw 0 n) else 0)]) := by
  obtain ⟨t, ht⟩ := Stats.getName_ok negative
  refine count_level hσ hv hn hs hb negative hmu _ hA t ht ?_ (toy_draws hmu hint doGrad n available percentile)
    (toy_draws (mu := .float 0) rfl (by simp) doGrad n available percentile) w hw
  intro d x hx hm
  have hin : l ≤ x ∧ x ≤ h := by
    rcases hm with rfl | hm | hm
    · exact ⟨ha, ha'⟩
    · exact hs' x hm
    · exact hb' x hm
  exact ⟨_, _, _, _, toy_fits hσ v negative doGrad _ available percentile d x hx hin.1 hin.2, gauss_stat hσ hv.le negative false (by simp) (by simp) ht⟩

/-- Two of the four toys without signal and one of those with signal are at or below the measured value: the level is one half. -/
noncomputable def exDraw : ℝ → ℕ → List ℝ := fun v n => if n = 4 then [v - 1, v, v + 1 / 2, v + 3] else List.replicate n v

example : (exclusion (modelMethods perfect (gaussS 5 2 (1 / 4) (-3) exDraw) true (some [(some (fin (-5)), some (fin 10))]) (.int 4) (fun _ => true) fun _ _ => nan) (.float 1)
    .observed false .toy ⟨[1], none, none⟩).1 = .ok (.one [fin (1 / 2)]) := by
  rw [C125_bounds (l := -5) (h := 10) (by norm_num) exDraw (v := 1) (by norm_num) (by norm_num) (by norm_num) 4 (by norm_num) (by simp [exDraw]) (by simp [exDraw])
    (by simp [exDraw]; norm_num) (by simp [exDraw]; norm_num) false true (.float 1) rfl (by simp) _ rfl _ _ ⟨rfl, rfl, rfl⟩]
  norm_num [toyCount, exDraw, List.countP_cons]

/-- The hypotheses of `C108_model` are met by this model: the toys of its level are draws at one and at zero. -/
example : ∃ x s y x0 s0 y0 t q s3 s4, (gaussS 5 2 (1 / 4) (-3) exDraw).sampler x = .ok s ∧ x[0]? = some y ∧ |y - 1| ≤ (0 : ℝ) ∧ (gaussS 5 2 (1 / 4) (-3) exDraw).sampler x0 = .ok s0 ∧
    x0[0]? = some y0 ∧ |y0| ≤ (0 : ℝ) ∧ getTestStatistic (if false then "q" else "qtilde") = .ok t ∧
    toyLoop (modelMethods perfect (gaussS 5 2 (1 / 4) (-3) exDraw) true (some [(some (fin (-5)), some (fin 10))]) (.int 4) (fun _ => true) fun _ _ => nan) t (.float 1) .observed
      false (s 4) (s0 4) s3 = (.ok q, s4) ∧ Plain 1 s3 := by
  have h := C125_bounds (c := 5) (σ := 2) (a := 1 / 4) (lo := -3) (l := -5) (h := 10) (by norm_num) exDraw (v := 1) (by norm_num) (by norm_num) (by norm_num) 4 (by norm_num)
    (by simp [exDraw]) (by simp [exDraw]) (by simp [exDraw]; norm_num) (by simp [exDraw]; norm_num) false true (.float 1) rfl (by simp) (fun _ => true) rfl (fun _ _ => nan) ⟨[1], none, none⟩ ⟨rfl, rfl, rfl⟩
  exact C108_model le_rfl Interface.perfect_honest Interface.perfect_free _ (fun _ => rfl) true _ 4 _ _ 1 .observed false 1 0 rfl ⟨[1], none, none⟩ _ ⟨rfl, rfl, rfl⟩ _
    (Prod.ext h rfl)

/-- C125, without `par_bounds`: the same, if all toys are inside the bounds of the model; without negative signals it is enough that they are at most 10, for a toy below
zero has its best fit at zero. -/
theorem C125_toys (hσ : 0 < σ) (draw : ℝ → ℕ → List ℝ) {v : ℝ} (hv : 0 < v) (hlo : lo ≤ 0) (negative : Bool) (ha : a ≤ 10 ∧ (negative = true → lo ≤ a)) (n : ℕ) (hn : 0 < n)
    (hs : (draw v n).length = n) (hb : (draw 0 n).length = n) (hs' : ∀ y ∈ draw v n, y ≤ 10 ∧ (negative = true → lo ≤ y))
    (hb' : ∀ y ∈ draw 0 n, y ≤ 10 ∧ (negative = true → lo ≤ y)) (doGrad : Bool) (available : Calc → Bool) (hA : available .toy = true)
    (percentile : List F → F → F) (w : World) (hw : Plain 1 w) :
    (exclusion (modelMethods perfect (gaussS c σ a lo draw) doGrad none (.int n) available percentile) (.float v) .observed negative .toy w).1 =
      .ok (.one [fin (if a < v then toyCount a (draw v n) (draw 0 n) else 0)]) := by
  obtain ⟨t, ht⟩ := Stats.getName_ok negative
  refine count_level hσ hv hn hs hb negative (mu := .float v) rfl _ hA t ht ?_ (float_draws doGrad n none available percentile) (float_draws doGrad n none available percentile) w hw
  intro d x hx hm
  have hin : x ≤ 10 ∧ (negative = true → lo ≤ x) := by
    rcases hm with rfl | hm | hm
    · exact ha
    · exact hs' x hm
    · exact hb' x hm
  have hnear : nearest (if negative then lo else 0) x = if (!negative) then max x 0 else x := by
    unfold nearest
    cases negative
    · simp [hin.1]
    · simp [hin.1, hin.2 rfl]
  have hw1 : Plain 1 ⟨[1], none, none⟩ := ⟨rfl, rfl, rfl⟩
  obtain ⟨hlik, hmax, -⟩ := arguments_end perfect_exact (gaussS_usual c σ a lo draw) doGrad none (.int n) available percentile .observed _ hw1
  have hbest := gauss_best (c := c) (a := a) hσ hlo (expectation .observed) negative d doGrad _ hw1
  rw [← hx, hnear] at hbest
  have h1 := gauss_likelihood_any (c := c) (σ := σ) (a := a) (lo := lo) v (expectation .observed) true d doGrad none _ hw1
  have h2 := gauss_likelihood_any (c := c) (σ := σ) (a := a) (lo := lo) 0 (expectation .observed) true d doGrad none _ hw1
  rw [← hx] at h1 h2
  exact ⟨_, _, _, _, ⟨hmax _ _ _ hbest, hlik _ _ _ h1, hlik _ _ _ h2⟩, gauss_stat hσ hv.le negative (!negative) (by simp) rfl ht⟩

/-- With the bounds of the model: the toy at `-1` counts as well. -/
example : (exclusion (modelMethods perfect (gaussS 5 2 (1 / 4) (-3) exDraw) true none (.int 4) (fun _ => true) fun _ _ => nan) (.float 1)
    .observed false .toy ⟨[1], none, none⟩).1 = .ok (.one [fin (1 / 2)]) := by
  rw [C125_toys (by norm_num) exDraw (v := 1) (by norm_num) (by norm_num) false (by norm_num) 4 (by norm_num) (by simp [exDraw]) (by simp [exDraw])
    (by simp [exDraw]; norm_num) (by simp [exDraw]; norm_num) true _ rfl _ _ ⟨rfl, rfl, rfl⟩]
  norm_num [toyCount, exDraw, List.countP_cons]

end Verif.Hypotest
