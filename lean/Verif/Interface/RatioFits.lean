import Verif.Interface.Free

/-!
# Properties C100-C102: sign of `chi2`, scans, `pull`
-/

namespace Verif.Interface
open Verif.Py F Verif.Config Verif.Optimizer
open Verif.Backend (Expectation)
open Classical

/-! ## Lemmas -/

theorem maximize_plain {S : Solver} (B : Backend) (rn e n d keys fixed g b) {N : ℕ} {w : World} (hw : Plain N w) :
    Plain N (maximize S B rn e n d keys fixed g b w).2 := by
  unfold maximize
  cases B.minNegLL e n d keys with
  | ok o => exact hw
  | error err =>
    cases err <;> first | exact hw | skip
    dsimp only
    cases resolveFixed B w fixed with
    | error err => exact hw
    | ok f =>
      dsimp only
      rcases prepare_free B e d n g hw hw with ⟨err, h1, -⟩ | ⟨p, h1, -, h3⟩
      · rw [h1]; exact hw
      · rw [h1]
        dsimp only
        have h5 : Plain N (runFit S p b f (some p.logpdf) w).2 := runFit_plain hw (by rw [h3]; exact hw.2.2)
        cases h6 : runFit S p b f (some p.logpdf) w with
        | mk r1 w1 =>
        rw [h6] at h5
        cases r1 <;> exact h5

/-- A likelihood as a number is that of the pair. -/
theorem query_pair {S : Solver} {B : Backend} (hB : Fallback B) {e g b poi w l} (h : (likelihoodQuery S B e g b poi w).1 = .ok l) :
    ∃ x, (likelihood S B poi e true none true true g b w).1 = .ok (.pair l x) := by
  unfold likelihoodQuery likelihood at h
  unfold likelihood
  rw [hB.negLL] at h ⊢
  simp only at h ⊢
  cases hp : (profile S B poi e none true g b w).1 with
  | error err => rw [hp] at h; simp [Except.map] at h
  | ok r =>
    rw [hp] at h
    simp only [Except.map, Bool.false_eq_true, if_false, Out.number, Except.ok.injEq] at h
    exact ⟨r.2, by simp [Except.map, h]⟩

theorem ratio_nonneg {l d : F} (h : le d l) (hn : ratio l d ≠ nan) : le (fin 0) (ratio l d) := by
  cases l <;> cases d <;> simp_all [ratio, sub, add, neg, scale, le]

theorem ratio_fin {l d : F} {y : ℝ} (h : ratio l d = fin y) : ∃ a b, l = fin a ∧ d = fin b ∧ y = 2 * (a - b) := by
  cases l <;> cases d <;> simp_all [ratio, sub, add, neg, scale]
  rw [← h]; ring

/-! ## C100: the sign of `chi2` -/

/-- C100, first part: with a perfect minimiser, the comparison with the best fit is not negative for a number strictly inside the bounds
that the fit of the best value uses, too. Missing: numbers outside these bounds, where the claim is false (`C100_negative_fails`,
`C100_beyond_fails`); real minimisers; lists, whose values are rounded (`C101_round_fails`); and several fixed parameters. -/
theorem C100_nonneg_partial {tol : ℝ} {S : Solver} (hS : Honest tol S) (hO : Optimal S) (hI : Inside S) (hC : Constrained S)
    (B : Backend) (hB : Fallback B) (hc : Consistent B) (r : F → F) (v : ℝ) (e : Expectation) (n g g' : Bool) (w : World)
    (hfix : (B.config n).fixed = none) (hlen : (B.config true).bounds.length = w.start.length) (hi : w.init = none)
    (hcw : w.constraints = none) (h1 : w.start.length ≠ 1 ∨ Satisfies B.constraints [v])
    (k : ℕ) (hk : slot w.start.length (B.config true).poiIndex = some k)
    (hb : ∀ b, (B.config true).bounds[k]? = some b → ∃ lo hi, b = (some lo, some hi) ∧ lt lo (fin v) ∧ lt (fin v) hi)
    (hbn : ∀ b b' y, (B.config n).bounds[k]? = some b → (B.config true).bounds[k]? = some b' → Allowed b' y → |y - v| ≤ tol →
      Allowed b y)
    (hbo : ∀ j, j ≠ k → (B.config n).bounds[j]? = (B.config true).bounds[j]?) (htol : 0 ≤ tol)
    (x : F) (h : (chi2 r (modelQueries S B e g g' none) (.float v) none n w).1 = .ok (.one x)) (hn : x ≠ nan) : le (fin 0) x := by
  have hpl := maximize_plain (S := S) B true e n none none none g' none (N := w.start.length) (w := w) ⟨hi, hcw, rfl⟩
  unfold chi2 denominator at h
  simp only [modelQueries] at h
  cases hm : maximize S B true e n none none none g' none w with
  | mk a w1 =>
  rw [hm] at h hpl
  cases a with
  | error err => simp at h
  | ok a =>
  obtain ⟨mu, l⟩ := a
  simp only [single] at h
  cases hl : (likelihoodQuery S B e g none (.float v) w1).1 with
  | error err => rw [hl] at h; simp [Except.map] at h
  | ok l' =>
  rw [hl] at h
  simp only [Except.map, Except.ok.injEq, Chi.one.injEq] at h
  subst h
  obtain ⟨x0, hx0⟩ := query_pair hB hl
  have hl' : l' ≠ nan := by
    rintro rfl
    exact hn (by simp [ratio, sub, add, scale])
  refine ratio_nonneg (C86_ratio hS hO hI hC B hB hc v e none n true g' g w w1 hfix hlen hpl.2.2 (by simp [hi])
    (fun l h => by rw [hpl.1] at h; simp at h) hcw hpl.2.1 h1 k hk hb hbn hbo htol mu l l' x0 (by rw [hm]) hx0 hl') hn

/-- A backend with one parameter, whose best value without bounds is `a`. -/
noncomputable def exOne (a : ℝ) : Backend := { exB with
  config := fun n => ⟨0, fin (-1), [], [(some (if n then fin (-1) else fin 0), some (fin 10))], none, none⟩
  objective := fun g _ _ => if g then .error .notImplemented else .ok fun x => fin ((x.getD 0 0 - a) ^ 2)
  logpdf := fun _ _ x => fin (-((x.getD 0 0 - a) ^ 2))
  constraints := [] }

theorem exOne_consistent (a : ℝ) : Consistent (exOne a) := by
  intro g e d f h x
  simp only [exOne] at h
  split at h
  · simp at h
  · simp only [Except.ok.injEq] at h
    rw [← h]
    simp [exOne, neg]

theorem exOne_fallback (a : ℝ) : Fallback (exOne a) :=
  ⟨fun _ _ _ _ => rfl, fun _ _ _ _ => rfl, fun _ _ _ => rfl, fun _ _ _ => rfl⟩

/-- The best fit of `exOne`: `c` is the best value inside the bounds. -/
theorem exOne_best (a : ℝ) (n : Bool) (c : ℝ) (hc : (if n then -1 else 0) ≤ c ∧ c ≤ 10)
    (hmin : ∀ y, (if n then -1 else 0) ≤ y → y ≤ 10 → (c - a) ^ 2 ≤ (y - a) ^ 2) :
    ∃ y w, maximize perfect (exOne a) true .observed n none none none true none ⟨[1], none, none⟩ =
      (.ok (.one y, fin ((c - a) ^ 2)), w) ∧ y ≤ 10 ∧ Plain 1 w := by
  obtain ⟨lo, hlo⟩ : ∃ lo : ℝ, lo = if n then -1 else 0 := ⟨_, rfl⟩
  have hlo' : (if n then fin (-1) else fin 0) = fin lo := by cases n <;> simp [hlo]
  rw [← hlo] at hc hmin
  have hcand : ∀ y, Candidate [] [1] [false] [(some (fin lo), some (fin 10))] [y] ↔ lo ≤ y ∧ y ≤ 10 := by
    intro y
    constructor
    · rintro ⟨-, -, h, -⟩
      have := h 0 _ y rfl rfl
      have h1 := this.1 _ rfl
      have h2 := this.2 _ rfl
      simpa [le] using And.intro h1 h2
    · rintro ⟨h1, h2⟩
      refine ⟨rfl, ?_, ?_, by intro c hc; simp at hc⟩
      · intro k hk
        rcases k with _ | k <;> simp at hk
      · intro k b z hb hz
        rcases k with _ | k
        · simp only [List.getElem?_cons_zero, Option.some.injEq] at hb hz
          subst hb hz
          refine ⟨fun l hl => ?_, fun l hl => ?_⟩ <;> simp only [Option.some.injEq] at hl <;> subst hl <;> simpa [le]
        · simp at hb
  obtain ⟨f, hf⟩ : ∃ f : List ℝ → F, f = fun x => fin ((x.getD 0 0 - a) ^ 2) := ⟨_, rfl⟩
  have hp : ∃ y, perfect f false [] 0 [1] [false] [(some (fin lo), some (fin 10))] = .ok (fin ((c - a) ^ 2), [y]) ∧ y ≤ 10 ∧
      (y - a) ^ 2 = (c - a) ^ 2 := by
    have hex : ∃ v x, perfect f false [] 0 [1] [false] [(some (fin lo), some (fin 10))] = .ok (v, x) := by
      unfold perfect
      rw [dif_pos]
      · exact ⟨_, _, rfl⟩
      refine ⟨by simp, [c], (hcand c).mpr hc, fun x' hx' _ => ?_⟩
      obtain ⟨y, rfl⟩ := List.length_eq_one_iff.mp hx'.1
      have := (hcand y).mp hx'
      simpa [hf, le] using hmin y this.1 this.2
    obtain ⟨v, x, hx⟩ := hex
    obtain ⟨h1, -, h2, h3⟩ := perfect_spec hx
    obtain ⟨y, rfl⟩ := List.length_eq_one_iff.mp h2.1
    have hy := (hcand y).mp h2
    have h4 := h3 [c] ((hcand c).mpr hc) (by simp [hf])
    simp only [hf, le, List.getD_cons_zero] at h4
    have h5 : (y - a) ^ 2 = (c - a) ^ 2 := le_antisymm h4 (hmin y hy.1 hy.2)
    refine ⟨y, ?_, hy.2, h5⟩
    rw [hx, h1, hf]
    simp [h5]
  obtain ⟨y, hy, hy10, hya⟩ := hp
  have hpl := maximize_plain (S := perfect) (exOne a) true .observed n none none none true none (N := 1) (w := ⟨[1], none, none⟩)
    ⟨rfl, rfl, rfl⟩
  refine ⟨y, _, ?_, hy10, hpl⟩
  rw [Prod.ext_iff]
  refine ⟨?_, rfl⟩
  subst hf
  simp only [List.getD_eq_getElem?_getD] at hy
  simp [maximize, exOne, exB, resolveFixed, prepareForFit, getObjective, config, runFit, fit, fitBounds, fixedPoiBounds, Except.map,
    FixedPoi.pairs, setFixed, setSuggested, Except.mapError, estimates, readKey, resolveKey, item, slot, scaleOut, neg, hlo', hy, hya]

theorem exOne_likelihood (a v : ℝ) (g : Bool) (w : World) (hw : Plain 1 w) :
    (likelihoodQuery perfect (exOne a) .observed g none (.float v) w).1 = .ok (fin ((v - a) ^ 2)) := by
  obtain ⟨ws, wi, wc⟩ := w
  obtain ⟨h1, h2, h3⟩ := hw
  dsimp only at h3
  have : ∀ g, getObjective (exOne a) .observed none g = .ok (fun x => fin ((x.getD 0 0 - a) ^ 2), false) := by
    intro g; cases g <;> simp [getObjective, exOne, exB]
  simp [likelihoodQuery, likelihood, profile, prepareForFit, this, config, ModelConfig.npar, h3]
  simp [exOne, exB, Except.map, Out.number, scaleOut, neg]

/-- The hypotheses of `C100_nonneg_partial` hold, and the value is what it should be. -/
example : (chi2 id (modelQueries perfect (exOne 1) .observed true true none) (.float 3) none false ⟨[1], none, none⟩).1 =
      .ok (.one (fin 8)) ∧
    Honest 0 perfect ∧ Optimal perfect ∧ Inside perfect ∧ Constrained perfect ∧ Fallback (exOne 1) ∧ Consistent (exOne 1) ∧
    ((exOne 1).config false).fixed = none ∧ Satisfies (exOne 1).constraints [3] ∧
    slot 1 ((exOne 1).config true).poiIndex = some 0 ∧
    (∀ b, ((exOne 1).config true).bounds[0]? = some b → ∃ lo hi, b = (some lo, some hi) ∧ lt lo (fin 3) ∧ lt (fin 3) hi) ∧
    (∀ b b' y, ((exOne 1).config false).bounds[0]? = some b → ((exOne 1).config true).bounds[0]? = some b' → Allowed b' y →
      |y - 3| ≤ 0 → Allowed b y) ∧
    ∀ j, j ≠ 0 → ((exOne 1).config false).bounds[j]? = ((exOne 1).config true).bounds[j]? := by
  refine ⟨?_, perfect_honest, perfect_optimal, perfect_inside, perfect_constrained, exOne_fallback 1, exOne_consistent 1, rfl,
    by intro c hc; simp [exOne] at hc, rfl, ?_, ?_, ?_⟩
  · obtain ⟨y, w, h1, -, h3⟩ := exOne_best 1 false 1 (by norm_num) (by intro y _ _; simpa using sq_nonneg (y - 1))
    simp only [chi2, denominator, modelQueries, h1, single, exOne_likelihood 1 3 true w h3]
    norm_num [Except.map, ratio, sub, add, neg, scale]
  · intro b hb
    simp only [exOne, if_true, List.getElem?_cons_zero, Option.some.injEq] at hb
    exact ⟨_, _, hb.symm, by norm_num [lt], by norm_num [lt]⟩
  · intro b b' y hb hb' _ hy
    have : y = 3 := by
      have := abs_nonpos_iff.mp hy
      linarith
    subst this
    simp only [exOne, Bool.false_eq_true, if_false, List.getElem?_cons_zero, Option.some.injEq] at hb
    subst hb
    refine ⟨fun l hl => ?_, fun l hl => ?_⟩ <;> simp only [Option.some.injEq] at hl <;> subst hl <;> norm_num [le]
  · intro j hj
    rcases j with _ | j
    · exact absurd rfl hj
    · rfl

/-- C100 is false by default: `allow_negative_signal` is `False` for the best fit, but the likelihood at the tested point is always taken
with negative signals allowed. If the data prefer a negative signal, the comparison is negative, even with a perfect minimiser. -/
theorem C100_negative_fails : ∃ (B : Backend) (w : World) (x : ℝ), Fallback B ∧ Consistent B ∧
    (chi2 id (modelQueries perfect B .observed true true none) (.float (-1 / 2)) none false w).1 = .ok (.one (fin x)) ∧ x < 0 := by
  refine ⟨exOne (-1 / 2), ⟨[1], none, none⟩, -1 / 2, exOne_fallback _, exOne_consistent _, ?_, by norm_num⟩
  obtain ⟨y, w, h1, -, h3⟩ := exOne_best (-1 / 2) false 0 (by norm_num) (by intro y hy _; simp at hy; nlinarith)
  simp only [chi2, denominator, modelQueries, h1, single, exOne_likelihood (-1 / 2) (-1 / 2) true w h3]
  norm_num [Except.map, ratio, sub, add, neg, scale]

/-- C100 is false for a POI beyond its upper bound, where the likelihood is taken nevertheless; negative signals allowed or not. The pull
is nan there. -/
theorem C100_beyond_fails (n : Bool) : ∃ (B : Backend) (w : World) (x : ℝ), Fallback B ∧ Consistent B ∧
    (chi2 id (modelQueries perfect B .observed true true none) (.float 15) none n w).1 = .ok (.one (fin x)) ∧ x < 0 ∧
    (pull (modelQueries perfect B .observed true true none) (.float 15) n w).1 = .ok nan := by
  obtain ⟨y, w, h1, hy, h3⟩ := exOne_best 15 n 10 (by cases n <;> norm_num) (by intro y _ hy; nlinarith)
  refine ⟨exOne 15, ⟨[1], none, none⟩, -50, exOne_fallback _, exOne_consistent _, ?_, by norm_num, ?_⟩
  · simp only [chi2, denominator, modelQueries, h1, single, exOne_likelihood 15 15 true w h3]
    norm_num [Except.map, ratio, sub, add, neg, scale]
  · have hl := exOne_likelihood 15 15 true w h3
    simp only [pull, modelQueries, h1]
    cases hq : likelihoodQuery perfect (exOne 15) .observed true none (.float 15) w with
    | mk a w' =>
    rw [hq] at hl
    dsimp only at hl
    subst hl
    norm_num [ratio, sub, add, neg, scale, F.sqrt, sign, mul]

/-! ## C101: scans -/

theorem denominator_free {σ : Type} {I : σ → Prop} {Q : Queries σ} (hQ : Stateless I Q) (n : Bool) (den : Option Poi) {s s' : σ} (hs : I s)
    (hs' : I s') : (denominator Q n den s).1 = (denominator Q n den s').1 ∧ I (denominator Q n den s).2 := by
  unfold denominator
  cases den with
  | some p => exact ⟨hQ.fixed p s s' hs hs', hQ.fixed_keeps p s hs⟩
  | none =>
    have h1 := hQ.best n s s' hs hs'
    have h2 := hQ.best_keeps n s hs
    dsimp only
    cases h3 : Q.best n s with
    | mk a s1 =>
    cases h4 : Q.best n s' with
    | mk b s2 =>
    rw [h3, h4] at h1
    rw [h3] at h2
    dsimp only at h1 h2
    subst h1
    cases a <;> exact ⟨rfl, h2⟩

/-- What a scan gives. -/
theorem scan_spec {σ : Type} {I : σ → Prop} {Q : Queries σ} (hQ : Stateless I Q) (r : F → F) (l : List Poi) : ∀ (s s0 : σ), I s → I s0 →
    (∀ vs, (scan r Q l s).1 = .ok vs → vs.length = l.length ∧
      ∀ (i : ℕ) p, l[i]? = some p → ∃ a, (Q.nll p s0).1 = .ok a ∧ vs[i]? = some (r a)) ∧
    ∀ e, (scan r Q l s).1 = .error e → ∃ (i : ℕ) (p : Poi), l[i]? = some p ∧ (Q.nll p s0).1 = .error e ∧
      ∀ j < i, ∀ q, l[j]? = some q → ∃ a, (Q.nll q s0).1 = .ok a := by
  induction l with
  | nil =>
    intro s s0 _ _
    refine ⟨fun vs h => ?_, fun e h => by simp [scan] at h⟩
    simp only [scan, Except.ok.injEq] at h
    subst h
    exact ⟨rfl, by simp⟩
  | cons p l ih =>
    intro s s0 hs hs0
    have h1 := hQ.nll p s s0 hs hs0
    have h2 := hQ.nll_keeps p s hs
    unfold scan
    cases h3 : Q.nll p s with
    | mk a s1 =>
    rw [h3] at h1 h2
    dsimp only at h1 h2
    cases a with
    | error e =>
      refine ⟨fun vs h => by simp at h, fun e' h => ?_⟩
      simp only [Except.error.injEq] at h
      subst h
      exact ⟨0, p, rfl, h1.symm, by simp⟩
    | ok v =>
      obtain ⟨ih1, ih2⟩ := ih s1 s0 h2 hs0
      dsimp only
      cases h4 : scan r Q l s1 with
      | mk b s2 =>
      rw [h4] at ih1 ih2
      cases b with
      | error e =>
        refine ⟨fun vs h => by simp at h, fun e' h => ?_⟩
        simp only [Except.error.injEq] at h
        subst h
        obtain ⟨i, q, h5, h6, h7⟩ := ih2 e rfl
        refine ⟨i + 1, q, h5, h6, fun j hj q' hq' => ?_⟩
        rcases j with _ | j
        · simp only [List.getElem?_cons_zero, Option.some.injEq] at hq'
          subst hq'
          exact ⟨v, h1.symm⟩
        · exact h7 j (by omega) q' hq'
      | ok vs' =>
        refine ⟨fun vs h => ?_, fun e h => by simp at h⟩
        simp only [Except.ok.injEq] at h
        subst h
        obtain ⟨h5, h6⟩ := ih1 vs' rfl
        refine ⟨by simp [h5], fun i q hq => ?_⟩
        rcases i with _ | i
        · simp only [List.getElem?_cons_zero, Option.some.injEq] at hq
          subst hq
          exact ⟨v, h1.symm, rfl⟩
        · exact h6 i q hq

/-- C101, first part: the values of a list are those of its points, in the same order, up to the rounding of the likelihoods to single
precision, whose relative error is `δ`. Missing: equality (`C101_round_fails`). -/
theorem C101_list_partial {σ : Type} {I : σ → Prop} {Q : Queries σ} (hQ : Stateless I Q) {δ : ℝ} {r : F → F} (hr : Close δ r)
    (l : List Poi) (den : Option Poi) (n : Bool) (s : σ) (hs : I s) (c : Chi) (h : (chi2 r Q (.iter l) den n s).1 = .ok c) :
    ∃ xs, c = .many xs ∧ xs.length = l.length ∧
    ∀ (i : ℕ) p t, l[i]? = some p → Denotes t p → ∀ s', I s' →
      (∃ y, (chi2 r Q t den n s').1 = .ok (.one y)) ∧
      ∀ y, (chi2 r Q t den n s').1 = .ok (.one (fin y)) →
        ∃ x a, xs[i]? = some (fin x) ∧ (Q.nll p s').1 = .ok (fin a) ∧ |x - y| ≤ 2 * δ * |a| := by
  unfold chi2 at h
  have hd := denominator_free hQ n den hs hs
  cases h1 : denominator Q n den s with
  | mk a s1 =>
  rw [h1] at h hd
  cases a with
  | error e => simp at h
  | ok d =>
  simp only [several] at h
  cases h2 : (scan r Q l s1).1 with
  | error e => rw [h2] at h; simp [Except.map] at h
  | ok ls =>
  rw [h2] at h
  simp only [Except.map, Except.ok.injEq] at h
  subst h
  obtain ⟨h3, h4⟩ := (scan_spec hQ r l s1 s hd.2 hs).1 ls h2
  refine ⟨_, rfl, by simp [h3], fun i p t hp ht s' hs' => ?_⟩
  obtain ⟨a, h5, h6⟩ := h4 i p hp
  constructor
  · -- the single point succeeds
    have hd' := denominator_free hQ n den hs' hs
    have h7 : ∀ s1, I s1 → (Q.nll p s1).1 = .ok a := fun s1 hs1 => (hQ.nll p s1 s hs1 hs).trans h5
    unfold chi2
    cases h8 : denominator Q n den s' with
    | mk b s2 =>
    rw [h8] at hd'
    rw [h1] at hd'
    obtain ⟨hd1, hd2⟩ := hd'
    dsimp only at hd1 hd2
    subst hd1
    refine ⟨ratio a d, ?_⟩
    have h9 := h7 s2 hd2
    cases t with
    | float v =>
      cases p with
      | float u => simp only [Denotes] at ht; subst ht; simp [single, h9, Except.map]
      | int _ => simp [Denotes] at ht
      | dict _ => simp [Denotes] at ht
    | int v =>
      cases p with
      | int u => simp only [Denotes] at ht; subst ht; simp [single, h9, Except.map]
      | float _ => simp [Denotes] at ht
      | dict _ => simp [Denotes] at ht
    | iter l => cases p <;> simp [Denotes] at ht
    | dict t =>
      cases p with
      | int _ => simp [Denotes] at ht
      | float _ => simp [Denotes] at ht
      | dict m =>
        simp only [Denotes] at ht
        subst ht
        have h10 : scanList (m.map fun x => (x.1, Entry.number x.2)) = [] := by
          simp [scanList]
        have h11 : numbers (m.map fun x => (x.1, Entry.number x.2)) = .dict m := by
          simp [numbers, List.filterMap_map, Function.comp_def]
        simp [h10, h11, single, h9, Except.map]
  · intro y hy
    obtain ⟨d', a', h7, h8, h9⟩ := chi2_single hQ ht r den n s' s hs' hs _ hy
    rw [h1] at h7
    rw [h5] at h8
    simp only [Except.ok.injEq, Chi.one.injEq] at h7 h8 h9
    subst h7 h8
    obtain ⟨u, v, rfl, rfl, rfl⟩ := ratio_fin h9.symm
    obtain ⟨z, hz1, hz2⟩ := hr u
    refine ⟨2 * (z - v), u, ?_, (hQ.nll p s' s hs' hs).trans h5, ?_⟩
    · simp [h6, hz1, ratio, sub, add, neg, scale]
      ring
    · have : 2 * (z - v) - 2 * (u - v) = 2 * (z - u) := by ring
      rw [this, abs_mul, abs_two]
      linarith

theorem key_eq_of_nodup {d : List (Key × Entry)} (h : (d.map Prod.fst).Nodup) {k : Key} {a b : Entry} (ha : (k, a) ∈ d) (hb : (k, b) ∈ d) :
    a = b := by
  induction d with
  | nil => simp at ha
  | cons p d ih =>
    simp only [List.map_cons, List.nodup_cons, List.mem_map, not_exists, not_and] at h
    rcases List.mem_cons.mp ha with rfl | ha' <;> rcases List.mem_cons.mp hb with hb' | hb'
    · simpa using hb'.symm
    · exact absurd rfl (h.1 (k, b) hb')
    · subst hb'; exact absurd rfl (h.1 (k, a) ha')
    · exact ih h.2 ha' hb'

theorem oneList_scan {d : List (Key × Entry)} {k : Key} {vs : List ℝ} (h : OneList d k vs) : scanList d = [k] ∧ listAt d k = vs := by
  obtain ⟨h1, h2, h3⟩ := h
  constructor
  · induction d with
    | nil => simp at h2
    | cons p d ih =>
      obtain ⟨k', a⟩ := p
      simp only [List.map_cons, List.nodup_cons, List.mem_map, not_exists, not_and] at h1
      rcases List.mem_cons.mp h2 with h4 | h4
      · simp only [Prod.mk.injEq] at h4
        obtain ⟨rfl, rfl⟩ := h4
        have : scanList d = [] := by
          rw [scanList, List.filterMap_eq_nil_iff]
          intro q hq
          obtain ⟨u, hu⟩ := h3 q (List.mem_cons_of_mem _ hq) (fun h => h1.1 q hq h)
          rw [hu]
        simp only [scanList, List.filterMap_cons] at this ⊢
        rw [this]
      · have hk : k' ≠ k := fun h => h1.1 _ h4 h.symm
        obtain ⟨u, hu⟩ := h3 _ List.mem_cons_self hk
        dsimp only at hu
        subst hu
        have := ih h1.2 h4 fun q hq => h3 q (List.mem_cons_of_mem _ hq)
        simp only [scanList, List.filterMap_cons] at this ⊢
        exact this
  · unfold listAt
    cases hf : d.find? fun p => p.1 = k with
    | none =>
      rw [List.find?_eq_none] at hf
      exact absurd (by simp) (hf _ h2)
    | some q =>
      have hq := List.find?_some hf
      have hm := List.mem_of_find?_eq_some hf
      simp only [decide_eq_true_eq] at hq
      obtain ⟨k', a⟩ := q
      dsimp only at hq
      subst hq
      rw [key_eq_of_nodup h1 hm h2]

theorem oneList_denotes {d : List (Key × Entry)} {k : Key} {vs : List ℝ} (h : OneList d k vs) (i : ℕ) (v : ℝ) (hv : vs[i]? = some v) :
    ∃ p, (scanPoints d k vs)[i]? = some p ∧ Denotes (.dict (withNumber d k v)) p := by
  obtain ⟨p, hp⟩ : ∃ p, (scanPoints d k vs)[i]? = some p := ⟨_, by rw [scanPoints, List.getElem?_map, hv]; rfl⟩
  refine ⟨p, hp, ?_⟩
  rw [scanPoints, List.getElem?_map, hv, Option.map_some, Option.some.injEq] at hp
  subst hp
  simp only [Denotes, withNumber, List.map_map]
  apply List.map_congr_left
  intro q hq
  obtain ⟨k', a⟩ := q
  by_cases hk : k' = k
  · subst hk
    rw [key_eq_of_nodup h.1 hq h.2.1]
    simp
  · obtain ⟨u, hu⟩ := h.2.2 _ hq hk
    dsimp only at hu
    subst hu
    simp [hk]

/-- C101, first part, for a dict with one list: the values are those of the dict with each number of the list in its place. -/
theorem C101_table_partial {σ : Type} {I : σ → Prop} {Q : Queries σ} (hQ : Stateless I Q) {δ : ℝ} {r : F → F} (hr : Close δ r)
    (d : List (Key × Entry)) (k : Key) (vs : List ℝ) (hd : OneList d k vs) (den : Option Poi) (n : Bool) (s : σ) (hs : I s) (c : Chi)
    (h : (chi2 r Q (.dict d) den n s).1 = .ok c) :
    ∃ xs, c = .many xs ∧ xs.length = vs.length ∧
    ∀ (i : ℕ) v, vs[i]? = some v → ∀ s', I s' →
      (∃ y, (chi2 r Q (.dict (withNumber d k v)) den n s').1 = .ok (.one y)) ∧
      ∀ y, (chi2 r Q (.dict (withNumber d k v)) den n s').1 = .ok (.one (fin y)) →
        ∃ x a, xs[i]? = some (fin x) ∧ |x - y| ≤ 2 * δ * |a| ∧ ∃ p, (Q.nll p s').1 = .ok (fin a) ∧
          Denotes (.dict (withNumber d k v)) p := by
  have h1 : chi2 r Q (.dict d) den n s = chi2 r Q (.iter (scanPoints d k vs)) den n s := by
    unfold chi2
    simp only [(oneList_scan hd).1, (oneList_scan hd).2]
  rw [h1] at h
  obtain ⟨xs, h2, h3, h4⟩ := C101_list_partial hQ hr _ den n s hs c h
  refine ⟨xs, h2, by rw [h3]; simp [scanPoints], fun i v hv s' hs' => ?_⟩
  obtain ⟨p, hp1, hp2⟩ := oneList_denotes hd i v hv
  obtain ⟨h5, h6⟩ := h4 i p _ hp1 hp2 s' hs'
  refine ⟨h5, fun y hy => ?_⟩
  obtain ⟨x, a, h7, h8, h9⟩ := h6 y hy
  exact ⟨x, a, h7, h9, p, h8, hp2⟩

/-- C101: a scan fails with the exception of the first point that fails, and only then. -/
theorem C101_failure {σ : Type} {I : σ → Prop} {Q : Queries σ} (hQ : Stateless I Q) (r : F → F) (l : List Poi) (den : Option Poi)
    (n : Bool) (s : σ) (hs : I s) (e : Err) (h : (chi2 r Q (.iter l) den n s).1 = .error e) :
    (denominator Q n den s).1 = .error e ∨ ∃ (i : ℕ) (p : Poi), l[i]? = some p ∧ (Q.nll p s).1 = .error e ∧
      ∀ j < i, ∀ q, l[j]? = some q → ∃ a, (Q.nll q s).1 = .ok a := by
  unfold chi2 at h
  have hd := denominator_free hQ n den hs hs
  cases h1 : denominator Q n den s with
  | mk a s1 =>
  rw [h1] at h hd
  cases a with
  | error e' => left; simpa using h
  | ok d =>
    right
    simp only [several] at h
    cases h2 : (scan r Q l s1).1 with
    | ok ls => rw [h2] at h; simp [Except.map] at h
    | error e' =>
      rw [h2] at h
      simp only [Except.map, Except.error.injEq] at h
      subst h
      exact (scan_spec hQ r l s1 s hd.2 hs).2 _ h2

/-- C101: a dict with two lists is refused, after the denominator has been computed; no likelihood of a point is computed. -/
theorem C101_two {σ : Type} (r : F → F) (Q : Queries σ) (d : List (Key × Entry)) (k k' : Key) (l l' : List ℝ) (hk : k ≠ k')
    (h : (k, Entry.list l) ∈ d) (h' : (k', Entry.list l') ∈ d) (den : Option Poi) (n : Bool) (s : σ) :
    (chi2 r Q (.dict d) den n s).2 = (denominator Q n den s).2 ∧
    (∀ v, (denominator Q n den s).1 = .ok v → (chi2 r Q (.dict d) den n s).1 = .error .notImplemented) ∧
    ∀ e, (denominator Q n den s).1 = .error e → (chi2 r Q (.dict d) den n s).1 = .error e := by
  have hm : k ∈ scanList d ∧ k' ∈ scanList d := by
    constructor <;> rw [scanList, List.mem_filterMap]
    · exact ⟨_, h, rfl⟩
    · exact ⟨_, h', rfl⟩
  unfold chi2
  cases h1 : denominator Q n den s with
  | mk a s1 =>
  cases a with
  | error e => simp
  | ok v =>
    cases h2 : scanList d with
    | nil => rw [h2] at hm; simp at hm
    | cons x t =>
      cases t with
      | nil =>
        rw [h2] at hm
        simp only [List.mem_singleton] at hm
        exact absurd (hm.1.trans hm.2.symm) hk
      | cons y t => simp [h2]

example : (chi2 id exQ (.iter [.float 2, .int 1]) none true ()).1 = .ok (.many [fin 8, fin 2]) ∧ Close 0 id ∧
    OneList [(.index 0, .list [2, 3]), (.name "theta", .number 1)] (.index 0) [2, 3] ∧
    (chi2 id exQ (.dict [(.index 0, .list [2, 3]), (.name "theta", .number 1)]) none true ()).1 = .ok (.many [fin 18, fin 32]) := by
  have h : OneList [(.index 0, .list [2, 3]), (.name "theta", .number 1)] (.index 0) [2, 3] := ⟨by simp, by simp, by simp⟩
  obtain ⟨h1, h2⟩ := oneList_scan h
  refine ⟨?_, fun x => ⟨x, rfl, by simp⟩, h, ?_⟩
  · norm_num [chi2, exQ, denominator, several, scan, ratio, sub, add, neg, scale, Except.map]
  · have h3 : Key.name "theta" ≠ Key.index 0 := by simp
    simp only [chi2, exQ, denominator, h1, h2]
    norm_num [h3, several, scan, scanPoints, ratio, sub, add, neg, scale, Except.map]

/-- C101 is false as an equality: whenever the rounding changes a number, there is a model without state where the value of a list differs
from that of its only point; and if it rounds down, the value for the best point itself is negative. -/
theorem C101_round_fails (r : F → F) (x y : ℝ) (hr : r (fin x) = fin y) (hxy : y ≠ x) :
    ∃ Q : Queries Unit, Stateless (fun _ => True) Q ∧ SameKeywords Q ∧ (Q.best true ()).1 = .ok (.one 1, fin x) ∧
      (chi2 r Q (.float 1) none true ()).1 = .ok (.one (fin 0)) ∧
      (∃ z, (chi2 r Q (.iter [.float 1]) none true ()).1 = .ok (.many [fin z]) ∧ z ≠ 0 ∧ (y < x → z < 0)) := by
  refine ⟨⟨fun _ s => (.ok (fin x), s), fun _ s => (.ok (fin x), s), fun _ s => (.ok (.one 1, fin x), s)⟩, ?_, rfl, rfl, ?_,
    2 * (y - x), ?_, ?_, fun h => by linarith⟩
  · constructor <;> intros <;> first | rfl | trivial
  · simp [chi2, denominator, single, Except.map, ratio, sub, add, neg, scale]
  · simp [chi2, denominator, several, scan, hr, Except.map, ratio, sub, add, neg, scale]
    ring
  · intro h
    exact hxy (by linarith)

/-! ## C102: `pull` -/

/-- C102, first part: for a number, where the comparison with the best fit is a number `x`: if it is not negative, the square of the pull
is `x` unless the best value is the tested one, and the pull has the sign of the difference. If it is negative, the pull is nan.
Missing: dicts, and lists, for which the documentation promises a result (`C102_dict_fails`). -/
theorem C102_pull_partial {σ : Type} {I : σ → Prop} {Q : Queries σ} (hQ : Stateless I Q) (hk : SameKeywords Q) {t : Test} {p : Poi}
    (ht : Denotes t p) (v : ℝ) (hv : p.HasValue v) (r : F → F) (n : Bool) (s s' : σ) (hs : I s) (hs' : I s') (m : ℝ) (l0 : F)
    (hm : (Q.best n s).1 = .ok (.one m, l0)) (x : ℝ) (h : (chi2 r Q t none n s').1 = .ok (.one (fin x))) :
    (0 ≤ x → ∃ y, (pull Q p n s).1 = .ok (fin y) ∧ (m ≠ v → y ^ 2 = x) ∧ (m = v → y = 0) ∧ (m < v → y ≤ 0) ∧ (v < m → 0 ≤ y)) ∧
    (x < 0 → (pull Q p n s).1 = .ok nan) := by
  obtain ⟨d, l, h1, h2, h3⟩ := chi2_single hQ ht r none n s' s hs' hs _ h
  unfold denominator at h1
  have hb := hQ.best_keeps n s hs
  cases h4 : Q.best n s with
  | mk a s1 =>
  rw [h4] at hm hb h1
  dsimp only at hm hb
  subst hm
  simp only [Except.ok.injEq, Chi.one.injEq] at h1 h3
  subst h1
  obtain ⟨u, w, rfl, rfl, rfl⟩ := ratio_fin h3.symm
  have h5 : (Q.fixed p s1).1 = .ok (fin u) := by rw [hQ.fixed p s1 s hb hs, ← hk]; exact h2
  have key : (pull Q p n s).1 = .ok (mul (sign (fin (m - v))) (F.sqrt (fin (2 * (u - w))))) := by
    unfold pull
    rw [h4]
    dsimp only
    cases h6 : Q.fixed p s1 with
    | mk b s2 =>
    rw [h6] at h5
    dsimp only at h5
    subst h5
    cases p with
    | float a => simp only [Poi.HasValue] at hv; subst hv; simp [h3]
    | int a => simp only [Poi.HasValue] at hv; subst hv; simp [h3]
    | dict a => simp [Poi.HasValue] at hv
  rw [key]
  constructor
  · intro hx
    simp only [F.sqrt, if_neg (not_lt.mpr hx), sign, mul]
    have hsq := Real.sq_sqrt hx
    have hnn := Real.sqrt_nonneg (2 * (u - w))
    refine ⟨_, rfl, fun hne => ?_, fun he => ?_, fun hlt => ?_, fun hlt => ?_⟩
    · rcases lt_or_gt_of_ne hne with h | h
      · rw [if_pos (by linarith)]; nlinarith
      · rw [if_neg (by linarith), if_pos (by linarith)]; nlinarith
    · subst he; simp
    · rw [if_pos (by linarith)]; linarith
    · rw [if_neg (by linarith), if_pos (by linarith)]; linarith
  · intro hx
    have h0 : ∀ z : ℝ, mul (fin z) nan = nan := fun z => by simp [mul]
    simp only [F.sqrt, if_pos hx, sign, h0]

/-- C102 is false for dicts: whatever the model, a result is impossible. If both fits succeed, `TypeError` follows. -/
theorem C102_dict_fails {σ : Type} (Q : Queries σ) (d : List (Key × ℝ)) (n : Bool) (s : σ) :
    (∃ e, (pull Q (.dict d) n s).1 = .error e) ∧
    ∀ m l0 l, (Q.best n s).1 = .ok (m, l0) → (Q.fixed (.dict d) (Q.best n s).2).1 = .ok l →
      (pull Q (.dict d) n s).1 = .error .type := by
  unfold pull
  cases h1 : Q.best n s with
  | mk a s1 =>
  cases a with
  | error e => simp
  | ok a =>
    obtain ⟨m, l0⟩ := a
    dsimp only
    cases h2 : Q.fixed (.dict d) s1 with
    | mk b s2 =>
    cases b with
    | error e => simp
    | ok l => cases m <;> simp

example : (pull exQ (.float 3) true ()).1 = .ok (fin (-√18)) ∧ (pull exQ (.int (-2)) true ()).1 = .ok (fin √8) ∧
    (chi2 id exQ (.float 3) none true ()).1 = .ok (.one (fin 18)) ∧ (exQ.best true ()).1 = .ok (.one 0, fin 0) := by
  refine ⟨?_, ?_, ?_, rfl⟩ <;>
    norm_num [pull, chi2, exQ, denominator, single, ratio, sub, add, neg, scale, Except.map, F.sqrt, sign, mul]

/-- C99 for `StatisticalModel`, with a minimiser that does not depend on the start: with the same keywords for both points (any bounds for the fits), exchanging
them changes the sign, and the comparison with the best fit is the sum of the comparisons with another point and of that with the best fit. -/
theorem C99_model {S : Solver} (hS : StartFree S) (B : Backend) (hfix : ∀ n, (B.config n).fixed = none) (e : Expectation) (g : Bool) (bounds : Option (List Bound))
    {N : ℕ} {ta tb : Test} {a b : Poi} (ha : Denotes ta a) (hb : Denotes tb b) (r : F → F) (n m : Bool) {w w' w'' : World} (hw : Plain N w) (hw' : Plain N w')
    (hw'' : Plain N w'') (x y : F) :
    ((chi2 r (modelQueries S B e g g bounds) ta (some b) n w).1 = .ok (.one x) →
      (chi2 r (modelQueries S B e g g bounds) tb (some a) m w').1 = .ok (.one y) → x = neg y) ∧
    ∀ z, (chi2 r (modelQueries S B e g g bounds) ta none n w).1 = .ok (.one x) → (chi2 r (modelQueries S B e g g bounds) tb none n w').1 = .ok (.one y) →
      (chi2 r (modelQueries S B e g g bounds) ta (some b) m w'').1 = .ok (.one z) → (∃ v, y = fin v) → x = add z y :=
  ⟨fun h h' => C99_antisymmetric (model_stateless hS B hfix e g g bounds N) rfl ha hb r n m w w' hw hw' x y h h',
    fun z h h' h'' hy => C99_additive (model_stateless hS B hfix e g g bounds N) rfl ha hb r n m w w' w'' hw hw' hw'' x y z h h' h'' hy⟩

/-- All this applies to `StatisticalModel` with a minimiser that does not depend on the start. -/
example (e : Expectation) (g : Bool) : Stateless (Plain 2) (modelQueries perfect exB e g g none) ∧
    SameKeywords (modelQueries perfect exB e g g none) :=
  ⟨model_stateless perfect_free exB (fun _ => rfl) e g g none 2, rfl⟩

end Verif.Interface
