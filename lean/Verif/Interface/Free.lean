import Verif.Interface.RatioProps

/-!
# Minimisers that do not depend on the start: the queries of `StatisticalModel` are independent of earlier ones
-/

namespace Verif.Interface
open Verif.Py F Verif.Config Verif.Optimizer
open Verif.Backend (Expectation)
open Classical

theorem setFixed_free (l : List (ℤ × ℝ)) : ∀ (init init' : List ℝ) (mask : List Bool), init.length = init'.length →
    mask.length = init.length → (∀ k : ℕ, mask[k]? = some true → init[k]? = init'[k]?) →
    (setFixed init mask l).2 = (setFixed init' mask l).2 ∧ (setFixed init mask l).1.2 = (setFixed init' mask l).1.2 ∧
      (setFixed init mask l).1.1.length = (setFixed init' mask l).1.1.length ∧
      ∀ k : ℕ, (setFixed init mask l).1.2[k]? = some true → (setFixed init mask l).1.1[k]? = (setFixed init' mask l).1.1[k]? := by
  induction l with
  | nil => intro init init' mask h1 _ h2; exact ⟨rfl, rfl, h1, h2⟩
  | cons p l ih =>
    obtain ⟨i, v⟩ := p
    intro init init' mask h1 h3 h2
    simp only [setFixed, h1]
    cases hk : slot init'.length i with
    | none => exact ⟨rfl, rfl, h1, h2⟩
    | some k =>
      refine ih _ _ _ (by simp [h1]) (by simp [h3]) fun j hj => ?_
      by_cases hjk : k = j
      · subst hjk
        simp [List.getElem?_set, h1]
      · rw [List.getElem?_set_ne hjk] at hj
        rw [List.getElem?_set_ne hjk, List.getElem?_set_ne hjk]
        exact h2 j hj

/-- The result of a fit does not depend on the configured initial values if nothing is fixed by the configuration. -/
theorem fit_free {S : Solver} (hS : StartFree S) (f : List ℝ → F) (g : Bool) (cs : List Constraint) (poi : ℤ) (c : ModelConfig)
    (hc : c.fixed = none) (s : List ℝ) (hs : s.length = c.init.length) (b : Option (List Bound)) (fixed : FixedPoi)
    (lp : Option (List ℝ → F)) :
    (fit (S f g cs poi) { c with init := s } none b fixed lp).1 = (fit (S f g cs poi) c none b fixed lp).1 := by
  obtain ⟨pi, mp, init, bs, nm, fx⟩ := c
  dsimp only at hc hs
  subst hc
  generalize hcc : (⟨pi, mp, init, bs, nm, none⟩ : ModelConfig) = c
  have hi : c.init = init := by rw [← hcc]
  have hf : c.fixed = none := by rw [← hcc]
  rw [← hi] at hs
  have hb : fitBounds { c with init := s } b fixed = fitBounds c b fixed := by cases b <;> cases fixed <;> rfl
  have hp : fixed.pairs { c with init := s } = fixed.pairs c := by cases fixed <;> rfl
  obtain ⟨h1, h2, h3, h4⟩ := setFixed_free (fixed.pairs c) s c.init (List.replicate c.init.length false) hs (by simp [hs]) (by
    intro k hk
    obtain ⟨hl, hk⟩ := List.getElem?_eq_some_iff.mp hk
    simp at hk)
  unfold fit
  rw [hb, hp]
  dsimp only
  rw [hf]
  simp only [Option.getD_none, setSuggested, hs]
  cases fitBounds c b fixed with
  | error err => rfl
  | ok b' =>
    simp only [h1]
    cases (setFixed c.init (List.replicate c.init.length false) (fixed.pairs c)).2 with
    | error err => rfl
    | ok u =>
      simp only
      rw [hS f g cs poi _ _ _ b' h3 h4, h2]
      cases S f g cs poi (setFixed c.init (List.replicate c.init.length false) (fixed.pairs c)).1.1
        (setFixed c.init (List.replicate c.init.length false) (fixed.pairs c)).1.2 b' <;> rfl

theorem runFit_free {S : Solver} (hS : StartFree S) (p : Prepared) (hc : p.config.fixed = none) (s : List ℝ)
    (hs : s.length = p.config.init.length) (b : Option (List Bound)) (fixed : FixedPoi) (lp : Option (List ℝ → F)) (w w' : World)
    (hw : w.init = none) (hw' : w'.init = none) :
    (runFit S { p with config := { p.config with init := s } } b fixed lp w).1 = (runFit S p b fixed lp w').1 := by
  unfold runFit
  simp only [hw, hw']
  rw [fit_free hS _ _ _ _ p.config hc s hs]

/-- The states that matter: no lists of the caller, `N` configured initial values. -/
def Plain (N : ℕ) (w : World) : Prop := w.init = none ∧ w.constraints = none ∧ w.start.length = N

theorem prepare_free (B : Backend) (e d n g) {N : ℕ} {w w' : World} (hw : Plain N w) (hw' : Plain N w') :
    (∃ err, prepareForFit B e d n g w = (.error err, w) ∧ prepareForFit B e d n g w' = (.error err, w')) ∨
    ∃ p, prepareForFit B e d n g w = (.ok p, w) ∧
      prepareForFit B e d n g w' = (.ok { p with config := { p.config with init := w'.start } }, w') ∧ p.config = config B n w := by
  unfold prepareForFit
  cases getObjective B e d g with
  | error err => exact Or.inl ⟨err, rfl, rfl⟩
  | ok r =>
    right
    obtain ⟨ws, wi, wc⟩ := w
    obtain ⟨ws', wi', wc'⟩ := w'
    obtain ⟨h1, h2, h3⟩ := hw
    obtain ⟨h1', h2', h3'⟩ := hw'
    dsimp only at h2 h2'
    subst h2 h2'
    exact ⟨⟨r.1, r.2, config B n ⟨ws, wi, none⟩, B.logpdf e d, [] ++ B.constraints⟩, rfl, rfl, rfl⟩

theorem resolve_free (B : Backend) (w w' : World) (poi : Poi) : resolvePoi B w poi = resolvePoi B w' poi := by
  cases poi <;> rfl

theorem runFit_plain {S : Solver} {p : Prepared} {b fixed lp} {N : ℕ} {w : World} (hw : Plain N w)
    (hp : p.config.init.length = N) : Plain N (runFit S p b fixed lp w).2 := by
  have h := runFit_world S p b fixed lp w
  exact ⟨h.2.1 hw.1, h.1.trans hw.2.1, by rw [h.2.2.1, hp]⟩

theorem profile_free {S : Solver} (hS : StartFree S) (B : Backend) (hfix : ∀ n, (B.config n).fixed = none) (poi : Poi) (e d n g b)
    {N : ℕ} {w w' : World} (hw : Plain N w) (hw' : Plain N w') :
    (profile S B poi e d n g b w).1 = (profile S B poi e d n g b w').1 ∧ Plain N (profile S B poi e d n g b w).2 := by
  unfold profile
  rcases prepare_free B e d n g hw hw' with ⟨err, h1, h2⟩ | ⟨p, h1, h2, h3⟩
  · rw [h1, h2]
    exact ⟨rfl, hw⟩
  · rw [h1, h2]
    have hi : p.config.init = w.start := by rw [h3]; rfl
    have hl : p.config.npar = N := by rw [ModelConfig.npar, hi]; exact hw.2.2
    have hl' : ({ p.config with init := w'.start } : ModelConfig).npar = N := hw'.2.2
    simp only [hl, hl']
    split
    · exact ⟨rfl, hw⟩
    · rw [resolve_free B w' w]
      cases resolvePoi B w poi with
      | error err => exact ⟨rfl, hw⟩
      | ok f =>
        refine ⟨(runFit_free hS p (by rw [h3]; exact hfix n) w'.start ?_ b f _ w' w hw'.1 hw.1).symm, runFit_plain hw ?_⟩
        · rw [hi, hw.2.2, hw'.2.2]
        · rw [hi]; exact hw.2.2

theorem likelihood_free {S : Solver} (hS : StartFree S) (B : Backend) (hfix : ∀ n, (B.config n).fixed = none) (poi : Poi)
    (e rn d rp n g b) {N : ℕ} {w w' : World} (hw : Plain N w) (hw' : Plain N w') :
    (likelihood S B poi e rn d rp n g b w).1 = (likelihood S B poi e rn d rp n g b w').1 ∧
      Plain N (likelihood S B poi e rn d rp n g b w).2 := by
  unfold likelihood
  obtain ⟨h1, h2⟩ := profile_free hS B hfix poi e d n g b hw hw'
  cases B.negLL poi e d rp with
  | ok o => exact ⟨rfl, hw⟩
  | error err =>
    cases err <;> first | exact ⟨rfl, hw⟩ | skip
    dsimp only
    rw [h1]
    exact ⟨rfl, h2⟩

theorem maximize_free {S : Solver} (hS : StartFree S) (B : Backend) (hfix : ∀ n, (B.config n).fixed = none) (rn e n d keys fixed g b)
    {N : ℕ} {w w' : World} (hw : Plain N w) (hw' : Plain N w') :
    (maximize S B rn e n d keys fixed g b w).1 = (maximize S B rn e n d keys fixed g b w').1 ∧
      Plain N (maximize S B rn e n d keys fixed g b w).2 := by
  have hr : resolveFixed B w fixed = resolveFixed B w' fixed := by
    cases fixed with
    | none => rfl
    | some p => exact resolve_free B w w' p
  unfold maximize
  rw [hr]
  cases B.minNegLL e n d keys with
  | ok o => exact ⟨rfl, hw⟩
  | error err =>
    cases err <;> first | exact ⟨rfl, hw⟩ | skip
    dsimp only
    cases resolveFixed B w' fixed with
    | error err => exact ⟨rfl, hw⟩
    | ok f =>
      dsimp only
      rcases prepare_free B e d n g hw hw' with ⟨err, h1, h2⟩ | ⟨p, h1, h2, h3⟩
      · rw [h1, h2]
        exact ⟨rfl, hw⟩
      · rw [h1, h2]
        dsimp only
        have hi : p.config.init = w.start := by rw [h3]; rfl
        have h4 := (runFit_free hS p (by rw [h3]; exact hfix n) w'.start (by rw [hi, hw.2.2, hw'.2.2]) b f (some p.logpdf) w' w hw'.1
          hw.1).symm
        have h5 : Plain N (runFit S p b f (some p.logpdf) w).2 := runFit_plain hw (by rw [hi]; exact hw.2.2)
        cases h6 : runFit S p b f (some p.logpdf) w with
        | mk r1 w1 =>
        cases h7 : runFit S { p with config := { p.config with init := w'.start } } b f (some p.logpdf) w' with
        | mk r2 w2 =>
        rw [h6] at h5
        rw [h6, h7] at h4
        dsimp only at h4 h5
        subst h4
        cases r1 with
        | error err => exact ⟨rfl, h5⟩
        | ok x => exact ⟨rfl, h5⟩

/-- With a minimiser that does not depend on the start, the queries of `StatisticalModel` do not depend on earlier queries, as long as
the caller gives no lists. -/
theorem model_stateless {S : Solver} (hS : StartFree S) (B : Backend) (hfix : ∀ n, (B.config n).fixed = none) (e : Expectation)
    (g g' : Bool) (b : Option (List Bound)) (N : ℕ) : Stateless (Plain N) (modelQueries S B e g g' b) := by
  have hl : ∀ g p w w', Plain N w → Plain N w' → (likelihoodQuery S B e g b p w).1 = (likelihoodQuery S B e g b p w').1 ∧
      Plain N (likelihoodQuery S B e g b p w).2 := by
    intro g p w w' hw hw'
    obtain ⟨h1, h2⟩ := likelihood_free hS B hfix p e true none false true g b hw hw'
    unfold likelihoodQuery
    cases h3 : likelihood S B p e true none false true g b w with
    | mk r1 w1 =>
    cases h4 : likelihood S B p e true none false true g b w' with
    | mk r2 w2 =>
    rw [h3, h4] at h1
    rw [h3] at h2
    dsimp only at h1 h2
    subst h1
    cases r1 <;> exact ⟨rfl, h2⟩
  constructor
  · intro p s s' h h'; exact (hl _ p s s' h h').1
  · intro p s s' h h'; exact (hl _ p s s' h h').1
  · intro n s s' h h'; exact (maximize_free hS B hfix _ _ _ _ _ _ _ _ h h').1
  · intro p s h; exact (hl _ p s s h h).2
  · intro p s h; exact (hl _ p s s h h).2
  · intro n s h; exact (maximize_free hS B hfix _ _ _ _ _ _ _ _ h h).2

theorem sigmaMuFromHessian_free {S : Solver} (hS : StartFree S) (inv : List (List ℝ) → Except Err (List (List ℝ))) (B : Backend)
    (hfix : ∀ n, (B.config n).fixed = none) (poi : Poi) (e g b) {N : ℕ} {w w' : World} (hw : Plain N w) (hw' : Plain N w') :
    (sigmaMuFromHessian S inv B poi e g b w).1 = (sigmaMuFromHessian S inv B poi e g b w').1 ∧ Plain N (sigmaMuFromHessian S inv B poi e g b w).2 := by
  unfold sigmaMuFromHessian
  cases hH : B.hessian e with
  | error err => cases err <;> exact ⟨rfl, hw⟩
  | ok H =>
    dsimp only
    rcases prepare_free B e none true g hw hw' with ⟨err, h1, h2⟩ | ⟨p, h1, h2, h3⟩
    · rw [h1, h2]
      exact ⟨rfl, hw⟩
    · rw [h1, h2]
      have hi : p.config.init = w.start := by rw [h3]; rfl
      dsimp only
      rw [resolve_free B w' w]
      cases resolvePoi B w poi with
      | error err => exact ⟨rfl, hw⟩
      | ok f =>
        dsimp only
        have hr := runFit_free hS p (by rw [h3]; exact hfix true) w'.start (by rw [hi, hw.2.2, hw'.2.2]) b f none w' w hw'.1 hw.1
        have hp := runFit_plain (S := S) (p := p) (b := b) (fixed := f) (lp := none) hw (by rw [hi]; exact hw.2.2)
        cases hx : runFit S p b f none w with
        | mk r w1 =>
        cases hx' : runFit S { p with config := { p.config with init := w'.start } } b f none w' with
        | mk r' w1' =>
        rw [hx, hx'] at hr
        rw [hx] at hp
        dsimp only at hr hp
        subst hr
        cases r' with
        | error err => exact ⟨rfl, hp⟩
        | ok r =>
          dsimp only
          cases inv ((H r.2).map fun row => row.map fun y => -1 * y) with
          | error err => exact ⟨rfl, hp⟩
          | ok M => exact ⟨rfl, hp⟩

theorem perfect_free : StartFree perfect := by
  intro f g cs poi init init' mask b h1 h2
  have h : Candidate cs init mask b = Candidate cs init' mask b := by
    funext x
    apply propext
    unfold Candidate
    rw [h1]
    constructor
    · rintro ⟨h3, h4, h5⟩
      exact ⟨h3, fun k hk => by rw [h4 k hk, h2 k hk], h5⟩
    · rintro ⟨h3, h4, h5⟩
      exact ⟨h3, fun k hk => by rw [h4 k hk, h2 k hk], h5⟩
  unfold perfect
  simp only [h, h1]

end Verif.Interface
