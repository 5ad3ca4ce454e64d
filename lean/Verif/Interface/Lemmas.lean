import Verif.Interface.Spec
import Verif.Optimizer.Props

/-!
# Lemmas about `StatisticalModel`
-/

namespace Verif.Interface
open Verif.Py F Verif.Config Verif.Optimizer
open Verif.Backend (Expectation)
open Classical

/-! ### `fit` -/

theorem fit_length {tol : ℝ} {S : Solver} (hS : Honest tol S) {f g cs poi c initial b fixed lp v x}
    (h : (fit (S f g cs poi) c initial b fixed lp).1 = .ok (v, x)) : x.length = (initial.getD c.init).length := by
  unfold fit at h
  simp only at h
  split at h
  · simp at h
  split at h
  · simp at h
  split at h
  · simp at h
  split at h
  · simp at h
  rename_i hm
  simp only [Except.ok.injEq, Prod.mk.injEq] at h
  obtain ⟨-, rfl⟩ := h
  rw [hS.length _ _ _ _ _ _ _ _ _ hm, (setFixed_length _ _ _).1]

theorem fit_after (m : Minimizer) (c : ModelConfig) (initial : Option (List ℝ)) (b : Option (List Bound)) (fixed : FixedPoi)
    (lp : Option (List ℝ → F)) :
    (initial = none → (fit m c initial b fixed lp).2.initial = none) ∧
    (∀ l, initial = some l → (fit m c initial b fixed lp).2.config.init = c.init ∧
      ∃ l', (fit m c initial b fixed lp).2.initial = some l') ∧
    (fit m c initial b fixed lp).2.config.init.length = c.init.length ∧
    (∀ j : ℕ, (∀ p ∈ fixed.pairs c, slot c.init.length p.1 ≠ some j) →
      (fit m c initial b fixed lp).2.config.init[j]? = c.init[j]?) := by
  have key : (fit m c initial b fixed lp).2 = ⟨initial, c⟩ ∨ (fit m c initial b fixed lp).2 =
      (match initial with
      | some _ => ⟨some (setFixed (initial.getD c.init) (List.replicate (initial.getD c.init).length false)
          (fixed.pairs c)).1.1, c⟩
      | none => ⟨none, { c with init := (setFixed (initial.getD c.init)
          (List.replicate (initial.getD c.init).length false) (fixed.pairs c)).1.1 }⟩) := by
    unfold fit
    simp only
    split
    · exact Or.inl rfl
    · right
      split
      · rfl
      · split
        · rfl
        · split <;> rfl
  rcases key with h | h
  · rw [h]
    refine ⟨fun h => h, fun l hl => ⟨rfl, l, hl⟩, rfl, fun _ _ => rfl⟩
  · rw [h]
    cases initial with
    | some l => exact ⟨by simp, fun l' _ => ⟨rfl, _, rfl⟩, rfl, fun _ _ => rfl⟩
    | none =>
      refine ⟨fun _ => rfl, by simp, (setFixed_length _ _ _).1, fun j hj => ?_⟩
      exact ((setFixed_spec (fixed.pairs c) c.init (List.replicate c.init.length false) (by simp)).1 j hj).1

/-- With initial values given, the configured ones are not read. -/
theorem fit_own (m : Minimizer) (c : ModelConfig) (l s : List ℝ) (b : Option (List Bound)) (fixed : FixedPoi)
    (lp : Option (List ℝ → F)) :
    fit m { c with init := s } (some l) b fixed lp =
      ((fit m c (some l) b fixed lp).1, ⟨(fit m c (some l) b fixed lp).2.initial, { c with init := s }⟩) := by
  have hb : fitBounds { c with init := s } b fixed = fitBounds c b fixed := by
    cases b <;> cases fixed <;> rfl
  have hp : fixed.pairs { c with init := s } = fixed.pairs c := by cases fixed <;> rfl
  unfold fit
  simp only [hb, hp, Option.getD_some]
  split
  · rfl
  · split
    · rfl
    · split
      · rfl
      · split <;> rfl

/-! ### `runFit` -/

theorem runFit_ok {S : Solver} {p : Prepared} {b fixed lp w v x}
    (h : (runFit S p b fixed lp w).1 = .ok (v, x)) :
    (fit (S p.func p.doGrad p.constraints p.config.poiIndex) p.config w.init b fixed lp).1 = .ok (v, x) := by
  unfold runFit at h
  simp only at h
  cases hf : (fit (S p.func p.doGrad p.constraints p.config.poiIndex) p.config w.init b fixed lp).1 with
  | error e => rw [hf] at h; simp [Except.mapError] at h
  | ok r =>
    rw [hf] at h
    simp only [Except.mapError, Except.ok.injEq] at h
    rw [h]

/-- A fit with a fixed POI: the POI has the requested value, and the first component is the value of the function there. -/
theorem runFit_value {tol : ℝ} {S : Solver} (hS : Honest tol S) {p : Prepared} {b u lp w v x}
    (h : (runFit S p b (.value u) lp w).1 = .ok (v, x)) :
    v = (lp.getD p.func) x ∧ x.length = (w.init.getD p.config.init).length ∧
      ∃ k y, slot x.length p.config.poiIndex = some k ∧ x[k]? = some y ∧ |y - u| ≤ tol := by
  have h := runFit_ok h
  have hl := fit_length hS h
  obtain ⟨h1, h2, -⟩ := C31_fit_partial (hS.keeps _ _ _ _) _ _ _ _ _ _ _ h
  refine ⟨h1, hl, ?_⟩
  rw [hl]
  cases hk : slot (w.init.getD p.config.init).length p.config.poiIndex with
  | none =>
    exfalso
    unfold fit at h
    simp only [FixedPoi.pairs, setFixed, hk] at h
    split at h <;> simp at h
  | some k =>
    obtain ⟨y, hy, hy'⟩ := h2 [] [] _ _ k rfl hk (by simp)
    exact ⟨k, y, rfl, hy, hy'⟩

/-- The value is that of the function at the returned point. -/
theorem runFit_point {tol : ℝ} {S : Solver} (hS : Honest tol S) {p : Prepared} {b fixed lp w v x}
    (h : (runFit S p b fixed lp w).1 = .ok (v, x)) :
    v = (lp.getD p.func) x ∧ x.length = (w.init.getD p.config.init).length := by
  have h := runFit_ok h
  exact ⟨(C31_fit_partial (hS.keeps _ _ _ _) _ _ _ _ _ _ _ h).1, fit_length hS h⟩

theorem runFit_world (S : Solver) (p : Prepared) (b : Option (List Bound)) (fixed : FixedPoi) (lp : Option (List ℝ → F))
    (w : World) :
    (runFit S p b fixed lp w).2.constraints = w.constraints ∧
    (w.init = none → (runFit S p b fixed lp w).2.init = none) ∧
    (runFit S p b fixed lp w).2.start.length = p.config.init.length ∧
    (∀ j : ℕ, (∀ q ∈ fixed.pairs p.config, slot p.config.init.length q.1 ≠ some j) →
      (runFit S p b fixed lp w).2.start[j]? = p.config.init[j]?) := by
  have h := fit_after (S p.func p.doGrad p.constraints p.config.poiIndex) p.config w.init b fixed lp
  exact ⟨rfl, h.1, h.2.2.1, h.2.2.2⟩

/-! ### `prepare_for_fit` -/

theorem prepare_ok {B : Backend} {e d n g w p w'} (h : prepareForFit B e d n g w = (.ok p, w')) :
    w' = { w with constraints := w.constraints.map (· ++ B.constraints) } ∧ p.config = config B n w ∧ p.logpdf = B.logpdf e d ∧
      p.constraints = w.constraints.getD [] ++ B.constraints ∧ ∃ g', B.objective g' e d = .ok p.func ∧ p.doGrad = g' := by
  unfold prepareForFit at h
  split at h
  · simp at h
  rename_i f g' hg
  simp only [Prod.mk.injEq, Except.ok.injEq] at h
  obtain ⟨rfl, rfl⟩ := h
  refine ⟨rfl, rfl, rfl, rfl, g', ?_, rfl⟩
  unfold getObjective at hg
  split at hg
  · rename_i hf
    simp only [Except.ok.injEq, Prod.mk.injEq] at hg
    obtain ⟨rfl, rfl⟩ := hg
    exact hf
  · split at hg
    · rename_i hf
      simp only [Except.ok.injEq, Prod.mk.injEq] at hg
      obtain ⟨rfl, rfl⟩ := hg
      exact hf
    · simp at hg
  · simp at hg

theorem prepare_error {B : Backend} {e d n g w err w'} (h : prepareForFit B e d n g w = (.error err, w')) : w' = w := by
  unfold prepareForFit at h
  split at h
  · simp only [Prod.mk.injEq] at h
    exact h.2.symm
  · simp at h

/-! ### Queries with initial values of the caller -/

/-- The result does not depend on the configured initial values, which are left alone. -/
def OwnStart {α : Type} (q : World → Except Err α × World) (w : World) : Prop :=
  (q w).2.start = w.start ∧ (q w).2.init.isSome ∧
    ∀ s : List ℝ, s.length = w.start.length → q { w with start := s } = ((q w).1, { (q w).2 with start := s })

theorem prepare_own (B : Backend) (e d n g) (w : World) (s : List ℝ) :
    prepareForFit B e d n g { w with start := s } =
      ((prepareForFit B e d n g w).1.map (fun p => { p with config := { p.config with init := s } }),
        { (prepareForFit B e d n g w).2 with start := s }) := by
  unfold prepareForFit
  split <;> rfl

theorem runFit_own (S : Solver) (p : Prepared) (b : Option (List Bound)) (fixed : FixedPoi) (lp : Option (List ℝ → F)) (w : World)
    (hp : p.config.init = w.start) (hw : w.init.isSome) :
    (runFit S p b fixed lp w).2.start = w.start ∧ (runFit S p b fixed lp w).2.init.isSome ∧
      ∀ s : List ℝ, runFit S { p with config := { p.config with init := s } } b fixed lp { w with start := s } =
        ((runFit S p b fixed lp w).1, { (runFit S p b fixed lp w).2 with start := s }) := by
  obtain ⟨l, hl⟩ := Option.isSome_iff_exists.mp hw
  have h := fit_after (S p.func p.doGrad p.constraints p.config.poiIndex) p.config w.init b fixed lp
  obtain ⟨h1, l', h2⟩ := h.2.1 l hl
  refine ⟨?_, ?_, ?_⟩
  · unfold runFit; simp only; rw [h1, hp]
  · unfold runFit; simp only; rw [h2]; rfl
  · intro s
    have := fit_own (S p.func p.doGrad p.constraints p.config.poiIndex) p.config l s b fixed lp
    unfold runFit
    simp only [hl, this]

theorem resolve_own (B : Backend) (w : World) (s : List ℝ) (poi : Poi) :
    resolvePoi B { w with start := s } poi = resolvePoi B w poi := by
  cases poi <;> rfl

theorem profile_own (S : Solver) (B : Backend) (poi : Poi) (e d n g b) (w : World) (hw : w.init.isSome) :
    OwnStart (profile S B poi e d n g b) w := by
  have hs := prepare_own B e d n g w
  cases hp : prepareForFit B e d n g w with
  | mk r w1 =>
    cases r with
    | error err =>
      have := prepare_error hp
      subst this
      refine ⟨by simp [profile, hp], by simp [profile, hp, hw], fun s hs' => ?_⟩
      simp only [profile, hs s, hp, Except.map]
    | ok p =>
      obtain ⟨h1, h2, -⟩ := prepare_ok hp
      have hst : w1.start = w.start := by rw [h1]
      have hin : w1.init.isSome := by rw [h1]; exact hw
      have hpi : p.config.init = w1.start := by rw [h2, hst]; rfl
      by_cases hsc : p.config.npar = 1 ∧ ∃ v, poi = .float v
      · obtain ⟨hn, v, rfl⟩ := hsc
        have hq : profile S B (.float v) e d n g b w = (.ok (p.logpdf [v], [v]), w1) := by
          simp only [profile, hp]
          split
          · rename_i h; simp only [Poi.float.injEq] at h; rw [h]
          · rename_i h; exact absurd rfl (h v hn)
        refine ⟨by rw [hq]; exact hst, by rw [hq]; exact hin, fun s hs' => ?_⟩
        rw [hq]
        simp only [profile, hs s, hp, Except.map]
        split
        · rename_i h; simp only [Poi.float.injEq] at h; rw [h]
        · rename_i h
          refine absurd rfl (h v ?_)
          simp only [ModelConfig.npar] at hn ⊢
          rw [hs', ← hst, ← hpi, hn]
      · have hq : ∀ s : List ℝ, s.length = w.start.length → profile S B poi e d n g b { w with start := s } =
            (match resolvePoi B w1 poi with
            | .error err => (.error err, { w1 with start := s })
            | .ok f => runFit S { p with config := { p.config with init := s } } b f (some p.logpdf) { w1 with start := s }) := by
          intro s hs'
          simp only [profile, hs s, hp, Except.map]
          split
          · rename_i h
            refine absurd ⟨?_, _, rfl⟩ hsc
            simp only [ModelConfig.npar] at h ⊢
            rw [hpi, hst, ← hs', h]
          · rfl
        have hq0 := hq w.start rfl
        have e1 : ({ w with start := w.start } : World) = w := rfl
        have e2 : ({ w1 with start := w.start } : World) = w1 := by rw [← hst]
        have e3 : ({ p with config := { p.config with init := w.start } } : Prepared) = p := by
          rw [← hst, ← hpi]
        rw [e1, e2, e3] at hq0
        unfold OwnStart
        cases hr : resolvePoi B w1 poi with
        | error err =>
          rw [hr] at hq0
          refine ⟨by rw [hq0]; exact hst, by rw [hq0]; exact hin, fun s hs' => ?_⟩
          rw [hq s hs', hq0, hr]
        | ok f =>
          rw [hr] at hq0
          obtain ⟨r1, r2, r3⟩ := runFit_own S p b f (some p.logpdf) w1 hpi hin
          simp only at hq0
          refine ⟨by rw [hq0, r1, hst], by rw [hq0]; exact r2, fun s hs' => ?_⟩
          rw [hq s hs', hq0, hr]
          exact r3 s

theorem likelihood_own (S : Solver) (B : Backend) (poi : Poi) (e rn d rp n g b) (w : World) (hw : w.init.isSome) :
    OwnStart (likelihood S B poi e rn d rp n g b) w := by
  unfold OwnStart likelihood
  split
  · exact ⟨rfl, hw, fun _ _ => rfl⟩
  · obtain ⟨h1, h2, h3⟩ := profile_own S B poi e d n g b w hw
    refine ⟨h1, h2, fun s hs => ?_⟩
    simp only [h3 s hs]
  · exact ⟨rfl, hw, fun _ _ => rfl⟩

theorem generate_own (S : Solver) (B : Backend) (e ts g b) (w : World) (hw : w.init.isSome) :
    OwnStart (generateAsimov S B e ts g b) w := by
  have hs := prepare_own B e none (mayBeNegative ts) g w
  cases hp : prepareForFit B e none (mayBeNegative ts) g w with
  | mk r w1 =>
    cases r with
    | error err =>
      have := prepare_error hp
      subst this
      refine ⟨by simp [generateAsimov, hp], by simp [generateAsimov, hp, hw], fun s hs' => ?_⟩
      simp only [generateAsimov, hs s, hp, Except.map]
    | ok p =>
      obtain ⟨h1, h2, -⟩ := prepare_ok hp
      have hst : w1.start = w.start := by rw [h1]
      have hin : w1.init.isSome := by rw [h1]; exact hw
      have hpi : p.config.init = w1.start := by rw [h2, hst]; rfl
      obtain ⟨r1, r2, r3⟩ := runFit_own S p b (.value (if ts = "q0" then 1 else 0)) (some p.logpdf) w1 hpi hin
      cases hf : runFit S p b (.value (if ts = "q0" then 1 else 0)) (some p.logpdf) w1 with
      | mk r w2 =>
        rw [hf] at r1 r2 r3
        cases r with
        | error err =>
          have hq : generateAsimov S B e ts g b w = (.error err, w2) := by simp only [generateAsimov, hp, hf]
          refine ⟨by rw [hq, ← hst]; exact r1, by rw [hq]; exact r2, fun s hs' => ?_⟩
          rw [hq]
          simp only [generateAsimov, hs s, hp, Except.map, r3 s]
        | ok x =>
          have hq : generateAsimov S B e ts g b w = (B.expectedData x.2, w2) := by simp only [generateAsimov, hp, hf]
          refine ⟨by rw [hq, ← hst]; exact r1, by rw [hq]; exact r2, fun s hs' => ?_⟩
          rw [hq]
          simp only [generateAsimov, hs s, hp, Except.map, r3 s]

theorem maximize_own (S : Solver) (B : Backend) (rn e n d keys fixed g b) (w : World) (hw : w.init.isSome) :
    OwnStart (maximize S B rn e n d keys fixed g b) w := by
  unfold OwnStart maximize
  split
  · exact ⟨rfl, hw, fun _ _ => rfl⟩
  · have hres : ∀ s : List ℝ, resolveFixed B { w with start := s } fixed = resolveFixed B w fixed := by
      intro s
      cases fixed with
      | none => rfl
      | some p => exact resolve_own B w s p
    simp only [hres]
    cases resolveFixed B w fixed with
    | error err => exact ⟨rfl, hw, fun _ _ => rfl⟩
    | ok f =>
      simp only
      have hs := prepare_own B e d n g w
      cases hp : prepareForFit B e d n g w with
      | mk r w1 =>
        cases r with
        | error err =>
          have := prepare_error hp
          subst this
          refine ⟨rfl, hw, fun s hs' => ?_⟩
          simp only [hs s, hp, Except.map]
        | ok p =>
          obtain ⟨h1, h2, -⟩ := prepare_ok hp
          have hst : w1.start = w.start := by rw [h1]
          have hin : w1.init.isSome := by rw [h1]; exact hw
          have hpi : p.config.init = w1.start := by rw [h2, hst]; rfl
          obtain ⟨r1, r2, r3⟩ := runFit_own S p b f (some p.logpdf) w1 hpi hin
          simp only
          cases hf : runFit S p b f (some p.logpdf) w1 with
          | mk r w2 =>
            rw [hf] at r1 r2 r3
            cases r with
            | error err =>
              refine ⟨by rw [← hst]; exact r1, r2, fun s hs' => ?_⟩
              simp only [hs s, hp, Except.map, r3 s]
            | ok x =>
              refine ⟨by rw [← hst]; exact r1, r2, fun s hs' => ?_⟩
              simp only [hs s, hp, Except.map, r3 s]
              cases keys <;> rfl
  · exact ⟨rfl, hw, fun _ _ => rfl⟩

theorem bind_own {α β : Type} {q : World → Except Err α × World} {k : α → World → Except Err β × World} {w : World}
    (hq : OwnStart q w) (hk : ∀ a w', w'.init.isSome → OwnStart (k a) w') :
    OwnStart (fun w => andThen (q w) k) w := by
  obtain ⟨h1, h2, h3⟩ := hq
  unfold OwnStart
  beta_reduce
  cases hw : q w with
  | mk r w1 =>
    rw [hw] at h1 h2 h3
    cases r with
    | error err =>
      refine ⟨h1, h2, fun s hs => ?_⟩
      simp only [h3 s hs, andThen]
    | ok a =>
      obtain ⟨k1, k2, k3⟩ := hk a w1 h2
      refine ⟨by rw [← h1]; exact k1, k2, fun s hs => ?_⟩
      simp only [h3 s hs, andThen]
      exact k3 s (by rw [hs]; exact congrArg _ h1.symm)

theorem asimov_own (S : Solver) (B : Backend) (poi : Poi) (e rn ts g b) (w : World) (hw : w.init.isSome) :
    OwnStart (asimovLikelihood S B poi e rn ts g b) w := by
  cases hh : B.asimovNegLL poi e ts with
  | ok out => simp only [OwnStart, asimovLikelihood, hh]; exact ⟨trivial, hw, fun _ _ => trivial⟩
  | error err =>
    by_cases hn : err = .notImplemented
    · subst hn
      have := bind_own (k := fun d w => likelihood S B poi e rn (some d) false true g b w) (generate_own S B e ts g b w hw)
        fun a w' hw' => likelihood_own S B poi e rn (some a) false true g b w' hw'
      simp only [OwnStart, asimovLikelihood, hh] at this ⊢
      exact this
    · have : ∀ w', asimovLikelihood S B poi e rn ts g b w' = (.error err, w') := by
        intro w'
        unfold asimovLikelihood
        rw [hh]
        cases err <;> simp_all
      simp only [OwnStart, this]
      exact ⟨trivial, hw, fun _ _ => trivial⟩

theorem maximizeAsimov_own (S : Solver) (B : Backend) (rn e ts keys g b) (w : World) (hw : w.init.isSome) :
    OwnStart (maximizeAsimov S B rn e ts keys g b) w := by
  cases hh : B.minAsimovNegLL e ts keys with
  | ok out => simp only [OwnStart, maximizeAsimov, hh]; exact ⟨trivial, hw, fun _ _ => trivial⟩
  | error err =>
    by_cases hn : err = .notImplemented
    · subst hn
      have := bind_own (k := fun d w => maximize S B rn e (mayBeNegative ts) (some d) keys none g b w)
        (generate_own S B e ts g b w hw) fun a w' hw' => maximize_own S B rn e (mayBeNegative ts) (some a) keys none g b w' hw'
      simp only [OwnStart, maximizeAsimov, hh] at this ⊢
      exact this
    · have : ∀ w', maximizeAsimov S B rn e ts keys g b w' = (.error err, w') := by
        intro w'
        unfold maximizeAsimov
        rw [hh]
        cases err <;> simp_all
      simp only [OwnStart, this]
      exact ⟨trivial, hw, fun _ _ => trivial⟩

/-! ### Keys -/

theorem idxOf_le {s : String} : ∀ {l : List String} {k : ℕ}, l[k]? = some s → l.idxOf s ≤ k
  | [], k, h => by simp at h
  | a :: l, 0, h => by
    simp only [List.getElem?_cons_zero, Option.some.injEq] at h
    simp [h]
  | a :: l, k + 1, h => by
    rw [List.getElem?_cons_succ] at h
    rw [List.idxOf_cons]
    have := idxOf_le h
    cases a == s <;> simp <;> omega

theorem readKey_ok {names : Option (List String)} {x : List ℝ} {k : Key} {v : ℝ} :
    readKey names x k = .ok v ↔ ∃ j, Means names x.length k j ∧ x[j]? = some v := by
  have hslot : ∀ (i : ℤ) (j : ℕ), slot x.length i = some j ↔ ((0 ≤ i ∧ i = j) ∨ (i < 0 ∧ i + x.length = j)) ∧ j < x.length := by
    intro i j
    unfold slot
    split
    · split
      · simp only [Option.some.injEq]; omega
      · simp only [reduceCtorEq, false_iff]; omega
    · split
      · simp only [Option.some.injEq]; omega
      · simp only [reduceCtorEq, false_iff]; omega
  have hget : ∀ j : ℕ, j < x.length → (x[j]? = some v ↔ x.getD j 0 = v) := by
    intro j hj
    simp [List.getD_eq_getElem?_getD, List.getElem?_eq_getElem hj]
  have hres : ∀ i : ℤ, item x i = .ok v ↔ ∃ j, slot x.length i = some j ∧ x[j]? = some v := by
    intro i
    unfold item
    cases hs : slot x.length i with
    | none => simp
    | some j =>
      have hj := slot_lt hs
      simp only [Except.ok.injEq, Option.some.injEq, exists_eq_left', hget j hj]
  cases k with
  | index i =>
    simp only [readKey, resolveKey, Means]
    rw [hres]
    simp only [hslot]
  | name s =>
    simp only [readKey, resolveKey, Means]
    cases names with
    | none => simp
    | some l =>
      by_cases hm : s ∈ l
      · simp only [hm, if_true]
        rw [hres]
        have hlt : l.idxOf s < l.length := List.idxOf_lt_length_iff.mpr hm
        constructor
        · rintro ⟨j, h1, h2⟩
          rw [hslot] at h1
          have hj : l.idxOf s = j := by omega
          subst hj
          refine ⟨_, ⟨l, rfl, ?_, ?_, h1.2⟩, h2⟩
          · rw [List.getElem?_eq_getElem hlt, List.getElem_idxOf]
          · intro k hk hks
            have := idxOf_le hks
            omega
        · rintro ⟨j, ⟨l', hl, h1, h2, h3⟩, h4⟩
          simp only [Option.some.injEq] at hl
          subst hl
          refine ⟨j, ?_, h4⟩
          rw [hslot]
          have hj : l.idxOf s = j := by
            apply le_antisymm
            · exact idxOf_le h1
            · by_contra hc
              refine h2 (l.idxOf s) (by omega) ?_
              rw [List.getElem?_eq_getElem hlt, List.getElem_idxOf]
          omega
      · simp only [hm, if_false, reduceCtorEq, false_iff]
        rintro ⟨j, ⟨l', hl, h1, -⟩, -⟩
        simp only [Option.some.injEq] at hl
        subst hl
        exact hm (List.mem_of_getElem? h1)

theorem readKeys_ok {names : Option (List String)} {x : List ℝ} (ks : List Key) : ∀ (d r : List (Key × ℝ)),
    (d.map Prod.fst).Nodup → readKeys names x d ks = .ok r →
      (r.map Prod.fst).Nodup ∧ (∀ k, k ∈ r.map Prod.fst ↔ k ∈ d.map Prod.fst ∨ k ∈ ks) ∧
      (∀ k ∈ ks, ∃ v, readKey names x k = .ok v ∧ dictGet k r = some v) ∧
      (∀ k, k ∉ ks → dictGet k r = dictGet k d) := by
  induction ks with
  | nil =>
    intro d r hd h
    simp only [readKeys, Except.ok.injEq] at h
    subst h
    exact ⟨hd, by simp, by simp, fun _ _ => rfl⟩
  | cons k ks ih =>
    intro d r hd h
    simp only [readKeys] at h
    split at h
    · simp at h
    rename_i v hv
    obtain ⟨h1, h2, h3, h4⟩ := ih _ _ (nodup_dictSet k v d hd) h
    refine ⟨h1, fun k' => ?_, fun k' hk' => ?_, fun k' hk' => ?_⟩
    · rw [h2, keys_dictSet]
      split
      · rename_i hk
        simp only [List.mem_cons]
        constructor
        · rintro (h | h)
          · exact Or.inl h
          · exact Or.inr (Or.inr h)
        · rintro (h | rfl | h)
          · exact Or.inl h
          · exact Or.inl hk
          · exact Or.inr h
      · simp only [List.mem_append, List.mem_cons, List.not_mem_nil, or_false]
        tauto
    · by_cases hm : k' ∈ ks
      · exact h3 k' hm
      · rcases List.mem_cons.mp hk' with rfl | h'
        · exact ⟨v, hv, by rw [h4 _ hm, dictGet_set, if_pos rfl]⟩
        · exact absurd h' hm
    · simp only [List.mem_cons, not_or] at hk'
      rw [h4 k' hk'.2, dictGet_set, if_neg hk'.1]

/-! ### The append loop -/

theorem appendLoop_ne {α : Type} {a b : ℕ} (hab : a ≠ b) : ∀ (fuel i : ℕ) (h : ℕ → List α), (h a).length < fuel + i → i ≤ (h a).length →
    appendLoop a b fuel i h = some (Function.update h b (h b ++ (h a).drop i)) := by
  intro fuel
  induction fuel with
  | zero => intro i h h1 h2; omega
  | succ n ih =>
    intro i h h1 h2
    rw [appendLoop]
    rcases Nat.lt_or_ge i (h a).length with hi | hi
    · rw [List.getElem?_eq_getElem hi]
      simp only
      have ha : Function.update h b (h b ++ [(h a)[i]]) a = h a := Function.update_of_ne hab _ _
      rw [ih (i + 1) _ (by rw [ha]; omega) (by rw [ha]; omega), ha, Function.update_self, Function.update_idem,
        List.append_assoc, List.singleton_append, List.getElem_cons_drop]
    · rw [List.getElem?_eq_none hi]
      simp only [Option.some.injEq]
      rw [List.drop_eq_nil_of_le hi, List.append_nil, Function.update_eq_self]

theorem appendLoop_same {α : Type} (a : ℕ) : ∀ (fuel i : ℕ) (h : ℕ → List α), i < (h a).length →
    appendLoop a a fuel i h = none := by
  intro fuel
  induction fuel with
  | zero => intro i h _; rfl
  | succ n ih =>
    intro i h hi
    rw [appendLoop, List.getElem?_eq_getElem hi]
    simp only
    apply ih
    rw [Function.update_self, List.length_append]
    simp only [List.length_singleton]
    omega

/-! ### Optimal fits -/

theorem setSuggested_true (l : List Bool) : ∀ (i : ℕ) (mask r : List Bool), setSuggested i mask l = .ok r → ∀ k : ℕ,
    r[k]? = some true → mask[k]? = some true ∨ (∃ j, k = i + j ∧ l[j]? = some true) := by
  induction l with
  | nil => intro i mask r h k hk; simp only [setSuggested, Except.ok.injEq] at h; subst h; exact Or.inl hk
  | cons f l ih =>
    intro i mask r h k hk
    simp only [setSuggested] at h
    have conv : ∀ m', setSuggested (i + 1) m' l = .ok r →
        (m'[k]? = some true → mask[k]? = some true ∨ (∃ j, k = i + j ∧ (f :: l)[j]? = some true)) →
        mask[k]? = some true ∨ (∃ j, k = i + j ∧ (f :: l)[j]? = some true) := by
      intro m' hm' himp
      rcases ih _ _ _ hm' k hk with h1 | ⟨j, h1, h2⟩
      · exact himp h1
      · exact Or.inr ⟨j + 1, by omega, by simpa using h2⟩
    split at h
    · rename_i hft
      split at h
      · rename_i hi
        apply conv _ h
        intro h1
        by_cases hki : k = i
        · exact Or.inr ⟨0, by omega, by simp [hft]⟩
        · left
          rwa [List.getElem?_set_ne (Ne.symm hki)] at h1
      · simp at h
    · exact conv _ h Or.inl

/-- What a successful fit asked of the minimiser. -/
theorem fit_asked {m : Minimizer} {c : ModelConfig} {initial : Option (List ℝ)} {b : Option (List Bound)} {fixed : FixedPoi}
    {lp : Option (List ℝ → F)} {v : F} {x : List ℝ} (hf : ∀ d, fixed ≠ .dict d)
    (h : (fit m c initial b fixed lp).1 = .ok (v, x)) :
    ∃ init mask b' u, m init mask b' = .ok (u, x) ∧ fitBounds c b fixed = .ok b' ∧
      init.length = (initial.getD c.init).length ∧
      (∀ p ∈ fixed.pairs c, ∃ k, slot init.length p.1 = some k ∧ init[k]? = some p.2) ∧
      (∀ k : ℕ, (∀ p ∈ fixed.pairs c, slot init.length p.1 ≠ some k) → init[k]? = (initial.getD c.init)[k]?) ∧
      (∀ k : ℕ, mask[k]? = some true → (∃ p ∈ fixed.pairs c, slot init.length p.1 = some k) ∨
        ∃ l, c.fixed = some l ∧ l[k]? = some true) := by
  have hfix : ∀ l : Option (List Bool), ∀ k : ℕ, (l.getD [])[k]? = some true → ∃ l', l = some l' ∧ l'[k]? = some true := by
    intro l k hk
    cases l with
    | none => simp at hk
    | some l => exact ⟨l, rfl, hk⟩
  unfold fit at h
  simp only at h
  generalize initial.getD c.init = init at *
  split at h
  · simp at h
  rename_i b' hb
  split at h
  · simp at h
  rename_i hs
  split at h
  · simp at h
  rename_i mask hm
  split at h
  · simp at h
  rename_i u y hu
  have hxy : y = x := by
    have := congrArg (fun r : Except Config.Err (F × List ℝ) => r.toOption.map Prod.snd) h
    simpa [Except.toOption] using this
  subst hxy
  cases fixed with
  | dict d => exact absurd rfl (hf d)
  | none =>
    simp only [FixedPoi.pairs, setFixed] at hs hm hu
    refine ⟨_, _, _, _, hu, hb, rfl, by simp [FixedPoi.pairs], fun _ _ => rfl, fun k hk => ?_⟩
    rcases setSuggested_true _ _ _ _ hm k hk with h1 | ⟨j, h1, h2⟩
    · obtain ⟨hl, h1⟩ := List.getElem?_eq_some_iff.mp h1
      simp at h1
    · rw [Nat.zero_add] at h1
      subst h1
      exact Or.inr (hfix _ _ h2)
  | value w =>
    simp only [FixedPoi.pairs, setFixed] at hs hm hu
    cases hk : slot init.length c.poiIndex with
    | none => rw [hk] at hs; simp at hs
    | some k0 =>
      rw [hk] at hm hu
      simp only at hm hu
      have hlt := slot_lt hk
      refine ⟨_, _, _, _, hu, hb, by simp, ?_, ?_, fun k hk' => ?_⟩
      · intro p hp
        simp only [FixedPoi.pairs, List.mem_singleton] at hp
        subst hp
        exact ⟨k0, by simpa using hk, by simp [hlt]⟩
      · intro k hne
        have := hne (c.poiIndex, w) (by simp [FixedPoi.pairs])
        rw [List.length_set, hk] at this
        have : k0 ≠ k := fun h => this (by rw [h])
        rw [List.getElem?_set_ne this]
      · rcases setSuggested_true _ _ _ _ hm k hk' with h1 | ⟨j, h1, h2⟩
        · by_cases hkk : k0 = k
          · subst hkk
            exact Or.inl ⟨(c.poiIndex, w), by simp [FixedPoi.pairs], by simpa using hk⟩
          · rw [List.getElem?_set_ne hkk] at h1
            obtain ⟨hl, h1⟩ := List.getElem?_eq_some_iff.mp h1
            simp at h1
        · rw [Nat.zero_add] at h1
          subst h1
          exact Or.inr (hfix _ _ h2)

/-- An optimal minimiser finds the smallest value of the objective. -/
theorem runFit_optimal {S : Solver} (hS : Optimal S) {p : Prepared} {b : Option (List Bound)} {fixed : FixedPoi}
    {lp : Option (List ℝ → F)} {w : World} {v : F} {x : List ℝ} (hf : ∀ d, fixed ≠ .dict d)
    (h : (runFit S p b fixed lp w).1 = .ok (v, x)) :
    ∃ b', fitBounds p.config b fixed = .ok b' ∧ ∀ x' : List ℝ, x'.length = (w.init.getD p.config.init).length →
      (∀ q ∈ fixed.pairs p.config, ∀ k, slot x'.length q.1 = some k → x'[k]? = some q.2) →
      (∀ l (k : ℕ), p.config.fixed = some l → l[k]? = some true →
        (∀ q ∈ fixed.pairs p.config, slot x'.length q.1 ≠ some k) → x'[k]? = (w.init.getD p.config.init)[k]?) →
      InBounds b' x' → Satisfies p.constraints x' → p.func x' ≠ nan → le (p.func x) (p.func x') := by
  obtain ⟨init, mask, b', u, h1, h2, h3, h4, h5, h6⟩ := fit_asked hf (runFit_ok h)
  refine ⟨b', h2, fun x' hl hp hx hb hc hn => hS _ _ _ _ _ _ _ _ _ h1 x' (by rw [hl, h3]) ?_ hb hc hn⟩
  intro k hk
  by_cases hq : ∃ q ∈ fixed.pairs p.config, slot init.length q.1 = some k
  · obtain ⟨q, hq, hs⟩ := hq
    obtain ⟨k', hk', hv⟩ := h4 q hq
    rw [hs] at hk'
    simp only [Option.some.injEq] at hk'
    subst hk'
    rw [hv]
    exact hp q hq k (by rw [hl, ← h3]; exact hs)
  · have hq' : ∀ q ∈ fixed.pairs p.config, slot init.length q.1 ≠ some k := fun q h hs => hq ⟨q, h, hs⟩
    rcases h6 k hk with h | ⟨l, h7, h8⟩
    · exact absurd h hq
    · rw [h5 k hq']
      exact hx l k h7 h8 (by rw [hl, ← h3]; exact hq')

/-- The result is inside the bounds. -/
theorem runFit_inside {S : Solver} (hS : Inside S) {p : Prepared} {b : Option (List Bound)} {fixed : FixedPoi}
    {lp : Option (List ℝ → F)} {w : World} {v : F} {x : List ℝ} (hf : ∀ d, fixed ≠ .dict d)
    (h : (runFit S p b fixed lp w).1 = .ok (v, x)) : ∃ b', fitBounds p.config b fixed = .ok b' ∧ InBounds b' x := by
  obtain ⟨init, mask, b', u, h1, h2, -⟩ := fit_asked hf (runFit_ok h)
  exact ⟨b', h2, hS _ _ _ _ _ _ _ _ _ h1⟩

/-- The result satisfies the constraints. -/
theorem runFit_constrained {S : Solver} (hS : Constrained S) {p : Prepared} {b : Option (List Bound)} {fixed : FixedPoi}
    {lp : Option (List ℝ → F)} {w : World} {v : F} {x : List ℝ} (hf : ∀ d, fixed ≠ .dict d)
    (h : (runFit S p b fixed lp w).1 = .ok (v, x)) : Satisfies p.constraints x := by
  obtain ⟨init, mask, b', u, h1, -⟩ := fit_asked hf (runFit_ok h)
  exact hS _ _ _ _ _ _ _ _ _ h1

/-- A value that is neither below zero nor, if negative, below the smallest allowed value is inside the bounds used for it. -/
theorem adjust_allowed {mp : F} {b : Bound} {v : ℝ} (h : Allowed b v ∨ (b.1.isSome ∧ b.2.isSome))
    (hmp : 0 ≤ v ∨ le mp (fin v)) :
    Allowed (adjust mp (fun v low => pyMax (fin (v + 1)) low) b v) v := by
  have hup : ∀ low, le (fin v) (pyMax (fin (v + 1)) low) := by
    intro low
    unfold pyMax
    split
    · rename_i h
      cases low <;> simp_all [lt, le] <;> linarith
    · simp [le]
  obtain ⟨lo, hi⟩ := b
  cases lo with
  | none =>
    rcases h with h | h
    · simpa [adjust] using h
    · simp at h
  | some lo =>
    cases hi with
    | none =>
      rcases h with h | h
      · simpa [adjust] using h
      · simp at h
    | some hi =>
      simp only [adjust]
      split
      · rename_i hin
        have hle : ∀ a b : F, lt a b → le a b := by
          intro a b h
          cases a <;> cases b <;> simp_all [lt, le]
          exact h.le
        exact ⟨fun l hl => by simp only [Option.some.injEq] at hl; subst hl; exact hle _ _ hin.1,
          fun l hl => by simp only [Option.some.injEq] at hl; subst hl; exact hle _ _ hin.2⟩
      · rename_i hout
        refine ⟨fun l hl => ?_, fun l hl => ?_⟩
        · simp only [Option.some.injEq] at hl
          subst hl
          split
          · rename_i hneg
            rcases hmp with h | h
            · linarith
            · exact h
          · rename_i hneg
            simp only [le]
            linarith
        · simp only [Option.some.injEq] at hl
          subst hl
          exact hup _

end Verif.Interface
