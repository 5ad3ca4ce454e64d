import Verif.Interface.Lemmas
import Verif.UpperLimit.Props
import Mathlib.Analysis.SpecialFunctions.Exp
import Mathlib.Algebra.BigOperators.Ring.Finset
import Mathlib.Tactic.FieldSimp

/-!
# Properties C55-C58 and C79-C85: the interface
-/

namespace Verif.Interface
open Verif.Py F Verif.Config Verif.Optimizer
open Verif.Backend (Expectation)
open Classical

/-! ### A backend and a minimiser for examples -/

/-- Two parameters `mu` and `theta`, a Gaussian likelihood, expected data equal to the parameters; no gradient. -/
noncomputable def exB : Backend where
  config n := ⟨0, fin (-1), [], [(some (if n then fin (-1) else fin 0), some (fin 10)), (none, none)], some ["mu", "theta"], none⟩
  objective g _ d := if g then .error .notImplemented else
    .ok fun x => fin ((x.getD 0 0 - (d.getD []).getD 0 0) ^ 2 + x.getD 1 0 ^ 2)
  logpdf _ d := fun x => fin (-((x.getD 0 0 - (d.getD []).getD 0 0) ^ 2 + x.getD 1 0 ^ 2))
  constraints := [⟨false, fun x => fin (x.getD 1 0)⟩]
  expectedData x := .ok x
  hessian _ := .ok fun _ => [[-2, 0], [0, -2]]
  sampler _ := .error .notImplemented
  negLL _ _ _ _ := .error .notImplemented
  minNegLL _ _ _ _ := .error .notImplemented
  asimovNegLL _ _ _ := .error .notImplemented
  minAsimovNegLL _ _ _ := .error .notImplemented

/-- A minimiser that stays at the start. -/
noncomputable def stay : Solver := fun f _ _ _ init mask _ => if mask.length ≤ init.length then .ok (f init, init) else .error .index

theorem exB_fallback : Fallback exB := ⟨fun _ _ _ _ => rfl, fun _ _ _ _ => rfl, fun _ _ _ => rfl, fun _ _ _ => rfl⟩

theorem stay_honest : Honest 0 stay := by
  constructor
  · intro f g cs poi init mask b v x h
    unfold stay at h
    split at h
    · rename_i hl
      simp only [Except.ok.injEq, Prod.mk.injEq] at h
      obtain ⟨rfl, rfl⟩ := h
      refine ⟨rfl, fun k hk => ?_⟩
      have hk' : k < init.length := lt_of_lt_of_le (List.getElem?_eq_some_iff.mp hk).1 hl
      exact ⟨init[k], init[k], List.getElem?_eq_getElem hk', List.getElem?_eq_getElem hk', by simp⟩
    · simp at h
  · intro f g cs poi init mask b v x h
    unfold stay at h
    split at h
    · simp only [Except.ok.injEq, Prod.mk.injEq] at h
      rw [h.2]
    · simp at h

noncomputable def exW : World := ⟨[1, 1], none, none⟩

/-! ## C55: availability of the calculators -/

/-- C55 fails: the calculators are reported as available for every class with ordinary methods, also for one that overrides
nothing, because a bound method is never equal to a function. -/
theorem C55_fails (base : String → ℕ) (o : ℕ) :
    ∃ c : Class, ¬ AsymptoticPossible c ∧ ¬ Overrides c "get_sampler" ∧ asymptoticAvailable base c o = true ∧
      toyAvailable base c o = true := by
  refine ⟨⟨fun _ => none⟩, by simp [AsymptoticPossible, Overrides], by simp [Overrides], ?_, ?_⟩
  · simp [asymptoticAvailable, instanceAttr, baseAttr]
  · simp [toyAvailable, instanceAttr, baseAttr]

/-- C55, the other direction: a class that overrides what a calculator needs has that calculator. -/
theorem C55_overrides_partial (base : String → ℕ) (c : Class) (hc : Fresh base c) (o : ℕ) :
    (AsymptoticPossible c → asymptoticAvailable base c o = true) ∧ (Overrides c "get_sampler" → toyAvailable base c o = true) := by
  have key : ∀ n, instanceAttr base c o n ≠ baseAttr base n := by
    intro n
    unfold instanceAttr baseAttr
    cases h : c.own n with
    | none => simp
    | some a =>
      cases a with
      | function f => simp
      | static f =>
        have := (hc n n _ h).2
        simpa using this
  exact ⟨fun _ => by simp [asymptoticAvailable, key], fun _ => by simp [toyAvailable, key]⟩

/-- C55: so all three calculators are listed for every backend, in a fixed order. -/
theorem C55_listed (base : String → ℕ) (c : Class) (hc : Fresh base c) (o : ℕ) :
    availableCalculators base c o = ["toy", "asymptotic", "chi_square"] := by
  have key : ∀ n, instanceAttr base c o n ≠ baseAttr base n := by
    intro n
    unfold instanceAttr baseAttr
    cases h : c.own n with
    | none => simp
    | some a =>
      cases a with
      | function f => simp
      | static f =>
        have := (hc n n _ h).2
        simpa using this
  simp [availableCalculators, asymptoticAvailable, toyAvailable, key]

example : Fresh (fun _ => 3) ⟨fun n => if n = "expected_data" then some (.function 10) else none⟩ ∧
    AsymptoticPossible ⟨fun n => if n = "expected_data" then some (.function 10) else none⟩ := by
  refine ⟨fun n m a h => ?_, by simp [AsymptoticPossible, Overrides]⟩
  simp only at h
  split at h
  · simp only [Option.some.injEq] at h
    subst h
    simp
  · simp at h

/-- C55, exactly, for all classes: what makes a calculator unavailable is a static method that is the function of `BackendBase`. -/
theorem C55_exact (base : String → ℕ) (c : Class) (o : ℕ) :
    (asymptoticAvailable base c o = true ↔ ¬ Same base c "expected_data" ∨
      (¬ Same base c "asimov_negative_loglikelihood" ∧ ¬ Same base c "minimize_asimov_negative_loglikelihood")) ∧
    (toyAvailable base c o = true ↔ ¬ Same base c "get_sampler") ∧
    ∀ k, k ∈ availableCalculators base c o ↔ (k = "toy" ∧ toyAvailable base c o = true) ∨ (k = "asymptotic" ∧ asymptoticAvailable base c o = true) ∨ k = "chi_square" := by
  have key : ∀ n, instanceAttr base c o n = baseAttr base n ↔ Same base c n := by
    intro n
    unfold instanceAttr baseAttr Same
    cases h : c.own n with
    | none => simp
    | some a => cases a <;> simp
  refine ⟨by simp [asymptoticAvailable, key], by simp [toyAvailable, key], fun k => ?_⟩
  unfold availableCalculators
  split <;> split <;> simp_all

/-- Available with one of the two, unavailable if `expected_data` and one of the others are the functions of `BackendBase`. -/
example : asymptoticAvailable (fun n => n.length) ⟨fun n => if n = "expected_data" then some (.static 13) else none⟩ 0 = true ∧
    asymptoticAvailable (fun n => n.length) ⟨fun n => if n = "expected_data" then some (.static 13) else if n = "asimov_negative_loglikelihood" then some (.static 29) else none⟩ 0 = false := by
  decide

/-! ## C56: constraints of the caller -/

/-- C56 holds when no constraints are passed: every preparation gives the constraints of the backend and changes nothing. -/
theorem C56_default (B : Backend) (e : Expectation) (d : Option Data) (n g : Bool) (w : World) (hw : w.constraints = none) :
    (prepareForFit B e d n g w).2 = w ∧ ∀ p, (prepareForFit B e d n g w).1 = .ok p → p.constraints = B.constraints := by
  unfold prepareForFit
  split
  · exact ⟨rfl, by simp⟩
  · refine ⟨?_, fun p hp => ?_⟩
    · obtain ⟨s, i, c⟩ := w
      simp only at hw
      subst hw
      rfl
    · simp only [Except.ok.injEq] at hp
      rw [← hp]
      simp [hw]

/-- C56 fails when a list is passed: after `k` preparations the caller's list has been extended by `k` copies of the constraints
of the backend, and the next fit sees one copy more. -/
theorem C56_grows_fails (B : Backend) (e : Expectation) (d : Option Data) (n g : Bool) (f : List ℝ → F)
    (hf : B.objective g e d = .ok f) (w : World) (l : List Constraint) (hl : w.constraints = some l) (k : ℕ) :
    (times (fun w => (prepareForFit B e d n g w).2) k w).constraints = some (l ++ copies k B.constraints) ∧
    ∃ p, (prepareForFit B e d n g (times (fun w => (prepareForFit B e d n g w).2) k w)).1 = .ok p ∧
      p.constraints = l ++ copies (k + 1) B.constraints := by
  have hg : getObjective B e d g = .ok (f, g) := by unfold getObjective; rw [hf]
  have h1 : ∀ (k : ℕ) (w : World) (l : List Constraint), w.constraints = some l →
      (times (fun w => (prepareForFit B e d n g w).2) k w).constraints = some (l ++ copies k B.constraints) := by
    intro k
    induction k with
    | zero => intro w l hl; simp [times, copies, hl]
    | succ k ih =>
      intro w l hl
      rw [times, ih _ (l ++ B.constraints)]
      · simp [copies, List.replicate_succ]
      · simp [prepareForFit, hg, hl]
  refine ⟨h1 k w l hl, ?_⟩
  have h2 := h1 k w l hl
  generalize times (fun w => (prepareForFit B e d n g w).2) k w = w' at h2
  unfold prepareForFit
  rw [hg]
  refine ⟨_, rfl, ?_⟩
  simp [h2, copies, List.replicate_succ']

example : ∃ f, exB.objective false .observed none = .ok f ∧ exB.constraints ≠ [] := ⟨_, rfl, by simp [exB]⟩

/-- C56: what the fits see differs only in the number of copies: no constraint is lost and none comes from elsewhere; without
constraints in the backend nothing is changed. -/
theorem C56_same_set_partial (B : Backend) (e : Expectation) (d : Option Data) (n g : Bool) (w : World) (l : List Constraint)
    (hl : w.constraints = some l) :
    (∀ p, (prepareForFit B e d n g w).1 = .ok p → ∀ c, c ∈ p.constraints ↔ c ∈ l ∨ c ∈ B.constraints) ∧
    (∀ l', (prepareForFit B e d n g w).2.constraints = some l' → ∀ c, c ∈ l → c ∈ l') ∧
    (B.constraints = [] → (prepareForFit B e d n g w).2 = w) := by
  unfold prepareForFit
  split
  · refine ⟨by simp, fun l' h c hc => ?_, fun _ => rfl⟩
    simp only at h
    rw [hl] at h
    simp only [Option.some.injEq] at h
    rwa [← h]
  · refine ⟨fun p hp c => ?_, fun l' h c hc => ?_, fun h => ?_⟩
    · simp only [Except.ok.injEq] at hp
      rw [← hp]
      simp [hl]
    · simp only [hl, Option.map_some, Option.some.injEq] at h
      rw [← h]
      exact List.mem_append_left _ hc
    · obtain ⟨s, i, c⟩ := w
      simp only at hl
      subst hl
      simp [h]

/-- C56: the loop in memory. If the caller's list is not the list of the backend, it is extended by that list and nothing else
changes, after one round more than the list is long. -/
theorem C56_loop {α : Type} (a b : ℕ) (hab : a ≠ b) (h : ℕ → List α) (fuel : ℕ) (hf : (h a).length < fuel) :
    ∃ h', appendLoop a b fuel 0 h = some h' ∧ h' b = h b ++ h a ∧ ∀ c, c ≠ b → h' c = h c :=
  ⟨_, appendLoop_ne hab fuel 0 h hf (Nat.zero_le _), by simp, fun c hc => Function.update_of_ne hc _ _⟩

example : (0 : ℕ) ≠ 1 ∧ ((fun _ => [5, 6] : ℕ → List ℕ) 0).length < 3 := by simp

/-- C56 fails when the caller passes the list of the backend itself (`constraints=model.backend.constraints`): the preparation
never ends. -/
theorem C56_same_list_fails {α : Type} (a : ℕ) (h : ℕ → List α) (hne : h a ≠ []) (fuel : ℕ) : appendLoop a a fuel 0 h = none :=
  appendLoop_same a fuel 0 h (List.length_pos_iff.mpr hne)

example : (fun _ => [5, 6] : ℕ → List ℕ) 0 ≠ [] := by simp

/-! ## C57: excluded cross section -/

/-- C57: the exception is raised exactly when the cross section is nan. -/
theorem C57_unknown (fuel : ℕ) (solve : UpperLimit.Solver) (I : UpperLimit.Expected → UpperLimit.Inputs) (x : F) (e : UpperLimit.Expected) :
    excludedCrossSection fuel solve I x e = some (.error .crossSection) ↔ x = nan := by
  unfold excludedCrossSection
  cases x with
  | nan => simp [isNan]
  | _ =>
    simp only [reduceCtorEq, iff_false]
    rw [if_neg (by simp [isNan])]
    split <;> simp

/-- C57: otherwise the result is the upper limit at 95% (one number for every expectation) times the cross section, and exceptions
are those of the upper limit. -/
theorem C57_product (fuel : ℕ) (solve : UpperLimit.Solver) (I : UpperLimit.Expected → UpperLimit.Inputs) (x : F) (hx : x ≠ nan)
    (e : UpperLimit.Expected) :
    (∀ y, excludedCrossSection fuel solve I x e = some (.ok y) ↔
      ∃ u, UpperLimit.poiUpperLimit fuel solve (I e) e 0.95 none none .nominal = some (.ok (.one u)) ∧ y = mul u x) ∧
    (∀ err, excludedCrossSection fuel solve I x e = some (.error err) ↔
      ∃ err', UpperLimit.poiUpperLimit fuel solve (I e) e 0.95 none none .nominal = some (.error err') ∧ err = .limit err') ∧
    (excludedCrossSection fuel solve I x e = none ↔
      UpperLimit.poiUpperLimit fuel solve (I e) e 0.95 none none .nominal = none) := by
  have hn : isNan x = false := by cases x <;> simp_all [isNan]
  have hmany : ∀ l, UpperLimit.poiUpperLimit fuel solve (I e) e 0.95 none none .nominal ≠ some (.ok (.many l)) := by
    intro l h
    have hsh : (UpperLimit.Limit.many l).Shaped (UpperLimit.Entries e .nominal).length := by
      cases ha : (I e).alive with
      | true => exact (UpperLimit.poi_ended ha h).2.1
      | false =>
        obtain ⟨L, hL, h1, -⟩ := UpperLimit.C20_no_signal fuel solve (I e) ha e 0.95 (by norm_num) (by norm_num) none none .nominal
          (by simp)
        rw [h] at hL
        simp only [Option.some.injEq, Except.ok.injEq] at hL
        rw [hL]; exact h1
    cases e <;> exact absurd rfl hsh.1
  unfold excludedCrossSection
  rw [hn]
  simp only [Bool.false_eq_true, if_false]
  cases hp : UpperLimit.poiUpperLimit fuel solve (I e) e 0.95 none none .nominal with
  | none => simp
  | some r =>
    cases r with
    | error err => simp [eq_comm]
    | ok L =>
      cases L with
      | one u => simp [eq_comm]
      | many l => exact absurd hp (hmany l)

/-- C57: so for a model with signal and a positive cross section, a finite result is a cross section at which the exclusion level
reaches 95%, up to the tolerance of the root finder; and without signal it is infinite. -/
theorem C57_meaning {tol : ℝ → ℝ} {solve : UpperLimit.Solver} (hs : UpperLimit.Sound tol solve) (I : UpperLimit.Expected → UpperLimit.Inputs)
    (e : UpperLimit.Expected) (hav : (I e).backend.available .asymptotic = true) (sigma : ℝ) (hsig : 0 < sigma) (fuel : ℕ) (y : ℝ)
    (h : excludedCrossSection fuel solve I (fin sigma) e = some (.ok (fin y))) :
    (I e).alive = true ∧ UpperLimit.Reaches (UpperLimit.Level (I e).backend e false (if e = .observed then 0 else 2)) 0.95
      (tol (y / sigma)) (y / sigma) := by
  obtain ⟨u, hu, hy⟩ := ((C57_product fuel solve I (fin sigma) (by simp) e).1 _).mp h
  have hfin : ∃ m, u = fin m ∧ y = m * sigma := by
    cases u with
    | fin m => simp only [mul, F.fin.injEq] at hy; exact ⟨m, rfl, hy⟩
    | nan => simp [mul] at hy
    | ninf => simp [mul, hsig.ne', hsig] at hy
    | pinf => simp [mul, hsig.ne', hsig] at hy
  obtain ⟨m, rfl, rfl⟩ := hfin
  have hal : (I e).alive = true := by
    by_contra hc
    obtain ⟨L, hL, -, h2⟩ := UpperLimit.C20_no_signal fuel solve (I e) (by simpa using hc) e 0.95 (by norm_num) (by norm_num) none none
      .nominal (by simp)
    rw [hu] at hL
    simp only [Option.some.injEq, Except.ok.injEq] at hL
    have := h2 (fin m) (by rw [← hL]; simp [UpperLimit.Limit.values])
    simp at this
  refine ⟨hal, ?_⟩
  rw [mul_div_assoc, div_self hsig.ne', mul_one]
  obtain ⟨-, h2⟩ := UpperLimit.C19_finite_limit hs (I e) hal hav e 0.95 none none .nominal fuel _ hu
  have he : UpperLimit.Entries e .nominal = [if e = .observed then 0 else 2] := by cases e <;> rfl
  rw [he] at h2
  simp only [UpperLimit.Limit.values, List.forall₂_cons, List.Forall₂.nil, and_true] at h2
  rcases h2 with ⟨mu, h3, h4⟩ | ⟨h3, -⟩
  · simp only [F.fin.injEq] at h3
    subst h3
    exact h4
  · simp at h3

/-- C57: `s95exp` is the upper limit before the fit times the cross section, `s95obs` the observed one times the cross section. -/
theorem C57_variants (fuel : ℕ) (solve : UpperLimit.Solver) (I : UpperLimit.Expected → UpperLimit.Inputs) (x : F) (hx : x ≠ nan)
    (y : F) :
    (s95exp fuel solve I x = some (.ok y) ↔
      ∃ u, UpperLimit.poiUpperLimit fuel solve (I .apriori) .apriori 0.95 none none .nominal = some (.ok (.one u)) ∧ y = mul u x) ∧
    (s95obs fuel solve I x = some (.ok y) ↔
      ∃ u, UpperLimit.poiUpperLimit fuel solve (I .observed) .observed 0.95 none none .nominal = some (.ok (.one u)) ∧ y = mul u x) :=
  ⟨(C57_product fuel solve I x hx .apriori).1 y, (C57_product fuel solve I x hx .observed).1 y⟩

example (fuel : ℕ) (solve : UpperLimit.Solver) :
    s95obs fuel solve (fun _ => ⟨false, Stats.gaussBackend, 0, fun _ => 0⟩) (fin 2) = some (.ok pinf) ∧
    s95obs fuel solve (fun _ => ⟨false, Stats.gaussBackend, 0, fun _ => 0⟩) nan = some (.error .crossSection) := by
  refine ⟨?_, (C57_unknown _ _ _ _ _).mpr rfl⟩
  rw [(C57_variants _ _ _ _ (by simp) _).2]
  refine ⟨pinf, ?_, by simp [mul]⟩
  norm_num [UpperLimit.poiUpperLimit, UpperLimit.deadLimit]

/-! ## C58: `return_nll` -/

theorem exp_scale (l : F) : scaleOut false l = exp (neg (scaleOut true l)) := by
  simp only [scaleOut, if_true, Bool.false_eq_true, if_false]
  cases l <;> simp [neg]

theorem map_map {α β γ : Type} (f : β → γ) (g : α → β) (r : Except Err α) : (r.map g).map f = r.map (f ∘ g) := by cases r <;> rfl

theorem likelihood_scale (S : Solver) (B : Backend) (poi : Poi) (e d rp n g b) (w : World)
    (hB : B.negLL poi e d rp = .error .notImplemented) :
    likelihood S B poi e false d rp n g b w =
      ((likelihood S B poi e true d rp n g b w).1.map Out.exponential, (likelihood S B poi e true d rp n g b w).2) := by
  unfold likelihood
  rw [hB]
  simp only [map_map]
  congr 2
  funext p
  simp only [Function.comp]
  split <;> simp [Out.exponential, exp_scale p.1]

theorem maximize_scale (S : Solver) (B : Backend) (e n d k f g b) (w : World)
    (hB : B.minNegLL e n d k = .error .notImplemented) :
    maximize S B false e n d k f g b w =
      ((maximize S B true e n d k f g b w).1.map (fun r => (r.1, exp (neg r.2))), (maximize S B true e n d k f g b w).2) := by
  unfold maximize
  rw [hB]
  simp only
  split
  · rfl
  · split
    · rfl
    · split
      · rfl
      · simp only [map_map]
        congr 2
        funext p
        simp only [Function.comp, exp_scale]

theorem andThen_map {α β : Type} (r : Except Err α × World) (k k' : α → World → Except Err β × World) (f : β → β)
    (h : ∀ a w, k a w = ((k' a w).1.map f, (k' a w).2)) :
    andThen r k = ((andThen r k').1.map f, (andThen r k').2) := by
  obtain ⟨r, w⟩ := r
  cases r with
  | error err => rfl
  | ok a => exact h a w

/-- C58 for backends without own implementations: in all four queries `return_nll=False` gives the exponential of minus the
result with `return_nll=True`, with the same parameters, the same exceptions and the same effects. -/
theorem C58_scale (S : Solver) (B : Backend) (hB : Fallback B) (poi : Poi) (e : Expectation) (d : Option Data)
    (rp n g : Bool) (b : Option (List Bound)) (ts : String) (keys : Option (List Key)) (fixed : Option Poi) (w : World) :
    (likelihood S B poi e false d rp n g b w =
      ((likelihood S B poi e true d rp n g b w).1.map Out.exponential, (likelihood S B poi e true d rp n g b w).2)) ∧
    (maximize S B false e n d keys fixed g b w =
      ((maximize S B true e n d keys fixed g b w).1.map (fun r => (r.1, exp (neg r.2))),
        (maximize S B true e n d keys fixed g b w).2)) ∧
    (asimovLikelihood S B poi e false ts g b w =
      ((asimovLikelihood S B poi e true ts g b w).1.map Out.exponential, (asimovLikelihood S B poi e true ts g b w).2)) ∧
    (maximizeAsimov S B false e ts keys g b w =
      ((maximizeAsimov S B true e ts keys g b w).1.map (fun r => (r.1, exp (neg r.2))),
        (maximizeAsimov S B true e ts keys g b w).2)) := by
  refine ⟨likelihood_scale S B poi e d rp n g b w (hB.negLL _ _ _ _), maximize_scale S B e n d keys fixed g b w (hB.minNegLL _ _ _ _),
    ?_, ?_⟩
  · unfold asimovLikelihood
    rw [hB.asimovNegLL]
    exact andThen_map _ _ _ _ fun a w => likelihood_scale S B poi e (some a) false true g b w (hB.negLL _ _ _ _)
  · unfold maximizeAsimov
    rw [hB.minAsimovNegLL]
    exact andThen_map _ _ _ _ fun a w => maximize_scale S B e _ (some a) keys none g b w (hB.minNegLL _ _ _ _)

example : Fallback exB ∧ (likelihood stay exB (.float 2) .observed true none false true true none exW).1 = .ok (.value (fin 5)) ∧
    (likelihood stay exB (.float 2) .observed false none false true true none exW).1 = .ok (.value (fin (Real.exp (-5)))) := by
  have h : (likelihood stay exB (.float 2) .observed true none false true true none exW).1 = .ok (.value (fin 5)) := by
    simp [likelihood, exB, profile, prepareForFit, getObjective, config, ModelConfig.npar, exW, resolvePoi, runFit, fit, fitBounds,
      fixedPoiBounds, slot, adjust, lt, Except.map, FixedPoi.pairs, setFixed, setSuggested, stay, Except.mapError, scaleOut, F.neg]
    norm_num
  refine ⟨exB_fallback, h, ?_⟩
  rw [(C58_scale stay exB exB_fallback (.float 2) .observed none false true true none "q" none none exW).1, h]
  simp [Except.map, Out.exponential, neg, F.exp]

/-- C58 fails for backends with an implementation of their own: it is not told about `return_nll`, so both settings return its
negative log-likelihood. -/
theorem C58_hook_fails : ∃ B : Backend, ∀ (S : Solver) (poi : Poi) (e : Expectation) (d : Option Data) (n g : Bool)
    (b : Option (List Bound)) (w : World),
    (likelihood S B poi e true d false n g b w).1 = .ok (.value (fin 2)) ∧
    (likelihood S B poi e false d false n g b w).1 = .ok (.value (fin 2)) ∧
    (likelihood S B poi e false d false n g b w).1 ≠ (likelihood S B poi e true d false n g b w).1.map Out.exponential := by
  refine ⟨{ exB with negLL := fun _ _ _ _ => .ok (.value (fin 2)) }, fun S poi e d n g b w => ⟨rfl, rfl, ?_⟩⟩
  simp only [likelihood, Except.map, Out.exponential, neg, F.exp, ne_eq, Except.ok.injEq, Out.value.injEq, F.fin.injEq]
  have : Real.exp (-2) ≤ Real.exp 0 := Real.exp_le_exp.mpr (by norm_num)
  rw [Real.exp_zero] at this
  intro h
  linarith

/-! ## C79: independence of earlier queries -/

/-- C79: what a query with fixed POI leaves behind: the shared list of initial values keeps its length, and only entries that the
query fixes may change; the caller's list of constraints is extended as described in C56. -/
theorem C79_left_behind (S : Solver) (B : Backend) (hB : Fallback B) (v : ℝ) (e : Expectation) (rn : Bool) (d : Option Data)
    (rp n g : Bool) (b : Option (List Bound)) (w : World) :
    (likelihood S B (.float v) e rn d rp n g b w).2.start.length = w.start.length ∧
    (∀ j : ℕ, slot w.start.length (B.config n).poiIndex ≠ some j →
      (likelihood S B (.float v) e rn d rp n g b w).2.start[j]? = w.start[j]?) ∧
    ((likelihood S B (.float v) e rn d rp n g b w).2.constraints = w.constraints ∨
      (likelihood S B (.float v) e rn d rp n g b w).2.constraints = w.constraints.map (· ++ B.constraints)) := by
  have hl : (likelihood S B (.float v) e rn d rp n g b w).2 = (profile S B (.float v) e d n g b w).2 := by
    unfold likelihood; rw [hB.negLL]
  rw [hl]
  cases hp : prepareForFit B e d n g w with
  | mk r w1 =>
    cases r with
    | error err =>
      have := prepare_error hp
      subst this
      simp [profile, hp]
    | ok p =>
      obtain ⟨h1, h2, -⟩ := prepare_ok hp
      have hpi : p.config.init = w.start := by rw [h2]; rfl
      have hpo : p.config.poiIndex = (B.config n).poiIndex := by rw [h2]; rfl
      simp only [profile, hp]
      split
      · subst h1
        exact ⟨rfl, fun _ _ => rfl, Or.inr rfl⟩
      · simp only [resolvePoi]
        obtain ⟨c1, -, c3, c4⟩ := runFit_world S p b (.value v) (some p.logpdf) w1
        refine ⟨by rw [c3, hpi], fun j hj => ?_, Or.inr (by rw [c1, h1])⟩
        rw [c4 j, hpi]
        intro q hq
        simp only [FixedPoi.pairs, List.mem_singleton] at hq
        rw [hq, hpo, hpi]
        exact hj

/-- C79 fails: all configurations of a backend share one list of initial values and `fit` writes the fixed POI into it. With a
minimiser that keeps to its contract, the same maximisation gives different results before and after `likelihood(5.0)`. -/
theorem C79_history_fails : ∃ (S : Solver) (B : Backend) (w : World), Honest 0 S ∧ Fallback B ∧
    ∃ r r', (maximize S B true .observed true none none none true none w).1 = .ok r ∧
      (maximize S B true .observed true none none none true none
        (likelihood S B (.float 5) .observed true none false true true none w).2).1 = .ok r' ∧ r.2 ≠ r'.2 := by
  refine ⟨stay, exB, exW, stay_honest, exB_fallback, (.one 1, fin 2), (.one 5, fin 26), ?_, ?_, by norm_num⟩
  · simp [maximize, exB, resolveFixed, prepareForFit, getObjective, config, exW, runFit, fit, fitBounds,
      fixedPoiBounds, slot, Except.map, FixedPoi.pairs, setFixed, setSuggested, stay, Except.mapError, scaleOut, F.neg, estimates,
      readKey, resolveKey, item]
    norm_num
  · simp [maximize, likelihood, profile, resolvePoi, exB, resolveFixed, prepareForFit, getObjective, config, ModelConfig.npar, exW, runFit, fit, fitBounds,
      fixedPoiBounds, slot, adjust, lt, Except.map, FixedPoi.pairs, setFixed, setSuggested, stay, Except.mapError, scaleOut, F.neg,
      estimates, readKey, resolveKey, item]
    norm_num

/-- C79 holds for queries with initial values of the caller: their results do not depend on what earlier queries left in the shared
list, and they leave that list alone. -/
theorem C79_own_start_partial (S : Solver) (B : Backend) (poi : Poi) (e : Expectation) (rn : Bool) (d : Option Data)
    (rp n g : Bool) (b : Option (List Bound)) (ts : String) (keys : Option (List Key)) (fixed : Option Poi) (w : World)
    (hw : w.init.isSome) (s : List ℝ) (hs : s.length = w.start.length) :
    ((likelihood S B poi e rn d rp n g b { w with start := s }).1 = (likelihood S B poi e rn d rp n g b w).1 ∧
      (likelihood S B poi e rn d rp n g b w).2.start = w.start) ∧
    ((maximize S B rn e n d keys fixed g b { w with start := s }).1 = (maximize S B rn e n d keys fixed g b w).1 ∧
      (maximize S B rn e n d keys fixed g b w).2.start = w.start) ∧
    ((asimovLikelihood S B poi e rn ts g b { w with start := s }).1 = (asimovLikelihood S B poi e rn ts g b w).1 ∧
      (asimovLikelihood S B poi e rn ts g b w).2.start = w.start) ∧
    ((maximizeAsimov S B rn e ts keys g b { w with start := s }).1 = (maximizeAsimov S B rn e ts keys g b w).1 ∧
      (maximizeAsimov S B rn e ts keys g b w).2.start = w.start) := by
  obtain ⟨a1, -, a3⟩ := likelihood_own S B poi e rn d rp n g b w hw
  obtain ⟨b1, -, b3⟩ := maximize_own S B rn e n d keys fixed g b w hw
  obtain ⟨c1, -, c3⟩ := asimov_own S B poi e rn ts g b w hw
  obtain ⟨d1, -, d3⟩ := maximizeAsimov_own S B rn e ts keys g b w hw
  exact ⟨⟨by rw [a3 s hs], a1⟩, ⟨by rw [b3 s hs], b1⟩, ⟨by rw [c3 s hs], c1⟩, ⟨by rw [d3 s hs], d1⟩⟩

example : ({ exW with init := some [0, 0] } : World).init.isSome ∧ ([5, 1] : List ℝ).length = exW.start.length := ⟨rfl, rfl⟩

/-- C79 fails within one query too: `maximize_asimov_likelihood(init_pars=[3, 1])` does not start its second fit at the given
values, because generating the Asimov data has overwritten the POI in the caller's list. -/
theorem C79_asimov_start_fails : ∃ (S : Solver) (B : Backend) (w : World), Honest 0 S ∧ Fallback B ∧ w.init = some [3, 1] ∧
    ∃ d w' r r', generateAsimov S B .observed "q" true none w = (.ok d, w') ∧
      (maximizeAsimov S B true .observed "q" none true none w).1 = .ok r ∧
      (maximize S B true .observed true (some d) none none true none w).1 = .ok r' ∧ r.2 ≠ r'.2 := by
  refine ⟨stay, exB, { exW with init := some [3, 1] }, stay_honest, exB_fallback, rfl, [0, 1],
    ⟨[1, 1], some [0, 1], none⟩, (.one 0, fin 1), (.one 3, fin 10), ?_, ?_, ?_, by norm_num⟩
  · simp [generateAsimov, mayBeNegative, exB, prepareForFit, getObjective, config, exW, runFit, fit, fitBounds,
      fixedPoiBounds, slot, adjust, lt, Except.map, FixedPoi.pairs, setFixed, setSuggested, stay, Except.mapError]
  · simp [maximizeAsimov, andThen, generateAsimov, mayBeNegative, maximize, resolveFixed, exB, prepareForFit, getObjective, config, exW, runFit, fit, fitBounds,
      fixedPoiBounds, slot, adjust, lt, Except.map, FixedPoi.pairs, setFixed, setSuggested, stay, Except.mapError, scaleOut, F.neg,
      estimates, readKey, resolveKey, item]
  · simp [maximize, resolveFixed, exB, prepareForFit, getObjective, config, exW, runFit, fit, fitBounds,
      fixedPoiBounds, slot, Except.map, FixedPoi.pairs, setFixed, setSuggested, stay, Except.mapError, scaleOut, F.neg,
      estimates, readKey, resolveKey, item]
    norm_num

/-- C79 holds for minimisers that do not depend on where they start: a maximisation gives the same result whatever earlier queries
left in the shared list, as long as parameters fixed by the configuration have the same values. -/
theorem C79_start_free_partial (S : Solver) (hS : StartFree S) (B : Backend) (rn : Bool) (e : Expectation) (n : Bool)
    (d : Option Data) (keys : Option (List Key)) (g : Bool) (b : Option (List Bound)) (w : World) (hw : w.init = none) (s : List ℝ)
    (hs : s.length = w.start.length)
    (hf : ∀ m (k : ℕ), (B.config n).fixed = some m → m[k]? = some true → s[k]? = w.start[k]?) :
    (maximize S B rn e n d keys none g b { w with start := s }).1 = (maximize S B rn e n d keys none g b w).1 := by
  have hfit : ∀ (p : Prepared), p.config = config B n w →
      (fit (S p.func p.doGrad p.constraints p.config.poiIndex) { p.config with init := s } none b .none (some p.logpdf)).1 =
        (fit (S p.func p.doGrad p.constraints p.config.poiIndex) p.config none b .none (some p.logpdf)).1 := by
    intro p hp
    have hb : fitBounds { p.config with init := s } b .none = fitBounds p.config b .none := by cases b <;> rfl
    have hpi : p.config.init = w.start := by rw [hp]; rfl
    have hpf : p.config.fixed = (B.config n).fixed := by rw [hp]; rfl
    unfold fit
    simp only [hb, FixedPoi.pairs, setFixed, Option.getD_none]
    cases fitBounds p.config b .none with
    | error err => rfl
    | ok b' =>
      simp only
      rw [show List.replicate s.length false = List.replicate p.config.init.length false from by rw [hpi, hs]]
      cases hm : setSuggested 0 (List.replicate p.config.init.length false) (p.config.fixed.getD []) with
      | error err => rfl
      | ok mask =>
        simp only
        rw [hS p.func p.doGrad p.constraints p.config.poiIndex s p.config.init mask b' (by rw [hpi, hs])]
        · cases S p.func p.doGrad p.constraints p.config.poiIndex p.config.init mask b' <;> rfl
        · intro k hk
          rw [hpi]
          rcases setSuggested_true _ _ _ _ hm k hk with h1 | ⟨j, h1, h2⟩
          · exfalso
            obtain ⟨hl, h1⟩ := List.getElem?_eq_some_iff.mp h1
            simp at h1
          · cases hfx : (B.config n).fixed with
            | none => rw [hpf, hfx] at h2; simp at h2
            | some m =>
              rw [hpf, hfx] at h2
              have : k = j := by omega
              subst this
              exact hf m k hfx h2
  unfold maximize
  split
  · rfl
  · simp only [resolveFixed]
    have hs := prepare_own B e d n g w s
    cases hp : prepareForFit B e d n g w with
    | mk r w1 =>
      rw [hp] at hs
      cases r with
      | error err => simp only [hs, Except.map]
      | ok p =>
        obtain ⟨h1, h2, -⟩ := prepare_ok hp
        have hi : w1.init = none := by rw [h1]; exact hw
        have := hfit p h2
        simp only [hs, Except.map]
        have h3 : (runFit S { p with config := { p.config with init := s } } b .none (some p.logpdf) { w1 with start := s }).1 =
            (runFit S p b .none (some p.logpdf) w1).1 := by
          unfold runFit
          simp only [hi, this]
        cases hr : runFit S { p with config := { p.config with init := s } } b .none (some p.logpdf) { w1 with start := s } with
        | mk r1 v1 =>
          cases hr' : runFit S p b .none (some p.logpdf) w1 with
          | mk r2 v2 =>
            rw [hr, hr'] at h3
            simp only at h3
            subst h3
            cases r1 with
            | error err => rfl
            | ok x => rfl
  · rfl

example : StartFree (fun f _ _ _ init mask _ => if mask.any id then .error .index else
    .ok (f (List.replicate init.length 0), List.replicate init.length 0)) := by
  intro f g cs poi init init' mask b h1 h2
  simp only [h1]

end Verif.Interface
