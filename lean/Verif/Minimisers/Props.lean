import Verif.Minimisers.Lemmas

/-!
# C138, C139: options and promises of the minimisers
-/

namespace Verif.Minimisers
open Verif.Py F Verif.Config Verif.Optimizer
open Classical

/-! ## C138: options -/

/-- C138: what a fit does depends only on what the libraries do with the arguments that the options of the caller stand for: every option reaches the chosen library with the caller's value, or
else with the documented default, and nothing else does; scipy is not called more often than `ntrials` says. -/
theorem C138_options {opts : Opts} {S S' : Setting} (h : AgreeOn opts S S') (func : List ℝ → F) (c : ModelConfig) (initial : Option (List ℝ)) (bounds : Option (List Bound))
    (fixed : FixedPoi) (logpdf : Option (List ℝ → F)) (cs : List Constraint) :
    fit S func c initial bounds fixed logpdf cs opts = fit S' func c initial bounds fixed logpdf cs opts := by
  have key : minimiser S c func cs opts = minimiser S' c func cs opts := by
    funext init mask b
    unfold minimiser
    rw [h.rest]
    simp only
    cases Tools.chosen S.iminuit S.lower S.env ((opts.lookup "minimizer").map optionName) with
    | error e => rfl
    | ok m =>
      cases m with
      | scipy =>
        simp only [scipy_eq]
        congr 1
        cases ht : trials (opts.lookup "ntrials") with
        | error e => rfl
        | ok n =>
          cases pins init 0 mask with
          | error e => rfl
          | ok ps =>
            simp only
            refine retry_congr _ _ _ (fun j _ hj x b => ?_) _ _
            exact h.scipy j func _ (trials_allowed ht (by omega)) (scipyArgs_meant opts x b _)
      | minuit =>
        simp only [minuit_eq]
        cases ha : algorithm (given opts "method" (.str "migrad")) with
        | error e => rfl
        | ok a =>
          refine h.minuit func _ ⟨?_, ?_, rfl, rfl, rfl, rfl, rfl⟩
          · cases hg : given opts "method" (.str "migrad") with
            | str s =>
              rw [hg] at ha
              simp only [algorithm] at ha
              split at ha
              · simp_all
              · split at ha <;> simp_all
                rw [← ha]; simp
            | int n => rw [hg] at ha; simp [algorithm] at ha
            | real n => rw [hg] at ha; simp [algorithm] at ha
            | bool n => rw [hg] at ha; simp [algorithm] at ha
          · cases hg : given opts "method" (.str "migrad") with
            | str s =>
              rw [hg] at ha
              simp only [algorithm] at ha
              split at ha
              · simp_all
                rw [← ha]; simp
              · split at ha <;> simp_all
            | int n => rw [hg] at ha; simp [algorithm] at ha
            | real n => rw [hg] at ha; simp [algorithm] at ha
            | bool n => rw [hg] at ha; simp [algorithm] at ha
  unfold fit
  rw [key]

/-- A library that succeeds where it starts, and one that always raises. -/
noncomputable def idle : Setting where
  iminuit := true
  env := none
  lower := id
  scipy := fun _ func a => .ok ⟨true, func a.init, a.init⟩
  minuit := fun func a => .ok (func a.init, a.init)

-- two settings that agree where it matters for these options, and differ elsewhere: a scipy that raises unless it is called once, with the method asked for
example : AgreeOn [("method", .str "COBYLA"), ("speed", .int 3)] idle
    { idle with scipy := fun k func a => if k = 0 ∧ a.method = .str "COBYLA" ∧ a.options "speed" = none then idle.scipy k func a else .error .value } := by
  refine ⟨rfl, fun k func a hk ha => ?_, fun _ _ _ => rfl⟩
  have h0 : k = 0 := by
    rcases hk with h | ⟨n, h, -⟩ | ⟨n, h, -⟩
    · exact h
    · simp [List.lookup] at h
    · simp [List.lookup] at h
  have h1 : a.method = .str "COBYLA" := ha.1.trans (by simp [given, List.lookup])
  have h2 : a.options "speed" = none := ha.2.2.2.2 "speed" (by decide) (by decide)
  simp [h0, h1, h2]

/-- C138: options that the chosen minimiser does not have change nothing. -/
theorem C138_unknown (S : Setting) (opts opts' : Opts) (hmin : opts.lookup "minimizer" = opts'.lookup "minimizer")
    (hs : IsScipy S opts → ∀ k ∈ ["method", "maxiter", "disp", "tol", "ntrials"], opts.lookup k = opts'.lookup k)
    (hm : IsMinuit S opts → ∀ k ∈ ["errordef", "maxiter", "disp", "tol", "strategy", "method"], opts.lookup k = opts'.lookup k)
    (func : List ℝ → F) (c : ModelConfig) (initial : Option (List ℝ)) (bounds : Option (List Bound)) (fixed : FixedPoi) (logpdf : Option (List ℝ → F)) (cs : List Constraint) :
    fit S func c initial bounds fixed logpdf cs opts = fit S func c initial bounds fixed logpdf cs opts' := by
  have key : minimiser S c func cs opts = minimiser S c func cs opts' := by
    funext init mask b
    unfold minimiser
    rw [← hmin]
    cases hc : Tools.chosen S.iminuit S.lower S.env ((opts.lookup "minimizer").map optionName) with
    | error e => rfl
    | ok m =>
      cases m with
      | scipy =>
        have h := hs hc
        have e : ∀ x b cs, scipyArgs opts x b cs = scipyArgs opts' x b cs := by
          intro x b cs
          simp only [scipyArgs, given, h "method" (by simp), h "tol" (by simp), h "maxiter" (by simp), h "disp" (by simp)]
        simp only [scipy_eq, h "ntrials" (by simp), e]
      | minuit =>
        have h := hm hc
        simp only [minuit_eq, given, h "method" (by simp), h "tol" (by simp), h "maxiter" (by simp), h "disp" (by simp), h "errordef" (by simp), h "strategy" (by simp)]
  unfold fit
  rw [key]

-- an option of Minuit and a misspelt one make no difference to scipy
example (S : Setting) (h : S.env = none) (hl : S.lower "scipy" = "scipy") (func : List ℝ → F) (c : ModelConfig) :
    fit S func c none none .none none [] [("strategy", .int 2), ("maxitr", .int 7), ("tol", .real 1)] = fit S func c none none .none none [] [("tol", .real 1)] := by
  refine C138_unknown S _ _ (by decide) (fun _ k hk => ?_) (fun hm => ?_) func c none none .none none []
  · simp only [List.mem_cons, List.not_mem_nil, or_false] at hk
    rcases hk with rfl | rfl | rfl | rfl | rfl <;> rfl
  · simp [IsMinuit, List.lookup, Tools.chosen, Tools.minimizerName, Tools.getMinimizer, h, hl] at hm

/-- C138 is false for `method`: no value other than "migrad" or "simplex" is accepted with Minuit, whatever it means to scipy. The same call that runs with scipy raises `ValueError` when
`SPEY_OPTIMISER` is "minuit". -/
theorem C138_method_fails (S : Setting) (hi : S.iminuit = true) (hl : S.lower "minuit" = "minuit") (func : List ℝ → F) (c : ModelConfig) (bounds : List Bound) (cs : List Constraint)
    (m : String) (h1 : m ≠ "migrad") (h2 : m ≠ "simplex") (hf : c.fixed = none) :
    (fit { S with env := some "minuit" } func c none (some bounds) .none none cs [("method", .str m)]).1 = .error .value ∧
    (fit { idle with env := some "scipy" } func c none (some bounds) .none none cs [("method", .str m)]).1 = .ok (func c.init, c.init) := by
  constructor
  · have hm : minimiser { S with env := some "minuit" } c func cs [("method", .str m)] = fun _ _ _ => .error .value := by
      funext init mask b
      unfold minimiser
      simp only [List.lookup, Tools.chosen, Tools.minimizerName, Tools.getMinimizer, hi, hl, Option.map_none, Option.getD]
      simp [minuit_eq, given, List.lookup, algorithm, h1, h2]
    unfold fit
    rw [hm]
    simp [Optimizer.fit, fitBounds, FixedPoi.pairs, setFixed, hf, setSuggested]
  · have hm : minimiser { idle with env := some "scipy" } c func cs [("method", .str m)] = fun init mask b =>
        (match pins init 0 mask with
        | .error e => .error e
        | .ok _ => .ok (func init, init)) := by
      funext init mask b
      unfold minimiser
      simp only [List.lookup, Tools.chosen, Tools.minimizerName, Tools.getMinimizer, idle, Option.map_none, Option.getD, id]
      simp only [List.mem_cons, true_or, not_true_eq_false, if_true, if_false, scipy_eq, trials, List.lookup]
      cases pins init 0 mask with
      | error e => simp [trials, Except.map]
      | ok ps => simp [trials, retry, scipyArgs, Except.map]
    have hp : ∀ n i, pins c.init i (List.replicate n false) = .ok [] := by
      intro n
      induction n with
      | zero => intro i; rfl
      | succ n ih => intro i; simp [List.replicate_succ, pins, ih]
    unfold fit
    rw [hm]
    simp [Optimizer.fit, fitBounds, FixedPoi.pairs, setFixed, hf, setSuggested, hp]

/-! ## C139: what the minimisers promise -/

/-- One parameter, by default between -10 and 10. -/
noncomputable def one : ModelConfig where
  poiIndex := 0
  minimumPoi := fin 0
  init := [5]
  bounds := [(some (fin (-10)), some (fin 10))]
  names := none
  fixed := none

/-- The objective `x²`. -/
noncomputable def square : List ℝ → F := fun x => fin ((x.headD 0) ^ 2)

/-- The constraint `x ≥ 1`. -/
noncomputable def aboveOne : Constraint := ⟨false, fun x => fin (x.headD 0 - 1)⟩

/-- C139 for scipy: with a method that takes constraints into account and one trial, when scipy reports success a fit returns a point within the bounds, at which the constraints hold up to
`tol` and the fixed parameters have their values up to `tol`, with the value of the objective there. -/
theorem C139_scipy_partial {tol : ℝ} {S : Setting} {opts : Opts} (hS : IsScipy S opts) (hk : ScipyKeeps tol S.scipy) (hok : ∀ k func a t, S.scipy k func a = .ok t → t.success = true)
    (m : String) (hm : given opts "method" (.str "SLSQP") = .str m) (hc : m ∈ constrained) (hn : opts.lookup "ntrials" = none) (func : List ℝ → F) (c : ModelConfig)
    (initial : Option (List ℝ)) (bounds : Option (List Bound)) (fixed : FixedPoi) (logpdf : Option (List ℝ → F)) (cs : List Constraint) (v : F) (x : List ℝ)
    (h : (fit S func c initial bounds fixed logpdf cs opts).1 = .ok (v, x)) :
    v = (logpdf.getD func) x ∧
    (∃ b, fitBounds c bounds fixed = .ok b ∧ ∀ (i : ℕ) p, b[i]? = some p → ∀ w, x[i]? = some w → Inside p w) ∧
    (∀ g ∈ cs, if g.isEq then ∃ r, g.f x = fin r ∧ |r| ≤ tol else le (fin (-tol)) (g.f x)) ∧
    (∀ l1 l2 i w k, fixed.pairs c = l1 ++ (i, w) :: l2 → slot (initial.getD c.init).length i = some k →
      (∀ p ∈ l2, slot (initial.getD c.init).length p.1 ≠ some k) → ∃ y, x[k]? = some y ∧ |y - w| ≤ tol) ∧
    (∀ (k : ℕ) m w, c.fixed = some m → m[k]? = some true → (initial.getD c.init)[k]? = some w →
      (∀ p ∈ fixed.pairs c, slot (initial.getD c.init).length p.1 ≠ some k) → ∃ y, x[k]? = some y ∧ |y - w| ≤ tol) := by
  obtain ⟨init, mask, b, v', hb, hmin, hv, hf1, hf2⟩ := fit_ok h
  unfold minimiser at hmin
  rw [show Tools.chosen S.iminuit S.lower S.env ((opts.lookup "minimizer").map optionName) = .ok .scipy from hS] at hmin
  simp only [scipy_eq, hn, trials] at hmin
  cases hp : pins init 0 mask with
  | error e => rw [hp] at hmin; simp [Except.map] at hmin
  | ok ps =>
    rw [hp] at hmin
    simp only [Nat.sub_self] at hmin
    unfold retry at hmin
    cases hl : S.scipy 0 func (scipyArgs opts init b (cs ++ ps)) with
    | error e => rw [hl] at hmin; simp [Except.map] at hmin
    | ok t =>
      rw [hl] at hmin
      simp only [Except.map, Except.ok.injEq, Prod.mk.injEq] at hmin
      obtain ⟨rfl, rfl⟩ := hmin
      have hs := hok _ _ _ _ hl
      have hpin : ∀ (k : ℕ) w, init[k]? = some w → mask[k]? = some true → ∃ y, t.x[k]? = some y ∧ |y - w| ≤ tol := by
        intro k w hi hmk
        obtain ⟨w', hw', hmem⟩ := pins_mem init mask 0 ps hp k hmk
        rw [Nat.zero_add] at hw' hmem
        rw [hi, Option.some.injEq] at hw'
        subst hw'
        obtain ⟨r, hr, hr'⟩ := hk.eq _ _ _ _ m hl hs hm hc _ (List.mem_append_right cs hmem) rfl
        simp only [pin] at hr
        split at hr
        · rename_i y hy
          simp only [fin.injEq] at hr
          exact ⟨y, hy, by rw [hr]; exact hr'⟩
        · cases hr
      refine ⟨?_, ⟨b, hb, fun i p hi w hw => hk.bounds _ _ _ _ hl hs i p hi w hw⟩, fun g hg => ?_, fun l1 l2 i w k e1 e2 e3 => ?_, fun k m w e1 e2 e3 e4 => ?_⟩
      · rw [hv, hk.value _ _ _ _ hl]
        cases logpdf <;> rfl
      · by_cases hg' : g.isEq = true
        · rw [if_pos hg']
          exact hk.eq _ _ _ _ m hl hs hm hc g (List.mem_append_left ps hg) hg'
        · rw [if_neg hg']
          exact hk.ineq _ _ _ _ m hl hs hm hc g (List.mem_append_left ps hg) (by simpa using hg')
      · obtain ⟨h1, h2⟩ := hf1 l1 l2 i w k e1 e2 e3
        exact hpin k w h1 h2
      · obtain ⟨h1, h2⟩ := hf2 k m w e1 e2 e3 e4
        exact hpin k w h1 h2

/-- A scipy that stays where it starts, and raises where that would break a promise. -/
noncomputable def careful : Setting where
  iminuit := true
  env := none
  lower := id
  scipy := fun _ func a =>
    if (∀ (i : ℕ) b, a.bounds[i]? = some b → ∀ v, a.init[i]? = some v → Inside b v) ∧ (∀ c ∈ a.constraints, c.isEq = true → c.f a.init = fin 0) ∧
        (∀ c ∈ a.constraints, c.isEq = false → le (fin 0) (c.f a.init)) then .ok ⟨true, func a.init, a.init⟩ else .error .value
  minuit := fun _ _ => .error .value

theorem careful_keeps : ScipyKeeps 0 careful.scipy ∧ ∀ k func a t, careful.scipy k func a = .ok t → t.success = true := by
  have key : ∀ k func a t, careful.scipy k func a = .ok t → ((∀ (i : ℕ) b, a.bounds[i]? = some b → ∀ v, a.init[i]? = some v → Inside b v) ∧
      (∀ c ∈ a.constraints, c.isEq = true → c.f a.init = fin 0) ∧ (∀ c ∈ a.constraints, c.isEq = false → le (fin 0) (c.f a.init))) ∧ t = ⟨true, func a.init, a.init⟩ := by
    intro k func a t h
    simp only [careful] at h
    split at h
    · rename_i hc
      simp only [Except.ok.injEq] at h
      exact ⟨hc, h.symm⟩
    · cases h
  refine ⟨⟨fun k func a t h => ?_, fun k func a t h _ => ?_, fun k func a t m h _ _ _ => ?_, fun k func a t m h _ _ _ => ?_⟩, fun k func a t h => ?_⟩ <;>
    obtain ⟨⟨h1, h2, h3⟩, rfl⟩ := key _ _ _ _ h
  · rfl
  · exact h1
  · exact fun c hc he => ⟨0, h2 c hc he, by simp⟩
  · exact fun c hc he => by rw [neg_zero]; exact h3 c hc he
  · rfl

-- a fit with a bound, a constraint and a fixed parameter
example : IsScipy careful [("tol", .real 1)] ∧ (fit careful square one none none (.value 3) none [aboveOne] [("tol", .real 1)]).1 = .ok (fin 9, [3]) := by
  have hS : IsScipy careful [("tol", .real 1)] := by simp [IsScipy, careful, List.lookup, Tools.chosen, Tools.minimizerName, Tools.getMinimizer]
  refine ⟨hS, ?_⟩
  have hb : fitBounds one none (.value 3) = .ok [(some (fin (-10)), some (fin 10))] := by
    simp only [fitBounds, fixedPoiBounds, one, slot]
    norm_num [adjust, lt, Except.map]
  unfold fit Optimizer.fit
  rw [hb]
  have hpin : (pin 0 3).f [3] = fin 0 := by simp [pin]
  simp only [FixedPoi.pairs, one, setFixed, slot, Option.getD]
  norm_num [setFixed, setSuggested]
  unfold minimiser
  rw [show Tools.chosen careful.iminuit careful.lower careful.env (([("tol", Val.real 1)].lookup "minimizer").map optionName) = .ok .scipy from hS]
  have hl : careful.scipy 0 square (scipyArgs [("tol", .real 1)] [3] [(some (fin (-10)), some (fin 10))] ([aboveOne] ++ [pin 0 3])) = .ok ⟨true, square [3], [3]⟩ := by
    refine if_pos ⟨?_, ?_, ?_⟩
    · intro i p hi v hv
      cases i with
      | zero =>
        simp only [scipyArgs, List.getElem?_cons_zero, Option.some.injEq] at hi hv
        subst hi hv
        refine ⟨fun lo hlo => ?_, fun hi hhi => ?_⟩
        · simp only [Option.some.injEq] at hlo; subst hlo; simp only [le]; norm_num
        · simp only [Option.some.injEq] at hhi; subst hhi; simp only [le]; norm_num
      | succ i => simp [scipyArgs] at hi
    · simp [scipyArgs, aboveOne, pin]
    · simp only [scipyArgs, aboveOne, pin, List.cons_append, List.nil_append, List.mem_cons, List.not_mem_nil, or_false, forall_eq_or_imp, forall_eq, le]
      norm_num
  have hps : pins [(3 : ℝ)] 0 [true] = .ok [pin 0 3] := by simp [pins, Except.map]
  simp only [scipy_eq, trials, List.lookup, hps]
  unfold retry
  simp only [show ("ntrials" == "tol") = false by decide]
  rw [hl]
  simp only [Except.map, square, List.headD]
  norm_num

/-- C139 for Minuit: a fit returns a point within the bounds, with the value of the objective there, at which a fixed parameter has exactly its value if that is within its bounds. -/
theorem C139_minuit_partial {S : Setting} {opts : Opts} (hS : IsMinuit S opts) (hk : MinuitKeeps S.minuit) (func : List ℝ → F) (c : ModelConfig)
    (initial : Option (List ℝ)) (bounds : Option (List Bound)) (fixed : FixedPoi) (logpdf : Option (List ℝ → F)) (cs : List Constraint) (v : F) (x : List ℝ)
    (h : (fit S func c initial bounds fixed logpdf cs opts).1 = .ok (v, x)) :
    v = (logpdf.getD func) x ∧
    ∃ b, fitBounds c bounds fixed = .ok b ∧ (∀ (i : ℕ) p, b[i]? = some p → ∀ w, x[i]? = some w → Inside p w) ∧
    (∀ l1 l2 i w k p, fixed.pairs c = l1 ++ (i, w) :: l2 → slot (initial.getD c.init).length i = some k →
      (∀ p ∈ l2, slot (initial.getD c.init).length p.1 ≠ some k) → b[k]? = some p → Inside p w → x[k]? = some w) ∧
    (∀ (k : ℕ) m w p, c.fixed = some m → m[k]? = some true → (initial.getD c.init)[k]? = some w →
      (∀ p ∈ fixed.pairs c, slot (initial.getD c.init).length p.1 ≠ some k) → b[k]? = some p → Inside p w → x[k]? = some w) := by
  obtain ⟨init, mask, b, v', hb, hmin, hv, hf1, hf2⟩ := fit_ok h
  unfold minimiser at hmin
  rw [show Tools.chosen S.iminuit S.lower S.env ((opts.lookup "minimizer").map optionName) = .ok .minuit from hS] at hmin
  simp only [minuit_eq] at hmin
  cases ha : algorithm (given opts "method" (.str "migrad")) with
  | error e => rw [ha] at hmin; simp at hmin
  | ok a =>
    rw [ha] at hmin
    simp only at hmin
    refine ⟨?_, b, hb, fun i p hi w hw => hk.limits _ _ _ hmin i p hi w hw, fun l1 l2 i w k p e1 e2 e3 e4 e5 => ?_, fun k m w p e1 e2 e3 e4 e5 e6 => ?_⟩
    · have e : v' = func x := hk.value _ _ _ hmin
      rw [hv, e]
      cases logpdf <;> rfl
    · obtain ⟨h1, h2⟩ := hf1 l1 l2 i w k e1 e2 e3
      exact hk.fixed _ _ _ hmin k p w h2 h1 e4 e5
    · obtain ⟨h1, h2⟩ := hf2 k m w e1 e2 e3 e4
      exact hk.fixed _ _ _ hmin k p w h2 h1 e5 e6

/-- Minuit does not see the constraints: the fit is the same with other ones. -/
theorem C139_minuit_ignores {S : Setting} {opts : Opts} (hS : IsMinuit S opts) (func : List ℝ → F) (c : ModelConfig) (initial : Option (List ℝ)) (bounds : Option (List Bound))
    (fixed : FixedPoi) (logpdf : Option (List ℝ → F)) (cs cs' : List Constraint) :
    fit S func c initial bounds fixed logpdf cs opts = fit S func c initial bounds fixed logpdf cs' opts := by
  have key : minimiser S c func cs opts = minimiser S c func cs' opts := by
    funext init mask b
    unfold minimiser
    rw [show Tools.chosen S.iminuit S.lower S.env ((opts.lookup "minimizer").map optionName) = .ok .minuit from hS]
    simp only [minuit_eq]
  unfold fit
  rw [key]

/-- C139 is false for Minuit with constraints: whatever finds the minimum within the limits returns a point where the constraint `x ≥ 1` does not hold, not even nearly. -/
theorem C139_constraints_fails {S : Setting} {opts : Opts} (hS : IsMinuit S opts) (hm : opts.lookup "method" = none)
    (hlib : ∀ func a r, S.minuit func a = .ok r → r.1 = func r.2 ∧ r.2.length = a.init.length ∧ ∀ y : List ℝ, y.length = a.init.length →
      (∀ (i : ℕ) b, a.limits[i]? = some b → ∀ w, y[i]? = some w → Inside b w) → le (func r.2) (func y)) (v : F) (x : List ℝ)
    (h : (fit S square one none none .none none [aboveOne] opts).1 = .ok (v, x)) : v = fin 0 ∧ x = [0] ∧ aboveOne.f x = fin (-1) := by
  have hb : fitBounds one none .none = .ok one.bounds := rfl
  unfold fit Optimizer.fit at h
  rw [hb] at h
  simp only [FixedPoi.pairs, setFixed, one, Option.getD, setSuggested] at h
  unfold minimiser at h
  rw [show Tools.chosen S.iminuit S.lower S.env ((opts.lookup "minimizer").map optionName) = .ok .minuit from hS] at h
  have ha : algorithm (given opts "method" (.str "migrad")) = .ok .migrad := by simp [given, hm, algorithm]
  simp only [minuit_eq, ha] at h
  split at h
  · simp at h
  rename_i v' x' hr
  simp only [Except.ok.injEq, Prod.mk.injEq] at h
  obtain ⟨rfl, rfl⟩ := h
  obtain ⟨h1, h2, h3⟩ := hlib _ _ _ hr
  simp only at h1 h2 h3
  have hle := h3 [0] rfl (by
    intro i b hi w hw
    cases i with
    | zero =>
      simp only [List.getElem?_cons_zero, Option.some.injEq] at hi hw
      subst hi hw
      refine ⟨fun lo hlo => ?_, fun hi hhi => ?_⟩
      · simp only [Option.some.injEq] at hlo; subst hlo; simp [le]
      · simp only [Option.some.injEq] at hhi; subst hhi; simp [le]
    | succ i => simp at hi)
  obtain ⟨w, rfl⟩ := List.length_eq_one_iff.1 h2
  simp only [square, le, List.headD] at hle
  have hw : w = 0 := by nlinarith [sq_nonneg w]
  subst hw
  refine ⟨?_, rfl, ?_⟩
  · rw [h1]; simp [square]
  · simp [aboveOne]

/-- C139 is false for Minuit and fixed parameters: with bounds given by the caller, a parameter that is fixed to a value outside of them is fixed to another value. -/
theorem C139_fixed_fails {S : Setting} {opts : Opts} (hS : IsMinuit S opts) (hk : MinuitKeeps S.minuit) (func : List ℝ → F) (cs : List Constraint) (v : F) (x : List ℝ)
    (h : (fit S func one none (some [(some (fin 0), some (fin 10))]) (.value 20) none cs opts).1 = .ok (v, x)) : ∀ y, x[0]? = some y → y ≤ 10 := by
  intro y hy
  obtain ⟨-, b, hb, hl, -⟩ := C139_minuit_partial hS hk func one none _ _ none cs v x h
  simp only [fitBounds, Except.ok.injEq] at hb
  subst hb
  have := (hl 0 _ rfl y hy).2 (fin 10) rfl
  simpa [le] using this

/-- A value is moved to the nearest limit. -/
noncomputable def clipped : Bound → ℝ → ℝ
  | (some (fin lo), some (fin hi)), v => if v < lo then lo else if hi < v then hi else v
  | _, v => v

/-- A Minuit that only moves the parameters into the limits. -/
noncomputable def clipping : Setting where
  iminuit := true
  env := some "minuit"
  lower := id
  scipy := fun _ _ _ => .error .value
  minuit := fun func a =>
    if a.limits.length = a.init.length ∧ ∀ b ∈ a.limits, ∃ lo hi, lo ≤ hi ∧ b = (some (fin lo), some (fin hi)) then
      .ok (func (List.zipWith clipped a.limits a.init), List.zipWith clipped a.limits a.init) else .error .value

theorem clipping_keeps : MinuitKeeps clipping.minuit := by
  have key : ∀ func a r, clipping.minuit func a = .ok r → (a.limits.length = a.init.length ∧ ∀ b ∈ a.limits, ∃ lo hi, lo ≤ hi ∧ b = (some (fin lo), some (fin hi))) ∧
      r = (func (List.zipWith clipped a.limits a.init), List.zipWith clipped a.limits a.init) := by
    intro func a r h
    simp only [clipping] at h
    split at h
    · rename_i hc
      simp only [Except.ok.injEq] at h
      exact ⟨hc, h.symm⟩
    · cases h
  refine ⟨fun func a r h => ?_, fun func a r h => ?_, fun func a r h i b hi v hv => ?_, fun func a r h i b v _ h2 h3 h4 => ?_⟩ <;>
    obtain ⟨⟨h1, hb⟩, rfl⟩ := key _ _ _ h
  · rfl
  · simp [h1]
  · simp only [List.getElem?_zipWith, hi] at hv
    cases hv' : a.init[i]? with
    | none => rw [hv'] at hv; simp at hv
    | some w =>
      rw [hv'] at hv
      simp only [Option.some.injEq] at hv
      obtain ⟨lo, hi', hle, rfl⟩ := hb b (List.mem_of_getElem? hi)
      simp only [clipped] at hv
      refine ⟨fun l hl => ?_, fun u hu => ?_⟩
      · simp only [Option.some.injEq] at hl; subst hl
        simp only [le]
        split at hv
        · linarith
        · split at hv <;> linarith
      · simp only [Option.some.injEq] at hu; subst hu
        simp only [le]
        split at hv
        · linarith
        · split at hv <;> linarith
  · simp only [List.getElem?_zipWith, h3, h2]
    obtain ⟨lo, hi', hle, rfl⟩ := hb b (List.mem_of_getElem? h3)
    have g1 := h4.1 (fin lo) rfl
    have g2 := h4.2 (fin hi') rfl
    simp only [le] at g1 g2
    simp only [clipped]
    rw [if_neg (by linarith), if_neg (by linarith)]

theorem clipping_minuit : IsMinuit clipping [] := by simp [IsMinuit, clipping, Tools.chosen, Tools.minimizerName, Tools.getMinimizer]

-- the likelihood at 20 is asked for, the one at 10 is returned
example (func : List ℝ → F) (cs : List Constraint) :
    (fit clipping func one none (some [(some (fin 0), some (fin 10))]) (.value 20) none cs []).1 = .ok (func [10], [10]) := by
  unfold fit Optimizer.fit
  simp only [fitBounds, FixedPoi.pairs, one, setFixed, slot, Option.getD]
  norm_num [setFixed, setSuggested]
  unfold minimiser
  rw [show Tools.chosen clipping.iminuit clipping.lower clipping.env ((([] : Opts).lookup "minimizer").map optionName) = .ok .minuit from clipping_minuit]
  simp only [minuit_eq, given, List.lookup, Option.getD, algorithm]
  norm_num [clipping, clipped]

-- a Minuit that finds the minimum of `x²`
example : ∃ S : Setting, IsMinuit S [] ∧ (∀ func a r, S.minuit func a = .ok r → r.1 = func r.2 ∧ r.2.length = a.init.length ∧ ∀ y : List ℝ, y.length = a.init.length →
      (∀ (i : ℕ) b, a.limits[i]? = some b → ∀ w, y[i]? = some w → Inside b w) → le (func r.2) (func y)) ∧
    (fit S square one none none .none none [aboveOne] []).1 = .ok (fin 0, [0]) := by
  refine ⟨{ clipping with minuit := fun func a => if func = square ∧ a.init.length = 1 then .ok (fin 0, [0]) else .error .value }, clipping_minuit, ?_, ?_⟩
  · intro func a r h
    simp only at h
    split at h
    · rename_i hc
      simp only [Except.ok.injEq] at h
      subst h
      obtain ⟨rfl, hl⟩ := hc
      refine ⟨by simp [square], by simp [hl], fun y _ _ => ?_⟩
      simp only [square, le, List.headD]
      simpa using sq_nonneg _
    · cases h
  · unfold fit Optimizer.fit
    have hb : fitBounds one none .none = .ok one.bounds := rfl
    rw [hb]
    simp only [FixedPoi.pairs, setFixed, one, Option.getD, setSuggested]
    unfold minimiser
    simp only [clipping, Tools.chosen, Tools.minimizerName, Tools.getMinimizer, List.lookup, Option.map_none, Option.getD, id]
    simp [minuit_eq, given, List.lookup, algorithm]

end Verif.Minimisers
