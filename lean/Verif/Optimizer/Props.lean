import Verif.Optimizer.Lemmas

/-!
# C30-C33: the optimiser interface
-/

namespace Verif.Optimizer
open Verif.Py F Verif.Config
open Classical

/-! ## C30 -/

/-- C30: validation fails exactly when a mandatory option is missing. Otherwise the result contains exactly the options that
are supported and not listed for removal, each with the user's value and in the user's order; in particular every mandatory
option that is not listed for removal. -/
theorem C30_validate {α : Type} (opts must remove : List String) (d : List (String × α)) :
    (validate opts must remove d = none ↔ ∃ k ∈ must, ∀ v, (k, v) ∉ d) ∧
    ∀ r, validate opts must remove d = some r →
      r.Sublist d ∧
      (∀ k v, (k, v) ∈ r ↔ (k, v) ∈ d ∧ (k ∈ opts ∨ k ∈ must) ∧ k ∉ remove) ∧
      (∀ k ∈ must, k ∉ remove → ∃ v, (k, v) ∈ r) := by
  unfold validate
  have hall : (must.all (fun k => decide (k ∈ d.map Prod.fst)) = true) ↔ ∀ k ∈ must, ∃ v, (k, v) ∈ d := by
    simp [List.all_eq_true]
  by_cases h : must.all (fun k => decide (k ∈ d.map Prod.fst)) = true
  · rw [if_pos h]
    refine ⟨⟨by simp, ?_⟩, ?_⟩
    · rintro ⟨k, hk, hn⟩
      obtain ⟨v, hv⟩ := hall.1 h k hk
      exact absurd hv (hn v)
    · intro r hr
      simp only [Option.some.injEq] at hr
      rw [validateLoop_eq] at hr
      have hmem : ∀ k v, (k, v) ∈ r ↔ (k, v) ∈ d ∧ (k ∈ opts ∨ k ∈ must) ∧ k ∉ remove := by
        intro k v
        rw [← hr, List.mem_filter, decide_eq_true_eq]
        constructor
        · rintro ⟨h1, h2⟩
          obtain ⟨h3, h4⟩ := h2 (List.mem_map.2 ⟨(k, v), h1, rfl⟩)
          simp only [List.mem_append] at h3
          refine ⟨h1, ?_, h4⟩
          rcases h3 with h3 | h3
          · exact h3
          · exact absurd h3 h4
        · rintro ⟨h1, h2, h3⟩
          refine ⟨h1, fun _ => ⟨?_, h3⟩⟩
          simp only [List.mem_append]
          exact Or.inl h2
      refine ⟨hr ▸ List.filter_sublist, hmem, ?_⟩
      intro k hk hkr
      obtain ⟨v, hv⟩ := hall.1 h k hk
      exact ⟨v, (hmem k v).2 ⟨hv, Or.inr hk, hkr⟩⟩
  · rw [if_neg h]
    refine ⟨⟨fun _ => ?_, by simp⟩, by simp⟩
    rw [hall] at h
    push Not at h
    exact h

-- the options of scipy: an unknown option is dropped, the mandatory one is kept
example : validate ["method", "maxiter", "disp", "tol", "ntrials"] ["poi_index"] []
    [("tol", 1), ("strategy", 2), ("poi_index", 0)] = some [("tol", 1), ("poi_index", 0)] := by decide

/-- A model with a signal strength and two nuisance parameters. -/
noncomputable def sample : ModelConfig where
  poiIndex := 0
  minimumPoi := fin (-1)
  init := [0, 0, 0]
  bounds := [(some (fin 0), some (fin 10)), (some (fin (-5)), some (fin 5)), (none, some (fin 2))]
  names := some ["mu", "a", "b"]
  fixed := none

/-! ## C31 -/

/-- C31, scipy: if the method takes constraints into account and the last trial is successful, the returned value is the
objective at the returned point, and each masked parameter has its initial value up to the tolerance. -/
theorem C31_scipy_partial {tol : ℝ} {scipy : Scipy} (hs : Respects tol scipy) (method : String) (hm : method ∈ constrained)
    (ntrials poi : ℤ) (func : List ℝ → F) (init : List ℝ) (mask : List Bool) (b : List Bound) (cs : List Constraint) (t : Trial)
    (h : (scipyMinimize scipy method ntrials poi func init mask b cs).2 = .ok t) (ht : t.success = true) :
    t.value = func t.x ∧ ∀ k : ℕ, mask[k]? = some true → ∃ y w, t.x[k]? = some y ∧ init[k]? = some w ∧ |y - w| ≤ tol := by
  unfold scipyMinimize at h
  split at h
  · simp at h
  rename_i ps hps
  obtain ⟨k', x, b', rfl⟩ := retry_result _ _ _ _ _ _ _ h
  refine ⟨hs.value _ _ _ _ _ _, fun k hk => ?_⟩
  obtain ⟨v, hv, hpin⟩ := pins_mem init mask 0 ps hps k hk
  rw [Nat.zero_add] at hv hpin
  obtain ⟨r, hr, hr'⟩ := hs.eq k' method func x b' (cs ++ ps) ht hm _ (List.mem_append_right _ hpin) rfl
  simp only [pin] at hr
  split at hr
  · rename_i y hy
    simp only [fin.injEq] at hr
    exact ⟨y, v, hy, hv, hr ▸ hr'⟩
  · simp at hr

/-- C31, `fit`: for all configurations, initial values, bounds, fixed values and minimisers that keep masked parameters: the
result has the requested value at each fixed index, up to the tolerance of the minimiser; a parameter fixed by the
configuration keeps its initial value; the first component is the objective (or `logpdf`) at the returned point. -/
theorem C31_fit_partial {tol : ℝ} {func : List ℝ → F} {minimize : Minimizer} (hm : Keeps tol func minimize) (c : ModelConfig)
    (initial : Option (List ℝ)) (bounds : Option (List Bound)) (fixed : FixedPoi) (logpdf : Option (List ℝ → F)) (v : F)
    (x : List ℝ) (h : (fit minimize c initial bounds fixed logpdf).1 = .ok (v, x)) :
    v = (logpdf.getD func) x ∧
    (∀ l1 l2 i w k, fixed.pairs c = l1 ++ (i, w) :: l2 → slot (initial.getD c.init).length i = some k →
      (∀ p ∈ l2, slot (initial.getD c.init).length p.1 ≠ some k) → ∃ y, x[k]? = some y ∧ |y - w| ≤ tol) ∧
    (∀ (k : ℕ) m w, c.fixed = some m → m[k]? = some true → (initial.getD c.init)[k]? = some w →
      (∀ p ∈ fixed.pairs c, slot (initial.getD c.init).length p.1 ≠ some k) → ∃ y, x[k]? = some y ∧ |y - w| ≤ tol) := by
  unfold fit at h
  simp only at h
  generalize initial.getD c.init = init at *
  split at h
  · simp at h
  rename_i b hb
  split at h
  · simp at h
  rename_i hs
  split at h
  · simp at h
  rename_i mask hmask
  split at h
  · simp at h
  rename_i v' x' hmin
  simp only [Except.ok.injEq, Prod.mk.injEq] at h
  obtain ⟨hv, rfl⟩ := h
  obtain ⟨k1, k2⟩ := hm _ _ _ _ _ hmin
  obtain ⟨s1, s2⟩ := setFixed_spec (fixed.pairs c) init (List.replicate init.length false) (by simp)
  obtain ⟨s3, s4, -⟩ := s2 hs
  obtain ⟨-, g1, g2⟩ := setSuggested_spec _ _ _ _ hmask
  refine ⟨?_, ?_, ?_⟩
  · cases logpdf with
    | none => simp only at hv; rw [← hv, k1]; rfl
    | some g => simp only at hv; rw [← hv]; rfl
  · intro l1 l2 i w k hl hk hp
    have hval := s3 l1 l2 i w k hl hk hp
    obtain ⟨k', hk', hmk⟩ := s4 (i, w) (by rw [hl]; simp)
    rw [hk, Option.some.injEq] at hk'
    subst hk'
    obtain ⟨y, w', hy, hw', hyw⟩ := k2 k (g1 k hmk)
    rw [hval, Option.some.injEq] at hw'
    exact ⟨y, hy, hw' ▸ hyw⟩
  · intro k m w hc hmk hw hp
    have := g2 k (by rw [hc]; exact hmk)
    rw [Nat.zero_add] at this
    obtain ⟨y, w', hy, hw', hyw⟩ := k2 k this
    rw [(s1 k hp).1, hw, Option.some.injEq] at hw'
    exact ⟨y, hy, hw' ▸ hyw⟩

/-- A scipy that pins what it is told to pin, for the methods that take constraints into account, and reports failure
otherwise: it moves along no direction. -/
noncomputable def stay : Scipy := fun _ m func x0 _ cs =>
  if ∀ c ∈ cs, c.isEq = true → ∃ r, c.f x0 = fin r ∧ |r| ≤ 0 then ⟨true, func x0, x0⟩
  else ⟨m ∉ constrained, func x0, x0⟩

theorem stay_respects : Respects 0 stay := by
  refine ⟨fun k m func x0 b cs => ?_, fun k m func x0 b cs h hm => ?_⟩
  · unfold stay; split <;> rfl
  · unfold stay at h ⊢
    split at h
    · rename_i hc
      rw [if_pos hc]
      exact hc
    · simp [hm] at h

/-- C31, `fit` with scipy: if every trial with the chosen method is successful, scipy as used here keeps masked parameters, so
that `C31_fit_partial` applies to it. -/
theorem C31_scipy_keeps {tol : ℝ} {scipy : Scipy} (hs : Respects tol scipy) (method : String) (hm : method ∈ constrained)
    (ntrials poi : ℤ) (func : List ℝ → F) (cs : List Constraint)
    (hok : ∀ k func x0 b cs, (scipy k method func x0 b cs).success = true) :
    Keeps tol func (scipyMinimizer scipy method ntrials poi func cs) := by
  intro init mask b v x h
  unfold scipyMinimizer at h
  cases hr : (scipyMinimize scipy method ntrials poi func init mask b cs).2 with
  | error e => rw [hr] at h; simp [Except.map] at h
  | ok t =>
    rw [hr] at h
    simp only [Except.map, Except.ok.injEq, Prod.mk.injEq] at h
    obtain ⟨rfl, rfl⟩ := h
    refine C31_scipy_partial hs method hm ntrials poi func init mask b cs t hr ?_
    unfold scipyMinimize at hr
    split at hr
    · simp at hr
    · obtain ⟨k', x, b', rfl⟩ := retry_result _ _ _ _ _ _ _ hr
      exact hok _ _ _ _ _

/-- A minimiser that moves nothing. -/
def idle : Minimizer := fun init mask _ => if mask.length ≤ init.length then .ok (fin 0, init) else .error .index

theorem idle_keeps : Keeps 0 (fun _ => fin 0) idle := by
  intro init mask b v x h
  unfold idle at h
  split at h
  · rename_i hl
    simp only [Except.ok.injEq, Prod.mk.injEq] at h
    obtain ⟨rfl, rfl⟩ := h
    refine ⟨rfl, fun k hk => ?_⟩
    have : k < init.length := lt_of_lt_of_le (by
      by_contra hc
      rw [List.getElem?_eq_none (by omega)] at hk
      simp at hk) hl
    exact ⟨init[k], init[k], List.getElem?_eq_getElem this, List.getElem?_eq_getElem this, by simp⟩
  · simp at h

-- contracts that can be met, and a fit with a fixed signal strength
example : Respects 0 stay ∧ "SLSQP" ∈ constrained ∧ Keeps 0 (fun _ => fin 0) idle :=
  ⟨stay_respects, by decide, idle_keeps⟩

example : (fit idle sample none (some []) (.dict [(0, 2), (-1, 3)]) none).1 = .ok (fin 0, [2, 0, 3]) := by
  simp [fit, fitBounds, sample, FixedPoi.pairs, setFixed, slot, setSuggested, idle]

/-- An optimiser that moves every parameter to one, and fails. -/
noncomputable def drift : Scipy := fun _ m func x0 _ _ => ⟨decide (m ∉ constrained), func (x0.map fun _ => 1), x0.map fun _ => 1⟩

theorem drift_respects : Respects 0 drift := by
  refine ⟨fun _ _ _ _ _ _ => rfl, fun k m func x0 b cs h hm => ?_⟩
  simp [drift, hm] at h

/-- The full claim is false: with a contract-abiding scipy, `fit` at signal strength 5 returns the signal strength 1. Once
because the result of an unsuccessful last trial is returned all the same (only a log entry tells), and once because methods
like Nelder-Mead ignore the constraints that hold parameters fixed. -/
theorem C31_fixed_not_kept_fails (method : String) :
    ∃ scipy : Scipy, Respects 0 scipy ∧
      (fit (scipyMinimizer scipy method 1 0 (fun _ => fin 0) []) sample none (some []) (.value 5) none).1 = .ok (fin 0, [1, 1, 1]) := by
  refine ⟨drift, drift_respects, ?_⟩
  simp [fit, fitBounds, sample, FixedPoi.pairs, setFixed, slot, setSuggested, scipyMinimizer, scipyMinimize, pins, retry, drift,
    Except.map]

-- for a method that ignores constraints the trial is even reported as successful
example : (drift 0 "Nelder-Mead" (fun _ => fin 0) [5] [] []).success = true ∧ "Nelder-Mead" ∉ constrained := by
  refine ⟨?_, by decide⟩
  simp only [drift, decide_eq_true_eq]
  decide

/-! ## C32 -/

/-- C32: what `fit` changes, for all inputs and whatever the minimiser does. Without fixed values nothing changes. Otherwise
entries may only change at fixed indices; nothing but the initial values changes; if the caller passes a list, the
configuration does not change; a second fit with the same fixed values starts from the same point. -/
theorem C32_inputs_partial (minimize : Minimizer) (c : ModelConfig) (initial : Option (List ℝ)) (bounds : Option (List Bound))
    (fixed : FixedPoi) (logpdf : Option (List ℝ → F)) :
    let a := (fit minimize c initial bounds fixed logpdf).2
    (fixed.pairs c = [] → a = ⟨initial, c⟩) ∧
    (a.initial.isSome = initial.isSome) ∧
    (initial.isSome → a.config = c) ∧
    (a.config = { c with init := a.config.init }) ∧
    (a.initial.getD a.config.init).length = (initial.getD c.init).length ∧
    ∀ k : ℕ, (∀ p ∈ fixed.pairs c, slot (initial.getD c.init).length p.1 ≠ some k) →
      (a.initial.getD a.config.init)[k]? = (initial.getD c.init)[k]? := by
  intro a
  have ha : a = ⟨initial, c⟩ ∨ a = (match initial with
      | some _ => ⟨some (setFixed (initial.getD c.init) (List.replicate (initial.getD c.init).length false)
          (fixed.pairs c)).1.1, c⟩
      | none => ⟨none, { c with init := (setFixed (initial.getD c.init) (List.replicate (initial.getD c.init).length false)
          (fixed.pairs c)).1.1 }⟩) := by
    show (fit minimize c initial bounds fixed logpdf).2 = _ ∨ (fit minimize c initial bounds fixed logpdf).2 = _
    unfold fit
    cases initial <;> simp only <;> (repeat' split) <;> simp
  obtain ⟨s1, -⟩ := setFixed_spec (fixed.pairs c) (initial.getD c.init)
    (List.replicate (initial.getD c.init).length false) (by simp)
  have s2 := (setFixed_length (fixed.pairs c) (initial.getD c.init) (List.replicate (initial.getD c.init).length false)).1
  rcases ha with ha | ha
  · rw [ha]
    exact ⟨fun _ => rfl, rfl, fun _ => rfl, rfl, rfl, fun _ _ => rfl⟩
  · rw [ha]
    cases initial with
    | none =>
      simp only [Option.getD_none] at s1 s2 ⊢
      refine ⟨fun h => ?_, by simp, by simp, by simp, s2, fun k hk => (s1 k hk).1⟩
      rw [h, setFixed]
    | some l =>
      simp only [Option.getD_some] at s1 s2 ⊢
      refine ⟨fun h => ?_, by simp, by simp, by simp, s2, fun k hk => (s1 k hk).1⟩
      rw [h, setFixed]

-- a free fit: no pairs
example : FixedPoi.none.pairs sample = [] ∧ (FixedPoi.value 5).pairs sample = [(0, 5)] := ⟨rfl, rfl⟩

/-- The full claim is false, for every minimiser: a fit with the signal strength fixed at 5 changes the caller's list, or, when
none is passed, the suggested initial values of the configuration. Every later free fit with that configuration then hands
other initial values to the minimiser. -/
theorem C32_inputs_changed_fails (minimize : Minimizer) (logpdf : Option (List ℝ → F)) :
    (fit minimize sample (some [0, 0, 0]) (some []) (.value 5) logpdf).2.initial = some [5, 0, 0] ∧
    (fit minimize sample none (some []) (.value 5) logpdf).2.config.init = [5, 0, 0] ∧
    sample.init = [0, 0, 0] ∧
    ∃ m : Minimizer, (fit m (fit minimize sample none (some []) (.value 5) logpdf).2.config none (some []) .none none).1 ≠
      (fit m sample none (some []) .none none).1 := by
  have h1 : ∀ i, (i = some [0, 0, 0] ∨ i = none) → (fit minimize sample i (some []) (.value 5) logpdf).2 =
      (match i with
      | some _ => ⟨some [5, 0, 0], sample⟩
      | none => ⟨none, { sample with init := [5, 0, 0] }⟩) := by
    rintro i (rfl | rfl) <;> unfold fit <;>
      simp only [fitBounds, sample, FixedPoi.pairs, setFixed, slot, setSuggested, Option.getD, List.length_cons,
        List.length_nil] <;> norm_num <;>
      split <;> rfl
  refine ⟨by rw [h1 _ (Or.inl rfl)], by rw [h1 _ (Or.inr rfl)], rfl, fun init _ _ => .ok (fin 0, init), ?_⟩
  rw [h1 _ (Or.inr rfl)]
  simp [fit, fitBounds, sample, FixedPoi.pairs, setFixed, setSuggested]

/-! ## C33 -/

/-- C33: for every scipy and all options: at least one and at most `max ntrials 1` calls; each further call follows an
unsuccessful one and starts at the point where that ended; the first starts at the given initial values and bounds; what is
returned is the outcome of the last call, and it is unsuccessful only if all trials were used. If no upper bound is negative,
no point is lost from one call to the next. -/
theorem C33_retries_partial (scipy : Scipy) (method : String) (ntrials poi : ℤ) (func : List ℝ → F) (init : List ℝ)
    (mask : List Bool) (b : List Bound) (cs : List Constraint) :
    let r := scipyMinimize scipy method ntrials poi func init mask b cs
    (r.1.length : ℤ) ≤ max ntrials 1 ∧
    r.1.IsChain Follows ∧
    (∀ a ∈ r.1.head?, a.init = init ∧ a.bounds = b) ∧
    (∀ t, r.2 = .ok t → 1 ≤ r.1.length ∧ r.1.getLast?.map Call.trial = some t ∧
      (t.success = false → (r.1.length : ℤ) = max ntrials 1)) ∧
    ((∀ x ∈ b, ∀ hi, x.2 = some hi → le (fin 0) hi) → r.1.IsChain (fun a b => List.Forall₂ Within a.bounds b.bounds)) := by
  intro r
  have hr : r = scipyMinimize scipy method ntrials poi func init mask b cs := rfl
  clear_value r
  unfold scipyMinimize at hr
  split at hr
  · subst hr
    refine ⟨by simp, by simp, by simp, by simp, by simp⟩
  · rename_i ps hps
    generalize (fun k x b => scipy k method func x b (cs ++ ps)) = run at hr
    obtain ⟨h1, h2, h3, h4⟩ := retry_trace run poi (max ntrials 1 - 1).toNat 0 init b
    obtain ⟨t0, l0, h5⟩ := retry_head run poi (max ntrials 1 - 1).toNat 0 init b
    rw [← hr] at h1 h2 h3 h4 h5
    refine ⟨by omega, h2, ?_, ?_, h3⟩
    · rw [h5]; simp
    · intro t ht
      obtain ⟨k1, k2⟩ := h4 t ht
      refine ⟨by rw [h5]; simp, k1, fun hf => ?_⟩
      have := k2 hf
      omega

-- bounds without a negative upper bound
example : ∀ x ∈ sample.bounds, ∀ hi, x.2 = some hi → le (fin 0) hi := by
  simp [sample, le]

/-- The full claim is false: between two trials the interval (-5, -1) of a nuisance parameter becomes (-50, -10), so that points
are lost; and a missing bound ends the loop with a `TypeError` in place of a second trial. -/
theorem C33_region_lost_fails :
    (widen 0 1 (some (fin (-5)), some (fin (-1))) = .ok (some (fin (-50)), some (fin (-10))) ∧
      ¬ Within (some (fin (-5)), some (fin (-1))) (some (fin (-50)), some (fin (-10)))) ∧
    (∀ (func : List ℝ → F) (x0 : List ℝ) (ntrials : ℤ), 2 ≤ ntrials →
      ∃ scipy : Scipy, Respects 0 scipy ∧
        (scipyMinimize scipy "SLSQP" ntrials 0 func x0 [] [(none, none)] []).2 = .error .type) := by
  refine ⟨⟨?_, ?_⟩, ?_⟩
  · simp only [widen, scale, lt]
    norm_num
  · intro h
    have := (h (-3) (by simp [le]; norm_num) (by simp [le])).2 (fin (-10)) rfl
    simp only [le] at this
    norm_num at this
  · intro func x0 ntrials hn
    refine ⟨drift, drift_respects, ?_⟩
    obtain ⟨n, hn'⟩ : ∃ n, (max ntrials 1 - 1).toNat = n + 1 := ⟨(max ntrials 1 - 1).toNat - 1, by omega⟩
    have hd : "SLSQP" ∈ constrained := by decide
    simp [scipyMinimize, pins, hn', retry, drift, hd, widenAll, widen]

end Verif.Optimizer
