import Verif.Minimisers.Spec
import Verif.Optimizer.Lemmas

/-!
# Lemmas about the minimisers
-/

namespace Verif.Minimisers
open Verif.Py F Verif.Config Verif.Optimizer
open Classical

theorem lookup_filter {α : Type} (p : String → Bool) (d : List (String × α)) (k : String) :
    (d.filter fun x => p x.1).lookup k = if p k then d.lookup k else none := by
  induction d with
  | nil => simp
  | cons x d ih =>
    obtain ⟨a, v⟩ := x
    rw [List.filter_cons]
    by_cases hk : k = a
    · subst hk
      by_cases hp : p k
      · simp [hp]
      · simp only [hp, Bool.false_eq_true, ↓reduceIte, ih]
    · have hne : (k == a) = false := by simpa using hk
      by_cases hp : p a
      · simp only [hp, ↓reduceIte, List.lookup_cons, hne, ih]
      · simp only [hp, Bool.false_eq_true, ↓reduceIte, List.lookup_cons, hne, ih]

theorem lookup_isSome {α : Type} (d : List (String × α)) (k : String) : (d.lookup k).isSome = true ↔ k ∈ d.map Prod.fst := by
  induction d with
  | nil => simp
  | cons x d ih =>
    obtain ⟨a, v⟩ := x
    rw [List.lookup_cons]
    by_cases hk : k = a
    · subst hk; simp
    · have hne : (k == a) = false := by simpa using hk
      simp only [hne, List.map_cons, List.mem_cons, hk, false_or, ih]

theorem lookup_pop {α : Type} (d : List (String × α)) (a k : String) : (dictPop a d).lookup k = if k = a then none else d.lookup k := by
  unfold dictPop
  rw [lookup_filter (fun s => decide (s ≠ a))]
  by_cases h : k = a <;> simp [h]

theorem lookup_append {α : Type} (d e : List (String × α)) (k : String) : (d ++ e).lookup k = (d.lookup k).or (e.lookup k) := by
  induction d with
  | nil => simp
  | cons x d ih =>
    obtain ⟨a, v⟩ := x
    rw [List.cons_append, List.lookup_cons, List.lookup_cons]
    cases hk : (k == a) <;> simp [ih]

theorem lookup_validate {α : Type} {opts must remove : List String} {d r : List (String × α)} (h : validate opts must remove d = some r) (k : String) :
    r.lookup k = if (k ∈ opts ∨ k ∈ must) ∧ k ∉ remove then d.lookup k else none := by
  unfold validate at h
  split at h
  · simp only [Option.some.injEq] at h
    rw [← h, validateLoop_eq, lookup_filter (fun s => decide (s ∈ d.map Prod.fst → s ∈ opts ++ must ++ remove ∧ s ∉ remove))]
    by_cases hk : k ∈ d.map Prod.fst
    · by_cases h1 : k ∈ opts ∨ k ∈ must <;> by_cases h2 : k ∈ remove <;> simp_all [List.mem_append]
    · have : d.lookup k = none := by
        have := (lookup_isSome d k).not.2 hk
        rwa [Option.not_isSome_iff_eq_none] at this
      simp [this]
  · cases h

theorem lookup_setDefault (a : String) (v : Val) (d : Opts) (k : String) :
    (setDefault a v d).lookup k = if k = a then some ((d.lookup a).getD v) else d.lookup k := by
  unfold setDefault
  by_cases h : (d.lookup a).isSome
  · rw [if_pos h]
    by_cases hk : k = a
    · subst hk
      obtain ⟨w, hw⟩ := Option.isSome_iff_exists.1 h
      simp [hw]
    · simp [hk]
  · rw [if_neg h]
    have hn : d.lookup a = none := by rwa [Option.not_isSome_iff_eq_none] at h
    rw [lookup_append]
    by_cases hk : k = a
    · subst hk; simp [hn]
    · have hne : (k == a) = false := by simpa using hk
      simp [hk, List.lookup_cons, hne]

theorem lookup_passedOn (c : ModelConfig) (opts : Opts) (k : String) :
    (passedOn c opts).lookup k = if k = "poi_index" then some (.int c.poiIndex) else if k = "minimizer" then none else opts.lookup k := by
  unfold passedOn
  rw [lookup_append, lookup_pop, lookup_pop]
  by_cases h1 : k = "poi_index"
  · subst h1; simp
  · have hne : (k == "poi_index") = false := by simpa using h1
    simp [h1, List.lookup_cons, hne]

/-- The validated options of scipy. -/
theorem scipy_validated (c : ModelConfig) (opts : Opts) : ∃ d, validate scipyOpts ["poi_index"] [] (passedOn c opts) = some d ∧ d.lookup "poi_index" = some (.int c.poiIndex) ∧
    ∀ k, k ≠ "poi_index" → d.lookup k = if k ∈ scipyOpts then opts.lookup k else none := by
  have hm : ["poi_index"].all (fun k => decide (k ∈ (passedOn c opts).map Prod.fst)) = true := by
    have := (lookup_isSome (passedOn c opts) "poi_index").1 (by rw [lookup_passedOn]; simp)
    simpa using this
  have hv : validate scipyOpts ["poi_index"] [] (passedOn c opts) = some (validateLoop scipyOpts ["poi_index"] [] ((passedOn c opts).map Prod.fst) (passedOn c opts)) := by
    unfold validate; rw [if_pos hm]
  refine ⟨_, hv, ?_, fun k hk => ?_⟩
  · rw [lookup_validate hv, lookup_passedOn]; simp
  · rw [lookup_validate hv, lookup_passedOn]
    by_cases h : k ∈ scipyOpts
    · have : k ≠ "minimizer" := by rintro rfl; revert h; decide
      simp [h, hk, this]
    · simp [h, hk]

/-- The validated options of Minuit. -/
theorem minuit_validated (c : ModelConfig) (opts : Opts) : ∃ d, validate minuitOpts [] ["poi_index"] (passedOn c opts) = some d ∧
    ∀ k, d.lookup k = if k ∈ minuitOpts then opts.lookup k else none := by
  have hv : validate minuitOpts [] ["poi_index"] (passedOn c opts) = some (validateLoop minuitOpts [] ["poi_index"] ((passedOn c opts).map Prod.fst) (passedOn c opts)) := by
    unfold validate; simp
  refine ⟨_, hv, fun k => ?_⟩
  rw [lookup_validate hv, lookup_passedOn]
  by_cases h : k ∈ minuitOpts
  · have h1 : k ≠ "minimizer" := by rintro rfl; revert h; decide
    have h2 : k ≠ "poi_index" := by rintro rfl; revert h; decide
    simp [h, h1, h2]
  · simp [h]

/-- The arguments of scipy for these options. -/
noncomputable def scipyArgs (opts : Opts) (x : List ℝ) (b : List Bound) (cs : List Constraint) : ScipyArgs where
  method := given opts "method" (.str "SLSQP")
  tol := given opts "tol" (.real (1 / 10 ^ 6))
  options := fun k => if k = "maxiter" then some (given opts "maxiter" (.int 10000)) else if k = "disp" then some (given opts "disp" (.bool false)) else none
  init := x
  bounds := b
  constraints := cs

theorem scipyArgs_meant (opts : Opts) (x : List ℝ) (b : List Bound) (cs : List Constraint) : MeantScipy opts (scipyArgs opts x b cs) := by
  refine ⟨rfl, rfl, ?_, ?_, ?_⟩
  · simp [scipyArgs]
  · simp [scipyArgs]
  · intro k h1 h2; simp [scipyArgs, h1, h2]

theorem scipy_eq (lib : ScipyLib) (func : List ℝ → F) (cs : List Constraint) (c : ModelConfig) (opts : Opts) (init : List ℝ) (mask : List Bool) (b : List Bound) :
    scipyMinimize lib func cs (passedOn c opts) init mask b =
      match trials (opts.lookup "ntrials") with
      | .error e => .error e
      | .ok n =>
        match pins init 0 mask with
        | .error e => .error e
        | .ok ps => retry (fun k x b => lib k func (scipyArgs opts x b (cs ++ ps))) c.poiIndex (n - 1) 0 init b := by
  obtain ⟨d, hd, hp, hk⟩ := scipy_validated c opts
  have hn : d.lookup "ntrials" = opts.lookup "ntrials" := by rw [hk _ (by decide)]; simp [scipyOpts]
  have hm : d.lookup "method" = opts.lookup "method" := by rw [hk _ (by decide)]; simp [scipyOpts]
  have ht : d.lookup "tol" = opts.lookup "tol" := by rw [hk _ (by decide)]; simp [scipyOpts]
  have ho : (fun o => (scipyDict d).lookup o) =
      fun k => if k = "maxiter" then some (given opts "maxiter" (.int 10000)) else if k = "disp" then some (given opts "disp" (.bool false)) else none := by
    funext o
    unfold scipyDict
    rw [lookup_setDefault]
    by_cases h1 : o = "disp"
    · subst h1
      rw [if_pos rfl, lookup_setDefault, if_neg (by decide), lookup_pop, lookup_pop, lookup_pop, lookup_pop, hk _ (by decide)]
      simp [scipyOpts, given]
    · rw [if_neg h1, lookup_setDefault]
      by_cases h2 : o = "maxiter"
      · subst h2
        rw [if_pos rfl, lookup_pop, lookup_pop, lookup_pop, lookup_pop, hk _ (by decide)]
        simp [scipyOpts, given]
      · rw [if_neg h2, lookup_pop, lookup_pop, lookup_pop, lookup_pop]
        by_cases h3 : o = "poi_index"
        · simp [h3]
        · rw [if_neg h3, hk o h3]
          simp only [scipyOpts, h1, h2, if_neg, List.mem_cons, List.not_mem_nil, or_false, false_or]
          by_cases h4 : o = "ntrials"
          · simp [h4]
          · by_cases h5 : o = "tol"
            · simp [h5]
            · by_cases h6 : o = "method"
              · simp [h6]
              · simp [h4, h5, h6]
  unfold scipyMinimize
  rw [hd]
  simp only [hn, hp, ho, hm, ht]
  cases trials (opts.lookup "ntrials") with
  | error e => rfl
  | ok n => rfl

theorem minuit_eq (lib : MinuitLib) (func : List ℝ → F) (cs : List Constraint) (c : ModelConfig) (opts : Opts) (init : List ℝ) (mask : List Bool) (b : List Bound) :
    minuitMinimize lib func cs (passedOn c opts) init mask b =
      match algorithm (given opts "method" (.str "migrad")) with
      | .error e => .error e
      | .ok a => lib func ⟨a, given opts "maxiter" (.int 10000), given opts "disp" (.int 0), given opts "errordef" (.real (1 / 2)), given opts "strategy" (.int 0),
          given opts "tol" (.real (1 / 10 ^ 6)), init, b, mask⟩ := by
  obtain ⟨d, hd, hk⟩ := minuit_validated c opts
  unfold minuitMinimize
  rw [hd]
  simp only [hk, given, minuitOpts, List.mem_cons, true_or, or_true, if_true]
  cases algorithm ((opts.lookup "method").getD (.str "migrad")) <;> rfl

theorem retry_congr {run run' : ℕ → List ℝ → List Bound → Except Err Trial} (poi : ℤ) : ∀ (left k : ℕ), (∀ j, k ≤ j → j ≤ k + left → ∀ x b, run j x b = run' j x b) →
    ∀ x b, retry run poi left k x b = retry run' poi left k x b := by
  intro left
  induction left with
  | zero =>
    intro k h x b
    unfold retry
    rw [h k le_rfl (by omega)]
  | succ left ih =>
    intro k h x b
    unfold retry
    rw [h k le_rfl (by omega)]
    cases run' k x b with
    | error e => rfl
    | ok t =>
      simp only
      by_cases ht : t.success
      · simp [ht]
      · simp only [ht, Bool.false_eq_true, ↓reduceIte]
        cases widenAll poi 0 b with
        | error e => rfl
        | ok b' => exact ih (k + 1) (fun j h1 h2 => h j (by omega) (by omega)) _ _

theorem trials_allowed {opts : Opts} {n k : ℕ} (h : trials (opts.lookup "ntrials") = .ok n) (hk : k ≤ n - 1) : Allowed opts k := by
  unfold Allowed
  cases ho : opts.lookup "ntrials" with
  | none => rw [ho] at h; simp [trials] at h; left; omega
  | some v =>
    rw [ho] at h
    cases v with
    | int m =>
      simp only [trials, Except.ok.injEq] at h
      by_cases h0 : k = 0
      · exact Or.inl h0
      · refine Or.inr (Or.inl ⟨m, rfl, ?_⟩)
        omega
    | real r =>
      simp only [trials, Except.ok.injEq] at h
      by_cases h0 : k = 0
      · exact Or.inl h0
      · refine Or.inr (Or.inr ⟨r, rfl, ?_⟩)
        have hlt : k < ⌈max r 1⌉₊ := by omega
        rw [Nat.lt_ceil] at hlt
        rcases lt_max_iff.1 hlt with h1 | h1
        · exact h1
        · have : k < 1 := by exact_mod_cast h1
          omega
    | bool b => simp [trials] at h; left; omega
    | str s => simp [trials] at h

/-- What a fit returns comes from the minimiser, called with the bounds of the fit, the mask and the initial values of the fixed parameters. -/
theorem fit_ok {minimize : Minimizer} {c : ModelConfig} {initial : Option (List ℝ)} {bounds : Option (List Bound)} {fixed : FixedPoi} {logpdf : Option (List ℝ → F)} {v : F}
    {x : List ℝ} (h : (Optimizer.fit minimize c initial bounds fixed logpdf).1 = .ok (v, x)) :
    ∃ init mask b v', fitBounds c bounds fixed = .ok b ∧ minimize init mask b = .ok (v', x) ∧ v = (logpdf.map fun g => g x).getD v' ∧
      (∀ l1 l2 i w k, fixed.pairs c = l1 ++ (i, w) :: l2 → slot (initial.getD c.init).length i = some k →
        (∀ p ∈ l2, slot (initial.getD c.init).length p.1 ≠ some k) → init[k]? = some w ∧ mask[k]? = some true) ∧
      (∀ (k : ℕ) m w, c.fixed = some m → m[k]? = some true → (initial.getD c.init)[k]? = some w →
        (∀ p ∈ fixed.pairs c, slot (initial.getD c.init).length p.1 ≠ some k) → init[k]? = some w ∧ mask[k]? = some true) := by
  unfold Optimizer.fit at h
  cases hb : fitBounds c bounds fixed with
  | error e => rw [hb] at h; simp at h
  | ok b =>
    rw [hb] at h
    simp only at h
    split at h
    · simp at h
    rename_i hs
    split at h
    · simp at h
    rename_i mask hmask
    split at h
    · simp at h
    rename_i v' x' hm
    simp only [Except.ok.injEq, Prod.mk.injEq] at h
    obtain ⟨h1, rfl⟩ := h
    obtain ⟨s1, s2⟩ := setFixed_spec (fixed.pairs c) (initial.getD c.init) (List.replicate (initial.getD c.init).length false) (by simp)
    obtain ⟨s3, s4, -⟩ := s2 hs
    obtain ⟨-, g1, g2⟩ := setSuggested_spec _ _ _ _ hmask
    refine ⟨_, mask, b, v', rfl, hm, ?_, ?_, ?_⟩
    · cases logpdf with
      | none => exact h1.symm
      | some g => exact h1.symm
    · intro l1 l2 i w k hl hk hp
      obtain ⟨k', hk', hmk⟩ := s4 (i, w) (by rw [hl]; simp)
      rw [hk, Option.some.injEq] at hk'
      subst hk'
      exact ⟨s3 l1 l2 i w k hl hk hp, g1 k hmk⟩
    · intro k m w hc hmk hw hp
      have := g2 k (by rw [hc]; exact hmk)
      rw [Nat.zero_add] at this
      exact ⟨(s1 k hp).1.trans hw, this⟩

end Verif.Minimisers
