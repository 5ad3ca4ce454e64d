import Verif.Combiner.Lemmas
import Verif.Optimizer.Spec

/-!
# C34-C40: combinations of uncorrelated analyses
-/

namespace Verif.Combiner
open Verif.Py F
open Classical

variable {D V : Type}

/-- Three models. -/
def names : ℕ → String
  | 0 => "a"
  | 1 => "b"
  | _ => "c"

/-! ## C34 -/

/-- C34: after any sequence of creations, `append`, `remove` and `@`, the analysis names in every combination are pairwise
distinct. -/
theorem C34_names_distinct_partial (h : Heap) (hd : Distinct h) (ops : List Op) (ho : ∀ o ∈ ops, o.keepsNames) :
    Distinct (run h ops) := by
  induction ops generalizing h with
  | nil => exact hd
  | cons o ops ih =>
    exact ih _ (distinct_step hd o (ho o List.mem_cons_self)) (fun x hx => ho x (List.mem_cons_of_mem _ hx))

/-- C34: an operation that raises changes nothing. `append` raises exactly for objects that are not models (`TypeError`) and
for models with a name that is present (`AnalysisQueryError`); otherwise the model is the new last entry. `remove` raises
exactly if no model has the name; otherwise one model of that name disappears and the others keep their order. -/
theorem C34_operations (h : Heap) (c : ℕ) (s : List ℕ) (hs : h.lists[c]? = some s) :
    (∀ o e, (step h o).2 = .error e → (step h o).1 = h) ∧
    (∀ m, (step h (.append c (.model m))).2 = .error .query ∧ h.name m ∈ s.map h.name ∨
      (step h (.append c (.model m))) = ({ h with lists := h.lists.set c (s ++ [m]) }, .ok ()) ∧ h.name m ∉ s.map h.name) ∧
    (∀ c', (step h (.append c (.combiner c'))).2 = .error .type) ∧ (step h (.append c .other)).2 = .error .type ∧
    (∀ a, (step h (.remove c a)).2 = .error .query ∧ a ∉ s.map h.name ∨
      ∃ l1 m l2, s = l1 ++ m :: l2 ∧ h.name m = a ∧
        (step h (.remove c a)) = ({ h with lists := h.lists.set c (l1 ++ l2) }, .ok ())) := by
  refine ⟨?_, ?_, ?_, ?_, ?_⟩
  · intro o e he
    have hput : ∀ c r, (h.put c r).2 = .error e → (h.put c r).1 = h := by
      intro c r hr; cases r <;> simp [Heap.put] at hr ⊢
    have hcreate : ∀ r, (h.create r).2 = .error e → (h.create r).1 = h := by
      intro r hr; cases r <;> simp [Heap.create] at hr ⊢
    cases o with
    | new args => exact hcreate _ he
    | append c o =>
      simp only [step] at he ⊢
      split at he
      · simp at he
      · exact hput _ _ he
    | remove c a =>
      simp only [step] at he ⊢
      split at he
      · simp at he
      · exact hput _ _ he
    | matmul c o =>
      simp only [step] at he ⊢
      split at he
      · simp at he
      · exact hcreate _ he
    | rename m a => simp [step] at he
  · intro m
    simp only [step, hs, appendTo]
    by_cases hm : h.name m ∈ s.map h.name
    · exact Or.inl ⟨by rw [if_pos hm]; rfl, hm⟩
    · exact Or.inr ⟨by rw [if_neg hm]; rfl, hm⟩
  · intro c'; simp [step, hs, appendTo, Heap.put]
  · simp [step, hs, appendTo, Heap.put]
  · intro a
    simp only [step, hs]
    by_cases ha : a ∈ s.map h.name
    · obtain ⟨l1, m, l2, e, h1, -, h3⟩ := (removeFrom_spec h.name a s).2 ha
      exact Or.inr ⟨l1, m, l2, e, h1, by rw [h3]; rfl⟩
    · exact Or.inl ⟨by rw [(removeFrom_spec h.name a s).1 ha]; rfl, ha⟩

/-- C34: the order is the insertion order: after any history the list of a combination is a subsequence of the earlier list
followed by the models appended since. A model whose name is not removed stays. -/
theorem C34_insertion_order (h : Heap) (ops : List Op) (c : ℕ) (s : List ℕ) (hs : h.lists[c]? = some s) :
    ∃ s', (run h ops).lists[c]? = some s' ∧ s'.Sublist (s ++ appended c ops) ∧
      ((∀ o ∈ ops, o.keepsNames) → ∀ m ∈ s, (∀ a, Op.remove c a ∈ ops → a ≠ h.name m) → m ∈ s') := by
  induction ops generalizing h s with
  | nil => exact ⟨s, hs, by simp [appended], fun _ m hm _ => hm⟩
  | cons o ops ih =>
    obtain ⟨s1, h1, h2, h3⟩ := step_get o hs
    obtain ⟨s2, k1, k2, k3⟩ := ih _ s1 h1
    refine ⟨s2, k1, ?_, ?_⟩
    · rw [appended_cons, ← List.append_assoc]
      exact k2.trans (List.Sublist.append_right h2 _)
    · intro ho m hm hr
      refine k3 (fun x hx => ho x (List.mem_cons_of_mem _ hx)) m ?_ ?_
      · exact h3 m hm (fun a ha => hr a (by rw [← ha]; exact List.mem_cons_self))
      · intro a ha
        rw [name_step o (ho o List.mem_cons_self)]
        exact hr a (List.mem_cons_of_mem _ ha)

-- two models are appended, one is removed, a third one follows
example : (run ⟨names, []⟩ [.new [.model 0, .model 1], .remove 0 "a", .append 0 (.model 2), .append 0 (.model 1),
    .append 0 (.model 0)]).lists = [[1, 2, 0]] := by decide

example : Distinct ⟨names, [[0, 1], [2]]⟩ := by
  intro l hl
  simp only [List.mem_cons, List.not_mem_nil, or_false] at hl
  rcases hl with rfl | rfl <;> simp [names]

/-- The full claim is false: the attribute `analysis` can be assigned to at any time, so that two models of a combination have
the same name; a lookup then finds only the first and `remove` removes the first. -/
theorem C34_renaming_fails :
    let h := run ⟨names, []⟩ [.new [.model 0, .model 1], .rename 1 "a"]
    h.lists = [[0, 1]] ∧ ¬ Distinct h ∧ getItem h.name [0, 1] (.name "a") = .ok (.one 0) ∧
      getItem h.name [0, 1] (.name "b") = .error .query ∧ (step h (.remove 0 "a")).1.lists = [[1]] := by
  refine ⟨by decide, ?_, by decide, by decide, by decide⟩
  intro hd
  have := hd [0, 1] (by decide)
  revert this
  decide

/-! ## C35 -/

/-- C35: for all analyses, POI values, data and options: the combined negative log-likelihood is the sum of the individual
ones, each evaluated with the data given for its name (or without data) and the options for its backend; the combined
likelihood is the product of the individual likelihoods. -/
theorem C35_product (S : Stat D V) (name : ℕ → String) (stack : List ℕ) (poi : ℝ) (data : List (String × D))
    (options : String → Kwargs V) (kw : Kwargs V)
    (hk : ∀ m ∈ stack, NoClash ["poi_test", "expected", "data"] (options (S.backendType m)) kw)
    (hdata : (data.map Prod.fst).Nodup) (d : ℕ → Option D) (hd : ∀ m ∈ stack, ∀ e, d m = some e ↔ (name m, e) ∈ data)
    (x : ℕ → ℝ) (hx : ∀ m ∈ stack, S.nll m poi (d m) (options (S.backendType m) ++ kw) = .ok (fin (x m))) :
    likelihood S name stack poi true data options kw = .ok (fin (stack.map x).sum) ∧
    likelihood S name stack poi false data options kw = .ok (fin (stack.map (fun m => Real.exp (-x m))).prod) := by
  have hf : List.Forall₂ (Gives (term S name options data kw poi)) stack ((stack.map x).map fin) := by
    rw [List.map_map, List.forall₂_map_right_iff, List.forall₂_same]
    intro m hm
    left
    have hget : dictGet (name m) data = d m := by
      cases hdm : d m with
      | some e => exact dictGet_of_mem hdata ((hd m hm e).1 hdm)
      | none =>
        cases hg : dictGet (name m) data with
        | none => rfl
        | some e => rw [(hd m hm e).2 (mem_of_dictGet hg)] at hdm; simp at hdm
    simp only [term, mergeKw_ok (hk m hm), hget]
    exact hx m hm
  have hs := sumLoop_eq _ _ _ (fin 0) hf
  rw [F.zero_add, sumF_fin] at hs
  refine ⟨?_, ?_⟩
  · simp [likelihood, hs, Except.map, scaleOut]
  · simp only [likelihood, hs, Except.map, scaleOut, isNan, neg, exp, Bool.false_eq_true, or_false, if_false,
      Except.ok.injEq, fin.injEq]
    rw [exp_neg_sum, List.map_map]
    rfl

/-- C35: whatever the individual values are (also infinite or nan, or `NegativeExpectedYields`), the combined value does not
depend on the order of the analyses, and one nan makes it nan. -/
theorem C35_order_and_nan (S : Stat D V) (name : ℕ → String) (s s' : List ℕ) (hp : s.Perm s') (poi : ℝ) (returnNll : Bool)
    (data : List (String × D)) (options : String → Kwargs V) (kw : Kwargs V) (x : ℕ → F)
    (hx : ∀ m ∈ s, Gives (term S name options data kw poi) m (x m)) :
    likelihood S name s poi returnNll data options kw = likelihood S name s' poi returnNll data options kw ∧
    ((∃ m ∈ s, x m = nan) → likelihood S name s poi returnNll data options kw = .ok nan) := by
  have hf : ∀ s : List ℕ, (∀ m ∈ s, Gives (term S name options data kw poi) m (x m)) →
      sumLoop (term S name options data kw poi) (fin 0) s = .ok (sumF (s.map x)) := by
    intro s h
    rw [sumLoop_eq _ s (s.map x) (fin 0), F.zero_add]
    rw [List.forall₂_map_right_iff, List.forall₂_same]
    exact h
  have h1 := hf s hx
  have h2 := hf s' (fun m hm => hx m (hp.mem_iff.2 hm))
  refine ⟨?_, ?_⟩
  · simp only [likelihood, h1, h2]
    rw [sumF_perm (hp.map x)]
  · rintro ⟨m, hm, hxm⟩
    simp only [likelihood, h1]
    rw [sumF_nan (List.mem_map.2 ⟨m, hm, hxm⟩)]
    simp [Except.map, scaleOut, isNan]

/-- C35, Asimov data: with distinct names each analysis is evaluated with its own Asimov data set. -/
theorem C35_asimov (S : Stat D V) (name : ℕ → String) (stack : List ℕ) (hn : (stack.map name).Nodup) (poi : ℝ)
    (options : String → Kwargs V) (kw : Kwargs V)
    (hk : ∀ m ∈ stack, NoClash ["poi_test", "expected", "data"] (options (S.backendType m)) kw)
    (hk' : ∀ m ∈ stack, NoClash ["expected", "test_statistic"] (options (S.backendType m)) kw)
    (d : ℕ → D) (hd : ∀ m ∈ stack, S.asimov m (options (S.backendType m) ++ kw) = .ok (d m))
    (x : ℕ → ℝ) (hx : ∀ m ∈ stack, S.nll m poi (some (d m)) (options (S.backendType m) ++ kw) = .ok (fin (x m))) :
    asimovLikelihood S name stack poi true options kw = .ok (fin (stack.map x).sum) ∧
    asimovLikelihood S name stack poi false options kw = .ok (fin (stack.map (fun m => Real.exp (-x m))).prod) := by
  obtain ⟨r, h1, h2, -⟩ := asimovLoop_spec S name options kw d stack []
    (fun m hm => mergeKw_ok (hk' m hm)) hd hn
  have hf : List.Forall₂ (Gives (term S name options r kw poi)) stack ((stack.map x).map fin) := by
    rw [List.map_map, List.forall₂_map_right_iff, List.forall₂_same]
    intro m hm
    left
    simp only [term, mergeKw_ok (hk m hm), h2 m hm]
    exact hx m hm
  have hs := sumLoop_eq _ _ _ (fin 0) hf
  rw [F.zero_add, sumF_fin] at hs
  refine ⟨?_, ?_⟩
  · simp [asimovLikelihood, h1, likelihood, hs, Except.map, scaleOut]
  · simp only [asimovLikelihood, h1, likelihood, hs, Except.map, scaleOut, isNan, neg, exp, Bool.false_eq_true, or_false,
      if_false, Except.ok.injEq, fin.injEq]
    rw [exp_neg_sum, List.map_map]
    rfl

/-- Models whose negative log-likelihood is their number plus the POI, or a data value plus the POI. -/
def toy : Stat ℝ ℕ where
  backendType := fun _ => "toy"
  nll := fun m poi d _ => .ok (fin ((d.getD m) + poi))
  asimov := fun m _ => .ok (m * 10)

-- data for one of the two analyses
example : likelihood toy names [0, 1] 2 true [("b", 7)] (fun _ => []) [] = .ok (fin 11) := by
  have := (C35_product toy names [0, 1] 2 [("b", 7)] (fun _ => []) [] (by simp [NoClash]) (by simp)
    (fun m => if m = 1 then some 7 else none) (by simp [names]; intro e; exact eq_comm)
    (fun m => if m = 1 then 9 else 2) (by simp [toy]; norm_num)).1
  rw [this]
  norm_num

example : asimovLikelihood toy names [0, 1] 2 true (fun _ => []) [] = .ok (fin 14) := by
  have := (C35_asimov toy names [0, 1] (by simp [names]) 2 (fun _ => []) [] (by simp [NoClash]) (by simp [NoClash])
    (fun m => m * 10) (by simp [toy]) (fun m => m * 10 + 2) (by simp [toy])).1
  rw [this]
  norm_num

/-- C35: exceptions other than `NegativeExpectedYields` do depend on the order: if one analysis gives nan and another raises,
the combined value is nan in one order and the exception in the other. -/
theorem C35_exceptions_depend_on_order_fails :
    let S : Stat ℝ ℕ := { toy with nll := fun m _ _ _ => if m = 0 then .ok nan else .error .other }
    likelihood S names [0, 1] 1 true [] (fun _ => []) [] = .ok nan ∧
    likelihood S names [1, 0] 1 true [] (fun _ => []) [] = .error .other := by
  constructor <;>
    simp [likelihood, sumLoop, term, mergeKw, add, isNan, Except.map, scaleOut]

/-- C35, the fit: with a minimiser that reports values of its objective, `maximize_likelihood` returns the combined negative
log-likelihood at the best fit it returns (or its exponential). -/
theorem C35_maximize (S : Stat D V) (name : ℕ → String) (stack : List ℕ) (data : List (String × D))
    (options : String → Kwargs V) (kw : Kwargs V) {tol : ℝ} {minimize : Optimizer.Minimizer}
    (hm : Optimizer.Keeps tol (twiceNll S name stack data options kw) minimize) (least : F) (allowNegative returnNll : Bool)
    (mu muhat : ℝ) (v : F) (h : maximize minimize least allowNegative returnNll mu = .ok (muhat, v)) (y : F)
    (hy : likelihood S name stack muhat true data options kw = .ok y) :
    v = if returnNll then y else exp (neg y) := by
  unfold maximize at h
  simp only [Optimizer.fit, Optimizer.fitBounds, Verif.Config.fixedPoiBounds, Except.map, Option.getD_none,
    Optimizer.FixedPoi.pairs, Optimizer.setFixed, Optimizer.setSuggested] at h
  split at h
  · simp at h
  · rename_i w x hw
    split at hw
    · simp at hw
    · rename_i w' x' hmin
      simp only [Except.ok.injEq, Prod.mk.injEq] at hw h
      obtain ⟨rfl, rfl⟩ := hw
      obtain ⟨rfl, rfl⟩ := h
      have hv := (hm _ _ _ _ _ hmin).1
      subst hv
      simp only [twiceNll, hy]
      cases returnNll
      · simp only [Bool.false_eq_true, if_false]
        congr 1
        cases y with
        | fin z => simp only [scale, neg, fin.injEq]; ring
        | _ => simp [scale, neg]
      · simp only [if_true]
        cases y with
        | fin z => simp only [scale, fin.injEq]; ring
        | _ => simp [scale]

-- a minimiser that stays where it is
example : maximize (fun init _ _ => .ok (twiceNll toy names [0, 1] [] (fun _ => []) [] init, init)) (fin (-1)) true true 2 =
    .ok (2, fin 5) := by
  simp [maximize, Optimizer.fit, Optimizer.fitBounds, Verif.Config.fixedPoiBounds, Except.map, Optimizer.FixedPoi.pairs,
    Optimizer.setFixed, Optimizer.setSuggested, twiceNll, likelihood, sumLoop, term, mergeKw, toy, scaleOut, scale, isNan, add,
    dictGet]
  norm_num

/-! ## C36 -/

/-- C36: the combined minimum is the individual minimum of one member; a POI value is at or above it exactly if it is at or
above every individual minimum; every smaller bound admits a value that some analysis forbids. -/
theorem C36_minimum_poi (least : ℕ → F) (stack : List ℕ) (hs : stack ≠ []) (hn : ∀ m ∈ stack, ¬ isNan (least m)) :
    ∃ r, minimumPoi least stack = .ok r ∧ (∃ m ∈ stack, r = least m) ∧
      (∀ v : ℝ, le r (fin v) ↔ ∀ m ∈ stack, le (least m) (fin v)) ∧
      (∀ b, lt b r → ∃ v : ℝ, le b (fin v) ∧ ∃ m ∈ stack, ¬ le (least m) (fin v)) := by
  cases stack with
  | nil => exact absurd rfl hs
  | cons m l =>
    obtain ⟨h1, h2⟩ := pyMaxFrom_spec (l.map least) (least m) (hn m List.mem_cons_self)
      (fun x hx => by obtain ⟨y, hy, rfl⟩ := List.mem_map.1 hx; exact hn y (List.mem_cons_of_mem _ hy))
    rw [show least m :: l.map least = (m :: l).map least from rfl] at h1 h2
    obtain ⟨k, hk, hk'⟩ := List.mem_map.1 h1
    refine ⟨_, rfl, ⟨k, hk, hk'.symm⟩, ?_, ?_⟩
    · intro v
      constructor
      · intro h x hx
        exact le_trans' (h2 _ (List.mem_map_of_mem hx)) h
      · intro h
        rw [← hk']
        exact h k hk
    · intro b hb
      rw [← hk'] at hb
      have : ∃ v : ℝ, le b (fin v) ∧ ¬ le (least k) (fin v) := by
        cases hl : least k with
        | nan => rw [hl] at hb; cases b <;> simp [lt] at hb
        | ninf => rw [hl] at hb; cases b <;> simp [lt] at hb
        | pinf =>
          cases b with
          | fin y => exact ⟨y, by simp [le], by simp [le]⟩
          | ninf => exact ⟨0, by simp [le], by simp [le]⟩
          | _ => rw [hl] at hb; simp [lt] at hb
        | fin x =>
          rw [hl] at hb
          cases b with
          | fin y => exact ⟨y, by simp [le], by simpa [le, lt] using hb⟩
          | ninf => exact ⟨x - 1, by simp [le], by simp [le]⟩
          | _ => simp [lt] at hb
      obtain ⟨v, hv, hv'⟩ := this
      exact ⟨v, hv, k, hk, hv'⟩

/-- C36: without members there is no minimum, the call raises. -/
theorem C36_empty (least : ℕ → F) : minimumPoi least [] = .error .value := rfl

-- minima -2, -1 and -inf (no signal)
example : minimumPoi (fun m => if m = 0 then fin (-2) else if m = 1 then fin (-1) else ninf) [0, 1, 2] = .ok (fin (-1)) := by
  simp [minimumPoi, pyMaxFrom, lt]

/-! ## C37 -/

/-- C37 is false of every combination: `find_most_sensitive` always raises, because the position comes as a numpy integer, which
`__getitem__` takes for a name. -/
theorem C37_find_most_sensitive_fails (name : ℕ → String) (s95exp : ℕ → F) (stack : List ℕ) :
    findMostSensitive name s95exp stack = .error (if stack = [] then .value else .query) := by
  cases stack with
  | nil => rfl
  | cons m l => simp [findMostSensitive, argmin, getItem]

/-- C37, partial: the position is that of an analysis with the smallest expected limit, and it would be found with a Python
`int`. -/
theorem C37_position_partial (name : ℕ → String) (s95exp : ℕ → F) (stack : List ℕ) (hs : stack ≠ [])
    (hn : ∀ m ∈ stack, ¬ isNan (s95exp m)) :
    ∃ k m, argmin (stack.map s95exp) = .ok k ∧ getItem name stack (.int k) = .ok (.one m) ∧ m ∈ stack ∧
      ∀ m' ∈ stack, le (s95exp m) (s95exp m') := by
  cases stack with
  | nil => exact absurd rfl hs
  | cons m l =>
    obtain ⟨x, h1, h2⟩ := argminFrom_spec (l.map s95exp) ((m :: l).map s95exp) (s95exp m) 0 1 (hn m List.mem_cons_self)
      (fun x hx => by obtain ⟨y, hy, rfl⟩ := List.mem_map.1 hx; exact hn y (List.mem_cons_of_mem _ hy)) rfl
      (fun j hj => by rw [Nat.add_comm]; rfl)
      (fun j hj x hx => by
        have : j = 0 := by omega
        subst this
        simp only [List.map_cons, List.getElem?_cons_zero, Option.some.injEq] at hx
        exact hx ▸ le_refl' (hn m List.mem_cons_self)) (by simp; omega)
    set k := argminFrom (s95exp m) 0 1 (l.map s95exp) with hk
    rw [List.getElem?_map] at h1
    cases hg : (m :: l)[k]? with
    | none => rw [hg] at h1; simp at h1
    | some y =>
      rw [hg, Option.map_some, Option.some.injEq] at h1
      have hlt : k < (m :: l).length := by
        by_contra hc
        rw [List.getElem?_eq_none (by omega)] at hg
        simp at hg
      refine ⟨k, y, rfl, ?_, List.mem_of_getElem? hg, fun m' hm' => ?_⟩
      · simp only [getItem]
        rw [if_pos (by exact_mod_cast hlt), slot_nat k hlt]
        simp only [hg]
      · rw [h1]
        exact h2 _ (List.mem_map_of_mem hm')

example : [0, 1, 2] ≠ ([] : List ℕ) ∧ ∀ m ∈ [0, 1, 2], ¬ isNan ((fun m : ℕ => fin (m : ℝ)) m) := by simp [isNan]

/-! ## C38 -/

/-- C38: by name, the unique member of that name, or `AnalysisQueryError`; by position, Python's indexing for positions from
`-len` on, and `AnalysisQueryError` from `len` on; a slice gives a tuple of consecutive members. -/
theorem C38_lookup_partial (name : ℕ → String) (stack : List ℕ) (hn : (stack.map name).Nodup) :
    (∀ m ∈ stack, getItem name stack (.name (name m)) = .ok (.one m)) ∧
    (∀ a f, getItem name stack (.name a) = .ok f → ∃ m ∈ stack, f = .one m ∧ name m = a) ∧
    (∀ a, a ∉ stack.map name → getItem name stack (.name a) = .error .query) ∧
    (∀ (k : ℕ) m, stack[k]? = some m → getItem name stack (.int k) = .ok (.one m) ∧
      getItem name stack (.int ((k : ℤ) - stack.length)) = .ok (.one m)) ∧
    (∀ i : ℤ, stack.length ≤ i → getItem name stack (.int i) = .error .query) ∧
    (∀ a b, ∃ l1 l l2, getItem name stack (.slice a b) = .ok (.tuple l) ∧ stack = l1 ++ l ++ l2) := by
  refine ⟨?_, ?_, ?_, ?_, ?_, ?_⟩
  · intro m hm
    simp only [getItem, findName_of_mem hn hm]
    rfl
  · intro a f hf
    simp only [getItem] at hf
    cases hg : findName name a stack with
    | error e => rw [hg] at hf; simp [Except.map] at hf
    | ok m =>
      rw [hg] at hf
      simp only [Except.map, Except.ok.injEq] at hf
      obtain ⟨h1, h2⟩ := findName_ok hg
      exact ⟨m, h1, hf.symm, h2⟩
  · intro a ha
    simp only [getItem, findName_error ha]
    rfl
  · intro k m hk
    have hlt : k < stack.length := by
      by_contra hc
      rw [List.getElem?_eq_none (by omega)] at hk
      simp at hk
    constructor
    · simp only [getItem]
      rw [if_pos (by exact_mod_cast hlt), slot_nat k hlt]
      simp only [hk]
    · simp only [getItem]
      have hs : slot stack.length ((k : ℤ) - stack.length) = some k := by
        unfold slot
        rw [if_neg (by omega), if_pos (by omega)]
        simp
      rw [if_pos (by omega), hs]
      simp only [hk]
  · intro i hi
    simp only [getItem]
    rw [if_neg (by omega)]
  · intro a b
    refine ⟨(stack.take ((b.map (clampSlice stack.length)).getD stack.length)).take
        ((a.map (clampSlice stack.length)).getD 0), _,
      stack.drop ((b.map (clampSlice stack.length)).getD stack.length), rfl, ?_⟩
    rw [List.take_append_drop, List.take_append_drop]

example : (([0, 1, 2] : List ℕ).map names).Nodup ∧ getItem names [0, 1, 2] (.int (-1)) = .ok (.one 2) ∧
    getItem names [0, 1, 2] (.slice (some 1) (some (-1))) = .ok (.tuple [1]) := by decide

/-- The full claim is false: positions below `-len` raise `IndexError` instead of `AnalysisQueryError`. -/
theorem C38_index_error_fails (name : ℕ → String) (stack : List ℕ) (i : ℤ) (hi : i < -(stack.length : ℤ)) :
    getItem name stack (.int i) = .error .index := by
  simp only [getItem]
  rw [if_pos (by omega)]
  have : slot stack.length i = none := by
    unfold slot
    rw [if_neg (by omega), if_neg (by omega)]
  rw [this]

example : getItem names [0, 1] (.int (-3)) = .error .index := by decide

/-! ## C39 -/

/-- C39: `a @ b` creates a new combination with the members of `a` followed by the member(s) of `b`, if no name occurs twice;
otherwise it raises `AnalysisQueryError`. Other operands give `ValueError`. All existing combinations and all names are
unchanged in any case. -/
theorem C39_matmul (h : Heap) (c : ℕ) (s : List ℕ) (hs : h.lists[c]? = some s) (hn : (s.map h.name).Nodup) :
    (∀ o l, Members h o l →
      (((s ++ l).map h.name).Nodup → step h (.matmul c o) = ({ h with lists := h.lists ++ [s ++ l] }, .ok ())) ∧
      (¬ ((s ++ l).map h.name).Nodup → step h (.matmul c o) = (h, .error .query))) ∧
    step h (.matmul c .other) = (h, .error .value) ∧
    (∀ o (c' : ℕ) s', h.lists[c']? = some s' → (step h (.matmul c o)).1.lists[c']? = some s') := by
  have h0 : appendAll h.name [] (s.map .model) = .ok s := by
    simpa using (appendAll_models s (s := []) (by simp)).1 (by simpa using hn)
  refine ⟨?_, ?_, ?_⟩
  · intro o l hl
    have hc : combine h s o = appendAll h.name s (l.map .model) := by
      rcases hl with ⟨c', rfl, hl⟩ | ⟨m, rfl, rfl⟩
      · simp only [combine, h0, hl]
      · simp only [combine, h0, List.map_cons, List.map_nil, appendAll]
        split <;> simp_all
    constructor
    · intro hd
      simp only [step, hs, hc, (appendAll_models l hn).1 hd, Heap.create]
    · intro hd
      simp only [step, hs, hc, (appendAll_models l hn).2 hd, Heap.create]
  · simp [step, hs, combine, h0, Heap.create]
  · intro o c' s' hs'
    simp only [step, hs]
    exact get_create _ hs'

/-- C39: the new combination shares no list with the operands: whatever is done later to other combinations leaves the list of
combination `c` as it is. -/
theorem C39_independent (h : Heap) (c : ℕ) (s : List ℕ) (hs : h.lists[c]? = some s) (ops : List Op)
    (ho : ∀ o ∈ ops, (∀ x, o ≠ .append c x) ∧ (∀ a, o ≠ .remove c a)) : (run h ops).lists[c]? = some s := by
  induction ops generalizing h with
  | nil => exact hs
  | cons o ops ih =>
    refine ih _ ?_ (fun x hx => ho x (List.mem_cons_of_mem _ hx))
    obtain ⟨k1, k2⟩ := ho o List.mem_cons_self
    cases o with
    | new args => exact get_create _ hs
    | append c' o =>
      simp only [step]
      split
      · exact hs
      · rw [get_put _ _ hs, if_neg]
        rintro rfl
        exact k1 o rfl
    | remove c' a =>
      simp only [step]
      split
      · exact hs
      · rw [get_put _ _ hs, if_neg]
        rintro rfl
        exact k2 a rfl
    | matmul c' o =>
      simp only [step]
      split
      · exact hs
      · exact get_create _ hs
    | rename m a => exact hs

-- `a @ b`, then the result is changed
example : (run ⟨names, [[0], [1]]⟩ [.matmul 0 (.combiner 1), .append 2 (.model 2), .remove 2 "a"]).lists =
    [[0], [1], [1, 2]] := by decide

example : (step ⟨names, [[0], [0]]⟩ (.matmul 0 (.combiner 1))).2 = .error .query := by decide

/-! ## C40 -/

/-- C40: if all individual fits succeed with finite best fits and uncertainties other than zero, the starting value is finite
and lies between any bounds of the individual best fits; if the computation raised, it is zero; it is never above the upper
bound of the fit. If each individual best fit is not below the lower bound, neither is the starting value. -/
theorem C40_start_partial (l : List (ℝ × ℝ)) (hl : l ≠ []) (hs : ∀ p ∈ l, p.2 ≠ 0) :
    muInit none none = fin 0 ∧
    ∃ m : ℝ, muInit none (some (l.map (fun p => (fin p.1, fin p.2)))) = fin m ∧
      (∀ a b : ℝ, (∀ p ∈ l, a ≤ p.1 ∧ p.1 ≤ b) → a ≤ m ∧ m ≤ b) ∧
      ∀ least allowNegative, le (fin m) (bounds least allowNegative (fin m)).2 ∧
        ((∀ p ∈ l, le (bounds least allowNegative (fin m)).1 (fin p.1)) → le (bounds least allowNegative (fin m)).1 (fin m)) := by
  refine ⟨rfl, _, weightedMean_fin l hl hs, fun a b h => weighted_between l hl hs a b h, ?_⟩
  intro least allowNegative
  generalize hm : (l.map (fun p => p.1 / p.2 ^ 2)).sum / (l.map (fun p => 1 / p.2 ^ 2)).sum = m
  have hb := weighted_between l hl hs
  rw [hm] at hb
  refine ⟨?_, ?_⟩
  · simp only [bounds, upper]
    split
    · simp [le]
    · rename_i h
      simpa [lt, le] using h
  · simp only [bounds]
    generalize (if allowNegative then least else fin 0) = lo
    intro h
    obtain ⟨p, hp⟩ := List.exists_mem_of_ne_nil l hl
    cases lo with
    | nan => simpa [le] using h p hp
    | pinf => simpa [le] using h p hp
    | ninf => simp [le]
    | fin y =>
      simp only [le] at h ⊢
      -- an upper bound of the best fits
      obtain ⟨b, hb'⟩ : ∃ b : ℝ, ∀ q ∈ l, q.1 ≤ b := by
        refine ⟨(l.map (fun q => |q.1|)).sum, fun q hq => le_trans (le_abs_self _) ?_⟩
        refine List.single_le_sum (fun x hx => ?_) _ (List.mem_map_of_mem (f := fun q : ℝ × ℝ => |q.1|) hq)
        obtain ⟨z, -, rfl⟩ := List.mem_map.1 hx
        exact abs_nonneg _
      exact (hb y b (fun q hq => ⟨h q hq, hb' q hq⟩)).1

-- two analyses with best fits 1 and 3 and uncertainties 1 and 2
example : ([(1, 1), (3, 2)] : List (ℝ × ℝ)) ≠ [] ∧ (∀ p ∈ ([(1, 1), (3, 2)] : List (ℝ × ℝ)), p.2 ≠ 0) ∧
    muInit none (some [(fin 1, fin 1), (fin 3, fin 2)]) = fin 1.4 := by
  refine ⟨by simp, by simp, ?_⟩
  have := weightedMean_fin [(1, 1), (3, 2)] (by simp) (by simp)
  simp only [List.map_cons, List.map_nil] at this
  simp only [muInit, this]
  norm_num

/-- The full claim is false. (1) The individual fits allow negative signals even if the combined fit does not: two analyses with
best fit -1 start the fit at -1, below the bound 0. (2) The mean of best fits that are feasible for their own analysis may be
below the combined minimum, here -2 with bound -1. (3) An uncertainty of zero makes the starting value nan. -/
theorem C40_start_fails :
    (∃ m : ℝ, muInit none (some [(fin (-1), fin 1), (fin (-1), fin 1)]) = fin m ∧ ¬ le (bounds (fin (-5)) false (fin m)).1 (fin m)) ∧
    (∃ m : ℝ, muInit none (some [(fin (-3), fin 1), (fin (-1), fin 1)]) = fin m ∧ ¬ le (bounds (fin (-1)) true (fin m)).1 (fin m)) ∧
    muInit none (some [(fin 1, fin 0), (fin 1, fin 1)]) = nan := by
  refine ⟨⟨-1, ?_, ?_⟩, ⟨-2, ?_, ?_⟩, ?_⟩
  · have := weightedMean_fin [(-1, 1), (-1, 1)] (by simp) (by simp)
    simp only [List.map_cons, List.map_nil] at this
    simp only [muInit, this]
    norm_num
  · simp [bounds, le]
  · have := weightedMean_fin [(-3, 1), (-1, 1)] (by simp) (by simp)
    simp only [List.map_cons, List.map_nil] at this
    simp only [muInit, this]
    norm_num
  · simp [bounds, le]
  · simp [muInit, weightedMean, sumF, invSq, overSq, mul, div, add, infOf]

end Verif.Combiner
