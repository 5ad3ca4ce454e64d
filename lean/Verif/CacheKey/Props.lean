import Verif.CacheKey.Lemmas

/-!
# Properties of the cache keys (C07)
-/

namespace Verif.CacheKey

/-- C07, first half: two valid calls that pass the same values to the same parameters have the same key, whether the
values come positionally, by keyword in any order, or by default, and whatever the values are. -/
theorem C07_same_arguments_same_key (H : List ℝ → List ℝ) (s : Sig) (c c' : Call) (hc : c.Ok) (hc' : c'.Ok)
    (hb : (bind s c).isSome) (hb' : (bind s c').isSome) (h : SameArguments s c c') :
    callKey H s c = callKey H s c' := by
  obtain ⟨b, hb⟩ := Option.isSome_iff_exists.1 hb
  obtain ⟨b', hb'⟩ := Option.isSome_iff_exists.1 hb'
  unfold callKey
  rw [hb, hb']
  unfold bind at hb hb'
  cases e : bindParams s.params c.args c.kwargs with
  | none => simp [e] at hb
  | some p =>
  cases e' : bindParams s.params c'.args c'.kwargs with
  | none => simp [e'] at hb'
  | some p' =>
  simp only [e] at hb
  simp only [e'] at hb'
  obtain ⟨n1, l1, v1⟩ := bindParams_eq e
  obtain ⟨n2, l2, v2⟩ := bindParams_eq e'
  have hp : p = p' := by
    refine List.ext_getElem (l1.trans l2.symm) fun i h1 h2 => ?_
    have hg := h.1 i (by omega)
    simp only [given] at hg
    have hsnd : p[i].2 = p'[i].2 := by
      have a := v1 i h1
      have b := v2 i h2
      cases hq : s.params[i]? with
      | none => simp [hq] at a
      | some q =>
        simp only [hq] at a b hg
        rw [hg, ← b] at a
        simpa using a
    have hfst : p[i].1 = p'[i].1 := by
      have := List.getElem_of_eq (n1.trans n2.symm) (i := i) (by simpa using h1)
      simpa using this
    exact Prod.ext hfst hsnd
  subst hp
  cases hv : s.varkw with
  | none =>
    simp only [hv] at hb hb'
    split at hb
    · split at hb'
      · simp only [Option.some.injEq] at hb hb'
        rw [← hb, ← hb']
      · simp at hb'
    · simp at hb
  | some n =>
    simp only [hv, Option.some.injEq] at hb hb'
    rw [← hb, ← hb']
    have hperm := perm_of_lookup (filter_nodup hc (fun p => p.1 ∉ s.params.map Param.name))
      (filter_nodup hc' (fun p => p.1 ∉ s.params.map Param.name)) (by
        intro k
        rw [lookup_filter hc, lookup_filter hc']
        exact h.2 k)
    have ht : token H (.dict ((c.kwargs.filter (fun p => p.1 ∉ s.params.map Param.name)).map fun p => (Sum.inrₗ p.1, p.2))) =
        token H (.dict ((c'.kwargs.filter (fun p => p.1 ∉ s.params.map Param.name)).map fun p => (Sum.inrₗ p.1, p.2))) := by
      simp only [token, T.tup.injEq, tokenItems_eq]
      congr 1
      refine sort_eq_of_perm ?_ ((hperm.map _).map _)
      have := (filter_nodup hc (fun p => p.1 ∉ s.params.map Param.name)).map inrₗ_inj
      simpa [Function.comp_def] using this
    simp only [buildKey, tokenNames, List.map_append, List.map_cons, List.map_nil, ht]

/-- The signature of `maximize_likelihood`-like methods: two parameters, one with default, and `**kwargs`. -/
def sampleSig : Sig := ⟨[⟨"return_nll", none⟩, ⟨"expected", some (.object 0)⟩], some "kwargs"⟩

/-- `f(True, ntrials=1, tol=2)`. -/
def sampleCall : Call := ⟨[.bool true], [("ntrials", .int 1), ("tol", .int 2)]⟩

/-- `f(tol=2, expected=..., ntrials=1, return_nll=True)`. -/
def sampleCall' : Call :=
  ⟨[], [("tol", .int 2), ("expected", .object 0), ("ntrials", .int 1), ("return_nll", .bool true)]⟩

example : sampleCall.Ok ∧ sampleCall'.Ok ∧ (bind sampleSig sampleCall).isSome ∧ (bind sampleSig sampleCall').isSome ∧
    SameArguments sampleSig sampleCall sampleCall' := by
  refine ⟨by simp [Call.Ok, sampleCall], by simp [Call.Ok, sampleCall'],
    by simp [bind, sampleSig, sampleCall, bindParams], by simp [bind, sampleSig, sampleCall', bindParams, List.lookup],
    ?_, ?_⟩
  · intro i hi
    simp only [sampleSig, List.length_cons, List.length_nil] at hi
    rcases i with _ | _ | i
    · simp [given, sampleSig, sampleCall, sampleCall', List.lookup]
    · simp [given, sampleSig, sampleCall, sampleCall', List.lookup]
    · omega
  · intro k
    simp only [extra, sampleSig, sampleCall, sampleCall', List.map_cons, List.map_nil, List.mem_cons,
      List.not_mem_nil, or_false]
    by_cases h1 : k = "return_nll"
    · simp [h1]
    by_cases h2 : k = "expected"
    · simp [h2]
    have e1 : (k == "return_nll") = false := by simpa using h1
    have e2 : (k == "expected") = false := by simpa using h2
    simp only [h1, h2, or_self, if_false, List.lookup_cons, e1, e2, List.lookup_nil]
    by_cases h3 : k = "ntrials"
    · simp [h3]
    · have e3 : (k == "ntrials") = false := by simpa using h3
      by_cases h4 : k = "tol"
      · simp [h4]
      · have e4 : (k == "tol") = false := by simpa using h4
        simp [e3, e4]

/-- C07, second half, for statically typed arguments: if every parameter has a type (so that e.g. a list is never
confused with a tuple) and SHA-256 has no collisions, the keys of two calls agree exactly if the bound arguments have
the same content (`1`, `1.0` and `True` count as the same number where the type is `num`).
Missing: arguments of different Python types for the same parameter, see `C07_different_arguments_fails`. -/
theorem C07_different_arguments_partial (H : List ℝ → List ℝ) (hH : Function.Injective H) (s : Sig)
    (types : String → Ty) (c c' : Call) (b b' : List (String × V)) (hb : bind s c = some b) (hb' : bind s c' = some b')
    (hn : (b.map Prod.fst).Nodup) (ht : ∀ k v, (k, v) ∈ b → HasTy (types k) v)
    (ht' : ∀ k v, (k, v) ∈ b' → HasTy (types k) v) :
    callKey H s c = callKey H s c' ↔ ∀ k v v', (k, v) ∈ b → (k, v') ∈ b' → Same v v' := by
  have keys : ∀ c b, bind s c = some b → b.map Prod.fst = s.params.map Param.name ++ s.varkw.toList := by
    intro c b hb
    unfold bind at hb
    cases e : bindParams s.params c.args c.kwargs with
    | none => simp [e] at hb
    | some p =>
      obtain ⟨n1, -, -⟩ := bindParams_eq e
      simp only [e] at hb
      cases hv : s.varkw with
      | none =>
        simp only [hv] at hb
        split at hb
        · simp only [Option.some.injEq] at hb
          rw [← hb, n1]; simp
        · simp at hb
      | some n =>
        simp only [hv, Option.some.injEq] at hb
        rw [← hb]; simp [n1]
  have hkk : b.map Prod.fst = b'.map Prod.fst := (keys c b hb).trans (keys c' b' hb').symm
  unfold callKey
  rw [hb, hb']
  have key := items_iff (H := H) hn (hkk ▸ hn)
    (fun k v v' hv hv' => token_iff hH (ht k v hv) v' (ht' k v' hv'))
  simp only [buildKey, tokenNames, tokenList, T.tup.injEq, List.cons.injEq, and_true, true_and]
  constructor
  · intro e
    exact (key.1 (map_pairT_inj e)).2
  · intro h
    rw [key.2 ⟨fun k => by rw [hkk], h⟩]

/-- Types for the sample signature. -/
def sampleTypes : String → Ty
  | "return_nll" => .bool
  | "expected" => .object
  | _ => .dict (fun _ => .int)

example : bind sampleSig sampleCall = some [("return_nll", .bool true), ("expected", .object 0),
      ("kwargs", .dict [(Sum.inrₗ "ntrials", .int 1), (Sum.inrₗ "tol", .int 2)])] ∧
    ∀ k v, (k, v) ∈ [("return_nll", V.bool true), ("expected", .object 0),
      ("kwargs", .dict [(Sum.inrₗ "ntrials", .int 1), (Sum.inrₗ "tol", .int 2)])] → HasTy (sampleTypes k) v := by
  refine ⟨by simp [bind, sampleSig, sampleCall, bindParams, List.lookup, List.filter], ?_⟩
  intro k v h
  simp only [List.mem_cons, Prod.mk.injEq, List.not_mem_nil, or_false] at h
  rcases h with ⟨rfl, rfl⟩ | ⟨rfl, rfl⟩ | ⟨rfl, rfl⟩
  · exact .bool
  · exact .object
  · refine .dict (by simp) ?_
    intro k v h
    simp only [List.mem_cons, Prod.mk.injEq, List.not_mem_nil, or_false] at h
    rcases h with ⟨rfl, rfl⟩ | ⟨rfl, rfl⟩ <;> exact .int

/-- A call `f(x=v)` of a function with one parameter. -/
def oneParam : Sig := ⟨[⟨"x", none⟩], none⟩

theorem one_key {H : List ℝ → List ℝ} {v w : V} (h : token H v = token H w) :
    callKey H oneParam ⟨[v], []⟩ = callKey H oneParam ⟨[w], []⟩ := by
  simp [callKey, bind, oneParam, bindParams, buildKey, tokenNames, h]

/-- C07 is false for arbitrary arguments: calls `f(v)` and `f(w)` share one key although `v` and `w` have different
content, for every hash function: a list and a tuple, a dictionary and a list of pairs, an unhashable object and the
string that is its `repr`, two unhashable objects with the same `repr`, an array and a tuple. -/
theorem C07_different_arguments_fails (H : List ℝ → List ℝ) :
    (∀ l, callKey H oneParam ⟨[.list l], []⟩ = callKey H oneParam ⟨[.tuple l], []⟩ ∧
      ¬ Same (.list l) (.tuple l)) ∧
    (∀ k v, callKey H oneParam ⟨[.dict [(Sum.inrₗ k, v)]], []⟩ = callKey H oneParam ⟨[.list [.tuple [.str k, v]]], []⟩ ∧
      ¬ Same (.dict [(Sum.inrₗ k, v)]) (.list [.tuple [.str k, v]])) ∧
    (∀ r, callKey H oneParam ⟨[.unhashable r], []⟩ = callKey H oneParam ⟨[.str r], []⟩ ∧
      ¬ Same (.unhashable r) (.str r)) ∧
    (∀ n d b, callKey H oneParam ⟨[.array [n] d b], []⟩ =
        callKey H oneParam ⟨[.tuple [.tuple [.int n], .str d, .bytes (H b)]], []⟩ ∧
      ¬ Same (.array [n] d b) (.tuple [.tuple [.int n], .str d, .bytes (H b)])) := by
  refine ⟨fun l => ⟨one_key (by simp [token]), ?_⟩, fun k v => ⟨one_key ?_, ?_⟩, fun r => ⟨one_key (by simp [token]), ?_⟩,
    fun n d b => ⟨one_key (by simp [token, tokenList]), ?_⟩⟩
  · intro h; cases h with | num a b => simp [V.numVal] at a
  · simp [token, tokenItems, sortItems, tokenList, pairD, keyT]
  · intro h; cases h with | num a b => simp [V.numVal] at a
  · intro h; cases h with | num a b => simp [V.numVal] at a
  · intro h; cases h with | num a b => simp [V.numVal] at a

/-- C07: numbers are identified by value, not by type: `f(True)`, `f(1)` and `f(1.0)` share one entry, so that a
function which distinguishes them returns the result of whichever call came first. -/
theorem C07_number_types_collide_fails (H : List ℝ → List ℝ) (n : ℤ) :
    callKey H oneParam ⟨[.int n], []⟩ = callKey H oneParam ⟨[.float n], []⟩ ∧
    callKey H oneParam ⟨[.int 1], []⟩ = callKey H oneParam ⟨[.bool true], []⟩ ∧ V.int 1 ≠ V.bool true ∧
    V.int n ≠ V.float n :=
  ⟨one_key (by simp [token]), one_key (by simp [token]), by simp, by simp⟩

/-- Keyword arguments for all parameters bind. -/
theorem bindParams_keywords {ps : List Param} {kw : List (String × V)} (h : ∀ p ∈ ps, p.name ∈ kw.map Prod.fst) :
    ∃ b, bindParams ps [] kw = some b := by
  induction ps with
  | nil => exact ⟨[], rfl⟩
  | cons p ps ih =>
    obtain ⟨b, hb⟩ := ih (fun q hq => h q (List.mem_cons_of_mem _ hq))
    have : ∃ v, kw.lookup p.name = some v := by
      have hp := h p List.mem_cons_self
      cases e : kw.lookup p.name with
      | some v => exact ⟨v, rfl⟩
      | none =>
        rw [List.lookup_eq_none_iff] at e
        obtain ⟨q, hq, hq'⟩ := List.mem_map.1 hp
        have := e q hq
        simp [hq'] at this
    obtain ⟨v, hv⟩ := this
    exact ⟨(p.name, v) :: b, by simp [bindParams, hv, hb]⟩

theorem bind_keys {s : Sig} {c : Call} {b : List (String × V)} (hb : bind s c = some b) :
    b.map Prod.fst = s.params.map Param.name ++ s.varkw.toList := by
  unfold bind at hb
  cases e : bindParams s.params c.args c.kwargs with
  | none => simp [e] at hb
  | some p =>
    obtain ⟨n1, -, -⟩ := bindParams_eq e
    simp only [e] at hb
    cases hv : s.varkw with
    | none =>
      simp only [hv] at hb
      split at hb
      · simp only [Option.some.injEq] at hb; subst hb; simpa using n1
      · simp at hb
    | some n =>
      simp only [hv, Option.some.injEq] at hb
      subst hb
      simp [n1]

/-- C07: a call that Python refuses (missing, repeated or unknown argument) never has the key of a call that it accepts, so
that the `TypeError` is not replaced by a stored result. -/
theorem C07_refused_calls (H : List ℝ → List ℝ) (s : Sig) (c c' : Call) (hb : bind s c = none) (b : List (String × V))
    (hb' : bind s c' = some b) : callKey H s c ≠ callKey H s c' := by
  intro h
  unfold callKey at h
  rw [hb, hb'] at h
  simp only [buildKey, T.tup.injEq, List.cons.injEq, and_true] at h
  obtain ⟨h1, h2⟩ := h
  have hargs : c.args = [] := by
    rw [tokenList_eq, tokenList_eq] at h1
    simpa using h1
  have hp := perm_of_sort_eq (map_pairT_inj h2)
  simp only [tokenNames] at hp
  have hk := hp.map Prod.fst
  simp only [List.map_map, Function.comp_def] at hk
  have hmem : ∀ k, k ∈ c.kwargs.map Prod.fst ↔ k ∈ s.params.map Param.name ++ s.varkw.toList := by
    intro k
    rw [← bind_keys hb']
    exact hk.mem_iff
  obtain ⟨b1, hb1⟩ := bindParams_keywords (ps := s.params) (kw := c.kwargs)
    (fun p hp => (hmem p.name).2 (List.mem_append_left _ (List.mem_map_of_mem hp)))
  unfold bind at hb
  rw [hargs, hb1] at hb
  simp only at hb
  cases hv : s.varkw with
  | some n => simp [hv] at hb
  | none =>
    simp only [hv] at hb
    rw [if_pos] at hb
    · simp at hb
    · rw [List.isEmpty_iff, List.filter_eq_nil_iff]
      intro p hp
      have := (hmem p.1).1 (List.mem_map_of_mem hp)
      simpa [hv] using this

-- `f(1, x=1)` is refused, `f(x=1)` is not
example : bind oneParam ⟨[.int 1], [("x", .int 1)]⟩ = none ∧ bind oneParam ⟨[], [("x", .int 1)]⟩ = some [("x", .int 1)] := by
  simp [bind, oneParam, bindParams, List.lookup]

/-- C176: a call has a key exactly if no argument contains a dictionary with both integers and strings as keys; otherwise `TypeError` is raised before the
method starts. -/
theorem C176_keys (H : List ℝ → List ℝ) (s : Sig) (c : Call) (hc : c.Ok) :
    tryCallKey H s c = none ↔ ∃ v, (v ∈ c.args ∨ v ∈ c.kwargs.map Prod.snd) ∧ Mixed v := by
  have hB : ∀ (a : List V) (k : List (String × V)), tryBuildKey H a k = none ↔ ∃ v, (v ∈ a ∨ v ∈ k.map Prod.snd) ∧ Mixed v := by
    intro a k
    unfold tryBuildKey
    rw [← sortableList_append, ite_eq_right_iff]
    simp only [reduceCtorEq, imp_false, Bool.not_eq_true, sortableList_iff, List.mem_append]
  unfold tryCallKey
  cases hb : bind s c with
  | none => exact hB _ _
  | some b =>
    dsimp only
    by_cases h1 : tryBuildKey H [] b = none
    · rw [h1]
      exact hB _ _
    · obtain ⟨k, hk⟩ := Option.ne_none_iff_exists'.1 h1
      rw [hk]
      simp only [reduceCtorEq, false_iff]
      rw [hB] at h1
      intro ⟨v, hv, hm⟩
      obtain ⟨w, hw, hw'⟩ := bind_mixed hc hb hv hm
      exact h1 ⟨w, .inr hw, hw'⟩

-- `f({0: 1, "a": 1})` and `f({0: 1, 1: 1})`
example : tryCallKey id oneParam ⟨[.dict [(Sum.inlₗ 0, .int 1), (Sum.inrₗ "a", .int 1)]], []⟩ = none ∧
    tryCallKey id oneParam ⟨[.dict [(Sum.inlₗ 0, .int 1), (Sum.inlₗ 1, .int 1)]], []⟩ ≠ none := by
  constructor
  · rw [C176_keys id oneParam _ (by simp [Call.Ok])]
    exact ⟨_, .inl (List.mem_singleton.2 rfl), .here (n := 0) (s := "a") (by simp) (by simp)⟩
  · simp [tryCallKey, bind, oneParam, bindParams, tryBuildKey, sortableList, sortable, sortableItems, oneKind]

end Verif.CacheKey
