import Verif.Config.Lemmas

/-!
# C25-C29: the model configuration
-/

namespace Verif.Config
open Verif.Py F
open Classical

/-- A model with a signal strength and two nuisance parameters. -/
noncomputable def sample : ModelConfig where
  poiIndex := 0
  minimumPoi := fin (-1)
  init := [0, 0, 0]
  bounds := [(some (fin 0), some (fin 10)), (some (fin (-5)), some (fin 5)), (none, some (fin 2))]
  names := some ["mu", "a", "b"]
  fixed := none

/-! ## C25 -/

/-- C25: for every configuration and tested value, only the bounds of the parameter of interest may differ; the list is a copy.
If both bounds are given and the value is not below the least signal strength, the new bounds contain the value, strictly
unless the value is zero or the least signal strength. They are always an interval. Missing bounds stay as they are. -/
theorem C25_contains_partial (c : ModelConfig) (v : ℝ) (o : Owner) (l : List Bound) (h : fixedPoiBounds c (some v) = .ok (o, l)) :
    o = .caller ∧ l.length = c.bounds.length ∧
    ∃ k, slot c.bounds.length c.poiIndex = some k ∧ (∀ j, j ≠ k → l[j]? = c.bounds[j]?) ∧
      ∃ b b', c.bounds[k]? = some b ∧ l[k]? = some b' ∧
        ((b.1 = none ∨ b.2 = none) → b' = b) ∧
        (b.1 ≠ none → b.2 ≠ none → (0 ≤ v ∨ le c.minimumPoi (fin v)) → Contains b' v) ∧
        (b.1 ≠ none → b.2 ≠ none → (0 < v ∨ (v ≠ 0 ∧ lt c.minimumPoi (fin v))) → StrictlyContains b' v) ∧
        (b.1 ≠ none → b.2 ≠ none → c.minimumPoi ≠ nan → Proper b') := by
  unfold fixedPoiBounds at h
  simp only at h
  split at h
  · simp at h
  rename_i k hk
  simp only [Except.ok.injEq, Prod.mk.injEq] at h
  obtain ⟨rfl, rfl⟩ := h
  obtain ⟨s1, s2⟩ := slot_set (fun b => adjust c.minimumPoi (fun v low => pyMax (fin (v + 1)) low) b v) hk
  refine ⟨rfl, by rw [List.length_modify], k, hk, s1, ?_⟩
  have hlt := slot_lt hk
  obtain ⟨b, hb⟩ : ∃ b, c.bounds[k]? = some b := ⟨_, List.getElem?_eq_getElem hlt⟩
  rw [hb] at s2
  refine ⟨b, _, hb, s2, fun hn => adjust_same hn, ?_⟩
  obtain ⟨lo, hi⟩ := b
  rcases lo with _ | lo
  · exact ⟨by simp, by simp, by simp⟩
  rcases hi with _ | hi
  · exact ⟨by simp, by simp, by simp⟩
  simp only [adjust]
  by_cases hin : lt lo (fin v) ∧ lt (fin v) hi
  · rw [if_pos hin]
    refine ⟨fun _ _ _ => ⟨lo, hi, rfl, lt_le hin.1, lt_le hin.2⟩, fun _ _ _ => ⟨lo, hi, rfl, hin.1, hin.2⟩, fun _ _ _ => ?_⟩
    refine ⟨lo, hi, rfl, ?_⟩
    have := hin
    revert this
    cases lo <;> cases hi <;> simp [lt, le]
    intro h1 h2; linarith
  · rw [if_neg hin]
    by_cases hv : v < 0
    · simp only [hv, if_true]
      have hmax : c.minimumPoi ≠ nan → le (fin (v + 1)) (pyMax (fin (v + 1)) c.minimumPoi) ∧
          le c.minimumPoi (pyMax (fin (v + 1)) c.minimumPoi) := fun hm => pyMax_ge (by simp) hm
      have hlt' : ∀ x : F, le (fin (v + 1)) x → lt (fin v) x := by
        intro x hx
        cases x <;> simp_all [le, lt]
        linarith
      refine ⟨fun _ _ hc => ⟨_, _, rfl, ?_, ?_⟩, fun _ _ hc => ⟨_, _, rfl, ?_, ?_⟩, fun _ _ hm => ⟨_, _, rfl, (hmax hm).2⟩⟩
      · rcases hc with hc | hc
        · linarith
        · exact hc
      · rcases hc with hc | hc
        · linarith
        · refine lt_le (hlt' _ (hmax ?_).1)
          rintro e
          rw [e] at hc
          exact hc
      · rcases hc with hc | hc
        · linarith
        · exact hc.2
      · rcases hc with hc | hc
        · linarith
        · refine hlt' _ (hmax ?_).1
          rintro e
          rw [e] at hc
          exact hc.2
    · simp only [hv, if_false]
      rw [not_lt] at hv
      have hm : pyMax (fin (v + 1)) (fin 0) = fin (v + 1) := by
        unfold pyMax
        rw [if_neg]
        simp only [lt]
        linarith
      rw [hm]
      refine ⟨fun _ _ _ => ⟨_, _, rfl, hv, ?_⟩, fun _ _ hc => ⟨_, _, rfl, ?_, ?_⟩, fun _ _ _ => ⟨_, _, rfl, ?_⟩⟩
      · simp only [le]; linarith
      · simp only [lt]
        rcases hc with hc | hc
        · exact hc
        · exact lt_of_le_of_ne hv (Ne.symm hc.1)
      · simp only [lt]; linarith
      · simp only [le]; linarith

-- the value 12 lies outside (0, 10)
example : fixedPoiBounds sample (some 12) =
    .ok (.caller, [(some (fin 0), some (fin 13)), (some (fin (-5)), some (fin 5)), (none, some (fin 2))]) := by
  have h1 : lt (fin 0) (fin 12) ∧ lt (fin 12) (fin 10) ↔ False := by simp only [lt]; norm_num
  have h2 : pyMax (fin (12 + 1)) (fin 0) = fin 13 := by
    unfold pyMax
    rw [if_neg (by simp only [lt]; norm_num)]
    norm_num
  have h3 : ¬ (12 : ℝ) < 0 := by norm_num
  simp [fixedPoiBounds, sample, slot, adjust, h1, h2, h3]

/-- C25: without a value the bounds are the list of the configuration itself (not a copy). -/
theorem C25_no_value (c : ModelConfig) : fixedPoiBounds c none = .ok (.config, c.bounds) := rfl

/-- The full claim is false: for the tested value zero and suggested bounds (0, 10), as the shipped models have, zero is not
strictly inside; for values below the least signal strength the value is outside the bounds. -/
theorem C25_contains_fails :
    (∃ l b, fixedPoiBounds sample (some 0) = .ok (.caller, l) ∧ l[0]? = some b ∧ ¬ StrictlyContains b 0) ∧
    (∃ l b, fixedPoiBounds sample (some (-2)) = .ok (.caller, l) ∧ l[0]? = some b ∧ ¬ Contains b (-2)) := by
  refine ⟨⟨_, _, rfl, rfl, ?_⟩, ⟨_, _, rfl, rfl, ?_⟩⟩
  · rintro ⟨lo, hi, h, h1, -⟩
    have hc : ¬ (lt (fin 0) (fin 0) ∧ lt (fin 0) (fin 10)) := by simp [lt]
    simp only [adjust, if_neg hc, Prod.mk.injEq, Option.some.injEq] at h
    rw [if_neg (by norm_num)] at h
    rw [← h.1] at h1
    simp [lt] at h1
  · rintro ⟨lo, hi, h, h1, -⟩
    have hc : ¬ (lt (fin 0) (fin (-2)) ∧ lt (fin (-2)) (fin 10)) := by simp only [lt]; norm_num
    simp only [adjust, if_neg hc, Prod.mk.injEq, Option.some.injEq] at h
    rw [if_pos (by norm_num)] at h
    rw [← h.1] at h1
    simp only [sample, le] at h1
    norm_num at h1

/-! ## C26 -/

/-- C26: for all configurations and all dictionaries whose keys stand for different parameters: the number of parameters and the
bounds of the others are kept; a fixed parameter whose bounds are given and whose value is not negative, or not below the
least signal strength, has bounds that contain its value. -/
theorem C26_contains_partial (c : ModelConfig) (d : List (ℤ × ℝ)) (o : Owner) (l : List Bound)
    (hd : (d.map (fun p => slot c.bounds.length p.1)).Nodup)
    (h : fixedPoiBoundsMulti c (some d) = .ok (o, l)) :
    l.length = c.bounds.length ∧
    (∀ j, (∀ p ∈ d, slot c.bounds.length p.1 ≠ some j) → l[j]? = c.bounds[j]?) ∧
    ∀ p ∈ d, ∃ k b b', slot c.bounds.length p.1 = some k ∧ c.bounds[k]? = some b ∧ l[k]? = some b' ∧
      ((b.1 = none ∨ b.2 = none) → b' = b) ∧
      (b.1 ≠ none → b.2 ≠ none → (0 ≤ p.2 ∨ le c.minimumPoi (fin p.2)) → Contains b' p.2) := by
  cases d with
  | nil =>
    simp only [fixedPoiBoundsMulti, Except.ok.injEq, Prod.mk.injEq] at h
    obtain ⟨-, rfl⟩ := h
    exact ⟨rfl, fun _ _ => rfl, by simp⟩
  | cons q d =>
    simp only [fixedPoiBoundsMulti] at h
    generalize q :: d = d at h hd
    cases hr : fixedLoop c.minimumPoi c.bounds d with
    | error e => rw [hr] at h; simp [Except.map] at h
    | ok r =>
      rw [hr] at h
      simp only [Except.map, Except.ok.injEq, Prod.mk.injEq] at h
      obtain ⟨-, rfl⟩ := h
      obtain ⟨h1, h2, h3⟩ := fixedLoop_spec _ _ _ _ hr
      refine ⟨h1, h2, fun p hp => ?_⟩
      have hsome : ∃ k, slot c.bounds.length p.1 = some k := by
        by_contra hc
        have hnone : slot c.bounds.length p.1 = none := by
          cases hs : slot c.bounds.length p.1 with
          | none => rfl
          | some k => exact absurd ⟨k, hs⟩ hc
        have : ∀ (d : List (ℤ × ℝ)) (b : List Bound), b.length = c.bounds.length → p ∈ d → ∀ r, fixedLoop c.minimumPoi b d ≠ .ok r := by
          intro d
          induction d with
          | nil => intro b _ hp; simp at hp
          | cons q d ih =>
            intro b hb hp r hr
            obtain ⟨i, v⟩ := q
            rw [fixedLoop] at hr
            split at hr
            · simp at hr
            · rename_i k hk
              rw [List.mem_cons] at hp
              rcases hp with rfl | hp
              · rw [hb, hnone] at hk
                simp at hk
              · exact ih _ (by rw [List.length_modify]; exact hb) hp _ hr
        exact this d c.bounds rfl hp r hr
      obtain ⟨k, hk⟩ := hsome
      obtain ⟨l1, l2, hl⟩ := List.append_of_mem hp
      have hoth : ∀ p' ∈ l1 ++ l2, slot c.bounds.length p'.1 ≠ some k := by
        intro p' hp' he
        rw [hl, List.map_append, List.map_cons, List.nodup_middle, List.nodup_cons, ← List.map_append] at hd
        exact hd.1 (List.mem_map.2 ⟨p', hp', by rw [he, hk]⟩)
      have h4 := h3 l1 l2 p.1 p.2 k hl hk hoth
      obtain ⟨b, hb⟩ : ∃ b, c.bounds[k]? = some b := ⟨_, List.getElem?_eq_getElem (slot_lt hk)⟩
      rw [hb] at h4
      refine ⟨k, b, _, hk, hb, h4, fun hn => adjust_same hn, ?_⟩
      obtain ⟨lo, hi⟩ := b
      rcases lo with _ | lo
      · simp
      rcases hi with _ | hi
      · simp
      intro _ _ hc
      simp only [adjust]
      by_cases hin : lt lo (fin p.2) ∧ lt (fin p.2) hi
      · rw [if_pos hin]
        exact ⟨lo, hi, rfl, lt_le hin.1, lt_le hin.2⟩
      · rw [if_neg hin]
        refine ⟨_, _, rfl, ?_, ?_⟩
        · by_cases hv : p.2 < 0
          · simp only [hv, if_true]
            rcases hc with hc | hc
            · linarith
            · exact hc
          · simp only [hv, if_false, le]
            linarith
        · simp only [le]; linarith

/-- C26: the call succeeds for all dictionaries of valid indices. -/
theorem C26_succeeds (c : ModelConfig) (d : List (ℤ × ℝ)) (h : ∀ p ∈ d, slot c.bounds.length p.1 ≠ none) :
    ∃ r, fixedPoiBoundsMulti c (some d) = .ok r := by
  cases d with
  | nil => exact ⟨_, rfl⟩
  | cons q d =>
    obtain ⟨r, hr⟩ := fixedLoop_ok c.minimumPoi (q :: d) c.bounds h
    refine ⟨(.caller, r), ?_⟩
    simp only [fixedPoiBoundsMulti, hr, Except.map]

example : ([((0 : ℤ), (50 : ℝ)), (1, 0.5)].map (fun p => slot sample.bounds.length p.1)).Nodup ∧
    ∀ p ∈ [((0 : ℤ), (50 : ℝ)), (1, 0.5)], slot sample.bounds.length p.1 ≠ none := by
  simp [sample, slot]

/-- The full claim is false: a nuisance parameter fixed at -6, outside its bounds (-5, 5), gets the least signal strength as its
lower bound. The result (-1, -5) is not an interval and does not contain the value. -/
theorem C26_proper_fails :
    ∃ l b, fixedPoiBoundsMulti sample (some [(1, -6)]) = .ok (.caller, l) ∧ l[1]? = some b ∧
      b = (some (fin (-1)), some (fin (-5))) ∧ ¬ Proper b ∧ ¬ Contains b (-6) := by
  have hc : ¬ (lt (fin (-5)) (fin (-6)) ∧ lt (fin (-6)) (fin 5)) := by simp only [lt]; norm_num
  have hb : adjust (fin (-1)) (fun v _ => fin (v + 1)) (some (fin (-5)), some (fin 5)) (-6) = (some (fin (-1)), some (fin (-5))) := by
    simp only [adjust, if_neg hc]
    rw [if_pos (by norm_num)]
    norm_num
  refine ⟨_, _, rfl, rfl, hb, ?_, ?_⟩
  · beta_reduce
    rw [show adjust sample.minimumPoi (fun v _ => fin (v + 1)) (some (fin (-5)), some (fin 5)) (-6) = _ from hb]
    rintro ⟨lo, hi, h, h1⟩
    simp only [Prod.mk.injEq, Option.some.injEq] at h
    rw [← h.1, ← h.2] at h1
    simp only [le] at h1
    norm_num at h1
  · beta_reduce
    rw [show adjust sample.minimumPoi (fun v _ => fin (v + 1)) (some (fin (-5)), some (fin 5)) (-6) = _ from hb]
    rintro ⟨lo, hi, h, h1, -⟩
    simp only [Prod.mk.injEq, Option.some.injEq] at h
    rw [← h.1] at h1
    simp only [le] at h1
    norm_num at h1

/-! ## C27 -/

/-- C27: for all lists of distinct names and all maps of existing names to distinct new names that are not in use: every name
is replaced at once and the names stay distinct; nothing else changes. -/
theorem C27_rename_partial (c : ModelConfig) (names : List String) (map : List (String × String)) (hc : c.names = some names)
    (hn : names.Nodup) (hold : (map.map Prod.fst).Nodup) (hnew : (map.map Prod.snd).Nodup) (hex : ∀ p ∈ map, p.1 ∈ names)
    (hfresh : ∀ p ∈ map, p.2 = p.1 ∨ p.2 ∉ names) :
    changeParameterNames c map = ({ c with names := some (names.map (renamed map)) }, .ok ()) ∧
    (names.map (renamed map)).Nodup := by
  obtain ⟨h1, h2⟩ := renameLoop_spec map names [] hn hold hnew hex hfresh (by simp)
  refine ⟨?_, h2⟩
  unfold changeParameterNames
  rw [hc]
  simp only [h1]

example : (["mu", "a", "b"] : List String).Nodup ∧ ([("a", "x"), ("b", "y")].map Prod.fst).Nodup ∧
    ([("a", "x"), ("b", "y")].map Prod.snd).Nodup ∧ (∀ p ∈ [("a", "x"), ("b", "y")], p.1 ∈ ["mu", "a", "b"]) ∧
    (∀ p ∈ [("a", "x"), ("b", "y")], p.2 = p.1 ∨ p.2 ∉ ["mu", "a", "b"]) ∧
    ["mu", "a", "b"].map (renamed [("a", "x"), ("b", "y")]) = ["mu", "x", "y"] := by
  decide

/-- The full claim is false in three ways: exchanging two names reports success and does nothing; a name that is in use can be
given twice; an unknown name raises after the names before it have been changed. -/
theorem C27_rename_fails :
    changeParameterNames sample [("a", "b"), ("b", "a")] = (sample, .ok ()) ∧
    (changeParameterNames sample [("a", "b")]).1.names = some ["mu", "b", "b"] ∧
    (changeParameterNames sample [("a", "b")]).2 = .ok () ∧
    (changeParameterNames sample [("a", "x"), ("unknown", "y")]).1.names = some ["mu", "x", "b"] ∧
    (changeParameterNames sample [("a", "x"), ("unknown", "y")]).2 = .error .value := by
  refine ⟨?_, ?_, ?_, ?_, ?_⟩ <;> simp [changeParameterNames, sample, renameLoop, List.idxOf, List.findIdx, List.findIdx.go]

/-! ## C28 -/

/-- C28: on success the result assigns to each parameter the value of the last key that stands for it, and nothing to the
others; every key stands for a parameter. -/
theorem C28_resolve (c : ModelConfig) (l : List (Key × ℝ)) (d : List (ℤ × ℝ)) (h : resolvePoiIndices c (.dict l) = .ok d) :
    (d.map Prod.fst).Nodup ∧ (∀ p ∈ l, ∃ i, Denotes c.names p.1 i) ∧
    (∀ i, (∀ p ∈ l, ¬ Denotes c.names p.1 i) → dictGet i d = none) ∧
    (∀ l1 l2 k v i, l = l1 ++ (k, v) :: l2 → Denotes c.names k i → (∀ p ∈ l2, ¬ Denotes c.names p.1 i) →
      dictGet i d = some v) := by
  have hd := resolveLoop_nodup c.names l [] d (by simp) h
  obtain ⟨h1, h2, h3⟩ := resolveLoop_get c.names l [] d h
  exact ⟨hd, h1, h2, h3⟩

/-- C28: a single value is for the parameter of interest. -/
theorem C28_resolve_value (c : ModelConfig) (v : ℝ) : resolvePoiIndices c (.value v) = .ok [(c.poiIndex, v)] := rfl

/-- C28: the only error is the `ValueError` for a name that is not in the list (or when there are no names), and it is always
raised then. -/
theorem C28_resolve_rejects (c : ModelConfig) (l : List (Key × ℝ)) :
    (∃ e, resolvePoiIndices c (.dict l) = .error e) ↔ ∃ s v, (Key.name s, v) ∈ l ∧ ∀ i, ¬ Denotes c.names (.name s) i := by
  constructor
  · rintro ⟨e, h⟩
    exact (resolveLoop_error _ _ _ _ h).2
  · rintro ⟨s, v, hs, hn⟩
    cases h : resolvePoiIndices c (.dict l) with
    | error e => exact ⟨e, rfl⟩
    | ok d =>
      obtain ⟨i, hi⟩ := (C28_resolve c l d h).2.1 _ hs
      exact absurd hi (hn i)

theorem C28_resolve_error (c : ModelConfig) (l : List (Key × ℝ)) (e : Err) (h : resolvePoiIndices c (.dict l) = .error e) :
    e = .value := (resolveLoop_error _ _ _ _ h).1

-- "mu" and 0 stand for the same parameter: the later key counts
example : resolvePoiIndices sample (.dict [(.name "mu", 1), (.name "b", 0.7), (.index 0, 3)]) = .ok [(0, 3), (2, 0.7)] := by
  simp [resolvePoiIndices, resolveLoop, resolveKey, sample, dictSet, List.idxOf, List.findIdx, List.findIdx.go]

/-- C28: `resolve_parameter_index` accepts an index exactly when it is a valid position that is not the parameter of interest,
and returns it; a name is accepted exactly when it is in the list, and the result is its position. -/
theorem C28_parameter_partial (c : ModelConfig) (k : Key) (i : ℤ) :
    resolveParameterIndex c k = .ok i ↔
      2 ≤ c.init.length ∧ Denotes c.names k i ∧ (∀ j, k = .index j → 0 ≤ j ∧ j < c.init.length ∧ j ≠ c.poiIndex) := by
  unfold resolveParameterIndex ModelConfig.npar
  by_cases hn : c.init.length < 2
  · rw [if_pos hn]
    constructor
    · intro h; simp at h
    · rintro ⟨h, -⟩; omega
  · rw [if_neg hn]
    cases k with
    | index j =>
      simp only
      constructor
      · intro h
        split at h
        · rename_i hr
          split at h
          · simp at h
          · rename_i hp
            simp only [Except.ok.injEq] at h
            refine ⟨by omega, h, fun j' hj' => ?_⟩
            simp only [Key.index.injEq] at hj'
            subst hj'
            exact ⟨hr.1, hr.2, hp⟩
        · simp at h
      · rintro ⟨-, h1, h2⟩
        obtain ⟨g1, g2, g3⟩ := h2 j rfl
        rw [if_pos ⟨g1, g2⟩, if_neg g3]
        have : j = i := h1
        rw [this]
    | name s =>
      simp only
      constructor
      · intro h
        split at h
        · simp at h
        · rename_i l hl
          split at h
          · rename_i hs
            simp only [Except.ok.injEq] at h
            refine ⟨by omega, ?_, by simp⟩
            rw [hl, ← h]
            exact denotes_name hs
          · simp at h
      · rintro ⟨-, h1, -⟩
        have h1' := h1
        obtain ⟨l, hl, k, rfl, hk, -⟩ := h1
        have hs : s ∈ l := List.mem_of_getElem? hk
        rw [hl]
        simp only [if_pos hs]
        rw [hl] at h1'
        rw [denotes_unique (denotes_name hs) h1']

example : resolveParameterIndex sample (.name "b") = .ok 2 ∧ resolveParameterIndex sample (.index 1) = .ok 1 ∧
    resolveParameterIndex sample (.index 3) = .error .value ∧ resolveParameterIndex sample (.index 0) = .error .value := by
  simp [resolveParameterIndex, sample, ModelConfig.npar, List.idxOf, List.findIdx, List.findIdx.go]

/-- The full claim is false: the parameter of interest is rejected by index but accepted by name. -/
theorem C28_poi_by_name_fails : resolveParameterIndex sample (.name "mu") = .ok sample.poiIndex := by
  simp [resolveParameterIndex, sample, ModelConfig.npar]

/-! ## C29 -/

/-- C29: with an upper bound that is not zero, for all configurations: the number of parameters and the other bounds are kept,
and the parameter of interest gets the pair (least signal strength or zero, upper bound). -/
theorem C29_rescale_partial (c : ModelConfig) (neg : Bool) (u : F) (hu : u ≠ fin 0) (l : List (Val × Val))
    (h : rescalePoiBounds c neg (some u) = .ok l) :
    l.length = c.bounds.length ∧ ∃ k, slot c.bounds.length c.poiIndex = some k ∧
      (∀ j, j ≠ k → l[j]? = c.bounds[j]?.map (fun b => (Val.ofOption b.1, Val.ofOption b.2))) ∧
      l[k]? = some (.num (if neg then c.minimumPoi else fin 0), .num u) := by
  unfold rescalePoiBounds at h
  split at h
  · simp at h
  rename_i k hk
  simp only [Except.ok.injEq] at h
  have ht : truthy (some u) = true := by
    cases u <;> simp_all [truthy]
  rw [ht] at h
  subst h
  refine ⟨by simp, k, hk, fun j hj => ?_, ?_⟩
  · rw [List.getElem?_modify]
    simp [Ne.symm hj]
  · rw [List.getElem?_modify]
    simp [List.getElem?_eq_getElem (slot_lt hk), Val.ofOption]

example : rescalePoiBounds sample true (some (fin 40)) =
    .ok [(.num (fin (-1)), .num (fin 40)), (.num (fin (-5)), .num (fin 5)), (.none, .num (fin 2))] := by
  simp [rescalePoiBounds, sample, slot, truthy, Val.ofOption]

/-- The full claim is false without an upper bound (the default), and for zero: the second entry is the old pair instead of a
number. -/
theorem C29_default_fails :
    rescalePoiBounds sample true none =
      .ok [(.num (fin (-1)), .pair (.num (fin 0)) (.num (fin 10))), (.num (fin (-5)), .num (fin 5)), (.none, .num (fin 2))] ∧
    rescalePoiBounds sample true (some (fin 0)) = rescalePoiBounds sample true none := by
  refine ⟨?_, ?_⟩ <;> simp [rescalePoiBounds, sample, slot, truthy, Val.ofOption]

end Verif.Config
