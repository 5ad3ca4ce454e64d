import Verif.CacheKey.Spec

/-! # Lemmas for the cache key properties -/

namespace Verif.CacheKey

variable {H : List ℝ → List ℝ}

theorem tokenList_eq (l : List V) : tokenList H l = l.map (token H) := by
  induction l with
  | nil => simp [tokenList]
  | cons v l ih => simp [tokenList, ih]

theorem tokenItems_eq (l : List (DKey × V)) : tokenItems H l = l.map (fun p => (p.1, token H p.2)) := by
  induction l with
  | nil => simp [tokenItems]
  | cons v l ih => obtain ⟨k, v⟩ := v; simp [tokenItems, ih]

theorem sort_perm {α : Type} [LinearOrder α] (l : List (α × T)) : (sortItems l).Perm l := List.mergeSort_perm _ _

theorem sort_pairwise {α : Type} [LinearOrder α] (l : List (α × T)) : (sortItems l).Pairwise (fun a b => a.1 ≤ b.1) := by
  have := List.pairwise_mergeSort (le := fun a b : α × T => decide (a.1 ≤ b.1))
    (fun a b c => by simp only [decide_eq_true_eq]; exact le_trans)
    (fun a b => by simp only [Bool.or_eq_true, decide_eq_true_eq]; exact le_total _ _) l
  simpa using! this

theorem unique_of_nodup {κ α : Type} {l : List (κ × α)} (h : (l.map Prod.fst).Nodup) {k : κ} {a b : α}
    (ha : (k, a) ∈ l) (hb : (k, b) ∈ l) : a = b := by
  have := List.inj_on_of_nodup_map h ha hb rfl
  simpa using this

theorem sort_eq_of_perm {α : Type} [LinearOrder α] {l l' : List (α × T)} (hn : (l.map Prod.fst).Nodup) (h : l.Perm l') :
    sortItems l = sortItems l' := by
  have hp : (sortItems l).Perm (sortItems l') := (sort_perm l).trans (h.trans (sort_perm l').symm)
  refine List.Perm.eq_of_pairwise ?_ (sort_pairwise l) (sort_pairwise l') hp
  rintro ⟨a, x⟩ ⟨b, y⟩ ha hb h1 h2
  obtain rfl : a = b := le_antisymm h1 h2
  have ha' := (sort_perm l).mem_iff.1 ha
  have hb' := h.mem_iff.2 ((sort_perm l').mem_iff.1 hb)
  rw [unique_of_nodup hn ha' hb']

theorem perm_of_sort_eq {α : Type} [LinearOrder α] {l l' : List (α × T)} (h : sortItems l = sortItems l') : l.Perm l' :=
  (sort_perm l).symm.trans (h ▸ sort_perm l')

theorem pairT_inj : Function.Injective pairT := by
  rintro ⟨a, x⟩ ⟨b, y⟩ h
  simpa [pairT] using h

theorem map_pairT_inj {l l' : List (String × T)} (h : l.map pairT = l'.map pairT) : l = l' :=
  List.map_injective_iff.2 pairT_inj h

theorem inrₗ_inj : Function.Injective (Sum.inrₗ : String → DKey) := fun _ _ h => Sum.inr_injective (ofLex.symm.injective h)

theorem keyT_inj : Function.Injective keyT := by
  intro a b h
  unfold keyT at h
  apply ofLex.injective
  revert h
  cases ofLex a <;> cases ofLex b <;> simp

theorem pairD_inj : Function.Injective pairD := by
  rintro ⟨a, x⟩ ⟨b, y⟩ h
  simp only [pairD, T.tup.injEq, List.cons.injEq, and_true] at h
  rw [keyT_inj h.1, h.2]

theorem map_pairD_inj {l l' : List (DKey × T)} (h : l.map pairD = l'.map pairD) : l = l' :=
  List.map_injective_iff.2 pairD_inj h

theorem token_none_iff (v : V) : token H v = .none ↔ v = .none := by
  cases v <;> simp [token]

theorem token_of_num {v : V} {q : ℝ} (h : v.numVal = some q) : token H v = .num q := by
  cases v <;> simp_all [V.numVal, token]

theorem same_none_left {v : V} (h : Same v .none) : v = .none := by
  cases h with
  | none => rfl
  | num h1 h2 => simp [V.numVal] at h2

theorem same_none_right {v : V} (h : Same .none v) : v = .none := by
  cases h with
  | none => rfl
  | num h1 h2 => simp [V.numVal] at h1

/-- Two typed item lists have the same token exactly if they have the same keys and, key by key, the same content. -/
theorem items_iff {α : Type} [LinearOrder α] {l l' : List (α × V)} (hn : (l.map Prod.fst).Nodup) (hn' : (l'.map Prod.fst).Nodup)
    (ih : ∀ k v v', (k, v) ∈ l → (k, v') ∈ l' → (token H v = token H v' ↔ Same v v')) :
    sortItems (l.map fun p => (p.1, token H p.2)) = sortItems (l'.map fun p => (p.1, token H p.2)) ↔
      (∀ k, k ∈ l.map Prod.fst ↔ k ∈ l'.map Prod.fst) ∧ ∀ k v v', (k, v) ∈ l → (k, v') ∈ l' → Same v v' := by
  have e : ∀ l : List (α × V), (l.map (fun p => (p.1, token H p.2))).map Prod.fst = l.map Prod.fst := by
    intro l; simp
  have nod : ∀ l : List (α × V), (l.map Prod.fst).Nodup → (l.map (fun p => (p.1, token H p.2))).Nodup := by
    intro l hl
    exact List.Nodup.of_map Prod.fst (by rw [e]; exact hl)
  constructor
  · intro h
    have hp := perm_of_sort_eq h
    refine ⟨fun k => ?_, fun k v v' hv hv' => ?_⟩
    · have := (hp.map Prod.fst).mem_iff (a := k)
      rwa [e, e] at this
    · rw [← ih k v v' hv hv']
      have h1 : (k, token H v) ∈ l'.map (fun p => (p.1, token H p.2)) :=
        hp.mem_iff.1 (List.mem_map.2 ⟨(k, v), hv, rfl⟩)
      have h2 : (k, token H v') ∈ l'.map (fun p => (p.1, token H p.2)) := List.mem_map.2 ⟨(k, v'), hv', rfl⟩
      exact unique_of_nodup (by rw [e]; exact hn') h1 h2
  · rintro ⟨hk, hs⟩
    refine sort_eq_of_perm (by rw [e]; exact hn) ?_
    rw [List.perm_ext_iff_of_nodup (nod l hn) (nod l' hn')]
    rintro ⟨k, t⟩
    simp only [List.mem_map, Prod.mk.injEq]
    constructor
    · rintro ⟨⟨k', v⟩, hv, rfl, rfl⟩
      obtain ⟨⟨k'', v'⟩, hv', hkk⟩ := List.mem_map.1 ((hk k').1 (List.mem_map.2 ⟨_, hv, rfl⟩))
      simp only at hkk; subst hkk
      exact ⟨(k'', v'), hv', rfl, ((ih _ _ _ hv hv').2 (hs _ _ _ hv hv')).symm⟩
    · rintro ⟨⟨k', v⟩, hv, rfl, rfl⟩
      obtain ⟨⟨k'', v'⟩, hv', hkk⟩ := List.mem_map.1 ((hk k').2 (List.mem_map.2 ⟨_, hv, rfl⟩))
      simp only at hkk; subst hkk
      exact ⟨(k'', v'), hv', rfl, ((ih _ _ _ hv' hv).2 (hs _ _ _ hv' hv))⟩

/-- For values of the same static type, tokens are equal exactly if the contents are. -/
theorem token_iff (hH : Function.Injective H) {t : Ty} {v : V} (hv : HasTy t v) :
    ∀ w, HasTy t w → (token H v = token H w ↔ Same v w) := by
  induction hv with
  | none => intro w hw; cases hw; exact ⟨fun _ => .none, fun _ => rfl⟩
  | num h =>
    intro w hw
    cases hw with
    | num h' =>
      rw [token_of_num h, token_of_num h']
      constructor
      · intro e
        simp only [T.num.injEq] at e
        subst e
        exact .num h h'
      · intro hs
        cases hs with
        | num a b => rw [h] at a; rw [h'] at b; simp_all
        | _ => simp [V.numVal] at h
  | real h =>
    intro w hw
    cases hw with
    | real h' =>
      rw [token_of_num h, token_of_num h']
      constructor
      · intro e
        simp only [T.num.injEq] at e
        subst e
        exact .num h h'
      · intro hs
        cases hs with
        | num a b => rw [h] at a; rw [h'] at b; simp_all
        | _ => simp [V.numVal] at h
    | realInf =>
      rw [token_of_num h]
      refine ⟨fun e => by simp [token] at e, fun hs => ?_⟩
      cases hs with
      | num a b => simp [V.numVal] at b
      | inf => simp [V.numVal] at h
  | realInf =>
    intro w hw
    cases hw with
    | real h' =>
      rw [token_of_num h']
      refine ⟨fun e => by simp [token] at e, fun hs => ?_⟩
      cases hs with
      | num a b => simp [V.numVal] at a
      | inf => simp [V.numVal] at h'
    | realInf =>
      constructor
      · intro e; simp only [token, T.inf.injEq] at e; subst e; exact .inf
      · intro hs; cases hs with
        | inf => rfl
        | num a b => simp [V.numVal] at a
  | bool =>
    intro w hw; cases hw with
    | bool =>
      constructor
      · intro e; refine .num rfl ?_; simp only [token, T.num.injEq] at e; simp [V.numVal, e]
      · intro hs; cases hs with | num a b => rw [token_of_num a, token_of_num b]
  | int =>
    intro w hw; cases hw with
    | int =>
      constructor
      · intro e; refine .num rfl ?_; simp only [token, T.num.injEq] at e; simp only [V.numVal, e]
      · intro hs; cases hs with | num a b => rw [token_of_num a, token_of_num b]
  | float =>
    intro w hw; cases hw with
    | float =>
      constructor
      · intro e; refine .num rfl ?_; simp only [token, T.num.injEq] at e; simp [V.numVal, e]
      · intro hs; cases hs with | num a b => rw [token_of_num a, token_of_num b]
  | str =>
    intro w hw; cases hw with
    | str =>
      constructor
      · intro e; simp only [token, T.str.injEq] at e; subst e; exact .str
      · intro hs; cases hs with
        | str => rfl
        | num a b => simp [V.numVal] at a
  | bytes =>
    intro w hw; cases hw with
    | bytes =>
      constructor
      · intro e; simp only [token, T.bytes.injEq] at e; subst e; exact .bytes
      · intro hs; cases hs with
        | bytes => rfl
        | num a b => simp [V.numVal] at a
  | object =>
    intro w hw; cases hw with
    | object =>
      constructor
      · intro e; simp only [token, T.object.injEq] at e; subst e; exact .object
      · intro hs; cases hs with
        | object => rfl
        | num a b => simp [V.numVal] at a
  | @array s d b =>
    intro w hw; cases hw with
    | @array s' d' b' =>
      constructor
      · intro e
        simp only [token, T.tup.injEq, List.cons.injEq, T.str.injEq, T.bytes.injEq, and_true] at e
        obtain ⟨e1, rfl, e3⟩ := e
        have e1' : s = s' := by
          refine List.map_injective_iff.2 ?_ e1
          intro a b h
          simpa using h
        rw [hH e3, e1']
        exact .array
      · intro hs; cases hs with
        | array => rfl
        | num a b => simp [V.numVal] at a
  | @list t l hl ih =>
    intro w hw; cases hw with
    | @list _ l' hl' =>
      simp only [token, T.tup.injEq, tokenList_eq]
      constructor
      · intro e
        have hlen : l.length = l'.length := by simpa using congrArg List.length e
        refine .list hlen fun i h h' => ?_
        rw [← ih _ (List.getElem_mem h) _ (hl' _ (List.getElem_mem h'))]
        have := List.getElem_of_eq e (i := i) (by simpa using h)
        simpa using this
      · intro hs; cases hs with
        | num a b => simp [V.numVal] at a
        | list hlen h =>
          refine List.ext_getElem (by simpa using hlen) fun i h1 h2 => ?_
          simp only [List.length_map] at h1 h2
          simp only [List.getElem_map]
          exact (ih _ (List.getElem_mem h1) _ (hl' _ (List.getElem_mem h2))).2 (h i h1 h2)
  | @tuple ts l hlen hl ih =>
    intro w hw; cases hw with
    | @tuple _ l' hlen' hl' =>
      simp only [token, T.tup.injEq, tokenList_eq]
      constructor
      · intro e
        have hl2 : l.length = l'.length := by simpa using congrArg List.length e
        refine .tuple hl2 fun i h h' => ?_
        rw [← ih i (by omega) h _ (hl' i (by omega) h')]
        have := List.getElem_of_eq e (i := i) (by simpa using h)
        simpa using this
      · intro hs; cases hs with
        | num a b => simp [V.numVal] at a
        | tuple hl2 h =>
          refine List.ext_getElem (by simpa using hl2) fun i h1 h2 => ?_
          simp only [List.length_map] at h1 h2
          simp only [List.getElem_map]
          exact (ih i (by omega) h1 _ (hl' i (by omega) h2)).2 (h i h1 h2)
  | @dict t l hn hl ih =>
    intro w hw; cases hw with
    | @dict _ l' hn' hl' =>
      simp only [token, T.tup.injEq, tokenItems_eq]
      have key := items_iff (H := H) hn hn' (fun k v v' hv hv' => ih k v hv v' (hl' k v' hv'))
      constructor
      · intro e
        obtain ⟨h1, h2⟩ := key.1 (map_pairD_inj e)
        exact .dict h1 h2
      · intro hs; cases hs with
        | num a b => simp [V.numVal] at a
        | dict h1 h2 => rw [key.2 ⟨h1, h2⟩]
  | optNone =>
    intro w _
    constructor
    · intro e
      have := (token_none_iff (H := H) w).1 (e.symm.trans (by simp [token]))
      subst this; exact .none
    · intro hs; rw [same_none_right hs]
  | @opt t v hv ih =>
    intro w hw
    cases hw with
    | optNone =>
      constructor
      · intro e
        have := (token_none_iff (H := H) v).1 (e.trans (by simp [token]))
        subst this; exact .none
      · intro hs; rw [same_none_left hs]
    | opt hw => exact ih w hw

/-! ### binding -/

theorem lookup_mem {α : Type} {l : List (String × α)} {k : String} {a : α} (h : l.lookup k = some a) : (k, a) ∈ l := by
  induction l with
  | nil => simp at h
  | cons p l ih =>
    obtain ⟨k', b⟩ := p
    rw [List.lookup_cons] at h
    by_cases hk : k == k'
    · simp only [hk] at h
      have : k = k' := by simpa using hk
      simp only [Option.some.injEq] at h
      subst this; subst h; exact List.mem_cons_self
    · have hk' : (k == k') = false := by simpa using hk
      simp only [hk'] at h
      exact List.mem_cons_of_mem _ (ih h)

theorem mem_lookup {α : Type} {l : List (String × α)} (hn : (l.map Prod.fst).Nodup) {k : String} {a : α}
    (h : (k, a) ∈ l) : l.lookup k = some a := by
  induction l with
  | nil => simp at h
  | cons p l ih =>
    obtain ⟨k', b⟩ := p
    simp only [List.map_cons, List.nodup_cons] at hn
    rw [List.lookup_cons]
    rcases List.mem_cons.1 h with h2 | h2
    · simp only [Prod.mk.injEq] at h2
      obtain ⟨rfl, rfl⟩ := h2
      simp
    · have : k ≠ k' := by
        rintro rfl
        exact hn.1 (List.mem_map.2 ⟨(k, a), h2, rfl⟩)
      have hk' : (k == k') = false := by simpa using this
      simp only [hk']
      exact ih hn.2 h2

/-- The bound parameters are the given values in signature order. -/
theorem bindParams_eq {ps : List Param} {args : List V} {kw b : List (String × V)}
    (h : bindParams ps args kw = some b) :
    b.map Prod.fst = ps.map Param.name ∧ b.length = ps.length ∧
    ∀ i (hi : i < b.length), some b[i].2 = match ps[i]? with
      | none => none
      | some p => (args[i]?).or ((kw.lookup p.name).or p.default) := by
  induction ps generalizing args b with
  | nil =>
    cases args with
    | nil => simp [bindParams] at h; subst h; simp
    | cons a as => simp [bindParams] at h
  | cons p ps ih =>
    cases args with
    | nil =>
      simp only [bindParams] at h
      split at h
      · simp at h
      · rename_i v hv
        rw [Option.map_eq_some_iff] at h
        obtain ⟨b', hb', rfl⟩ := h
        obtain ⟨h1, h2, h3⟩ := ih hb'
        refine ⟨by simp [h1], by simp [h2], ?_⟩
        intro i hi
        cases i with
        | zero => simp [hv]
        | succ i => simpa using h3 i (by simpa using hi)
    | cons a as =>
      simp only [bindParams] at h
      split at h
      · simp at h
      · rw [Option.map_eq_some_iff] at h
        obtain ⟨b', hb', rfl⟩ := h
        obtain ⟨h1, h2, h3⟩ := ih hb'
        refine ⟨by simp [h1], by simp [h2], ?_⟩
        intro i hi
        cases i with
        | zero => simp
        | succ i => simpa using h3 i (by simpa using hi)

theorem filter_nodup {l : List (String × V)} (h : (l.map Prod.fst).Nodup) (p : String × V → Bool) :
    ((l.filter p).map Prod.fst).Nodup := h.sublist (List.filter_sublist.map _)

theorem perm_of_lookup {l l' : List (String × V)} (hn : (l.map Prod.fst).Nodup) (hn' : (l'.map Prod.fst).Nodup)
    (h : ∀ k, l.lookup k = l'.lookup k) : l.Perm l' := by
  rw [List.perm_ext_iff_of_nodup (List.Nodup.of_map _ hn) (List.Nodup.of_map _ hn')]
  rintro ⟨k, v⟩
  constructor
  · intro hv
    exact lookup_mem (by rw [← h]; exact mem_lookup hn hv)
  · intro hv
    exact lookup_mem (by rw [h]; exact mem_lookup hn' hv)

theorem lookup_eq_none {α : Type} {l : List (String × α)} {k : String} (h : k ∉ l.map Prod.fst) : l.lookup k = none := by
  cases e : l.lookup k with
  | none => rfl
  | some a => exact absurd (List.mem_map.2 ⟨_, lookup_mem e, rfl⟩) h

theorem lookup_filter {l : List (String × V)} (hn : (l.map Prod.fst).Nodup) (names : List String) (k : String) :
    (l.filter (fun p => p.1 ∉ names)).lookup k = if k ∈ names then none else l.lookup k := by
  by_cases hk : k ∈ names
  · rw [if_pos hk]
    apply lookup_eq_none
    intro h
    obtain ⟨⟨k', v⟩, hv, rfl⟩ := List.mem_map.1 h
    simp at hv
    exact hv.2 hk
  · rw [if_neg hk]
    cases e : l.lookup k with
    | none =>
      apply lookup_eq_none
      intro h
      obtain ⟨⟨k', v⟩, hv, rfl⟩ := List.mem_map.1 h
      have := mem_lookup hn (List.mem_of_mem_filter hv)
      simp only at e this
      rw [e] at this; simp at this
    | some v =>
      apply mem_lookup (filter_nodup hn _)
      have := lookup_mem e
      simp [this, hk]

/-! ### Dictionaries that cannot be sorted -/

theorem oneKind_iff (l : List DKey) : oneKind l = false ↔ (∃ n : ℤ, Sum.inlₗ n ∈ l) ∧ ∃ s : String, Sum.inrₗ s ∈ l := by
  unfold oneKind
  rw [Bool.or_eq_false_iff, List.all_eq_false, List.all_eq_false]
  constructor
  · rintro ⟨⟨x, hx, h1⟩, ⟨y, hy, h2⟩⟩
    constructor
    · revert hy h2
      cases hy' : ofLex y with
      | inl n => intro hy _; exact ⟨n, by rw [show (Sum.inlₗ n : DKey) = y from ofLex.injective hy'.symm]; exact hy⟩
      | inr s => intro _ h; simp at h
    · revert hx h1
      cases hx' : ofLex x with
      | inl n => intro _ h; simp at h
      | inr s => intro hx _; exact ⟨s, by rw [show (Sum.inrₗ s : DKey) = x from ofLex.injective hx'.symm]; exact hx⟩
  · rintro ⟨⟨n, hn⟩, s, hs⟩
    exact ⟨⟨_, hs, by simp⟩, _, hn, by simp⟩

mutual
theorem sortable_iff : ∀ v : V, sortable v = false ↔ Mixed v
  | .dict items => by
    rw [sortable, Bool.and_eq_false_iff, oneKind_iff, sortableItems_iff items]
    constructor
    · rintro (⟨⟨n, hn⟩, s, hs⟩ | ⟨v, hv, hm⟩)
      · exact .here hn hs
      · exact .dict hv hm
    · intro h
      cases h with
      | here hn hs => exact .inl ⟨⟨_, hn⟩, _, hs⟩
      | dict hv hm => exact .inr ⟨_, hv, hm⟩
  | .list l => by
    rw [sortable, sortableList_iff l]
    exact ⟨fun ⟨v, hv, hm⟩ => .list hv hm, fun h => by cases h with | list hv hm => exact ⟨_, hv, hm⟩⟩
  | .tuple l => by
    rw [sortable, sortableList_iff l]
    exact ⟨fun ⟨v, hv, hm⟩ => .tuple hv hm, fun h => by cases h with | tuple hv hm => exact ⟨_, hv, hm⟩⟩
  | .none => by simp only [sortable, Bool.true_eq_false, false_iff]; intro h; cases h
  | .bool _ => by simp only [sortable, Bool.true_eq_false, false_iff]; intro h; cases h
  | .int _ => by simp only [sortable, Bool.true_eq_false, false_iff]; intro h; cases h
  | .float _ => by simp only [sortable, Bool.true_eq_false, false_iff]; intro h; cases h
  | .inf _ => by simp only [sortable, Bool.true_eq_false, false_iff]; intro h; cases h
  | .str _ => by simp only [sortable, Bool.true_eq_false, false_iff]; intro h; cases h
  | .bytes _ => by simp only [sortable, Bool.true_eq_false, false_iff]; intro h; cases h
  | .array _ _ _ => by simp only [sortable, Bool.true_eq_false, false_iff]; intro h; cases h
  | .object _ => by simp only [sortable, Bool.true_eq_false, false_iff]; intro h; cases h
  | .unhashable _ => by simp only [sortable, Bool.true_eq_false, false_iff]; intro h; cases h
theorem sortableList_iff : ∀ l : List V, sortableList l = false ↔ ∃ v ∈ l, Mixed v
  | [] => by simp [sortableList]
  | v :: l => by rw [sortableList, Bool.and_eq_false_iff, sortable_iff v, sortableList_iff l]; simp
theorem sortableItems_iff : ∀ l : List (DKey × V), sortableItems l = false ↔ ∃ v ∈ l.map Prod.snd, Mixed v
  | [] => by simp [sortableItems]
  | (k, v) :: l => by rw [sortableItems, Bool.and_eq_false_iff, sortable_iff v, sortableItems_iff l]; simp
end

theorem sortableList_append (a b : List V) : sortableList (a ++ b) = (sortableList a && sortableList b) := by
  induction a with
  | nil => simp [sortableList]
  | cons v a ih => simp [sortableList, ih, Bool.and_assoc]

/-- Positional arguments are among the bound ones. -/
theorem bindParams_args {ps : List Param} {args : List V} {kw b : List (String × V)} (h : bindParams ps args kw = some b) {v : V} (hv : v ∈ args) : v ∈ b.map Prod.snd := by
  induction ps generalizing args b with
  | nil =>
    cases args with
    | nil => simp at hv
    | cons a as => simp [bindParams] at h
  | cons p ps ih =>
    cases args with
    | nil => simp at hv
    | cons a as =>
      simp only [bindParams] at h
      split at h
      · simp at h
      · rw [Option.map_eq_some_iff] at h
        obtain ⟨b', hb', rfl⟩ := h
        rcases List.mem_cons.1 hv with rfl | hv
        · simp
        · exact List.mem_cons_of_mem _ (ih hb' hv)

/-- Arguments given by keyword are among the bound ones. -/
theorem bindParams_kwargs {ps : List Param} {args : List V} {kw b : List (String × V)} (h : bindParams ps args kw = some b) {k : String} {v : V} (hk : k ∈ ps.map Param.name)
    (hv : kw.lookup k = some v) : v ∈ b.map Prod.snd := by
  induction ps generalizing args b with
  | nil => simp at hk
  | cons p ps ih =>
    cases args with
    | nil =>
      simp only [bindParams] at h
      split at h
      · simp at h
      · rename_i w hw
        rw [Option.map_eq_some_iff] at h
        obtain ⟨b', hb', rfl⟩ := h
        by_cases hp : k = p.name
        · subst hp
          rw [hv] at hw
          simp only [Option.some_or, Option.some.injEq] at hw
          simp [hw]
        · refine List.mem_cons_of_mem _ (ih hb' ?_)
          simpa [hp] using hk
    | cons a as =>
      simp only [bindParams] at h
      split at h
      · simp at h
      · rename_i hn
        rw [Option.map_eq_some_iff] at h
        obtain ⟨b', hb', rfl⟩ := h
        by_cases hp : k = p.name
        · subst hp
          exact absurd (List.mem_map.2 ⟨_, lookup_mem hv, rfl⟩) hn
        · refine List.mem_cons_of_mem _ (ih hb' ?_)
          simpa [hp] using hk

/-- What the arguments contain, the bound arguments contain. -/
theorem bind_mixed {s : Sig} {c : Call} {b : List (String × V)} (hc : c.Ok) (hb : bind s c = some b) {v : V} (hv : v ∈ c.args ∨ v ∈ c.kwargs.map Prod.snd) (hm : Mixed v) :
    ∃ w ∈ b.map Prod.snd, Mixed w := by
  unfold bind at hb
  cases e : bindParams s.params c.args c.kwargs with
  | none => simp [e] at hb
  | some p =>
    simp only [e] at hb
    have hp : ∀ w ∈ p.map Prod.snd, w ∈ b.map Prod.snd := by
      intro w hw
      revert hb
      cases s.varkw with
      | none =>
        dsimp only
        split
        · intro hb; simp only [Option.some.injEq] at hb; subst hb; exact hw
        · intro hb; simp at hb
      | some n => intro hb; simp only [Option.some.injEq] at hb; subst hb; simp only [List.map_append]; exact List.mem_append_left _ hw
    rcases hv with hv | hv
    · exact ⟨v, hp _ (bindParams_args e hv), hm⟩
    · obtain ⟨⟨k, v'⟩, hk, rfl⟩ := List.mem_map.1 hv
      by_cases hin : k ∈ s.params.map Param.name
      · exact ⟨v', hp _ (bindParams_kwargs e hin (mem_lookup hc hk)), hm⟩
      · have hf : (k, v') ∈ c.kwargs.filter (fun p => p.1 ∉ s.params.map Param.name) := List.mem_filter.2 ⟨hk, decide_eq_true hin⟩
        revert hb
        cases s.varkw with
        | none =>
          dsimp only
          split
          · rename_i he
            rw [List.isEmpty_iff] at he
            rw [he] at hf
            simp at hf
          · intro hb; simp at hb
        | some n =>
          intro hb
          simp only [Option.some.injEq] at hb
          subst hb
          refine ⟨_, by simp only [List.map_append, List.map_cons, List.map_nil]; exact List.mem_append_right _ (List.mem_singleton.2 rfl), ?_⟩
          refine .dict (v := v') ?_ hm
          rw [List.map_map]
          exact List.mem_map.2 ⟨(k, v'), hf, rfl⟩

end Verif.CacheKey
