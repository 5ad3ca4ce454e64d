import Verif.Config.Spec

namespace Verif.Config
open Verif.Py F
open Classical

theorem adjust_same {m : F} {u : ℝ → F → F} {b : Bound} {v : ℝ} (h : b.1 = none ∨ b.2 = none) : adjust m u b v = b := by
  obtain ⟨a, b⟩ := b
  cases a <;> cases b <;> simp_all [adjust]

theorem le_fin_refl (x : ℝ) : le (fin x) (fin x) := le_refl x

theorem lt_le {u v : F} : lt u v → le u v := by
  cases u <;> cases v <;> simp [le, lt]
  intro h; exact h.le

theorem pyMax_ge {a b : F} (h : a ≠ nan) (hb : b ≠ nan) : le a (pyMax a b) ∧ le b (pyMax a b) := by
  unfold pyMax
  split
  · rename_i hl
    refine ⟨lt_le hl, ?_⟩
    cases b <;> simp_all [le]
  · rename_i hl
    refine ⟨?_, ?_⟩
    · cases a <;> simp_all [le]
    · cases a <;> cases b <;> simp_all [le, lt]

theorem slot_set {α : Type} {l : List α} {i : ℤ} {k : ℕ} (f : α → α) (_ : slot l.length i = some k) :
    (∀ j, j ≠ k → (l.modify k f)[j]? = l[j]?) ∧ (l.modify k f)[k]? = l[k]?.map f := by
  refine ⟨fun j hj => ?_, ?_⟩
  · rw [List.getElem?_modify]
    simp [Ne.symm hj]
  · rw [List.getElem?_modify]
    simp

theorem fixedLoop_spec (m : F) (l : List (ℤ × ℝ)) : ∀ (b r : List Bound), fixedLoop m b l = .ok r →
    r.length = b.length ∧
    (∀ j, (∀ p ∈ l, slot b.length p.1 ≠ some j) → r[j]? = b[j]?) ∧
    (∀ l1 l2 i v k, l = l1 ++ (i, v) :: l2 → slot b.length i = some k → (∀ p ∈ l1 ++ l2, slot b.length p.1 ≠ some k) →
      r[k]? = b[k]?.map (fun x => adjust m (fun v _ => fin (v + 1)) x v)) := by
  induction l with
  | nil =>
    intro b r h
    simp only [fixedLoop, Except.ok.injEq] at h
    subst h
    exact ⟨rfl, fun _ _ => rfl, by simp⟩
  | cons p l ih =>
    obtain ⟨i, v⟩ := p
    intro b r h
    rw [fixedLoop] at h
    split at h
    · simp at h
    rename_i k hk
    obtain ⟨h1, h2, h3⟩ := ih _ _ h
    obtain ⟨s1, s2⟩ := slot_set (fun b => adjust m (fun v _ => fin (v + 1)) b v) hk
    rw [List.length_modify] at h1 h2 h3
    refine ⟨h1, ?_, ?_⟩
    · intro j hj
      rw [h2 j (fun p hp => hj p (List.mem_cons_of_mem _ hp)), s1 j]
      rintro rfl
      exact hj (i, v) List.mem_cons_self hk
    · intro l1 l2 i' v' k' hl hk' hp
      cases l1 with
      | nil =>
        simp only [List.nil_append, List.cons.injEq, Prod.mk.injEq] at hl
        obtain ⟨⟨rfl, rfl⟩, rfl⟩ := hl
        rw [hk, Option.some.injEq] at hk'
        subst hk'
        rw [h2 k (by simpa using hp), s2]
      | cons q l1 =>
        simp only [List.cons_append, List.cons.injEq] at hl
        obtain ⟨rfl, rfl⟩ := hl
        rw [h3 l1 l2 i' v' k' rfl hk' (fun p hp' => hp p (by simp only [List.cons_append]; exact List.mem_cons_of_mem _ hp')), s1 k']
        rintro rfl
        exact hp (i, v) (by simp) hk

theorem fixedLoop_ok (m : F) (l : List (ℤ × ℝ)) : ∀ b : List Bound, (∀ p ∈ l, slot b.length p.1 ≠ none) →
    ∃ r, fixedLoop m b l = .ok r := by
  induction l with
  | nil => exact fun b _ => ⟨b, rfl⟩
  | cons p l ih =>
    obtain ⟨i, v⟩ := p
    intro b h
    rw [fixedLoop]
    split
    · rename_i hk
      exact absurd hk (h (i, v) List.mem_cons_self)
    · apply ih
      intro p hp
      rw [List.length_modify]
      exact h p (List.mem_cons_of_mem _ hp)

/-! ### Names -/

theorem set_idxOf {names : List String} (hn : names.Nodup) {o n : String} (ho : o ∈ names) :
    names.set (names.idxOf o) n = names.map (fun s => if s = o then n else s) := by
  induction names with
  | nil => simp at ho
  | cons a l ih =>
    rw [List.nodup_cons] at hn
    by_cases h : a = o
    · subst h
      have : ∀ s ∈ l, (if s = a then n else s) = s := by
        intro s hs
        rw [if_neg]
        rintro rfl
        exact hn.1 hs
      simp only [List.idxOf_cons_self, List.set_cons_zero, List.map_cons, if_true]
      rw [List.map_congr_left this, List.map_id']
    · have ho' : o ∈ l := by
        rw [List.mem_cons] at ho
        rcases ho with rfl | ho
        · exact absurd rfl h
        · exact ho
      rw [List.idxOf_cons_ne _ h]
      simp [h, ih hn.2 ho']

theorem renamed_nil (s : String) : renamed [] s = s := by simp [renamed]

theorem renamed_cons (o n : String) (l : List (String × String)) (s : String) :
    renamed ((o, n) :: l) s = if o = s then n else renamed l s := by
  unfold renamed
  rw [List.find?_cons]
  by_cases h : o = s
  · simp [h]
  · have : (o == s) = false := by simpa using h
    simp only [this, h, if_false]

theorem renamed_of_notMem {l : List (String × String)} {s : String} (h : s ∉ l.map Prod.fst) : renamed l s = s := by
  induction l with
  | nil => exact renamed_nil s
  | cons p l ih =>
    obtain ⟨o, n⟩ := p
    simp only [List.map_cons, List.mem_cons, not_or] at h
    rw [renamed_cons, if_neg (Ne.symm h.1), ih h.2]

theorem renameLoop_spec (l : List (String × String)) : ∀ (names seen : List String), names.Nodup →
    (l.map Prod.fst).Nodup → (l.map Prod.snd).Nodup → (∀ p ∈ l, p.1 ∈ names) → (∀ p ∈ l, p.2 = p.1 ∨ p.2 ∉ names) →
    (∀ p ∈ l, p.2 ∉ seen) →
    renameLoop names seen l = (names.map (renamed l), .ok ()) ∧ (names.map (renamed l)).Nodup := by
  induction l with
  | nil =>
    intro names seen hn _ _ _ _ _
    have : names.map (renamed []) = names := by
      rw [List.map_congr_left (fun s _ => renamed_nil s), List.map_id']
    rw [this]
    exact ⟨rfl, hn⟩
  | cons p l ih =>
    obtain ⟨o, n⟩ := p
    intro names seen hn h1 h2 h3 h4 h5
    simp only [List.map_cons, List.nodup_cons] at h1 h2
    have ho : o ∈ names := h3 (o, n) List.mem_cons_self
    have hns : n ∉ seen := h5 (o, n) List.mem_cons_self
    have hset := set_idxOf hn (n := n) ho
    have hn' : (names.map (fun s => if s = o then n else s)).Nodup := by
      refine List.Nodup.map_on ?_ hn
      intro x hx y hy hxy
      have hfresh := h4 (o, n) List.mem_cons_self
      simp only at hfresh
      by_cases a : x = o <;> by_cases b : y = o
      · rw [a, b]
      · simp only [a, b, if_true, if_false] at hxy
        rcases hfresh with rfl | hf
        · exact absurd hxy.symm b
        · exact absurd (hxy ▸ hy) hf
      · simp only [a, b, if_true, if_false] at hxy
        rcases hfresh with rfl | hf
        · exact absurd hxy a
        · exact absurd (hxy ▸ hx) hf
      · simpa [a, b] using hxy
    have hmem : ∀ s, s ∈ names.map (fun s => if s = o then n else s) → s = n ∨ s ∈ names := by
      intro s hs
      obtain ⟨t, ht, rfl⟩ := List.mem_map.1 hs
      by_cases a : t = o
      · simp [a]
      · simp only [a, if_false]; exact Or.inr ht
    have key := ih (names.map (fun s => if s = o then n else s)) (seen ++ [n]) hn' h1.2 h2.2 ?_ ?_ ?_
    · have heq : (names.map (fun s => if s = o then n else s)).map (renamed l) = names.map (renamed ((o, n) :: l)) := by
        rw [List.map_map]
        refine List.map_congr_left (fun s hs => ?_)
        simp only [Function.comp_apply, renamed_cons]
        by_cases a : s = o
        · subst a
          simp only [if_true]
          apply renamed_of_notMem
          intro hc
          obtain ⟨q, hq, hq'⟩ := List.mem_map.1 hc
          rcases h4 (s, n) List.mem_cons_self with h | h
          · simp only at h
            rw [h] at hc
            exact h1.1 hc
          · simp only at h
            exact h (hq' ▸ h3 q (List.mem_cons_of_mem _ hq))
        · simp [a, Ne.symm a]
      rw [renameLoop, if_neg (not_not.2 ho), if_neg hns, hset, key.1, heq]
      exact ⟨rfl, heq ▸ key.2⟩
    · intro q hq
      have hne : q.1 ≠ o := by
        rintro h
        exact h1.1 (List.mem_map.2 ⟨q, hq, h⟩)
      exact List.mem_map.2 ⟨q.1, h3 q (List.mem_cons_of_mem _ hq), by simp [hne]⟩
    · intro q hq
      rcases h4 q (List.mem_cons_of_mem _ hq) with h | h
      · exact Or.inl h
      · right
        intro hc
        rcases hmem _ hc with h' | h'
        · exact h2.1 (List.mem_map.2 ⟨q, hq, h'⟩)
        · exact h h'
    · intro q hq hc
      rw [List.mem_append, List.mem_singleton] at hc
      rcases hc with hc | hc
      · exact h5 q (List.mem_cons_of_mem _ hq) hc
      · exact h2.1 (List.mem_map.2 ⟨q, hq, hc⟩)

/-! ### Lookup -/

theorem denotes_name {l : List String} {s : String} (h : s ∈ l) : Denotes (some l) (.name s) (l.idxOf s : ℕ) := by
  refine ⟨l, rfl, l.idxOf s, rfl, ?_, ?_⟩
  · rw [List.getElem?_eq_getElem (List.idxOf_lt_length_iff.2 h), List.getElem_idxOf]
  · intro m hm hc
    obtain ⟨hlt, hms⟩ := List.getElem?_eq_some_iff.1 hc
    have := List.not_of_lt_findIdx (p := fun x => x == s) (xs := l) (i := m) (by simpa [List.idxOf] using hm)
    simp [hms] at this

theorem resolveKey_denotes {names : Option (List String)} {k : Key} {i : ℤ} (h : resolveKey names k = .ok i) : Denotes names k i := by
  unfold resolveKey at h
  split at h
  · simp only [Except.ok.injEq] at h; exact h
  · split at h
    · simp at h
    · split at h
      · rename_i l hs
        simp only [Except.ok.injEq] at h
        rw [← h]
        exact denotes_name hs
      · simp at h

theorem denotes_unique {names : Option (List String)} {k : Key} {i j : ℤ} (h : Denotes names k i) (h' : Denotes names k j) : i = j := by
  cases k with
  | index m => exact h.symm.trans h'
  | name s =>
    obtain ⟨l, rfl, a, rfl, ha, ha'⟩ := h
    obtain ⟨l', hl, b, rfl, hb, hb'⟩ := h'
    simp only [Option.some.injEq] at hl
    subst hl
    rcases lt_trichotomy a b with hab | hab | hab
    · exact absurd ha (hb' a hab)
    · rw [hab]
    · exact absurd hb (ha' b hab)

theorem resolveLoop_nodup (names : Option (List String)) (l : List (Key × ℝ)) : ∀ d d' : List (ℤ × ℝ),
    (d.map Prod.fst).Nodup → resolveLoop names d l = .ok d' → (d'.map Prod.fst).Nodup := by
  induction l with
  | nil => intro d d' hd h; simp only [resolveLoop, Except.ok.injEq] at h; exact h ▸ hd
  | cons p l ih =>
    obtain ⟨k, v⟩ := p
    intro d d' hd h
    rw [resolveLoop] at h
    split at h
    · simp at h
    · exact ih _ _ (nodup_dictSet _ _ _ hd) h

theorem resolveLoop_get (names : Option (List String)) (l : List (Key × ℝ)) : ∀ d d' : List (ℤ × ℝ),
    resolveLoop names d l = .ok d' →
    (∀ p ∈ l, ∃ i, Denotes names p.1 i) ∧
    (∀ i, (∀ p ∈ l, ¬ Denotes names p.1 i) → dictGet i d' = dictGet i d) ∧
    (∀ l1 l2 k v i, l = l1 ++ (k, v) :: l2 → Denotes names k i → (∀ p ∈ l2, ¬ Denotes names p.1 i) → dictGet i d' = some v) := by
  induction l with
  | nil =>
    intro d d' h
    simp only [resolveLoop, Except.ok.injEq] at h
    subst h
    exact ⟨by simp, fun _ _ => rfl, by simp⟩
  | cons p l ih =>
    obtain ⟨k, v⟩ := p
    intro d d' h
    rw [resolveLoop] at h
    split at h
    · simp at h
    rename_i j hj
    have hd := resolveKey_denotes hj
    obtain ⟨h1, h2, h3⟩ := ih _ _ h
    refine ⟨?_, ?_, ?_⟩
    · intro q hq
      rw [List.mem_cons] at hq
      rcases hq with rfl | hq
      · exact ⟨j, hd⟩
      · exact h1 q hq
    · intro i hi
      rw [h2 i (fun p hp => hi p (List.mem_cons_of_mem _ hp)), dictGet_set, if_neg]
      rintro rfl
      exact hi (k, v) List.mem_cons_self hd
    · intro l1 l2 k' v' i hl hk' hp
      cases l1 with
      | nil =>
        simp only [List.nil_append, List.cons.injEq, Prod.mk.injEq] at hl
        obtain ⟨⟨rfl, rfl⟩, rfl⟩ := hl
        rw [h2 i hp, dictGet_set, if_pos (denotes_unique hk' hd)]
      | cons q l1 =>
        simp only [List.cons_append, List.cons.injEq] at hl
        obtain ⟨rfl, rfl⟩ := hl
        exact h3 l1 l2 k' v' i rfl hk' hp

theorem resolveLoop_error (names : Option (List String)) (l : List (Key × ℝ)) : ∀ (d : List (ℤ × ℝ)) e,
    resolveLoop names d l = .error e → e = .value ∧ ∃ s v, (Key.name s, v) ∈ l ∧ ∀ i, ¬ Denotes names (.name s) i := by
  induction l with
  | nil => intro d e h; simp [resolveLoop] at h
  | cons p l ih =>
    obtain ⟨k, v⟩ := p
    intro d e h
    rw [resolveLoop] at h
    split at h
    · rename_i e' he
      simp only [Except.error.injEq] at h
      subst h
      unfold resolveKey at he
      split at he
      · simp at he
      · rename_i s
        split at he
        · simp only [Except.error.injEq] at he
          refine ⟨he.symm, s, v, List.mem_cons_self, ?_⟩
          rintro i ⟨l', hl, -⟩
          simp at hl
        · rename_i l'
          split at he
          · simp at he
          · rename_i hs
            simp only [Except.error.injEq] at he
            refine ⟨he.symm, s, v, List.mem_cons_self, ?_⟩
            rintro i ⟨l'', hl, a, -, ha, -⟩
            simp only [Option.some.injEq] at hl
            subst hl
            exact hs (List.mem_of_getElem? ha)
    · obtain ⟨h1, s, v', hs, hn⟩ := ih _ _ h
      exact ⟨h1, s, v', List.mem_cons_of_mem _ hs, hn⟩

end Verif.Config
