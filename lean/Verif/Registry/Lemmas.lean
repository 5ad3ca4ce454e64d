import Verif.Registry.Spec

/-!
# Lemmas on the registry
-/

namespace Verif.Registry
open Verif.Py

theorem not_mem_keys {name : String} {d : List (String × Entry)} : name ∉ d.map Prod.fst ↔ ∀ e, (name, e) ∉ d := by
  constructor
  · intro h e he
    exact h (List.mem_map_of_mem (f := Prod.fst) he)
  · intro h hm
    rw [List.mem_map] at hm
    obtain ⟨⟨a, e⟩, he, rfl⟩ := hm
    exact h e he

theorem checkRegister_ok {spec : Spec} {w : World} {c : ℕ} {name : String} :
    checkRegister spec w c = .ok name ↔ Admissible spec w c name := by
  unfold checkRegister
  constructor
  · intro h
    split at h
    · simp at h
    · rename_i hk
      split at h
      · simp at h
      · rename_i ha
        split at h
        · rename_i req n hr hn
          split at h
          · simp at h
          · rename_i hf
            split at h
            · simp at h
            · simp at h
            · rename_i hs
              simp only [Except.ok.injEq] at h
              subst h
              simp only [ne_eq, not_not] at hk ha
              refine ⟨hk, by simp [ha], hn, not_mem_keys.mp hf, req, hr, hs⟩
        · simp at h
  · rintro ⟨hk, ha, hn, hf, req, hr, hs⟩
    have ha' : (w.classes c).abstractMethods = [] := List.eq_nil_iff_forall_not_mem.mpr ha
    rw [if_neg (not_not.mpr hk), if_neg (not_not.mpr ha')]
    simp only [hr, hn]
    rw [if_neg (not_mem_keys.mpr hf)]
    simp [hs]

theorem dictSet_new {k : String} {v : Entry} {d : List (String × Entry)} (h : ∀ e, (k, e) ∉ d) :
    dictSet k v d = d ++ [(k, v)] := by
  induction d with
  | nil => rfl
  | cons p d ih =>
    obtain ⟨a, b⟩ := p
    have ha : a ≠ k := by
      rintro rfl
      exact h b List.mem_cons_self
    simp only [dictSet, ha, if_false, List.cons_append]
    rw [ih (fun e he => h e (List.mem_cons_of_mem _ he))]

theorem mem_dictSet {k n : String} {v e : Entry} {d : List (String × Entry)} (h : (n, e) ∈ dictSet k v d) :
    (n = k ∧ e = v) ∨ (n, e) ∈ d := by
  induction d with
  | nil => left; simpa [dictSet] using h
  | cons p d ih =>
    obtain ⟨a, b⟩ := p
    by_cases ha : a = k
    · simp only [dictSet, ha, if_true, List.mem_cons] at h
      rcases h with h | h
      · left; simpa using h
      · right; exact List.mem_cons_of_mem _ h
    · simp only [dictSet, ha, if_false, List.mem_cons] at h
      rcases h with h | h
      · right; rw [h]; exact List.mem_cons_self
      · rcases ih h with h | h
        · exact Or.inl h
        · exact Or.inr (List.mem_cons_of_mem _ h)

theorem unique_update {d found : List (String × Entry)} (h : (d.map Prod.fst).Nodup) :
    ((update d found).map Prod.fst).Nodup := by
  induction found generalizing d with
  | nil => exact h
  | cons p found ih => exact ih (nodup_dictSet _ _ _ h)

theorem mem_update {d found : List (String × Entry)} {n : String} {e : Entry} (h : (n, e) ∈ update d found) :
    (n, e) ∈ found ∨ (n, e) ∈ d := by
  induction found generalizing d with
  | nil => exact Or.inr h
  | cons p found ih =>
    obtain ⟨k, v⟩ := p
    rcases ih h with h | h
    · exact Or.inl (List.mem_cons_of_mem _ h)
    · rcases mem_dictSet h with ⟨rfl, rfl⟩ | h
      · exact Or.inl List.mem_cons_self
      · exact Or.inr h

theorem dictGet_update {d found : List (String × Entry)} {n : String} (h : ∀ e, (n, e) ∉ found) :
    dictGet n (update d found) = dictGet n d := by
  induction found generalizing d with
  | nil => rfl
  | cons p found ih =>
    obtain ⟨k, v⟩ := p
    rw [update, ih (fun e he => h e (List.mem_cons_of_mem _ he)), dictGet_set]
    have : n ≠ k := by
      rintro rfl
      exact h v List.mem_cons_self
    simp [this]

theorem dictGet_update_mem {d found : List (String × Entry)} {n : String} (h : ∃ e, (n, e) ∈ found) :
    ∃ e, (n, e) ∈ found ∧ dictGet n (update d found) = some e := by
  induction found generalizing d with
  | nil => obtain ⟨e, he⟩ := h; simp at he
  | cons p found ih =>
    obtain ⟨k, v⟩ := p
    by_cases hr : ∃ e, (n, e) ∈ found
    · obtain ⟨e, he, hg⟩ := ih (d := dictSet k v d) hr
      exact ⟨e, List.mem_cons_of_mem _ he, hg⟩
    · obtain ⟨e, he⟩ := h
      rcases List.mem_cons.mp he with he | he
      · simp only [Prod.mk.injEq] at he
        obtain ⟨rfl, rfl⟩ := he
        refine ⟨e, List.mem_cons_self, ?_⟩
        rw [update, dictGet_update (fun e' he' => hr ⟨e', he'⟩), dictGet_set]
        simp
      · exact absurd ⟨e, he⟩ hr

theorem identify_entries (w : World) (name : String) (c : ℕ) : (identify w name c).1.entries = w.entries := by
  unfold identify
  split
  · rfl
  · split
    · rfl
    · split <;> rfl

theorem get_entries (spec : Spec) (w : World) (name : String) : (getBackend spec w name).1.entries = w.entries := by
  unfold getBackend
  split
  · rfl
  · split
    · rfl
    · rename_i c _
      split
      · rfl
      · have := identify_entries w name c
        split
        · rename_i w' e hi
          rw [hi] at this
          exact this
        · rename_i w' hi
          rw [hi] at this
          exact this

theorem register_ok {spec : Spec} {w : World} {c : ℕ} {name : String} (h : Admissible spec w c name) :
    register spec w c = ({ w with entries := w.entries ++ [(name, .cls c)] }, .ok c) := by
  unfold register
  rw [checkRegister_ok.mpr h]
  simp [dictSet_new h.free]

theorem register_cases (spec : Spec) (w : World) (c : ℕ) :
    (∃ name, Admissible spec w c name ∧ register spec w c = ({ w with entries := w.entries ++ [(name, .cls c)] }, .ok c)) ∨
    ((∀ name, ¬ Admissible spec w c name) ∧ ∃ e, register spec w c = (w, .error e)) := by
  cases h : checkRegister spec w c with
  | ok name =>
    have := checkRegister_ok.mp h
    exact Or.inl ⟨name, this, register_ok this⟩
  | error e =>
    right
    constructor
    · intro name ha
      rw [checkRegister_ok.mpr ha] at h
      simp at h
    · exact ⟨e, by unfold register; rw [h]⟩

theorem run_append (spec : Spec) (w : World) (a b : List Op) : run spec w (a ++ b) = run spec (run spec w a) b := by
  induction a generalizing w with
  | nil => rfl
  | cons o a ih => exact ih _

/-- What identification does to the classes. -/
theorem identify_ok {w w' : World} {name : String} {c : ℕ} (h : identify w name c = (w', .ok ())) :
    (w'.classes c).name = some name ∧ w'.entries = w.entries ∧ (∀ c', c' ≠ c → w'.classes c' = w.classes c') ∧
    w'.classes c = { w.classes c with name := some name } ∧
    ((w.classes c).name = none ∨ (w.classes c).name = some "" ∨ (w.classes c).name = some name) := by
  unfold identify at h
  split at h
  · rename_i hn
    simp only [Prod.mk.injEq, and_true] at h
    subst h
    exact ⟨by simp, rfl, fun c' hc' => by simp [Function.update_of_ne hc'], by simp, Or.inl hn⟩
  · rename_i n hn
    split at h
    · rename_i he
      simp only [Prod.mk.injEq, and_true] at h
      subst h
      exact ⟨by simp, rfl, fun c' hc' => by simp [Function.update_of_ne hc'], by simp, Or.inr (Or.inl (by rw [hn, he]))⟩
    · split at h
      · rename_i he
        simp only [Prod.mk.injEq, and_true] at h
        subst h
        refine ⟨by rw [hn, he], rfl, fun _ _ => rfl, ?_, Or.inr (Or.inr (by rw [hn, he]))⟩
        rw [← he, ← hn]
      · simp at h

end Verif.Registry
