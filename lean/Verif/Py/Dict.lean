/-!
# Python dictionaries

A Python `dict` as an insertion-ordered association list. Only the behaviour used by the modelled code is
given: `d.get(k)`, `k in d`, `d[k] = v` (an existing key keeps its position), `d.pop(k, None)` / `del d[k]`,
`len(d)`. All dictionaries built by these operations from `[]` have unique keys (`Dict.Wf`).
-/

namespace Verif.Py

/-- Python `dict`: list of key/value pairs, oldest insertion first. -/
abbrev Dict (K V : Type _) := List (K × V)

namespace Dict

variable {K V : Type _} [DecidableEq K]

/-- `d.get(k)` -/
def get? : Dict K V → K → Option V
  | [], _ => none
  | (k', v) :: d, k => if k' = k then some v else get? d k

/-- `d[k] = v` -/
def set : Dict K V → K → V → Dict K V
  | [], k, v => [(k, v)]
  | (k', v') :: d, k, v => if k' = k then (k, v) :: d else (k', v') :: set d k v

/-- `d.pop(k, None)`; also `del d[k]` for a present key. -/
def erase : Dict K V → K → Dict K V
  | [], _ => []
  | (k', v') :: d, k => if k' = k then d else (k', v') :: erase d k

/-- `d.keys()` -/
def keys (d : Dict K V) : List K := d.map Prod.fst

/-- `k in d` -/
def has (d : Dict K V) (k : K) : Bool := (get? d k).isSome

/-- Unique keys: what Python guarantees for every dict. -/
def Wf (d : Dict K V) : Prop := (keys d).Nodup

@[simp] theorem get?_nil (k : K) : get? ([] : Dict K V) k = none := rfl
omit [DecidableEq K] in
@[simp] theorem keys_nil : keys ([] : Dict K V) = [] := rfl
omit [DecidableEq K] in
@[simp] theorem wf_nil : Wf ([] : Dict K V) := List.nodup_nil

theorem get?_cons (k' : K) (v : V) (d : Dict K V) (k : K) :
    get? ((k', v) :: d) k = if k' = k then some v else get? d k := rfl

theorem get?_set (d : Dict K V) (k k' : K) (v : V) :
    get? (set d k v) k' = if k = k' then some v else get? d k' := by
  induction d with
  | nil => simp [set, get?]
  | cons p d ih =>
    obtain ⟨a, b⟩ := p
    simp only [set]
    split
    · subst_vars; simp only [get?]; split <;> rfl
    · simp only [get?, ih]
      split
      · subst_vars; split
        · subst_vars; contradiction
        · rfl
      · rfl

@[simp] theorem get?_set_self (d : Dict K V) (k : K) (v : V) : get? (set d k v) k = some v := by
  simp [get?_set]

theorem get?_set_ne (d : Dict K V) {k k' : K} (h : k ≠ k') (v : V) :
    get? (set d k v) k' = get? d k' := by
  simp [get?_set, h]

theorem get?_eq_none_iff (d : Dict K V) (k : K) : get? d k = none ↔ k ∉ keys d := by
  induction d with
  | nil => simp [keys]
  | cons p d ih =>
    obtain ⟨a, b⟩ := p
    simp only [get?, keys, List.map_cons, List.mem_cons, not_or]
    by_cases h : a = k
    · simp [h]
    · simp only [h, if_false, ih, keys]
      exact ⟨fun h' => ⟨fun e => h e.symm, h'⟩, fun h' => h'.2⟩

theorem mem_keys_iff (d : Dict K V) (k : K) : k ∈ keys d ↔ ∃ v, get? d k = some v := by
  have := get?_eq_none_iff d k
  cases h : get? d k with
  | none => simp [h] at this ⊢; exact this
  | some v => simp [h] at this ⊢; exact this

theorem mem_keys_of_get? {d : Dict K V} {k : K} {v : V} (h : get? d k = some v) : k ∈ keys d :=
  (mem_keys_iff d k).2 ⟨v, h⟩

theorem mem_of_get? {d : Dict K V} {k : K} {v : V} (h : get? d k = some v) : (k, v) ∈ d := by
  induction d with
  | nil => simp at h
  | cons p d ih =>
    obtain ⟨a, b⟩ := p
    simp only [get?] at h
    split at h
    · cases h; subst_vars; simp
    · exact List.mem_cons_of_mem _ (ih h)

theorem get?_of_mem {d : Dict K V} (hw : Wf d) {k : K} {v : V} (h : (k, v) ∈ d) :
    get? d k = some v := by
  induction d with
  | nil => simp at h
  | cons p d ih =>
    obtain ⟨a, b⟩ := p
    simp only [Wf, keys, List.map_cons, List.nodup_cons] at hw
    rcases List.mem_cons.1 h with h | h
    · cases h; simp [get?]
    · have hne : a ≠ k := by
        intro e; subst e
        exact hw.1 (List.mem_map.2 ⟨(a, v), h, rfl⟩)
      simp only [get?, hne, if_false]
      exact ih hw.2 h

theorem keys_set (d : Dict K V) (k : K) (v : V) :
    keys (set d k v) = if k ∈ keys d then keys d else keys d ++ [k] := by
  induction d with
  | nil => simp [set, keys]
  | cons p d ih =>
    obtain ⟨a, b⟩ := p
    simp only [keys, set] at ih ⊢
    by_cases h : a = k
    · simp [h]
    · have h' : ¬ k = a := fun e => h e.symm
      simp only [h, if_false, List.map_cons, ih, List.mem_cons, h', false_or]
      split <;> simp_all

theorem set_of_not_mem {d : Dict K V} {k : K} (h : k ∉ keys d) (v : V) :
    set d k v = d ++ [(k, v)] := by
  induction d with
  | nil => simp [set]
  | cons p d ih =>
    obtain ⟨a, b⟩ := p
    simp only [keys, List.map_cons, List.mem_cons, not_or] at h
    have : ¬ a = k := fun e => h.1 e.symm
    simp only [set, this, if_false, List.cons_append]
    rw [ih h.2]

theorem mem_keys_set (d : Dict K V) (k k' : K) (v : V) :
    k' ∈ keys (set d k v) ↔ k' = k ∨ k' ∈ keys d := by
  rw [keys_set]
  split
  · constructor
    · exact Or.inr
    · rintro (rfl | h) <;> assumption
  · simp [or_comm]

theorem length_set (d : Dict K V) (k : K) (v : V) :
    (set d k v).length = if k ∈ keys d then d.length else d.length + 1 := by
  have h := congrArg List.length (keys_set d k v)
  by_cases hk : k ∈ keys d
  · rw [if_pos hk] at h ⊢
    simpa [keys] using h
  · rw [if_neg hk] at h ⊢
    simpa [keys] using h

theorem Wf.set {d : Dict K V} (h : Wf d) (k : K) (v : V) : Wf (set d k v) := by
  unfold Wf
  rw [keys_set]
  split
  · exact h
  · rename_i hn
    rw [List.nodup_append]
    refine ⟨h, by simp, ?_⟩
    intro a ha b hb
    simp at hb; subst hb
    intro e; subst e; exact hn ha

theorem keys_erase (d : Dict K V) (k : K) : keys (erase d k) = (keys d).erase k := by
  induction d with
  | nil => simp [erase, keys]
  | cons p d ih =>
    obtain ⟨a, b⟩ := p
    simp only [erase, keys, List.map_cons] at ih ⊢
    by_cases h : a = k
    · simp [h]
    · simp [h, ih]

theorem Wf.erase {d : Dict K V} (h : Wf d) (k : K) : Wf (erase d k) := by
  unfold Wf; rw [keys_erase]; exact List.Nodup.erase k h

theorem get?_erase {d : Dict K V} (h : Wf d) (k k' : K) :
    get? (erase d k) k' = if k = k' then none else get? d k' := by
  induction d with
  | nil => simp [erase]
  | cons p d ih =>
    obtain ⟨a, b⟩ := p
    simp only [Wf, keys, List.map_cons, List.nodup_cons] at h
    simp only [erase]
    by_cases hak : a = k
    · subst hak
      simp only [if_true]
      by_cases hk : a = k'
      · subst hk
        simp only [if_true]
        exact (get?_eq_none_iff d a).2 h.1
      · simp [get?, hk]
    · simp only [hak, if_false, get?]
      rw [ih h.2]
      by_cases hk : k = k'
      · subst hk; simp [hak]
      · simp [hk]

theorem mem_keys_erase {d : Dict K V} (h : Wf d) (k k' : K) :
    k' ∈ keys (erase d k) ↔ k' ≠ k ∧ k' ∈ keys d := by
  rw [keys_erase, List.Nodup.mem_erase_iff h]

theorem erase_of_not_mem {d : Dict K V} {k : K} (h : k ∉ keys d) : erase d k = d := by
  induction d with
  | nil => rfl
  | cons p d ih =>
    obtain ⟨a, b⟩ := p
    simp only [keys, List.map_cons, List.mem_cons, not_or] at h
    have : ¬ a = k := fun e => h.1 e.symm
    simp only [erase, this, if_false]
    rw [ih h.2]

theorem length_erase_of_mem {d : Dict K V} {k : K} (h : k ∈ keys d) :
    (erase d k).length + 1 = d.length := by
  have h1 := congrArg List.length (keys_erase d k)
  rw [List.length_erase_of_mem h] at h1
  simp only [keys, List.length_map] at h1 h
  have : 0 < d.length := by
    cases d with
    | nil => simp at h
    | cons => simp
  omega

end Dict
end Verif.Py
