import Mathlib.Data.List.Basic
import Mathlib.Data.List.Nodup
import Mathlib.Tactic.Linarith

/-!
# Python lists and dictionaries
-/

namespace Verif.Py

/-- The position that index `i` means in a list of length `n`; `none` is an `IndexError`. -/
def slot (n : ℕ) (i : ℤ) : Option ℕ :=
  if 0 ≤ i then (if i < n then some i.toNat else none)
  else if -(n : ℤ) ≤ i then some (i + n).toNat else none

theorem slot_lt {n : ℕ} {i : ℤ} {k : ℕ} (h : slot n i = some k) : k < n := by
  unfold slot at h
  split at h
  · split at h
    · simp only [Option.some.injEq] at h; omega
    · simp at h
  · split at h
    · simp only [Option.some.injEq] at h; omega
    · simp at h

theorem slot_nat {n : ℕ} (k : ℕ) (h : k < n) : slot n (k : ℤ) = some k := by
  unfold slot
  rw [if_pos (by omega), if_pos (by exact_mod_cast h)]
  simp

/-- `d[k] = v` on a dictionary in insertion order. -/
def dictSet {κ α : Type} [DecidableEq κ] (k : κ) (v : α) : List (κ × α) → List (κ × α)
  | [] => [(k, v)]
  | (k', v') :: d => if k' = k then (k, v) :: d else (k', v') :: dictSet k v d

/-- `d[k]`. -/
def dictGet {κ α : Type} [DecidableEq κ] (k : κ) : List (κ × α) → Option α
  | [] => none
  | (k', v') :: d => if k' = k then some v' else dictGet k d

section
variable {κ α : Type} [DecidableEq κ]

theorem dictGet_set (k k' : κ) (v : α) (d : List (κ × α)) :
    dictGet k' (dictSet k v d) = if k' = k then some v else dictGet k' d := by
  induction d with
  | nil =>
    by_cases h : k' = k
    · simp [dictSet, dictGet, h]
    · simp [dictSet, dictGet, h, Ne.symm h]
  | cons p d ih =>
    obtain ⟨a, b⟩ := p
    by_cases ha : a = k
    · by_cases h : k' = k
      · simp [dictSet, dictGet, ha, h]
      · simp [dictSet, dictGet, ha, h, Ne.symm h]
    · by_cases hk : a = k'
      · subst hk
        simp [dictSet, dictGet, ha]
      · simp [dictSet, dictGet, ha, hk, ih]

theorem keys_dictSet (k : κ) (v : α) (d : List (κ × α)) :
    (dictSet k v d).map Prod.fst = if k ∈ d.map Prod.fst then d.map Prod.fst else d.map Prod.fst ++ [k] := by
  induction d with
  | nil => simp [dictSet]
  | cons p d ih =>
    obtain ⟨a, b⟩ := p
    by_cases ha : a = k
    · simp [dictSet, ha]
    · simp only [dictSet, ha, if_false, List.map_cons, ih, List.mem_cons, Ne.symm ha, false_or]
      split <;> simp

theorem nodup_dictSet (k : κ) (v : α) (d : List (κ × α)) (h : (d.map Prod.fst).Nodup) :
    ((dictSet k v d).map Prod.fst).Nodup := by
  rw [keys_dictSet]
  split
  · exact h
  · rename_i hk
    rw [List.nodup_append]
    refine ⟨h, by simp, ?_⟩
    intro a ha b hb
    simp only [List.mem_singleton] at hb
    subst hb
    rintro rfl
    exact hk ha

theorem mem_of_dictGet {k : κ} {v : α} {d : List (κ × α)} (h : dictGet k d = some v) : (k, v) ∈ d := by
  induction d with
  | nil => simp [dictGet] at h
  | cons p d ih =>
    obtain ⟨a, b⟩ := p
    simp only [dictGet] at h
    split at h
    · rename_i hk
      simp only [Option.some.injEq] at h
      simp [hk, h]
    · exact List.mem_cons_of_mem _ (ih h)

theorem dictGet_of_mem {k : κ} {v : α} {d : List (κ × α)} (hd : (d.map Prod.fst).Nodup) (h : (k, v) ∈ d) :
    dictGet k d = some v := by
  induction d with
  | nil => simp at h
  | cons p d ih =>
    obtain ⟨a, b⟩ := p
    simp only [List.map_cons, List.nodup_cons] at hd
    rw [List.mem_cons] at h
    rcases h with h | h
    · simp only [Prod.mk.injEq] at h
      simp [dictGet, h.1, h.2]
    · have hne : a ≠ k := by
        rintro rfl
        exact hd.1 (List.mem_map_of_mem h)
      simp [dictGet, hne, ih hd.2 h]

end

end Verif.Py
