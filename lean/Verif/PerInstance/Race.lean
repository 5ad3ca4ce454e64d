import Mathlib.Logic.Function.Basic
import Mathlib.Data.List.Basic

/-!
# Model of the first access to a cached method by several threads

`_PerInstanceCacheDescriptor.__get__` and `_get_fallback` of `/repo/src/spey/system/cache.py` L191-225, for one object and one method. `Verif/PerInstance/Model.lean` treats the access as one
step; here the look-up and the store of an object with `__dict__` are two steps, since no lock is held between them.
-/

namespace Verif.PerInstance.Race

/-- Where a thread is in `obj.method`: before, after a look-up that found nothing (L199-200), or back with the wrapper of this number. -/
inductive Pc
  | before | missed | got (w : ℕ)
  deriving DecidableEq

/-- The entry of the object (in its `__dict__`, or in `_fallback_wrappers`), the number of wrappers built so far, and the threads. -/
structure State where
  entry : Option ℕ
  built : ℕ
  pc : ℕ → Pc

/-- The state before the first access. -/
def init : State := ⟨none, 0, fun _ => .before⟩

/-- A step of thread `i` for an object with `__dict__`: the look-up L199-200 (which Python itself does first, with the same outcome), or building and storing, L201-205. -/
def stepDict (s : State) (i : ℕ) : State :=
  match s.pc i with
  | .before =>
    match s.entry with
    | some w => { s with pc := Function.update s.pc i (.got w) }
    | none => { s with pc := Function.update s.pc i .missed }
  | .missed => ⟨some s.built, s.built + 1, Function.update s.pc i (.got s.built)⟩
  | .got _ => s

/-- A step of thread `i` for an object without `__dict__`: `_get_fallback`, L209-225, under the lock. -/
def stepSlots (s : State) (i : ℕ) : State :=
  match s.pc i with
  | .before =>
    match s.entry with
    | some w => { s with pc := Function.update s.pc i (.got w) }
    | none => ⟨some s.built, s.built + 1, Function.update s.pc i (.got s.built)⟩
  | .missed => s
  | .got _ => s

/-- A schedule: the threads in the order of their steps. -/
def run (step : State → ℕ → State) (schedule : List ℕ) : State := schedule.foldl step init

/-! ## Lemmas -/

theorem run_append (step : State → ℕ → State) (a b : List ℕ) : run step (a ++ b) = b.foldl step (run step a) := by simp [run]

/-- Once there is an entry and no thread is between look-up and store, the entry stays and every thread gets it. -/
theorem dict_settled (w : ℕ) (l : List ℕ) : ∀ s : State, s.entry = some w → (∀ i, s.pc i = .before ∨ s.pc i = .got w) →
    (l.foldl stepDict s).entry = some w ∧ (l.foldl stepDict s).built = s.built ∧ ∀ i, (l.foldl stepDict s).pc i = .before ∨ (l.foldl stepDict s).pc i = .got w := by
  induction l with
  | nil => intro s h1 h2; exact ⟨h1, rfl, h2⟩
  | cons j l ih =>
    intro s h1 h2
    have hs : stepDict s j = s ∨ stepDict s j = { s with pc := Function.update s.pc j (.got w) } := by
      unfold stepDict
      rcases h2 j with h | h <;> rw [h]
      · right; rw [h1]
      · left; rfl
    rw [List.foldl_cons]
    rcases hs with hs | hs <;> rw [hs]
    · exact ih s h1 h2
    · refine ih _ h1 fun i => ?_
      simp only [Function.update_apply]
      split
      · exact Or.inr rfl
      · exact h2 i

theorem slots_invariant (l : List ℕ) : ∀ s : State, (∀ i, s.pc i = .before ∨ ∃ w, s.entry = some w ∧ s.pc i = .got w) → s.built = (if s.entry.isSome then 1 else 0) →
    (∀ i, (l.foldl stepSlots s).pc i = .before ∨ ∃ w, (l.foldl stepSlots s).entry = some w ∧ (l.foldl stepSlots s).pc i = .got w) ∧
      (l.foldl stepSlots s).built = (if (l.foldl stepSlots s).entry.isSome then 1 else 0) := by
  induction l with
  | nil => intro s h1 h2; exact ⟨h1, h2⟩
  | cons j l ih =>
    intro s h1 h2
    rw [List.foldl_cons]
    rcases h1 j with h | ⟨w, -, h⟩
    · cases he : s.entry with
      | some w =>
        have : stepSlots s j = { s with pc := Function.update s.pc j (.got w) } := by unfold stepSlots; rw [h]; simp only [he]
        rw [this]
        refine ih _ (fun i => ?_) h2
        simp only [Function.update_apply]
        split
        · exact Or.inr ⟨w, he, rfl⟩
        · exact h1 i
      | none =>
        have : stepSlots s j = ⟨some s.built, s.built + 1, Function.update s.pc j (.got s.built)⟩ := by unfold stepSlots; rw [h]; simp only [he]
        rw [this]
        refine ih _ (fun i => ?_) (by simp [h2, he])
        simp only [Function.update_apply]
        split
        · exact Or.inr ⟨_, rfl, rfl⟩
        · rcases h1 i with h' | ⟨w, hw, -⟩
          · exact Or.inl h'
          · rw [he] at hw; cases hw
    · have : stepSlots s j = s := by unfold stepSlots; rw [h]
      rw [this]
      exact ih s h1 h2

end Verif.PerInstance.Race
