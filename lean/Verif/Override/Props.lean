import Verif.Override.Lemmas
import Mathlib.Logic.Function.Iterate

/-!
# Property C183: methods that override a cached method
-/

namespace Verif.Override

variable {α β ε : Type} [DecidableEq α]

/-- C183: objects without `__dict__`. Whatever the classes do and whichever methods are cached, the calls end as without caches. -/
theorem C183_slots (C : List (Method α β ε)) {n : Nat} (hn : 2 * C.length + 2 ≤ n) (as : List α) : session C n as (fresh false) = as.map (eval C) :=
  session_right (.inl rfl) hn as (fresh_rest C false)

/-- C183: objects with `__dict__`, if `super()` does not lead to a cached method. The first class may be cached, and `Base.method(self, ...)` may lead to cached methods. Without this condition the claim is
false, see below. -/
theorem C183_dict_partial (C : List (Method α β ε)) (hC : NoCachedSuper C) {n : Nat} (hn : 2 * C.length + 2 ≤ n) (as : List α) : session C n as (fresh true) = as.map (eval C) :=
  session_right (.inr hC) hn as (fresh_rest C true)

/-- A class with a method that continues with the next class, and one which computes `f`. -/
def extended (cached : Bool) (direct : Bool) (g : α → α) (k : β → β) (f : α → β) : List (Method α β ε) :=
  [⟨cached, fun a => if direct then .base (g a) k else .super (g a) k⟩, ⟨true, fun a => .done (f a)⟩]

omit [DecidableEq α] in
/-- Without caches both compute `k (f (g a))`. -/
theorem eval_extended (cached direct : Bool) (g : α → α) (k : β → β) (f : α → β) (a : α) : eval (extended cached direct g k f) a = (.value (k (f (g a))) : Outcome β ε) := by
  cases direct <;> rfl

/-- Both theorems apply to these classes: in objects without `__dict__`, and with `Base.method(self, ...)`. -/
example (k : ℤ → ℤ) (f : ℤ → ℤ) : session (extended (ε := Unit) true false id k f) 10 [1, 2, 1] (fresh false) = [.value (k (f 1)), .value (k (f 2)), .value (k (f 1))] :=
  (C183_slots _ (by simp [extended]) _).trans (by simp only [List.map_cons, List.map_nil, eval_extended, id])

example (k : ℤ → ℤ) (f : ℤ → ℤ) : session (extended (ε := Unit) true true id k f) 10 [1, 2, 1] (fresh true) = [.value (k (f 1)), .value (k (f 2)), .value (k (f 1))] :=
  (C183_dict_partial _ (by
    rintro (_ | _ | j) m m' hm hm' _ a b k'
    · obtain rfl := Option.some.inj hm
      simp
    · simp [extended] at hm'
    · simp [extended] at hm) (by simp [extended]) _).trans (by simp only [List.map_cons, List.map_nil, eval_extended, id])

/-- C183 is false for objects with `__dict__`, first case: the new method has no cache of its own, as in a subclass of `StatisticalModel` that extends `maximize_likelihood`. Its first call stores the
wrapper of the base class in the object, where it hides the new method: all later calls skip it. -/
theorem C183_lost_fails (g : α → α) (k : β → β) (f : α → β) {n : Nat} (hn : 3 ≤ n) (a : α) (as : List α) :
    session (extended (ε := ε) false false g k f) n (a :: as) (fresh true) = .value (k (f (g a))) :: as.map fun b => .value (f b) := by
  obtain ⟨n, rfl⟩ : ∃ m, n = m + 3 := ⟨n - 3, by omega⟩
  have key : ∀ as (s : State α β), s.stored = some 1 → (∀ b e, s.cache 1 b = some e → e = .result (f b)) →
      session (extended (ε := ε) false false g k f) (n + 3) as s = as.map fun b => .value (f b) := by
    intro as
    induction as with
    | nil => intro s _ _; rfl
    | cons b as ih =>
      intro s h1 h2
      have hu : (use (extended (ε := ε) false false g k f) (n + 3) b s).1 = .value (f b) ∧ (use (extended (ε := ε) false false g k f) (n + 3) b s).2.stored = some 1 ∧
          ∀ c e, (use (extended (ε := ε) false false g k f) (n + 3) b s).2.cache 1 c = some e → e = .result (f c) := by
        cases hc : s.cache 1 b with
        | some e =>
          obtain rfl := h2 b e hc
          have : use (extended (ε := ε) false false g k f) (n + 3) b s = (.value (f b), s) := by simp [use, access, h1, call, hc]
          rw [this]
          exact ⟨rfl, h1, h2⟩
        | none =>
          have : use (extended (ε := ε) false false g k f) (n + 3) b s = (.value (f b), put 1 b (some (.result (f b))) (put 1 b (some .computing) s)) := by
            simp [use, access, h1, call, hc, extended]
          rw [this]
          refine ⟨rfl, h1, fun c e he => ?_⟩
          simp only [put, true_and] at he
          split at he
          · next h => subst h; simpa using he.symm
          · exact h2 c e he
      obtain ⟨u1, u2, u3⟩ := hu
      simp only [session, List.map_cons, u1, ih _ u2 u3]
  have h0 : use (extended (ε := ε) false false g k f) (n + 3) a (fresh true) =
      (.value (k (f (g a))), put 1 (g a) (some (.result (f (g a)))) (put 1 (g a) (some .computing) { fresh true with stored := some 1 })) := by
    simp [use, access, lookup, descriptor, fresh, call, extended]
  simp only [session, h0]
  congr 1
  refine key as _ rfl fun b e he => ?_
  simp only [put, true_and, fresh] at he
  split at he
  · next h => subst h; simpa using he.symm
  · cases he

/-- Second case: both methods are cached, as when every subclass gets the decorator. The wrapper in the object is that of the new method, which `super()` calls again: with the same arguments the thread
waits for its own result, forever. -/
theorem C183_waits_fails (k : β → β) (f : α → β) {n : Nat} (hn : 3 ≤ n) (a : α) : (use (extended (ε := ε) true false id k f) n a (fresh true)).1 = .waits := by
  obtain ⟨n, rfl⟩ : ∃ m, n = m + 3 := ⟨n - 3, by omega⟩
  simp [use, access, lookup, descriptor, fresh, call, extended, put]

/-- With new arguments each time it calls itself until the interpreter gives up, whatever depth is allowed. -/
theorem C183_deep_fails (g : α → α) (k : β → β) (f : α → β) (n : Nat) (a : α) (hg : ∀ i j, g^[i] a = g^[j] a → i = j) :
    (use (extended (ε := ε) true false g k f) n a (fresh true)).1 = .deep := by
  have key : ∀ n i (s : State α β), s.dict = true → s.stored = some 0 → (∀ j, i ≤ j → s.cache 0 (g^[j] a) = none) → (call (extended (ε := ε) true false g k f) n (.wrapper 0) (g^[i] a) s).1 = .deep := by
    intro n
    induction n using Nat.strong_induction_on with
    | _ n ih =>
      intro i s h1 h2 h3
      match n, ih with
      | 0, _ => rfl
      | 1, _ => simp [call, h3 i le_rfl]
      | n + 2, ih =>
        have hl : lookup (extended (ε := ε) true false g k f) 1 (put 0 (g^[i] a) (some .computing) s) = some (.wrapper 0, put 0 (g^[i] a) (some .computing) s) := by
          simp [lookup, extended, descriptor, put, h1, h2]
        have := ih n (by omega) (i + 1) (put 0 (g^[i] a) (some .computing) s) h1 h2 (fun j hj => by
          have : g^[j] a ≠ g^[i] a := fun h => by have := hg _ _ h; omega
          simp only [put, this, and_false, if_false]
          exact h3 j (by omega))
        rw [Function.iterate_succ_apply'] at this
        have hb : (extended (ε := ε) true false g k f)[0]? = some ⟨true, fun a => if false = true then .base (g a) k else .super (g a) k⟩ := rfl
        have hcall : call (extended (ε := ε) true false g k f) (n + 1) (.plain 0) (g^[i] a) (put 0 (g^[i] a) (some .computing) s) =
            (.deep, (call (extended (ε := ε) true false g k f) n (.wrapper 0) (g (g^[i] a)) (put 0 (g^[i] a) (some .computing) s)).2) := by
          rw [call, hb]
          simp only [Bool.false_eq_true, if_false, Nat.zero_add, hl]
          generalize call (extended (ε := ε) true false g k f) n (.wrapper 0) (g (g^[i] a)) (put 0 (g^[i] a) (some .computing) s) = r at this
          obtain ⟨o, t⟩ := r
          obtain rfl : o = .deep := this
          rfl
        rw [call]
        simp only [h3 i le_rfl, hcall]
  have := key n 0 { fresh true with stored := some 0 } rfl rfl (fun _ _ => rfl)
  simpa [use, access, lookup, descriptor, fresh, extended] using this

/-- Two calls with the same argument end differently. -/
example : session (extended (ε := Unit) false false id (fun x : ℤ => x + 10) fun x => x) 5 [1, 1] (fresh true) = [.value 11, .value 1] :=
  C183_lost_fails id _ _ (by norm_num) 1 [1]

/-- The next number each time. -/
example : (use (extended (ε := Unit) true false (fun x : ℕ => x + 1) id id) 1000 0 (fresh true)).1 = .deep :=
  C183_deep_fails _ _ _ _ _ fun i j h => by
    have e : ∀ i, (fun x : ℕ => x + 1)^[i] 0 = i := fun i => by
      induction i with
      | zero => rfl
      | succ i ih => rw [Function.iterate_succ_apply', ih]
    rwa [e, e] at h

end Verif.Override
