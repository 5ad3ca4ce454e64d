import Verif.Decorate.Spec
import Mathlib.Tactic.Common

/-!
# Property C190: which cache a decorated function gets
-/

namespace Verif.Decorate
variable {T K R X : Type} [DecidableEq T] [DecidableEq K]

/-- Everything stored was computed for its object by one of the calls so far; entries of the shared cache, for an object with that token. -/
structure Inv (fn : ℕ → ℕ → K → Except X R) (tok : ℕ → ℕ → T) (before : List (Access K)) (s : State T K R) : Prop where
  time : s.time = before.length
  separate : ∀ n k r, s.separate.lookup (n, k) = some r → ∃ (j : ℕ) (b : Access K), before[j]? = some b ∧ b.object = n ∧ b.key = k ∧ fn n j k = .ok r
  shared : ∀ t k r, s.shared.lookup (t, k) = some r → ∃ (j : ℕ) (b : Access K), before[j]? = some b ∧ tok b.object j = t ∧ b.key = k ∧ fn b.object j k = .ok r

/-- What one result of a call `a` at position `before.length` may be. -/
def Good (d : Decorated) (fn : ℕ → ℕ → K → Except X R) (tok : ℕ → ℕ → T) (before : List (Access K)) (a : Access K) : Except (Err X) R → Prop
  | .ok r => ∃ (j : ℕ) (b : Access K), (before ++ [a])[j]? = some b ∧ j ≤ before.length ∧ b.key = a.key ∧ fn b.object j a.key = .ok r ∧
      match d with
      | .descriptor => b.object = a.object
      | .wrapper => tok b.object j = tok a.object before.length
  | .error (.own x) => fn a.object before.length a.key = .error x
  | .error .notCallable => d = .descriptor ∧ ∃ n k, a = .direct n k

omit [DecidableEq T] [DecidableEq K] in
theorem at_end (before : List (Access K)) (a : Access K) : (before ++ [a])[before.length]? = some a := by simp

omit [DecidableEq T] [DecidableEq K] in
theorem at_old {before : List (Access K)} {j : ℕ} {b : Access K} (h : before[j]? = some b) (a : Access K) : (before ++ [a])[j]? = some b ∧ j ≤ before.length := by
  have hj : j < before.length := by
    by_contra hc
    rw [List.getElem?_eq_none (by omega)] at h
    simp at h
  rw [List.getElem?_append_left hj]
  exact ⟨h, Nat.le_of_lt hj⟩

theorem separate_good {fn : ℕ → ℕ → K → Except X R} {tok : ℕ → ℕ → T} {before : List (Access K)} {s : State T K R} (hs : Inv fn tok before s) (n : ℕ) (k : K) :
    Inv fn tok (before ++ [.method n k]) { (viaSeparate fn s n k).1 with time := s.time + 1 } ∧ Good .descriptor fn tok before (.method n k) (viaSeparate fn s n k).2 := by
  have old1 : ∀ n' k' r, s.separate.lookup (n', k') = some r → ∃ (j : ℕ) (b : Access K), (before ++ [Access.method n k])[j]? = some b ∧ b.object = n' ∧ b.key = k' ∧ fn n' j k' = .ok r := by
    intro n' k' r h
    obtain ⟨j, b, h1, h2⟩ := hs.separate n' k' r h
    exact ⟨j, b, (at_old h1 _).1, h2⟩
  have old2 : ∀ t k' r, s.shared.lookup (t, k') = some r → ∃ (j : ℕ) (b : Access K), (before ++ [Access.method n k])[j]? = some b ∧ tok b.object j = t ∧ b.key = k' ∧ fn b.object j k' = .ok r := by
    intro t k' r h
    obtain ⟨j, b, h1, h2⟩ := hs.shared t k' r h
    exact ⟨j, b, (at_old h1 _).1, h2⟩
  have ht : s.time + 1 = (before ++ [Access.method n k]).length := by simp [hs.time]
  unfold viaSeparate
  cases h : s.separate.lookup (n, k) with
  | some r =>
    obtain ⟨j, b, h1, h2, h3, h4⟩ := hs.separate n k r h
    exact ⟨⟨ht, old1, old2⟩, j, b, (at_old h1 _).1, (at_old h1 (.method n k)).2, h3, by rw [h2]; exact h4, h2⟩
  | none =>
    cases hf : fn n s.time k with
    | error x => exact ⟨⟨ht, old1, old2⟩, by rw [hs.time] at hf; exact hf⟩
    | ok r =>
      rw [hs.time] at hf
      refine ⟨⟨ht, ?_, old2⟩, before.length, .method n k, at_end _ _, Nat.le_refl _, rfl, hf, rfl⟩
      intro n' k' r' h'
      simp only [List.lookup_cons] at h'
      by_cases hc : (n', k') = (n, k)
      · rw [beq_iff_eq.mpr hc] at h'
        obtain ⟨rfl, rfl⟩ := Prod.mk.inj hc
        obtain rfl : r = r' := by simpa using h'
        exact ⟨before.length, .method n' k', at_end _ _, rfl, rfl, hf⟩
      · rw [beq_eq_false_iff_ne.mpr hc] at h'
        exact old1 n' k' r' h'

theorem shared_good {fn : ℕ → ℕ → K → Except X R} {tok : ℕ → ℕ → T} {before : List (Access K)} {s : State T K R} (hs : Inv fn tok before s) (a : Access K) :
    Inv fn tok (before ++ [a]) { (viaShared fn tok s a.object a.key).1 with time := s.time + 1 } ∧ Good .wrapper fn tok before a (viaShared fn tok s a.object a.key).2 := by
  have old1 : ∀ n' k' r, s.separate.lookup (n', k') = some r → ∃ (j : ℕ) (b : Access K), (before ++ [a])[j]? = some b ∧ b.object = n' ∧ b.key = k' ∧ fn n' j k' = .ok r := by
    intro n' k' r h
    obtain ⟨j, b, h1, h2⟩ := hs.separate n' k' r h
    exact ⟨j, b, (at_old h1 _).1, h2⟩
  have old2 : ∀ t k' r, s.shared.lookup (t, k') = some r → ∃ (j : ℕ) (b : Access K), (before ++ [a])[j]? = some b ∧ tok b.object j = t ∧ b.key = k' ∧ fn b.object j k' = .ok r := by
    intro t k' r h
    obtain ⟨j, b, h1, h2⟩ := hs.shared t k' r h
    exact ⟨j, b, (at_old h1 _).1, h2⟩
  have ht : s.time + 1 = (before ++ [a]).length := by simp [hs.time]
  unfold viaShared
  cases h : s.shared.lookup (tok a.object s.time, a.key) with
  | some r =>
    obtain ⟨j, b, h1, h2, h3, h4⟩ := hs.shared _ _ r h
    exact ⟨⟨ht, old1, old2⟩, j, b, (at_old h1 _).1, (at_old h1 a).2, h3, h4, by rw [h2, hs.time]⟩
  | none =>
    cases hf : fn a.object s.time a.key with
    | error x => exact ⟨⟨ht, old1, old2⟩, by rw [hs.time] at hf; exact hf⟩
    | ok r =>
      rw [hs.time] at hf
      refine ⟨⟨ht, old1, ?_⟩, before.length, a, at_end _ _, Nat.le_refl _, rfl, hf, rfl⟩
      intro t k' r' h'
      simp only [List.lookup_cons] at h'
      by_cases hc : (t, k') = (tok a.object s.time, a.key)
      · rw [beq_iff_eq.mpr hc] at h'
        obtain ⟨h1, rfl⟩ := Prod.mk.inj hc
        obtain rfl : r = r' := by simpa using h'
        exact ⟨before.length, a, at_end _ _, by rw [h1, hs.time], rfl, hf⟩
      · rw [beq_eq_false_iff_ne.mpr hc] at h'
        exact old2 t k' r' h'

theorem still {fn : ℕ → ℕ → K → Except X R} {tok : ℕ → ℕ → T} {before : List (Access K)} {s : State T K R} (hs : Inv fn tok before s) (a : Access K) :
    Inv fn tok (before ++ [a]) { s with time := s.time + 1 } := by
  refine ⟨by simp [hs.time], fun n k r h => ?_, fun t k r h => ?_⟩
  · obtain ⟨j, b, h1, h2⟩ := hs.separate n k r h
    exact ⟨j, b, (at_old h1 _).1, h2⟩
  · obtain ⟨j, b, h1, h2⟩ := hs.shared t k r h
    exact ⟨j, b, (at_old h1 _).1, h2⟩

theorem step_good (d : Decorated) {fn : ℕ → ℕ → K → Except X R} {tok : ℕ → ℕ → T} {before : List (Access K)} {s : State T K R} (hs : Inv fn tok before s) (a : Access K) :
    Inv fn tok (before ++ [a]) (step d fn tok s a).1 ∧ Good d fn tok before a (step d fn tok s a).2 := by
  cases d with
  | wrapper =>
    have h := shared_good hs a
    cases a <;> exact h
  | descriptor =>
    cases a with
    | method n k => exact separate_good hs n k
    | direct n k => exact ⟨still hs _, rfl, n, k, rfl⟩
    | onClass n k =>
      unfold step plain
      dsimp only
      cases hf : fn n s.time k with
      | error x => exact ⟨still hs _, by rw [hs.time] at hf; exact hf⟩
      | ok r => exact ⟨still hs _, before.length, .onClass n k, at_end _ _, Nat.le_refl _, rfl, by rw [hs.time] at hf; exact hf, rfl⟩

theorem run_good (d : Decorated) {fn : ℕ → ℕ → K → Except X R} {tok : ℕ → ℕ → T} (l : List (Access K)) : ∀ {before : List (Access K)} {s : State T K R}, Inv fn tok before s →
    ∀ (i : ℕ) (a : Access K) (r : Except (Err X) R), l[i]? = some a → (run d fn tok s l)[i]? = some r → Good d fn tok (before ++ l.take i) a r := by
  induction l with
  | nil => simp
  | cons a0 l ih =>
    intro before s hs i a r ha hr
    obtain ⟨h1, h2⟩ := step_good d hs a0
    cases i with
    | zero =>
      obtain rfl : a0 = a := by simpa using ha
      obtain rfl : (step d fn tok s a0).2 = r := by simpa [run] using hr
      simpa using h2
    | succ i =>
      have := ih h1 i a r (by simpa using ha) (by simpa [run] using hr)
      simpa using this

omit [DecidableEq T] [DecidableEq K] in
theorem init_inv (fn : ℕ → ℕ → K → Except X R) (tok : ℕ → ℕ → T) [DecidableEq T] [DecidableEq K] : Inv fn tok [] State.init := ⟨rfl, by simp [State.init], by simp [State.init]⟩

omit [DecidableEq T] [DecidableEq K] in
theorem prefix_at {l : List (Access K)} {i : ℕ} {a : Access K} (ha : l[i]? = some a) {j : ℕ} {b : Access K} (h : (l.take i ++ [a])[j]? = some b) : l[j]? = some b := by
  have hi : i < l.length := by
    by_contra hc
    rw [List.getElem?_eq_none (by omega)] at ha
    simp at ha
  have : l.take i ++ [a] = l.take (i + 1) := by
    rw [List.take_add_one, ha]
    rfl
  rw [this, List.getElem?_take] at h
  split at h
  · exact h
  · simp at h

omit [DecidableEq T] [DecidableEq K] in
theorem take_length {l : List (Access K)} {i : ℕ} {a : Access K} (ha : l[i]? = some a) : (l.take i).length = i := by
  have hi : i < l.length := by
    by_contra hc
    rw [List.getElem?_eq_none (by omega)] at ha
    simp at ha
  rw [List.length_take]
  omega

/-- C190. A function decorated with `per_instance=True`, or with first parameter `self`: for all sequences of calls every result belongs to the object of the call, whatever objects are equal to each other; exceptions
are not remembered; calls on the class always run the function. -/
theorem C190_methods {perInstance : Bool} {params : Option (List String)} (h : perInstance = true ∨ ∃ rest, params = some ("self" :: rest)) (fn : ℕ → ℕ → K → Except X R) (tok : ℕ → ℕ → T)
    (calls : List (Access K)) :
    OwnResults fn calls (run (decorate perInstance params) fn tok State.init calls) ∧ FreshErrors fn calls (run (decorate perInstance params) fn tok State.init calls) ∧
    ∀ (i n : ℕ) (k : K) (r : R), calls[i]? = some (.onClass n k) → (run (decorate perInstance params) fn tok State.init calls)[i]? = some (.ok r) → fn n i k = .ok r := by
  have hd : decorate perInstance params = .descriptor := by
    obtain rfl | ⟨rest, rfl⟩ := h
    · rfl
    · simp [decorate, hasSelfParam]
  rw [hd]
  refine ⟨fun i a r ha hr => ?_, fun i a x ha hr => ?_, ?_⟩
  · obtain ⟨j, b, h1, h2, h3, h4, h5⟩ := run_good .descriptor calls (init_inv fn tok) i a _ ha hr
    rw [List.nil_append] at h1 h2
    rw [take_length ha] at h2
    exact ⟨j, b, h2, prefix_at ha h1, h5, h3, by rw [← h5]; exact h4⟩
  · have := run_good .descriptor calls (init_inv fn tok) i a _ ha hr
    rw [List.nil_append] at this
    unfold Good at this
    rwa [take_length ha] at this
  · have key : ∀ (l : List (Access K)) (s : State T K R) (i n : ℕ) (k : K) (r : R), l[i]? = some (.onClass n k) → (run .descriptor fn tok s l)[i]? = some (.ok r) → fn n (s.time + i) k = .ok r := by
      intro l
      induction l with
      | nil => simp
      | cons a l ih =>
        intro s i n k r ha hr
        cases i with
        | zero =>
          obtain rfl : a = .onClass n k := by simpa using ha
          simp only [run, List.getElem?_cons_zero, Option.some.injEq, step, plain] at hr
          cases hf : fn n s.time k with
          | ok v => simpa [hf] using hr
          | error x => simp [hf] at hr
        | succ i =>
          have := ih (step .descriptor fn tok s a).1 i n k r (by simpa using ha) (by simpa [run] using hr)
          have ht : (step .descriptor fn tok s a).1.time = s.time + 1 := rfl
          rw [ht] at this
          rwa [show s.time + (i + 1) = s.time + 1 + i by omega]
    intro i n k r ha hr
    simpa [State.init] using key calls State.init i n k r ha hr

/-- Two equal objects, called in turn. -/
example : run (decorate false (some ["self", "x"])) (fun n t k => (.ok (n, t, k) : Except Unit _)) (fun _ _ => ()) State.init [.method 0 'a', .method 1 'a', .method 0 'a', .onClass 0 'a'] =
    [.ok (0, 0, 'a'), .ok (1, 1, 'a'), .ok (0, 0, 'a'), .ok (0, 3, 'a')] := by rfl

/-- C190, other functions: all ways of calling share one cache, and results belong to the object of the call if tokens tell objects apart. -/
theorem C190_functions_partial {params : Option (List String)} (h : ∀ rest, params ≠ some ("self" :: rest)) (fn : ℕ → ℕ → K → Except X R) {tok : ℕ → ℕ → T} (ht : Identifies tok) (calls : List (Access K)) :
    OwnResults fn calls (run (decorate false params) fn tok State.init calls) ∧ FreshErrors fn calls (run (decorate false params) fn tok State.init calls) ∧
    ∀ (i : ℕ) (r : Except (Err X) R), (run (decorate false params) fn tok State.init calls)[i]? = some r → r ≠ .error .notCallable := by
  have hd : decorate false params = .wrapper := by
    unfold decorate hasSelfParam
    rcases params with _ | _ | ⟨p, rest⟩
    · rfl
    · rfl
    · have : p ≠ "self" := fun hp => h rest (by rw [hp])
      simp [this]
  rw [hd]
  refine ⟨fun i a r ha hr => ?_, fun i a x ha hr => ?_, fun i r hr hc => ?_⟩
  · obtain ⟨j, b, h1, h2, h3, h4, h5⟩ := run_good .wrapper calls (init_inv fn tok) i a _ ha hr
    rw [List.nil_append] at h1 h2
    rw [take_length ha] at h2
    have h6 := ht _ _ _ _ h5
    exact ⟨j, b, h2, prefix_at ha h1, h6, h3, by rw [← h6]; exact h4⟩
  · have := run_good .wrapper calls (init_inv fn tok) i a _ ha hr
    rw [List.nil_append] at this
    unfold Good at this
    rwa [take_length ha] at this
  · have hlen : ∀ (l : List (Access K)) (s : State T K R), (run .wrapper fn tok s l).length = l.length := by
      intro l
      induction l with
      | nil => intro s; rfl
      | cons a l ih => intro s; simp [run, ih]
    have hi : i < calls.length := by
      by_contra hc'
      rw [List.getElem?_eq_none (by rw [hlen]; omega)] at hr
      simp at hr
    subst hc
    have := run_good .wrapper calls (init_inv fn tok) i _ _ (List.getElem?_eq_getElem hi) hr
    exact absurd this.1 (by simp)

/-- Objects that are only equal to themselves. -/
example : (∀ rest, some ["this", "x"] ≠ some ("self" :: rest)) ∧ Identifies (fun n _ => n) ∧
    run (decorate false (some ["this", "x"])) (fun n t k => (.ok (n, t, k) : Except Unit _)) (fun n _ => n) State.init [.method 0 'a', .method 1 'a', .onClass 0 'a', .direct 1 'a'] =
      [.ok (0, 0, 'a'), .ok (1, 1, 'a'), .ok (0, 0, 'a'), .ok (1, 1, 'a')] := ⟨by simp, fun _ _ _ _ h => h, rfl⟩

/-- The claim fails without the condition on tokens: for a method whose first parameter is not named `self`, an object gets the result of another one with the same token. -/
theorem C190_equal_objects_fails {params : Option (List String)} (h : ∀ rest, params ≠ some ("self" :: rest)) {fn : ℕ → ℕ → K → Except X R} {tok : ℕ → ℕ → T} {n n' : ℕ} {k : K} {r : R} (hf : fn n 0 k = .ok r)
    (ht : tok n 0 = tok n' 1) (hr : ∀ t, fn n' t k ≠ .ok r) : ¬ OwnResults fn [.method n k, .method n' k] (run (decorate false params) fn tok State.init [.method n k, .method n' k]) := by
  have hd : decorate false params = .wrapper := by
    unfold decorate hasSelfParam
    rcases params with _ | _ | ⟨p, rest⟩
    · rfl
    · rfl
    · have : p ≠ "self" := fun hp => h rest (by rw [hp])
      simp [this]
  intro hc
  obtain ⟨j, b, -, -, -, -, h6⟩ := hc 1 (.method n' k) r rfl (by simp [hd, run, step, viaShared, State.init, hf, ht])
  exact hr j h6

example : ¬ OwnResults (fun n _ (_ : Unit) => (.ok n : Except Unit ℕ)) [.method 0 (), .method 1 ()]
    (run (decorate false (some ["this"])) (fun n _ _ => .ok n) (fun _ _ => ()) State.init [.method 0 (), .method 1 ()]) :=
  C190_equal_objects_fails (by simp) (r := 0) rfl rfl (by simp)

/-- A decorated function outside classes cannot be called if `per_instance=True` was given or its first parameter happens to be named `self`; every other one can. -/
theorem C190_self_function_fails (perInstance : Bool) (params : Option (List String)) (fn : ℕ → ℕ → K → Except X R) (tok : ℕ → ℕ → T) (s : State T K R) (n : ℕ) (k : K) :
    (step (decorate perInstance params) fn tok s (.direct n k)).2 = .error .notCallable ↔ perInstance = true ∨ ∃ rest, params = some ("self" :: rest) := by
  constructor
  · intro h
    by_contra hc
    push Not at hc
    have hd : decorate perInstance params = .wrapper := by
      unfold decorate hasSelfParam
      have h1 : perInstance = false := by simpa using hc.1
      rcases params with _ | _ | ⟨p, rest⟩
      · simp [h1]
      · simp [h1]
      · have : p ≠ "self" := fun hp => hc.2 rest (by rw [hp])
        simp [this, h1]
    rw [hd] at h
    simp only [step, viaShared] at h
    cases h1 : s.shared.lookup (tok n s.time, k) with
    | some r => simp [h1] at h
    | none =>
      cases h2 : fn n s.time k with
      | ok r => simp [h1, h2] at h
      | error x => simp [h1, h2] at h
  · rintro (rfl | ⟨rest, rfl⟩)
    · rfl
    · simp [decorate, hasSelfParam, step]

example : (step (decorate false (some ["self"])) (fun n _ (_ : Unit) => (.ok n : Except Unit ℕ)) (fun n _ => n) State.init (.direct 0 ())).2 = .error .notCallable :=
  (C190_self_function_fails false _ _ _ _ 0 ()).mpr (.inr ⟨[], rfl⟩)

end Verif.Decorate
