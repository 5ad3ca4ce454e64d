import Verif.PerInstance.Race

/-!
# C140: one object, one cache, also for the first access
-/

namespace Verif.PerInstance.Race

/-- C140 for objects without `__dict__`: under every schedule all threads get the same wrapper, and only one is built. -/
theorem C140_slots (schedule : List ℕ) (i j w w' : ℕ) (hi : (run stepSlots schedule).pc i = .got w) (hj : (run stepSlots schedule).pc j = .got w') :
    w = w' ∧ (run stepSlots schedule).built = 1 := by
  obtain ⟨h, hb⟩ := slots_invariant schedule init (fun _ => Or.inl rfl) rfl
  unfold run at hi hj ⊢
  rcases h i with h1 | ⟨a, ha, h1⟩
  · rw [h1] at hi; cases hi
  · rcases h j with h2 | ⟨b, hb', h2⟩
    · rw [h2] at hj; cases hj
    · rw [h1] at hi; rw [h2] at hj
      simp only [Pc.got.injEq] at hi hj
      rw [ha, Option.some.injEq] at hb'
      refine ⟨by omega, ?_⟩
      rw [hb, ha]; simp

example : (run stepSlots [3, 0, 3, 1]).pc 3 = .got 0 ∧ (run stepSlots [3, 0, 3, 1]).pc 1 = .got 0 ∧ (run stepSlots [3, 0, 3, 1]).pc 2 = .before := by decide

/-- C140 for objects with `__dict__`: when the first access is over before another thread starts, all threads get the same wrapper, under every schedule of the rest. Missing: first accesses at
the same time. -/
theorem C140_dict_partial (k : ℕ) (rest : List ℕ) (i j w w' : ℕ) (hi : (run stepDict ([k, k] ++ rest)).pc i = .got w) (hj : (run stepDict ([k, k] ++ rest)).pc j = .got w') :
    w = w' ∧ (run stepDict ([k, k] ++ rest)).built = 1 := by
  have h0 : run stepDict [k, k] = ⟨some 0, 1, Function.update (Function.update (fun _ => .before) k .missed) k (.got 0)⟩ := by
    simp [run, stepDict, init]
  rw [run_append, h0] at hi hj ⊢
  obtain ⟨-, hb, h⟩ := dict_settled 0 rest ⟨some 0, 1, Function.update (Function.update (fun _ => Pc.before) k .missed) k (.got 0)⟩ rfl (fun i => by
    simp only [Function.update_apply]
    split
    · exact Or.inr rfl
    · exact Or.inl rfl)
  refine ⟨?_, hb⟩
  rcases h i with h1 | h1 <;> rw [h1] at hi
  · cases hi
  rcases h j with h2 | h2 <;> rw [h2] at hj
  · cases hj
  simp only [Pc.got.injEq] at hi hj
  omega

example : (run stepDict ([2, 2] ++ [0, 1, 0])).pc 0 = .got 0 ∧ (run stepDict ([2, 2] ++ [0, 1, 0])).pc 1 = .got 0 := by decide

/-- C140 is false for objects with `__dict__`: two threads look up before either stores; each gets its own wrapper, with its own cache, and so does a thread that comes between the two stores
and one that comes later. However many threads look up first, each builds a wrapper. -/
theorem C140_race_fails :
    ((run stepDict [0, 1, 0, 2, 1, 3]).pc 0 = .got 0 ∧ (run stepDict [0, 1, 0, 2, 1, 3]).pc 2 = .got 0 ∧
      (run stepDict [0, 1, 0, 2, 1, 3]).pc 1 = .got 1 ∧ (run stepDict [0, 1, 0, 2, 1, 3]).pc 3 = .got 1) ∧
    ∀ n, (run stepDict (List.range n ++ List.range n)).built = n := by
  refine ⟨by decide, fun n => ?_⟩
  have h1 : ∀ n, run stepDict (List.range n) = ⟨none, 0, fun i => if i < n then .missed else .before⟩ := by
    intro n
    induction n with
    | zero => simp [run, init]
    | succ n ih =>
      rw [List.range_succ, run_append, ih]
      simp only [List.foldl_cons, List.foldl_nil, stepDict, Nat.lt_irrefl, if_false, State.mk.injEq, true_and]
      funext i
      simp only [Function.update_apply]
      by_cases h : i = n
      · simp [h]
      · by_cases h' : i < n
        · simp [h, h', Nat.lt_succ_of_lt h']
        · have : ¬ i < n + 1 := by omega
          simp [h, h', this]
  rw [run_append, h1 n]
  have h2 : ∀ m, m ≤ n → (List.range m).foldl stepDict ⟨none, 0, fun i => if i < n then .missed else .before⟩ =
      ⟨if m = 0 then none else some (m - 1), m, fun i => if i < m then .got i else if i < n then .missed else .before⟩ := by
    intro m
    induction m with
    | zero => intro _; simp
    | succ m ih =>
      intro hm
      rw [List.range_succ, List.foldl_append, ih (by omega)]
      simp only [List.foldl_cons, List.foldl_nil, stepDict, Nat.lt_irrefl, if_false, if_pos (show m < n by omega)]
      simp only [State.mk.injEq, Nat.succ_ne_zero, if_false, Nat.add_sub_cancel, true_and]
      funext i
      simp only [Function.update_apply]
      by_cases h : i = m
      · simp [h]
      · by_cases h' : i < m
        · simp [h, h', Nat.lt_succ_of_lt h']
        · have : ¬ i < m + 1 := by omega
          simp [h, h', this]
  rw [h2 n (Nat.le_refl n)]

end Verif.PerInstance.Race
