import Verif.PerInstance.Lemmas
/-!
# C08, C73: per-instance caches

`fn n t k` is what the undecorated method gives on object `n` at time `t` with arguments `k`; it is arbitrary, so results
of different objects can be told apart.
-/

namespace Verif.PerInstance

variable {K R : Type} [DecidableEq K]

set_option linter.unusedSectionVars false

/-! ## C08 -/

/-- A call on object `n` returns a result computed on `n`, after any history of creations, deletions (with reuse of
addresses) and calls on any number of objects. Missing from the full statement: histories that copy an object which
carries its wrapper in its `__dict__`, for which it is false (`C08_copied_object_fails`). -/
theorem C08_result_belongs_to_the_object_partial {fn : Nat → Nat → K → R} {s : State K R} (h : SafeReach fn s)
    (n : Nat) (k : K) (hn : Held s n) :
    ∃ t, t ≤ s.time ∧ (step fn s (.call n k)).2 = some (fn n t k) := by
  have i := h.inv
  obtain ⟨o, ho, rfl, hh⟩ := hn
  obtain ⟨i', ht, x, hx, hown⟩ := getWrapper_spec i ho
  obtain ⟨t, h1, h2⟩ := (invoke_spec i' hx k).2
  refine ⟨t, by omega, ?_⟩
  unfold step
  simp only [find_of_mem i ho, hh, if_true]
  rw [h2, hown]

/-- No operation except a call on `m` changes what is remembered for a live object `m`, and a new object (also one at the
address of a dead one, or a copy) starts with nothing remembered. Missing: as above. -/
theorem C08_caches_are_separate_partial {fn : Nat → Nat → K → R} {s : State K R} (h : SafeReach fn s)
    (op : Op K) (hs : Safe s op) (m : Nat) (hop : ∀ k, op ≠ .call m k) (ha : Alive (step fn s op).1 m) :
    (Alive s m → remembered (step fn s op).1 m = remembered s m) ∧
    (¬ Alive s m → remembered (step fn s op).1 m = []) := by
  have i := h.inv
  have i' := i.step hs
  have hadd : ∀ (a : Nat) (d r : Bool), ¬ (s.objs.any (fun o => o.addr = a)) = true →
      Alive { s with objs := ⟨s.nextSerial, a, d, r, true, none⟩ :: s.objs, nextSerial := s.nextSerial + 1 } m →
      (Alive s m → remembered { s with
          objs := ⟨s.nextSerial, a, d, r, true, none⟩ :: s.objs
          nextSerial := s.nextSerial + 1 } m = remembered s m) ∧
      (¬ Alive s m → remembered { s with
          objs := ⟨s.nextSerial, a, d, r, true, none⟩ :: s.objs
          nextSerial := s.nextSerial + 1 } m = []) := by
    intro a d r hfree hal
    have hfree' : ∀ o ∈ s.objs, o.addr ≠ a := by simpa using hfree
    constructor
    · rintro ⟨o, ho, hm⟩
      have hlt := i.serial_lt o ho
      have hne : ¬ s.nextSerial = m := by omega
      rw [remembered_eq, remembered_eq]
      have : ({ s with
          objs := ⟨s.nextSerial, a, d, r, true, none⟩ :: s.objs
          nextSerial := s.nextSerial + 1 } : State K R).find m = s.find m := by
        unfold State.find
        simp [hne]
      rw [this]
      rfl
    · intro hna
      obtain ⟨o, ho, hm⟩ := hal
      simp only [List.mem_cons] at ho
      rcases ho with rfl | ho
      · simp only at hm
        subst hm
        have hl := lookup_fallback_free i hfree'
        unfold remembered State.find
        cases d <;> simp [hl]
      · exact absurd ⟨o, ho, hm⟩ hna
  have hsame : ∀ s' : State K R, s' = s → Alive s' m → (Alive s m → remembered s' m = remembered s m) ∧
      (¬ Alive s m → remembered s' m = []) := by
    rintro s' rfl hal
    exact ⟨fun _ => rfl, fun hn => absurd hal hn⟩
  cases op with
  | new a d r =>
    unfold step at ha ⊢
    simp only at ha ⊢
    split at ha
    · rename_i hc
      rw [if_pos hc]
      exact hsame s rfl ha
    · rename_i hc
      rw [if_neg hc]
      exact hadd a d r hc ha
  | copy n a =>
    unfold step at ha ⊢
    simp only at ha ⊢
    cases hf : s.find n with
    | none => rw [hf] at ha; exact hsame s rfl ha
    | some o =>
      rw [hf] at ha
      simp only at ha ⊢
      have hnone : o.attr = none := hs o hf
      split at ha
      · rename_i hc
        rw [if_pos hc]
        exact hsame s rfl ha
      · rename_i hc
        rw [if_neg hc]
        rw [hnone] at ha ⊢
        exact hadd a _ _ (by tauto) ha
  | drop n =>
    have hfind : (s.modify n (fun o => { o with held := false })).find m = (s.find m).map
        (fun o => if o.serial = n then { o with held := false } else o) := find_modify (fun _ => rfl)
    have heq : remembered (step fn s (.drop n)).1 m = remembered s m := by
      rw [remembered_eq, remembered_eq]
      show ((Option.bind (Option.bind ((s.modify n (fun o => { o with held := false })).find m) _) _).map
          Wrapper.cache).getD [] = _
      rw [hfind]
      cases hf : s.find m with
      | none => rfl
      | some q =>
        simp only [Option.map_some, Option.bind_some]
        split <;> rfl
    refine ⟨fun _ => heq, fun hn => ?_⟩
    obtain ⟨o, ho, hm⟩ := ha
    have ho' : o ∈ s.objs.map (fun o => if o.serial = n then { o with held := false } else o) := ho
    rw [List.mem_map] at ho'
    obtain ⟨q, hq, rfl⟩ := ho'
    refine absurd ⟨q, hq, ?_⟩ hn
    rw [← hm]
    split <;> rfl
  | collect n =>
    unfold step at ha ⊢
    simp only at ha ⊢
    cases hf : s.find n with
    | none => rw [hf] at ha; exact hsame s rfl ha
    | some o =>
      rw [hf] at ha
      simp only at ha ⊢
      split at ha
      · rename_i hc
        rw [if_pos hc]
        exact hsame s rfl ha
      · rename_i hc
        rw [if_neg hc]
        obtain ⟨p, hp, hm⟩ := ha
        simp only [List.mem_filter] at hp
        have hmn : m ≠ n := by
          rintro rfl
          simpa [hm] using hp.2
        refine ⟨fun _ => ?_, fun hna => absurd ⟨p, hp.1, hm⟩ hna⟩
        rw [remembered_eq, remembered_eq, find_filter hmn]
        cases hfm : s.find m with
        | none => rfl
        | some q =>
          have hq := find_mem hfm
          have ho := find_mem hf
          simp only [Option.bind_some]
          have hne : q.addr ≠ o.addr := by
            intro e
            have := i.addrs q hq.1 o ho.1 e
            subst this
            exact hmn (hq.2.symm.trans ho.2)
          congr 2
          unfold wrapperOf
          simp only
          split
          · rfl
          · have : ∀ l : List (Nat × Nat), (if (o.weakrefable && !o.hasDict) = true
                then l.filter (fun p => decide (p.1 ≠ o.addr)) else l).lookup q.addr = l.lookup q.addr := by
              intro l
              split
              · induction l with
                | nil => rfl
                | cons p l ih =>
                  obtain ⟨x, y⟩ := p
                  by_cases e : x = o.addr
                  · subst e
                    have hb : (q.addr == o.addr) = false := by simpa using hne
                    simp only [List.filter_cons, ne_eq, not_true_eq_false, decide_false, Bool.false_eq_true,
                      if_false, List.lookup_cons, hb]
                    exact ih
                  · simp only [List.filter_cons, ne_eq, e, not_false_eq_true, decide_true, if_true,
                      List.lookup_cons]
                    cases (q.addr == x) with
                    | true => rfl
                    | false => exact ih
              · rfl
            rw [this]
  | call n k =>
    have hmn : m ≠ n := by
      rintro rfl
      exact hop k rfl
    unfold step at ha ⊢
    simp only at ha ⊢
    cases hf : s.find n with
    | none => rw [hf] at ha; exact hsame s rfl ha
    | some o =>
      rw [hf] at ha
      have ho := find_mem hf
      simp only at ha ⊢
      split at ha
      · rename_i hc
        rw [if_pos hc]
        obtain ⟨j, ht, x, hx, hown⟩ := getWrapper_spec i ho.1
        have e1 := getWrapper_remembered i ho.1 (m := m) (by rw [ho.2]; exact hmn)
        have e2 := invoke_remembered j hx k (m := m) (by rw [hown, ho.2]; exact hmn)
        have e3 := e2.trans e1
        refine ⟨fun _ => e3, fun hna => ?_⟩
        rw [e3]
        unfold remembered
        cases hfm : s.find m with
        | none => rfl
        | some q => exact absurd ⟨q, (find_mem hfm).1, (find_mem hfm).2⟩ hna
      · rename_i hc
        rw [if_neg hc]
        exact hsame s rfl ha

/-- Copying an object that carries its wrapper in its `__dict__` (a class without `__slots__`, after one call) shares the
wrapper: the copy's method answers with the original's results, and computes new ones on the original. The full statement
of C08 is false of the code. -/
theorem C08_copied_object_fails (fn : Nat → Nat → K → R) (k k' : K) (hk : k' ≠ k) :
    ∃ s, Reach fn s ∧ Held s 1 ∧ (step fn s (.call 1 k)).2 = some (fn 0 0 k) ∧
      (step fn s (.call 1 k')).2 = some (fn 0 1 k') := by
  refine ⟨run fn State.init [.new 10 true true, .call 0 k, .copy 0 20], ?_, ?_, ?_, ?_⟩
  · exact .step _ (.step _ (.step _ .init))
  · simp [run, step, State.init, State.find, State.getWrapper, State.modify, State.invoke, Held]
  · simp [run, step, State.init, State.find, State.getWrapper, State.modify, State.invoke]
  · simp [run, step, State.init, State.find, State.getWrapper, State.modify, State.invoke, List.lookup_cons,
      beq_eq_false_iff_ne.2 hk]

-- two slots-only objects, called with the same arguments: each gets its own result and its own cache
example : let fn := fun n (_ : Nat) (k : Nat) => 100 * n + k
    let s := run fn State.init [.new 10 false false, .new 20 false false, .call 0 7, .call 1 7]
    SafeReach fn s ∧ Held s 1 ∧ (step fn s (.call 1 7)).2 = some 107 ∧ remembered s 0 = [(7, 7)] ∧
      remembered s 1 = [(7, 107)] := by
  refine ⟨?_, ?_, by decide, by decide, by decide⟩
  · exact .step _ (.step _ (.step _ (.step _ .init trivial) trivial) trivial) trivial
  · simp [run, step, State.init, State.find, State.getWrapper, State.invoke, Held, List.lookup_cons]

-- the address of a freed object is reused: the new object starts afresh
example : let fn := fun n (_ : Nat) (k : Nat) => 100 * n + k
    let s := run fn State.init [.new 10 true true, .call 0 7, .drop 0, .collect 0, .new 10 true true]
    s.objs.length = 1 ∧ remembered s 1 = [] ∧ (step fn s (.call 1 7)).2 = some 107 := by decide

/-! ## C73 -/

/-- An object of a class with only `__slots__` (as `StatisticalModel`) on which a cached method was called once is never
freed, whatever happens afterwards, whether or not it can be weakly referenced: the cleanup never runs. -/
theorem C73_slots_object_is_freed_fails {fn : Nat → Nat → K → R} {s : State K R} (h : SafeReach fn s) (n : Nat) (k : K)
    (o : Obj) (ho : o ∈ s.objs) (hs : o.serial = n) (hd : o.hasDict = false) (hh : o.held = true)
    (later : List (Op K)) : Alive (run fn (step fn s (.call n k)).1 later) n := by
  have i := h.inv
  have i' : Inv fn (step fn s (.call n k)).1 := i.step (op := .call n k) trivial
  subst hs
  obtain ⟨j, _, x, hx, hown⟩ := getWrapper_spec i ho
  have hw : ∃ w, (o.addr, w) ∈ (s.getWrapper o).1.fallback ∧ w = (s.getWrapper o).2 := by
    unfold State.getWrapper
    simp only [hd, Bool.false_eq_true, if_false]
    split
    · rename_i w hw
      exact ⟨w, lookup_mem hw, rfl⟩
    · exact ⟨_, List.mem_cons_self .., rfl⟩
  obtain ⟨w, hw, rfl⟩ := hw
  have hobjs : (s.getWrapper o).1.objs = s.objs := by
    unfold State.getWrapper
    simp only [hd, Bool.false_eq_true, if_false]
    split <;> rfl
  have hstep : (step fn s (.call o.serial k)).1 = ((s.getWrapper o).1.invoke fn (s.getWrapper o).2 k).1 := by
    unfold step
    simp only [find_of_mem i ho, hh, if_true]
  rw [hstep] at i' ⊢
  have hfb : ((s.getWrapper o).1.invoke fn (s.getWrapper o).2 k).1.fallback = (s.getWrapper o).1.fallback ∧
      ((s.getWrapper o).1.invoke fn (s.getWrapper o).2 k).1.objs = (s.getWrapper o).1.objs := by
    unfold State.invoke
    rw [hx]
    simp only
    split <;> exact ⟨rfl, rfl⟩
  have hmem : o ∈ ((s.getWrapper o).1.invoke fn (s.getWrapper o).2 k).1.objs := by
    rw [hfb.2, hobjs]; exact ho
  refine pinned_run (w := (s.getWrapper o).2) (a := o.addr) later ?_ ?_ ⟨o, hmem, rfl, rfl⟩ ?_
  · rw [hfb.1]; exact hw
  · obtain ⟨q, hq, h1, h2, y, h3, h4⟩ := i'.fb o.addr (s.getWrapper o).2 (by rw [hfb.1]; exact hw)
    have := i'.addrs q hq o hmem h1
    subst this
    exact ⟨y, h3, h4⟩
  · intro p hp q hq e
    rw [i'.addrs p hp q hq e]

example : let fn := fun n (_ : Nat) (k : Nat) => 100 * n + k
    let s := run fn State.init [.new 10 false true, .call 0 7, .drop 0, .collect 0]
    ∃ o ∈ s.objs, o.serial = 0 ∧ o.held = false := by
  refine ⟨⟨0, 10, false, true, false, none⟩, ?_, rfl, rfl⟩
  simp [run, step, State.init, State.find, State.getWrapper, State.invoke, State.modify, State.referenced, State.owned]

/-- The history that creates `n` slots-only models, one after the other, uses each once and drops it. -/
def useAndDrop (k : K) : Nat → List (Op K)
  | 0 => []
  | n + 1 => useAndDrop k n ++ [.new n false false, .call n k, .drop n, .collect n]

/-- Nor is the number of entries bounded, as the class documentation says: with no object in use, any number of entries
can be there. -/
theorem C73_entries_are_bounded_fails (fn : Nat → Nat → K → R) (k : K) (n : Nat) :
    let s := run fn State.init (useAndDrop k n)
    s.fallback.length = n ∧ (∀ m, ¬ Held s m) := by
  suffices h : ∀ n, let s := run fn State.init (useAndDrop k n)
      s.fallback.length = n ∧ (∀ p ∈ s.fallback, p.1 < n) ∧ s.nextSerial = n ∧ s.objs.length = n ∧
      (∀ o ∈ s.objs, o.serial < n ∧ o.addr < n ∧ o.held = false) by
    obtain ⟨h1, -, -, -, h5⟩ := h n
    refine ⟨h1, ?_⟩
    rintro m ⟨o, ho, -, hh⟩
    rw [(h5 o ho).2.2] at hh
    cases hh
  intro n
  induction n with
  | zero => simp [useAndDrop, run, State.init]
  | succ n ih =>
    obtain ⟨h1, h2, h3, h4, h5⟩ := ih
    simp only [useAndDrop]
    rw [run_append]
    generalize run fn State.init (useAndDrop k n) = s at *
    have hfree : (s.objs.any (fun o => o.addr = n)) = false := by
      rw [List.any_eq_false]
      intro o ho
      have := (h5 o ho).2.1
      simp; omega
    have hlook : s.fallback.lookup n = none := by
      cases hl : s.fallback.lookup n with
      | none => rfl
      | some w => exact absurd (h2 _ (lookup_mem hl)) (by simp)
    have hmap : s.objs.map (fun o => if o.serial = n then { o with held := false } else o) = s.objs := by
      conv_rhs => rw [← List.map_id s.objs]
      apply List.map_congr_left
      intro o ho
      have := (h5 o ho).1
      rw [if_neg (by omega)]
      rfl
    simp only [run, step, hfree, h3, Bool.false_eq_true, if_false, State.find, List.find?_cons, decide_true,
      if_true, State.getWrapper, hlook, State.invoke, List.getElem?_append_right (Nat.le_refl _), Nat.sub_self,
      List.getElem?_cons_zero, List.lookup_nil, State.modify, List.map_cons, hmap, State.referenced, State.owned,
      List.any_cons]
    refine ⟨?_, ?_, ?_, ?_, ?_⟩ <;> simp
    all_goals first | omega | skip
    · intro a b hab
      have := h2 _ hab
      omega
    · intro o ho
      obtain ⟨g1, g2, g3⟩ := h5 o ho
      exact ⟨by omega, by omega, g3⟩

/-- The part that holds: an object with a `__dict__` that the user has dropped, and that was not copied, is freed
together with its cache. Missing: slots-only classes. -/
theorem C73_dict_object_is_freed_partial {fn : Nat → Nat → K → R} {s : State K R} (h : SafeReach fn s)
    (o : Obj) (ho : o ∈ s.objs) (hd : o.hasDict = true) :
    ¬ Alive (run fn s [.drop o.serial, .collect o.serial]) o.serial := by
  have i := h.inv
  have i' : Inv fn (step fn s (.drop o.serial)).1 := i.step (op := .drop o.serial) trivial
  have hm : { o with held := false } ∈ (step fn s (.drop o.serial)).1.objs := by
    show _ ∈ List.map _ _
    exact List.mem_map.2 ⟨o, ho, by simp⟩
  have hf : (step fn s (.drop o.serial)).1.find o.serial = some { o with held := false } := find_of_mem i' hm
  have hr : (step fn s (.drop o.serial)).1.referenced o.serial = false := by
    unfold State.referenced
    rw [Bool.or_eq_false_iff]
    constructor
    · rw [List.any_eq_false]
      rintro ⟨a, w⟩ hp
      obtain ⟨q, hq, h1, h2, x, h3, h4⟩ := i'.fb a w hp
      simp only [State.owned, h3, h4]
      intro hc
      have hc' : q.serial = o.serial := by simpa using hc
      have := i'.serials q hq _ hm hc'
      subst this
      simp [hd] at h2
    · rw [List.any_eq_false]
      intro q hq
      cases hqa : q.attr with
      | none => simp
      | some w =>
        obtain ⟨_, x, h3, h4⟩ := i'.attr q hq w hqa
        simp [State.owned, h3, h4]
  simp only [run]
  rintro ⟨p, hp, hps⟩
  generalize (step fn s (.drop o.serial)).1 = s' at *
  unfold step at hp
  simp only [hf, hr] at hp
  simp [hps] at hp

example : let fn := fun n (_ : Nat) (k : Nat) => 100 * n + k
    let s := run fn State.init [.new 10 true true, .call 0 7]
    SafeReach fn s ∧ s.objs.length = 1 ∧ (run fn s [.drop 0, .collect 0]).objs.length = 0 := by
  refine ⟨?_, by decide, by decide⟩
  exact .step _ (.step _ .init trivial) trivial

end Verif.PerInstance
