import Verif.PerInstance.Spec
import Mathlib.Data.List.Nodup
import Mathlib.Tactic.Common
/-! # Invariants of the per-instance cache -/

namespace Verif.PerInstance

variable {K R : Type} [DecidableEq K]

set_option linter.unusedSectionVars false

structure Inv (fn : Nat → Nat → K → R) (s : State K R) : Prop where
  serial_lt : ∀ o ∈ s.objs, o.serial < s.nextSerial
  serials : ∀ o ∈ s.objs, ∀ p ∈ s.objs, o.serial = p.serial → o = p
  addrs : ∀ o ∈ s.objs, ∀ p ∈ s.objs, o.addr = p.addr → o = p
  attr : ∀ o ∈ s.objs, ∀ w, o.attr = some w → o.hasDict = true ∧
    ∃ x, s.wrappers[w]? = some x ∧ x.owner = o.serial
  fb : ∀ a w, (a, w) ∈ s.fallback → ∃ o ∈ s.objs, o.addr = a ∧ o.hasDict = false ∧
    ∃ x, s.wrappers[w]? = some x ∧ x.owner = o.serial
  vals : ∀ x ∈ s.wrappers, ∀ k r, (k, r) ∈ x.cache → ∃ t, t < s.time ∧ r = fn x.owner t k

theorem Inv.init (fn : Nat → Nat → K → R) : Inv fn State.init := by
  constructor <;> simp [State.init]

theorem find_mem {s : State K R} {n : Nat} {o : Obj} (h : s.find n = some o) : o ∈ s.objs ∧ o.serial = n := by
  unfold State.find at h
  have h1 := List.mem_of_find?_eq_some h
  have h2 := List.find?_some h
  exact ⟨h1, by simpa using h2⟩

theorem find_of_mem {fn : Nat → Nat → K → R} {s : State K R} (i : Inv fn s) {o : Obj} (h : o ∈ s.objs) :
    s.find o.serial = some o := by
  cases hf : s.find o.serial with
  | none =>
    unfold State.find at hf
    rw [List.find?_eq_none] at hf
    exact absurd (hf o h) (by simp)
  | some p =>
    have := find_mem hf
    rw [i.serials o h p this.1 this.2.symm]

theorem lookup_mem {α β : Type} [DecidableEq α] {l : List (α × β)} {a : α} {b : β} (h : l.lookup a = some b) :
    (a, b) ∈ l := by
  induction l with
  | nil => simp at h
  | cons p l ih =>
    obtain ⟨x, y⟩ := p
    rw [List.lookup_cons] at h
    by_cases e : a = x
    · subst e; simp at h; simp [h]
    · have : (a == x) = false := by simpa using e
      rw [this] at h
      simp [ih h]

theorem mem_lookup {α β : Type} [DecidableEq α] {l : List (α × β)} {a : α} {b : β} (h : (a, b) ∈ l) :
    ∃ c, l.lookup a = some c := by
  induction l with
  | nil => simp at h
  | cons p l ih =>
    obtain ⟨x, y⟩ := p
    rw [List.lookup_cons]
    by_cases e : a = x
    · subst e; simp
    · have hb : (a == x) = false := by simpa using e
      rw [hb]
      simp [e] at h
      exact ih h

/-- The wrapper found for an object is bound to that object. -/
theorem getWrapper_spec {fn : Nat → Nat → K → R} {s : State K R} (i : Inv fn s) {o : Obj} (h : o ∈ s.objs) :
    Inv fn (s.getWrapper o).1 ∧ (s.getWrapper o).1.time = s.time ∧
    (∃ x, (s.getWrapper o).1.wrappers[(s.getWrapper o).2]? = some x ∧ x.owner = o.serial) := by
  unfold State.getWrapper
  split
  · rename_i hd
    split
    · rename_i w hw
      exact ⟨i, rfl, (i.attr o h w hw).2⟩
    · rename_i hn
      refine ⟨?_, rfl, by simp⟩
      constructor
      · intro p hp
        simp only [State.modify, List.mem_map] at hp
        obtain ⟨q, hq, rfl⟩ := hp
        have := i.serial_lt q hq
        split <;> exact this
      · intro p hp p' hp' e
        simp only [State.modify, List.mem_map] at hp hp'
        obtain ⟨q, hq, rfl⟩ := hp
        obtain ⟨q', hq', rfl⟩ := hp'
        have : q.serial = q'.serial := by
          split at e <;> split at e <;> simpa using e
        rw [i.serials q hq q' hq' this]
      · intro p hp p' hp' e
        simp only [State.modify, List.mem_map] at hp hp'
        obtain ⟨q, hq, rfl⟩ := hp
        obtain ⟨q', hq', rfl⟩ := hp'
        have : q.addr = q'.addr := by
          split at e <;> split at e <;> simpa using e
        rw [i.addrs q hq q' hq' this]
      · intro p hp w hw
        simp only [State.modify, List.mem_map] at hp
        obtain ⟨q, hq, rfl⟩ := hp
        split at hw
        · rename_i e
          simp only [Option.some.injEq] at hw
          subst hw
          have : q = o := i.serials q hq o h e
          subst this
          simp [hd]
        · rename_i e
          rw [if_neg e]
          obtain ⟨h1, x, h2, h3⟩ := i.attr q hq w hw
          refine ⟨h1, x, ?_, h3⟩
          rw [List.getElem?_append_left]
          · exact h2
          · exact (List.getElem?_eq_some_iff.1 h2).1
      · intro a w hm
        obtain ⟨q, hq, h1, h2, x, h3, h4⟩ := i.fb a w hm
        have hne : q.serial ≠ o.serial := by
          intro e
          have := i.serials q hq o h e
          subst this
          simp [hd] at h2
        refine ⟨q, ?_, h1, h2, x, ?_, h4⟩
        · simp only [State.modify, List.mem_map]
          exact ⟨q, hq, by rw [if_neg hne]⟩
        · show (s.wrappers ++ _)[w]? = _
          rw [List.getElem?_append_left]
          · exact h3
          · exact (List.getElem?_eq_some_iff.1 h3).1
      · intro x hx k r hk
        simp only [List.mem_append, List.mem_singleton] at hx
        rcases hx with hx | rfl
        · exact i.vals x hx k r hk
        · simp at hk
  · rename_i hd
    split
    · rename_i w hw
      have hm := lookup_mem hw
      obtain ⟨q, hq, h1, h2, x, h3, h4⟩ := i.fb _ _ hm
      have := i.addrs q hq o h h1
      subst this
      exact ⟨i, rfl, x, h3, h4⟩
    · rename_i hn
      refine ⟨?_, rfl, by simp⟩
      constructor
      · exact i.serial_lt
      · exact i.serials
      · exact i.addrs
      · intro p hp w hw
        obtain ⟨h1, x, h2, h3⟩ := i.attr p hp w hw
        refine ⟨h1, x, ?_, h3⟩
        show (s.wrappers ++ _)[w]? = _
        rw [List.getElem?_append_left]
        · exact h2
        · exact (List.getElem?_eq_some_iff.1 h2).1
      · intro a w hm
        simp only [List.mem_cons, Prod.mk.injEq] at hm
        rcases hm with ⟨rfl, rfl⟩ | hm
        · exact ⟨o, h, rfl, by simpa using hd, by simp⟩
        · obtain ⟨q, hq, h1, h2, x, h3, h4⟩ := i.fb a w hm
          refine ⟨q, hq, h1, h2, x, ?_, h4⟩
          show (s.wrappers ++ _)[w]? = _
          rw [List.getElem?_append_left]
          · exact h3
          · exact (List.getElem?_eq_some_iff.1 h3).1
      · intro x hx k r hk
        simp only [List.mem_append, List.mem_singleton] at hx
        rcases hx with hx | rfl
        · exact i.vals x hx k r hk
        · simp at hk

theorem set_owner {l : List (Wrapper K R)} {w v : Nat} {x y : Wrapper K R} {c : List (K × R)}
    (h : l[w]? = some x) (hv : l[v]? = some y) :
    ∃ z, (l.set w { x with cache := c })[v]? = some z ∧ z.owner = y.owner := by
  by_cases e : w = v
  · subst e
    rw [h] at hv
    cases hv
    exact ⟨_, List.getElem?_set_self (List.getElem?_eq_some_iff.1 h).1, rfl⟩
  · exact ⟨y, by rw [List.getElem?_set_ne e, hv], rfl⟩

/-- Calling a wrapper returns a result computed on its owner. -/
theorem invoke_spec {fn : Nat → Nat → K → R} {s : State K R} (i : Inv fn s) {w : Nat} {x : Wrapper K R}
    (h : s.wrappers[w]? = some x) (k : K) :
    Inv fn (s.invoke fn w k).1 ∧ ∃ t, t ≤ s.time ∧ (s.invoke fn w k).2 = some (fn x.owner t k) := by
  unfold State.invoke
  rw [h]
  have hx : x ∈ s.wrappers := List.mem_of_getElem? h
  simp only
  split
  · rename_i r hr
    obtain ⟨t, h1, h2⟩ := i.vals x hx k r (lookup_mem hr)
    refine ⟨?_, t, by omega, by rw [h2]⟩
    exact ⟨i.serial_lt, i.serials, i.addrs, i.attr, i.fb, fun y hy k r hk => by
      obtain ⟨t, h1, h2⟩ := i.vals y hy k r hk
      exact ⟨t, by show t < s.time + 1; omega, h2⟩⟩
  · refine ⟨?_, s.time, Nat.le_refl _, rfl⟩
    refine ⟨i.serial_lt, i.serials, i.addrs, ?_, ?_, ?_⟩
    · intro o ho v hv
      obtain ⟨h1, y, h2, h3⟩ := i.attr o ho v hv
      obtain ⟨z, h4, h5⟩ := set_owner (c := (k, fn x.owner s.time k) :: x.cache) h h2
      exact ⟨h1, z, h4, by rw [h5, h3]⟩
    · intro a v hv
      obtain ⟨o, ho, h1, h2, y, h3, h4⟩ := i.fb a v hv
      obtain ⟨z, h5, h6⟩ := set_owner (c := (k, fn x.owner s.time k) :: x.cache) h h3
      exact ⟨o, ho, h1, h2, z, h5, by rw [h6, h4]⟩
    · intro y hy k' r hk
      have := List.mem_or_eq_of_mem_set hy
      show ∃ t, t < s.time + 1 ∧ _
      rcases this with hy | rfl
      · obtain ⟨t, h1, h2⟩ := i.vals y hy k' r hk
        exact ⟨t, by omega, h2⟩
      · simp only [List.mem_cons, Prod.mk.injEq] at hk
        rcases hk with ⟨rfl, rfl⟩ | hk
        · exact ⟨s.time, by omega, rfl⟩
        · obtain ⟨t, h1, h2⟩ := i.vals x hx k' r hk
          exact ⟨t, by omega, h2⟩

theorem Inv.add {fn : Nat → Nat → K → R} {s : State K R} (i : Inv fn s) {a : Nat}
    (h : ¬ (s.objs.any (fun o => o.addr = a)) = true) (d r : Bool) :
    Inv fn { s with objs := ⟨s.nextSerial, a, d, r, true, none⟩ :: s.objs, nextSerial := s.nextSerial + 1 } := by
  have ha : ∀ o ∈ s.objs, o.addr ≠ a := by simpa using h
  refine ⟨?_, ?_, ?_, ?_, ?_, i.vals⟩
  · intro o ho
    simp only [List.mem_cons] at ho
    rcases ho with rfl | ho
    · simp
    · have := i.serial_lt o ho
      show o.serial < s.nextSerial + 1
      omega
  · intro o ho p hp e
    simp only [List.mem_cons] at ho hp
    rcases ho with rfl | ho <;> rcases hp with rfl | hp
    · rfl
    · have := i.serial_lt p hp; simp at e; omega
    · have := i.serial_lt o ho; simp at e; omega
    · exact i.serials o ho p hp e
  · intro o ho p hp e
    simp only [List.mem_cons] at ho hp
    rcases ho with rfl | ho <;> rcases hp with rfl | hp
    · rfl
    · exact absurd e.symm (ha p hp)
    · exact absurd e (ha o ho)
    · exact i.addrs o ho p hp e
  · intro o ho w hw
    simp only [List.mem_cons] at ho
    rcases ho with rfl | ho
    · simp at hw
    · exact i.attr o ho w hw
  · intro b w hw
    obtain ⟨o, ho, h2⟩ := i.fb b w hw
    exact ⟨o, List.mem_cons_of_mem _ ho, h2⟩

theorem Inv.step {fn : Nat → Nat → K → R} {s : State K R} (i : Inv fn s) {op : Op K} (h : Safe s op) :
    Inv fn (step fn s op).1 := by
  cases op with
  | new a d r =>
    unfold PerInstance.step
    simp only
    split
    · exact i
    · rename_i hn
      exact i.add hn d r
  | copy n a =>
    unfold PerInstance.step
    simp only
    cases hf : s.find n with
    | none => exact i
    | some o =>
      simp only
      split
      · exact i
      · rename_i hn
        simp only [Safe] at h
        rw [h o hf]
        refine i.add ?_ _ _
        tauto
  | drop n =>
    unfold PerInstance.step
    simp only
    refine ⟨?_, ?_, ?_, ?_, ?_, i.vals⟩
    · intro p hp
      simp only [State.modify, List.mem_map] at hp
      obtain ⟨q, hq, rfl⟩ := hp
      have := i.serial_lt q hq
      split <;> exact this
    · intro p hp p' hp' e
      simp only [State.modify, List.mem_map] at hp hp'
      obtain ⟨q, hq, rfl⟩ := hp
      obtain ⟨q', hq', rfl⟩ := hp'
      have : q.serial = q'.serial := by
        split at e <;> split at e <;> simpa using e
      rw [i.serials q hq q' hq' this]
    · intro p hp p' hp' e
      simp only [State.modify, List.mem_map] at hp hp'
      obtain ⟨q, hq, rfl⟩ := hp
      obtain ⟨q', hq', rfl⟩ := hp'
      have : q.addr = q'.addr := by
        split at e <;> split at e <;> simpa using e
      rw [i.addrs q hq q' hq' this]
    · intro p hp w hw
      simp only [State.modify, List.mem_map] at hp
      obtain ⟨q, hq, rfl⟩ := hp
      have h1 : q.attr = some w := by split at hw <;> simpa using hw
      have := i.attr q hq w h1
      split <;> exact this
    · intro b w hw
      obtain ⟨q, hq, h2⟩ := i.fb b w hw
      refine ⟨if q.serial = n then { q with held := false } else q, List.mem_map.2 ⟨q, hq, rfl⟩, ?_⟩
      split <;> exact h2
  | collect n =>
    unfold PerInstance.step
    simp only
    cases hf : s.find n with
    | none => exact i
    | some o =>
      simp only
      split
      · exact i
      · rename_i hn
        have hr : s.referenced n = false := by
          cases hc : s.referenced n <;> simp_all
        refine ⟨?_, ?_, ?_, ?_, ?_, i.vals⟩
        · intro p hp
          exact i.serial_lt p (List.mem_of_mem_filter hp)
        · intro p hp q hq
          exact i.serials p (List.mem_of_mem_filter hp) q (List.mem_of_mem_filter hq)
        · intro p hp q hq
          exact i.addrs p (List.mem_of_mem_filter hp) q (List.mem_of_mem_filter hq)
        · intro p hp
          exact i.attr p (List.mem_of_mem_filter hp)
        · intro b w hw
          have hw' : (b, w) ∈ s.fallback := by
            simp only at hw
            split at hw
            · exact List.mem_of_mem_filter hw
            · exact hw
          obtain ⟨q, hq, h1, h2, x, h3, h4⟩ := i.fb b w hw'
          refine ⟨q, ?_, h1, h2, x, h3, h4⟩
          simp only [List.mem_filter]
          refine ⟨hq, ?_⟩
          by_contra hc
          have hs : q.serial = n := by simpa using hc
          have hr' : s.referenced n = true := by
            unfold State.referenced
            rw [Bool.or_eq_true]
            left
            rw [List.any_eq_true]
            exact ⟨_, hw', by simp [State.owned, h3, h4, hs]⟩
          rw [hr] at hr'
          cases hr'
  | call n k =>
    unfold PerInstance.step
    simp only
    cases hf : s.find n with
    | none => exact i
    | some o =>
      simp only
      split
      · obtain ⟨i', _, x, hx, _⟩ := getWrapper_spec i (find_mem hf).1
        exact (invoke_spec i' hx k).1
      · exact i

theorem SafeReach.inv {fn : Nat → Nat → K → R} {s : State K R} (h : SafeReach fn s) : Inv fn s := by
  induction h with
  | init => exact Inv.init fn
  | step op _ hs ih => exact ih.step hs

theorem find_modify {s : State K R} {n m : Nat} {f : Obj → Obj} (hf : ∀ o, (f o).serial = o.serial) :
    (s.modify n f).find m = (s.find m).map (fun o => if o.serial = n then f o else o) := by
  unfold State.find State.modify
  simp only [List.find?_map]
  congr 2
  funext o
  simp only [Function.comp_apply]
  split
  · rw [hf]
  · rfl

theorem find_filter {s : State K R} {n m : Nat} (h : m ≠ n) {fb} :
    ({ s with objs := s.objs.filter (fun o => o.serial ≠ n), fallback := fb } : State K R).find m = s.find m := by
  unfold State.find
  simp only
  rw [List.find?_filter]
  congr 1
  funext o
  by_cases e : o.serial = m
  · simp [e, h]
  · simp [e]

/-- The wrapper of an object, if there is one. -/
def wrapperOf (s : State K R) (o : Obj) : Option Nat := if o.hasDict then o.attr else s.fallback.lookup o.addr

theorem wrapperOf_owner {fn : Nat → Nat → K → R} {s : State K R} (i : Inv fn s) {o : Obj} (h : o ∈ s.objs) {w : Nat}
    (hw : wrapperOf s o = some w) : ∃ x, s.wrappers[w]? = some x ∧ x.owner = o.serial := by
  unfold wrapperOf at hw
  split at hw
  · exact (i.attr o h w hw).2
  · obtain ⟨q, hq, h1, h2, x, h3, h4⟩ := i.fb _ _ (lookup_mem hw)
    have := i.addrs q hq o h h1
    subst this
    exact ⟨x, h3, h4⟩

theorem remembered_eq (s : State K R) (m : Nat) : remembered s m =
    ((((s.find m).bind (wrapperOf s)).bind (fun w => s.wrappers[w]?)).map Wrapper.cache).getD [] := by
  unfold remembered wrapperOf
  cases s.find m with
  | none => rfl
  | some o =>
    simp only [Option.bind_some]
    cases (if o.hasDict = true then o.attr else List.lookup o.addr s.fallback) with
    | none => rfl
    | some w =>
      simp only [Option.bind_some]
      cases s.wrappers[w]? <;> rfl

theorem lookup_fallback_free {fn : Nat → Nat → K → R} {s : State K R} (i : Inv fn s) {a : Nat}
    (h : ∀ o ∈ s.objs, o.addr ≠ a) : s.fallback.lookup a = none := by
  cases hl : s.fallback.lookup a with
  | none => rfl
  | some w =>
    obtain ⟨q, hq, h1, _⟩ := i.fb _ _ (lookup_mem hl)
    exact absurd h1 (h q hq)

/-- Looking up a wrapper does not change what is remembered for anyone. -/
theorem getWrapper_remembered {fn : Nat → Nat → K → R} {s : State K R} (i : Inv fn s) {o : Obj} (h : o ∈ s.objs)
    {m : Nat} (hm : m ≠ o.serial) : remembered (s.getWrapper o).1 m = remembered s m := by
  have happ : ∀ p ∈ s.objs, ∀ w, wrapperOf s p = some w →
      (s.wrappers ++ [(⟨o.serial, []⟩ : Wrapper K R)])[w]? = s.wrappers[w]? := by
    intro p hp w hw
    obtain ⟨x, hx, _⟩ := wrapperOf_owner i hp hw
    rw [List.getElem?_append_left]
    exact (List.getElem?_eq_some_iff.1 hx).1
  unfold State.getWrapper
  split
  · split
    · rfl
    · rw [remembered_eq, remembered_eq]
      have e : ({ (s.modify o.serial (fun o => { o with attr := some s.wrappers.length })) with
          wrappers := s.wrappers ++ [⟨o.serial, []⟩] } : State K R).find m = s.find m := by
        have := find_modify (s := s) (n := o.serial) (m := m)
          (f := fun o => { o with attr := some s.wrappers.length }) (fun _ => rfl)
        refine Eq.trans this ?_
        cases hf : s.find m with
        | none => rfl
        | some q =>
          have := (find_mem hf).2
          simp [this, hm]
      simp only [e]
      cases hf : s.find m with
      | none => rfl
      | some q =>
        have hq := find_mem hf
        simp only [Option.bind_some]
        show ((Option.bind (wrapperOf s q) fun w => (s.wrappers ++ [(⟨o.serial, []⟩ : Wrapper K R)])[w]?).map
          Wrapper.cache).getD [] = _
        cases hw : wrapperOf s q with
        | none => rfl
        | some w => simp only [Option.bind_some]; rw [happ q hq.1 w hw]
  · split
    · rfl
    · rw [remembered_eq, remembered_eq]
      show ((Option.bind (Option.bind (s.find m) _) fun w => (s.wrappers ++ [(⟨o.serial, []⟩ : Wrapper K R)])[w]?).map
          Wrapper.cache).getD [] = _
      cases hf : s.find m with
      | none => rfl
      | some q =>
        have hq := find_mem hf
        simp only [Option.bind_some]
        have e : wrapperOf ({ s with
            wrappers := s.wrappers ++ [⟨o.serial, []⟩]
            fallback := (o.addr, s.wrappers.length) :: s.fallback } : State K R) q = wrapperOf s q := by
          unfold wrapperOf
          split
          · rfl
          · simp only
            rw [List.lookup_cons]
            have : (q.addr == o.addr) = false := by
              rw [beq_eq_false_iff_ne]
              intro e
              have := i.addrs q hq.1 o h e
              subst this
              exact hm hq.2.symm
            rw [this]
        rw [e]
        cases hw : wrapperOf s q with
        | none => rfl
        | some w => simp only [Option.bind_some]; rw [happ q hq.1 w hw]

/-- Calling a wrapper changes what is remembered for its owner only. -/
theorem invoke_remembered {fn : Nat → Nat → K → R} {s : State K R} (i : Inv fn s) {w : Nat} {x : Wrapper K R}
    (h : s.wrappers[w]? = some x) (k : K) {m : Nat} (hm : m ≠ x.owner) :
    remembered (s.invoke fn w k).1 m = remembered s m := by
  unfold State.invoke
  rw [h]
  simp only
  split
  · rfl
  · rw [remembered_eq, remembered_eq]
    show ((Option.bind (Option.bind (s.find m) (wrapperOf s)) fun v => (s.wrappers.set w _)[v]?).map
          Wrapper.cache).getD [] = _
    cases hf : s.find m with
    | none => rfl
    | some q =>
      have hq := find_mem hf
      simp only [Option.bind_some]
      cases hw : wrapperOf s q with
      | none => rfl
      | some v =>
        obtain ⟨y, hy, ho⟩ := wrapperOf_owner i hq.1 hw
        simp only [Option.bind_some]
        rw [List.getElem?_set_ne]
        rintro rfl
        rw [h] at hy
        cases hy
        exact hm (by rw [ho, hq.2])

theorem pinned_step {fn : Nat → Nat → K → R} {s : State K R} {n w a : Nat} {x : Wrapper K R}
    (h1 : (a, w) ∈ s.fallback) (h2 : s.wrappers[w]? = some x) (h3 : x.owner = n)
    (h4 : ∃ o ∈ s.objs, o.serial = n ∧ o.addr = a) (i : ∀ o ∈ s.objs, ∀ p ∈ s.objs, o.addr = p.addr → o.serial = p.serial)
    (op : Op K) :
    let s' := (step fn s op).1
    (a, w) ∈ s'.fallback ∧ (∃ x, s'.wrappers[w]? = some x ∧ x.owner = n) ∧
      (∃ o ∈ s'.objs, o.serial = n ∧ o.addr = a) ∧
      (∀ o ∈ s'.objs, ∀ p ∈ s'.objs, o.addr = p.addr → o.serial = p.serial) := by
  have hsame : (a, w) ∈ s.fallback ∧ (∃ x, s.wrappers[w]? = some x ∧ x.owner = n) ∧
      (∃ o ∈ s.objs, o.serial = n ∧ o.addr = a) ∧
      (∀ o ∈ s.objs, ∀ p ∈ s.objs, o.addr = p.addr → o.serial = p.serial) := ⟨h1, ⟨x, h2, h3⟩, h4, i⟩
  have hadd : ∀ (b : Nat) (q : Obj), q.addr = b → ¬ (s.objs.any (fun o => o.addr = b)) = true →
      ((a, w) ∈ s.fallback ∧ (∃ x, s.wrappers[w]? = some x ∧ x.owner = n) ∧
      (∃ o ∈ q :: s.objs, o.serial = n ∧ o.addr = a) ∧
      (∀ o ∈ q :: s.objs, ∀ p ∈ q :: s.objs, o.addr = p.addr → o.serial = p.serial)) := by
    intro b q hq hb
    have hb' : ∀ o ∈ s.objs, o.addr ≠ b := by simpa using hb
    obtain ⟨o, ho, h5⟩ := h4
    refine ⟨h1, ⟨x, h2, h3⟩, ⟨o, List.mem_cons_of_mem _ ho, h5⟩, ?_⟩
    intro o ho p hp e
    simp only [List.mem_cons] at ho hp
    rcases ho with rfl | ho <;> rcases hp with rfl | hp
    · rfl
    · exact absurd (e.symm.trans hq) (hb' p hp)
    · exact absurd (e.trans hq) (hb' o ho)
    · exact i o ho p hp e
  cases op with
  | new b d r =>
    unfold step
    simp only
    split
    · exact hsame
    · rename_i hb
      exact hadd b _ rfl hb
  | copy m b =>
    unfold step
    simp only
    cases s.find m with
    | none => exact hsame
    | some q =>
      simp only
      split
      · exact hsame
      · rename_i hb
        exact hadd b _ rfl (by tauto)
  | drop m =>
    unfold step
    simp only
    refine ⟨h1, ⟨x, h2, h3⟩, ?_, ?_⟩
    · obtain ⟨o, ho, h5, h6⟩ := h4
      refine ⟨if o.serial = m then { o with held := false } else o, List.mem_map.2 ⟨o, ho, rfl⟩, ?_⟩
      split <;> exact ⟨h5, h6⟩
    · intro p hp q hq e
      simp only [State.modify, List.mem_map] at hp hq
      obtain ⟨p, hp, rfl⟩ := hp
      obtain ⟨q, hq, rfl⟩ := hq
      have := i p hp q hq (by split at e <;> split at e <;> exact e)
      split <;> split <;> exact this
  | collect m =>
    unfold step
    simp only
    cases hf : s.find m with
    | none => exact hsame
    | some q =>
      have hq := find_mem hf
      simp only
      split
      · exact hsame
      · rename_i hc
        have hr : s.referenced m = false := by
          cases hc' : s.referenced m <;> simp_all
        have hmn : n ≠ m := by
          rintro rfl
          have : s.referenced n = true := by
            unfold State.referenced
            rw [Bool.or_eq_true]
            left
            rw [List.any_eq_true]
            exact ⟨_, h1, by simp [State.owned, h2, h3]⟩
          rw [hr] at this
          cases this
        obtain ⟨o, ho, h5, h6⟩ := h4
        refine ⟨?_, ⟨x, h2, h3⟩, ⟨o, ?_, h5, h6⟩, ?_⟩
        · simp only
          split
          · rw [List.mem_filter]
            refine ⟨h1, ?_⟩
            simp only [ne_eq, decide_not, Bool.not_eq_eq_eq_not, Bool.not_true, decide_eq_false_iff_not]
            intro e
            have := i o ho q hq.1 (h6.trans e)
            exact hmn (h5.symm.trans (this.trans hq.2))
          · exact h1
        · rw [List.mem_filter]
          exact ⟨ho, by simp [h5, hmn]⟩
        · intro p hp p' hp'
          exact i p (List.mem_of_mem_filter hp) p' (List.mem_of_mem_filter hp')
  | call m k =>
    unfold step
    simp only
    cases hf : s.find m with
    | none => exact hsame
    | some q =>
      simp only
      split
      · have hget : (a, w) ∈ (s.getWrapper q).1.fallback ∧
            (∃ x, (s.getWrapper q).1.wrappers[w]? = some x ∧ x.owner = n) ∧
            (∃ o ∈ (s.getWrapper q).1.objs, o.serial = n ∧ o.addr = a) ∧
            (∀ o ∈ (s.getWrapper q).1.objs, ∀ p ∈ (s.getWrapper q).1.objs, o.addr = p.addr → o.serial = p.serial) := by
          have hw : w < s.wrappers.length := (List.getElem?_eq_some_iff.1 h2).1
          unfold State.getWrapper
          split
          · split
            · exact hsame
            · refine ⟨h1, ⟨x, by simp only; rw [List.getElem?_append_left hw, h2], h3⟩, ?_, ?_⟩
              · obtain ⟨o, ho, h5, h6⟩ := h4
                refine ⟨if o.serial = q.serial then { o with attr := some s.wrappers.length } else o,
                  List.mem_map.2 ⟨o, ho, rfl⟩, ?_⟩
                split <;> exact ⟨h5, h6⟩
              · intro p hp q hq e
                simp only [State.modify, List.mem_map] at hp hq
                obtain ⟨p, hp, rfl⟩ := hp
                obtain ⟨q, hq, rfl⟩ := hq
                have := i p hp q hq (by split at e <;> split at e <;> exact e)
                split <;> split <;> exact this
          · split
            · exact hsame
            · exact ⟨List.mem_cons_of_mem _ h1, ⟨x, by simp only; rw [List.getElem?_append_left hw, h2], h3⟩, h4, i⟩
        obtain ⟨g1, ⟨y, g2, g3⟩, g4, g5⟩ := hget
        unfold State.invoke
        split
        · exact ⟨g1, ⟨y, g2, g3⟩, g4, g5⟩
        · rename_i z hz
          split
          · exact ⟨g1, ⟨y, g2, g3⟩, g4, g5⟩
          · obtain ⟨u, hu, hu'⟩ := set_owner (c := (k, fn z.owner (s.getWrapper q).1.time k) :: z.cache) hz g2
            exact ⟨g1, ⟨u, hu, hu'.trans g3⟩, g4, g5⟩
      · exact hsame

theorem pinned_run {fn : Nat → Nat → K → R} {n w a : Nat} (ops : List (Op K)) {s : State K R}
    (h1 : (a, w) ∈ s.fallback) (h2 : ∃ x, s.wrappers[w]? = some x ∧ x.owner = n)
    (h4 : ∃ o ∈ s.objs, o.serial = n ∧ o.addr = a)
    (i : ∀ o ∈ s.objs, ∀ p ∈ s.objs, o.addr = p.addr → o.serial = p.serial) : Alive (run fn s ops) n := by
  induction ops generalizing s with
  | nil =>
    obtain ⟨o, ho, h, _⟩ := h4
    exact ⟨o, ho, h⟩
  | cons op ops ih =>
    obtain ⟨x, h2, h3⟩ := h2
    obtain ⟨g1, g2, g3, g4⟩ := pinned_step (fn := fn) h1 h2 h3 h4 i op
    exact ih g1 g2 g3 g4

theorem run_append {fn : Nat → Nat → K → R} (s : State K R) (a b : List (Op K)) :
    run fn s (a ++ b) = run fn (run fn s a) b := by
  induction a generalizing s with
  | nil => rfl
  | cons op a ih => exact ih _

end Verif.PerInstance
