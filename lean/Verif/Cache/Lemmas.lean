import Verif.Cache.Spec
import Mathlib.Data.List.Perm.Subperm

/-! # Proof internals for the cache: structural invariant, provenance, size -/

namespace Verif.Cache
set_option linter.unusedSectionVars false
open Verif.Py

variable {K V X : Type} [DecidableEq K]

/-! ### Runs -/

theorem run_append (m : Option Int) (s : Sys K V X) (a b : List (Op K V X)) :
    run m s (a ++ b) = (run m s a).bind (fun s' => run m s' b) := by
  induction a generalizing s with
  | nil => simp [run]
  | cons x a ih =>
    simp only [List.cons_append, run]
    cases step m s x with
    | none => simp
    | some s' => simp [ih]

theorem After.snoc_iff {m : Option Int} {ops : List (Op K V X)} {op : Op K V X} {s' : Sys K V X} :
    After m (ops ++ [op]) s' ↔ ∃ s, After m ops s ∧ step m s op = some s' := by
  unfold After
  rw [run_append]
  cases h : run m init ops with
  | none => simp
  | some s =>
    simp only [Option.bind_some, run, Option.some.injEq, exists_eq_left']
    cases step m s op <;> simp

/-- Induction over the moves of a run, last move first. -/
theorem After.induct {m : Option Int} {P : List (Op K V X) → Sys K V X → Prop}
    (h0 : P [] init)
    (hs : ∀ ops s op s', After m ops s → P ops s → step m s op = some s' → P (ops ++ [op]) s')
    {ops : List (Op K V X)} {s : Sys K V X} (h : After m ops s) : P ops s := by
  have key : ∀ (n : Nat) (ops : List (Op K V X)) (s : Sys K V X), ops.length = n →
      After m ops s → P ops s := by
    intro n
    induction n with
    | zero =>
      intro ops s hl h
      have : ops = [] := List.length_eq_zero_iff.1 hl
      subst this
      simp only [After, run, Option.some.injEq] at h
      subst h; exact h0
    | succ n ih =>
      intro ops s hl h
      have hne : ops ≠ [] := by intro e; subst e; simp at hl
      obtain ⟨ini, op, rfl⟩ : ∃ i o, ops = i ++ [o] := ⟨_, _, (List.dropLast_append_getLast hne).symm⟩
      obtain ⟨s0, h1, h2⟩ := After.snoc_iff.1 h
      exact hs ini s0 op s h1 (ih ini s0 (by simpa using hl) h1) h2
  exact key _ ops s rfl h

@[simp] theorem setThr_self (thr : Nat → Thr K V X) (t : Nat) (x : Thr K V X) :
    setThr thr t x t = x := by simp [setThr]

theorem setThr_ne (thr : Nat → Thr K V X) {t t' : Nat} (h : t' ≠ t) (x : Thr K V X) :
    setThr thr t x t' = thr t' := by simp [setThr, h]

/-- All shapes of a step. -/
theorem step_cases {m : Option Int} {s s' : Sys K V X} {op : Op K V X}
    (h : step m s op = some s') :
    (∃ t k, op = .call t k ∧ s.thr t = .idle ∧ s' = doEnter s t k) ∨
    (∃ t k, op = .retry t ∧ s.thr t = .retrying k ∧ s' = doEnter s t k) ∨
    (∃ t k r, op = .complete t r ∧ s.thr t = .computing k ∧ s' = doComplete m s t k r) ∨
    (∃ t e k v, op = .signal t ∧ s.thr t = .signalling e k (.ok v) ∧
      s' = { sh := signalEv s.sh e, thr := setThr s.thr t .idle, log := .returned t k v :: s.log }) ∨
    (∃ t e k x, op = .signal t ∧ s.thr t = .signalling e k (.error x) ∧
      s' = { sh := signalEv s.sh e, thr := setThr s.thr t .idle, log := .failed t k x :: s.log }) ∨
    (∃ t k e v, op = .wake t ∧ s.thr t = .waiting k e ∧ s.sh.isSet e = true ∧
      reread s.sh k = some v ∧
      s' = { s with thr := setThr s.thr t .idle, log := .returned t k v :: s.log }) ∨
    (∃ t k e, op = .wake t ∧ s.thr t = .waiting k e ∧ s.sh.isSet e = true ∧
      reread s.sh k = none ∧ s' = { s with thr := setThr s.thr t (.retrying k) }) ∨
    (op = .clear ∧ s' = { s with sh := clear s.sh, log := .cleared :: s.log }) := by
  cases op with
  | call t k =>
    simp only [step] at h
    split at h <;> simp at h
    rename_i hh; exact Or.inl ⟨t, k, rfl, hh, h.symm⟩
  | retry t =>
    simp only [step] at h
    split at h <;> simp at h
    rename_i k hh; exact Or.inr (Or.inl ⟨t, k, rfl, hh, h.symm⟩)
  | complete t r =>
    simp only [step] at h
    split at h <;> simp at h
    rename_i k hh; exact Or.inr (Or.inr (Or.inl ⟨t, k, r, rfl, hh, h.symm⟩))
  | signal t =>
    simp only [step] at h
    split at h <;> simp at h
    · rename_i e k v hh
      exact Or.inr (Or.inr (Or.inr (Or.inl ⟨t, e, k, v, rfl, hh, h.symm⟩)))
    · rename_i e k v hh
      exact Or.inr (Or.inr (Or.inr (Or.inr (Or.inl ⟨t, e, k, v, rfl, hh, h.symm⟩))))
  | wake t =>
    simp only [step] at h
    split at h
    · rename_i k e hh
      split at h
      · rename_i hset
        split at h <;> simp at h
        · rename_i v hv
          exact Or.inr (Or.inr (Or.inr (Or.inr (Or.inr (Or.inl ⟨t, k, e, v, rfl, hh, hset, hv, h.symm⟩)))))
        · rename_i hv
          exact Or.inr (Or.inr (Or.inr (Or.inr (Or.inr (Or.inr (Or.inl ⟨t, k, e, rfl, hh, hset, hv, h.symm⟩))))))
      · simp at h
    · simp at h
  | clear =>
    simp only [step, Option.some.injEq] at h
    exact Or.inr (Or.inr (Or.inr (Or.inr (Or.inr (Or.inr (Or.inr ⟨rfl, h.symm⟩))))))

/-! ### Structural invariant of the shared variables -/

structure SI (s : Shared K V) : Prop where
  wfc : Dict.Wf s.cache
  wfe : Dict.Wf s.events
  nd : s.order.Nodup
  sub : ∀ k ∈ s.order, k ∈ s.cache.keys
  sent : ∀ k, s.cache.get? k = some none → k ∈ s.order ∧ ∃ e, s.events.get? k = some e
  lt : ∀ k e, s.events.get? k = some e → e < s.fresh
  setlt : ∀ e, s.isSet e = true → e < s.fresh

theorem SI.empty : SI ({} : Shared K V) where
  wfc := Dict.wf_nil
  wfe := Dict.wf_nil
  nd := List.nodup_nil
  sub := by simp
  sent := by simp
  lt := by simp
  setlt := by simp

theorem evict_spec (n : Int) : ∀ (o : List K) (c c' : Dict K (Option V)) (o' : List K) (b : Bool),
    Dict.Wf c → o.Nodup → (∀ k ∈ o, k ∈ c.keys) → evict n c o = (c', o', b) →
    Dict.Wf c' ∧ o'.Nodup ∧ (∀ k ∈ o', k ∈ c'.keys) ∧ (∀ k ∈ o', k ∈ o) ∧
    (∀ k x, c'.get? k = some x → c.get? k = some x) ∧
    (∀ k, k ∈ o → k ∉ o' → c'.get? k = none) ∧
    (b = false → (c'.length : Int) ≤ n) ∧ (b = true → o' = []) := by
  intro o
  induction o with
  | nil =>
    intro c c' o' b hc _ _ h
    simp only [evict, Prod.mk.injEq] at h
    obtain ⟨rfl, rfl, rfl⟩ := h
    refine ⟨hc, List.nodup_nil, by simp, by simp, fun _ _ h => h, by simp, ?_, by simp⟩
    intro h; simp at h; exact h
  | cons a o ih =>
    intro c c' o' b hc hnd hsub h
    simp only [evict] at h
    split at h
    · rw [List.nodup_cons] at hnd
      have hwe : Dict.Wf (c.erase a) := hc.erase a
      obtain ⟨h1, h2, h3, h4, h5, h6, h7, h8⟩ := ih _ c' o' b hwe hnd.2 (by
        intro k hk
        rw [Dict.mem_keys_erase hc]
        exact ⟨fun e => hnd.1 (e ▸ hk), hsub k (List.mem_cons_of_mem _ hk)⟩) h
      refine ⟨h1, h2, h3, fun k hk => List.mem_cons_of_mem _ (h4 k hk), ?_, ?_, h7, h8⟩
      · intro k x hx
        have := h5 k x hx
        rw [Dict.get?_erase hc] at this
        split at this
        · cases this
        · exact this
      · intro k hk hk'
        rcases List.mem_cons.1 hk with rfl | hk
        · cases hg : c'.get? k with
          | none => rfl
          | some x =>
            have := h5 k x hg
            rw [Dict.get?_erase hc] at this
            simp at this
        · exact h6 k hk hk'
    · rename_i hlen
      simp only [Prod.mk.injEq] at h
      obtain ⟨rfl, rfl, rfl⟩ := h
      refine ⟨hc, hnd, hsub, fun _ h => h, fun _ _ h => h, fun k h1 h2 => absurd h1 h2, ?_, by simp⟩
      intro _; omega

/-- `evict` does nothing when the cache is within its limit. -/
theorem evict_id (n : Int) (c : Dict K (Option V)) (o : List K) (h : (c.length : Int) ≤ n) :
    evict n c o = (c, o, false) := by
  cases o with
  | nil => simp [evict]; exact h
  | cons a o => simp only [evict]; rw [if_neg (by omega)]

theorem enter_compute_iff (s : Shared K V) (k : K) (h : s.cache.get? k = none) :
    enter s k = ({ s with events := s.events.set k s.fresh
                          cache := s.cache.set k none
                          order := s.order ++ [k]
                          fresh := s.fresh + 1 }, .compute) := by
  simp [enter, h]

theorem enter_hit (s : Shared K V) (k : K) (v : V) (h : s.cache.get? k = some (some v)) :
    enter s k = (s, .hit v) := by
  simp [enter, h]

theorem enter_wait (s : Shared K V) (k : K) (e : Nat) (h : s.cache.get? k = some none)
    (he : s.events.get? k = some e) : enter s k = (s, .wait e) := by
  simp [enter, h, he]

/-- The state of the first lock section when the key is new. -/
def entered (s : Shared K V) (k : K) : Shared K V :=
  { s with events := s.events.set k s.fresh
           cache := s.cache.set k none
           order := s.order ++ [k]
           fresh := s.fresh + 1 }

theorem SI.entered {s : Shared K V} (h : SI s) {k : K} (hk : s.cache.get? k = none) :
    SI (entered s k) where
  wfc := h.wfc.set _ _
  wfe := h.wfe.set _ _
  nd := by
    simp only [Cache.entered]
    rw [List.nodup_append]
    refine ⟨h.nd, by simp, ?_⟩
    intro a ha b hb e
    simp at hb; subst hb; subst e
    exact (Dict.get?_eq_none_iff _ _).1 hk (h.sub a ha)
  sub := by
    intro k' hk'
    simp only [Cache.entered, List.mem_append, List.mem_singleton] at hk' ⊢
    rw [Dict.mem_keys_set]
    rcases hk' with hk' | rfl
    · exact Or.inr (h.sub k' hk')
    · exact Or.inl rfl
  sent := by
    intro k' hk'
    simp only [Cache.entered] at hk' ⊢
    rw [Dict.get?_set] at hk' ⊢
    by_cases e : k = k'
    · subst e; simp
    · simp only [e, if_false] at hk' ⊢
      obtain ⟨h1, h2⟩ := h.sent k' hk'
      exact ⟨by simp [h1], h2⟩
  lt := by
    intro k' e he
    simp only [Cache.entered] at he ⊢
    rw [Dict.get?_set] at he
    split at he
    · cases he; omega
    · have := h.lt k' e he; omega
  setlt := by
    intro e he
    have := h.setlt e he
    simp only [Cache.entered]; omega

/-- The shared state after an exception. -/
theorem abort_shape {s : Shared K V} (h : SI s) (k : K) :
    (s.cache.get? k = some none ∧
      abort s k = ({ s with cache := s.cache.erase k, order := s.order.erase k,
                            events := s.events.erase k }, s.events.get? k, none)) ∨
    (s.cache.get? k ≠ some none ∧
      abort s k = ({ s with events := s.events.erase k }, s.events.get? k, none)) := by
  by_cases hk : s.cache.get? k = some none
  · left
    refine ⟨hk, ?_⟩
    simp [abort, hk, (h.sent k hk).1]
  · right
    refine ⟨hk, ?_⟩
    unfold abort
    split
    · contradiction
    · rfl

theorem SI.abort {s : Shared K V} (h : SI s) (k : K) : SI (abort s k).1 := by
  rcases abort_shape h k with ⟨hk, he⟩ | ⟨hk, he⟩ <;> rw [he]
  · refine ⟨h.wfc.erase _, h.wfe.erase _, h.nd.erase _, ?_, ?_, ?_, h.setlt⟩
    · intro k' hk'
      simp only at hk' ⊢
      rw [Dict.mem_keys_erase h.wfc]
      rw [List.Nodup.mem_erase_iff h.nd] at hk'
      exact ⟨hk'.1, h.sub _ hk'.2⟩
    · intro k' hk'
      simp only at hk' ⊢
      rw [Dict.get?_erase h.wfc] at hk'
      split at hk'
      · cases hk'
      · rename_i hne
        obtain ⟨h1, e, h2⟩ := h.sent k' hk'
        refine ⟨?_, e, ?_⟩
        · rw [List.Nodup.mem_erase_iff h.nd]; exact ⟨fun e => hne e.symm, h1⟩
        · rw [Dict.get?_erase h.wfe, if_neg hne]; exact h2
    · intro k' e hk'
      simp only at hk' ⊢
      rw [Dict.get?_erase h.wfe] at hk'
      split at hk'
      · cases hk'
      · exact h.lt _ _ hk'
  · refine ⟨h.wfc, h.wfe.erase _, h.nd, h.sub, ?_, ?_, h.setlt⟩
    · intro k' hk'
      simp only at hk' ⊢
      obtain ⟨h1, e, h2⟩ := h.sent k' hk'
      refine ⟨h1, e, ?_⟩
      have hne : k ≠ k' := by rintro rfl; exact hk hk'
      rw [Dict.get?_erase h.wfe, if_neg hne]; exact h2
    · intro k' e hk'
      simp only at hk' ⊢
      rw [Dict.get?_erase h.wfe] at hk'
      split at hk'
      · cases hk'
      · exact h.lt _ _ hk'

/-- The shared state after storing a result: either everything went well, or `popleft` failed on an empty queue. -/
theorem store_shape (m : Option Int) {s : Shared K V} (h : SI s) (k : K) (v : V) :
    ∃ c' o', Dict.Wf c' ∧ o'.Nodup ∧ (∀ k ∈ o', k ∈ c'.keys) ∧
      (∀ k' x, c'.get? k' = some x → (s.cache.set k (some v)).get? k' = some x) ∧
      (∀ k', c'.get? k' = some none → k' ∈ o' ∧ k' ≠ k) ∧
      ((store m s k v = ({ s with cache := c', order := o', events := s.events.erase k },
          s.events.get? k, none) ∧ ∀ n, m = some n → (c'.length : Int) ≤ n) ∨
       (store m s k v = ({ s with cache := c', order := [] }, none, some .indexError) ∧ o' = [])) := by
  have hwf : Dict.Wf (s.cache.set k (some v)) := h.wfc.set _ _
  have hsub : ∀ k' ∈ s.order, k' ∈ (s.cache.set k (some v)).keys := by
    intro k' hk'
    rw [Dict.mem_keys_set]; exact Or.inr (h.sub _ hk')
  have hsent : ∀ k', (s.cache.set k (some v)).get? k' = some none → k' ∈ s.order ∧ k' ≠ k := by
    intro k' hk'
    rw [Dict.get?_set] at hk'
    split at hk'
    · cases hk'
    · rename_i hne
      exact ⟨(h.sent k' hk').1, fun e => hne e.symm⟩
  cases m with
  | none =>
    exact ⟨s.cache.set k (some v), s.order, hwf, h.nd, hsub, fun _ _ h => h, hsent,
      Or.inl ⟨by simp [store], by simp⟩⟩
  | some n =>
    cases hev : evict n (s.cache.set k (some v)) s.order with
    | mk c' r =>
      obtain ⟨o', b⟩ := r
      obtain ⟨h1, h2, h3, h4, h5, h6, h7, h8⟩ := evict_spec n _ _ _ _ _ hwf h.nd hsub hev
      refine ⟨c', o', h1, h2, h3, h5, ?_, ?_⟩
      · intro k' hk'
        obtain ⟨ha, hb⟩ := hsent k' (h5 _ _ hk')
        refine ⟨?_, hb⟩
        by_cases hin : k' ∈ o'
        · exact hin
        · rw [h6 k' ha hin] at hk'; cases hk'
      · cases b with
        | false =>
          left
          refine ⟨by simp [store, hev], ?_⟩
          intro n' hn'
          cases hn'
          exact h7 rfl
        | true =>
          right
          have := h8 rfl
          subst this
          exact ⟨by simp [store, hev], rfl⟩

theorem SI.store (m : Option Int) {s : Shared K V} (h : SI s) (k : K) (v : V) :
    SI (store m s k v).1 := by
  obtain ⟨c', o', h1, h2, h3, h4, h5, h6⟩ := store_shape m h k v
  rcases h6 with ⟨h6, _⟩ | ⟨h6, h7⟩ <;> rw [h6]
  · refine ⟨h1, h.wfe.erase _, h2, h3, ?_, ?_, h.setlt⟩
    · intro k' hk'
      simp only at hk' ⊢
      obtain ⟨ha, hb⟩ := h5 k' hk'
      have hs := h4 _ _ hk'
      rw [Dict.get?_set, if_neg (fun e => hb e.symm)] at hs
      obtain ⟨_, e, he⟩ := h.sent k' hs
      refine ⟨ha, e, ?_⟩
      rw [Dict.get?_erase h.wfe, if_neg (fun e => hb e.symm)]
      exact he
    · intro k' e hk'
      simp only at hk' ⊢
      rw [Dict.get?_erase h.wfe] at hk'
      split at hk'
      · cases hk'
      · exact h.lt _ _ hk'
  · refine ⟨h1, h.wfe, List.nodup_nil, by simp, ?_, h.lt, h.setlt⟩
    intro k' hk'
    simp only at hk' ⊢
    have := (h5 k' hk').1
    rw [h7] at this
    simp at this

theorem SI.clear {s : Shared K V} (h : SI s) : SI (clear s) where
  wfc := Dict.wf_nil
  wfe := Dict.wf_nil
  nd := List.nodup_nil
  sub := by simp [Cache.clear]
  sent := by simp [Cache.clear]
  lt := by simp [Cache.clear]
  setlt := h.setlt

theorem SI.signal {s : Shared K V} (h : SI s) (e : Option Nat) (he : ∀ n, e = some n → n < s.fresh) :
    SI (signalEv s e) := by
  cases e with
  | none => exact h
  | some e =>
    refine ⟨h.wfc, h.wfe, h.nd, h.sub, h.sent, h.lt, ?_⟩
    intro e' h'
    simp only [signalEv] at h' ⊢
    split at h'
    · subst_vars; exact he _ rfl
    · exact h.setlt _ h'

/-- Shapes of the first lock section under the invariant. -/
theorem doEnter_shape {s : Sys K V X} (h : SI s.sh) (t : Nat) (k : K) :
    (∃ v, s.sh.cache.get? k = some (some v) ∧
      doEnter s t k = { s with thr := setThr s.thr t .idle, log := .returned t k v :: s.log }) ∨
    (∃ e, s.sh.cache.get? k = some none ∧ s.sh.events.get? k = some e ∧
      doEnter s t k = { s with thr := setThr s.thr t (.waiting k e) }) ∨
    (s.sh.cache.get? k = none ∧
      doEnter s t k = { sh := entered s.sh k, thr := setThr s.thr t (.computing k),
                        log := .started t k :: s.log }) := by
  cases hc : s.sh.cache.get? k with
  | none =>
    refine Or.inr (Or.inr ⟨rfl, ?_⟩)
    simp [doEnter, enter, hc, entered]
  | some x =>
    cases x with
    | none =>
      obtain ⟨_, e, he⟩ := h.sent k hc
      refine Or.inr (Or.inl ⟨e, rfl, he, ?_⟩)
      simp [doEnter, enter, hc, he]
    | some v =>
      refine Or.inl ⟨v, rfl, ?_⟩
      simp [doEnter, enter, hc]

/-- Shapes of the final lock section under the invariant. -/
theorem doComplete_shape (m : Option Int) {s : Sys K V X} (h : SI s.sh) (t : Nat) (k : K) (r : Except X V) :
    (∃ x, r = .error x ∧ doComplete m s t k r =
      { sh := (abort s.sh k).1, thr := setThr s.thr t (.signalling (s.sh.events.get? k) k r),
        log := .raised t k x :: s.log }) ∨
    (∃ v, r = .ok v ∧ store m s.sh k v = ((store m s.sh k v).1, s.sh.events.get? k, none) ∧
      doComplete m s t k r =
      { sh := (store m s.sh k v).1, thr := setThr s.thr t (.signalling (s.sh.events.get? k) k r),
        log := .computed t k v :: s.log }) ∨
    (∃ v, r = .ok v ∧ store m s.sh k v = ((store m s.sh k v).1, none, some .indexError) ∧
      doComplete m s t k r =
      { sh := (store m s.sh k v).1, thr := setThr s.thr t .idle,
        log := .internal t k .indexError :: .computed t k v :: s.log }) := by
  cases r with
  | error x =>
    refine Or.inl ⟨x, rfl, ?_⟩
    rcases abort_shape h k with ⟨_, he⟩ | ⟨_, he⟩ <;> simp [doComplete, he]
  | ok v =>
    obtain ⟨c', o', -, -, -, -, -, h6⟩ := store_shape m h k v
    rcases h6 with ⟨h6, _⟩ | ⟨h6, _⟩
    · refine Or.inr (Or.inl ⟨v, rfl, by rw [h6], ?_⟩)
      simp [doComplete, h6]
    · refine Or.inr (Or.inr ⟨v, rfl, by rw [h6], ?_⟩)
      simp [doComplete, h6]

/-! ### Safety invariant of the whole program -/

structure Inv (s : Sys K V X) : Prop where
  si : SI s.sh
  sig : ∀ t e k r, s.thr t = .signalling (some e) k r → e < s.sh.fresh
  wait : ∀ t k e, s.thr t = .waiting k e → e < s.sh.fresh
  sent : ∀ k, s.sh.cache.get? k = some none → ∃ t, s.thr t = .computing k
  prov : ∀ k v, s.sh.cache.get? k = some (some v) → ∃ t, Obs.computed t k v ∈ s.log
  provSig : ∀ t e k v, s.thr t = .signalling e k (.ok v) → Obs.computed t k v ∈ s.log
  provErr : ∀ t e k x, s.thr t = .signalling e k (.error x) → Obs.raised t k x ∈ s.log
  just : ∀ l₁ l₂ t k v, s.log = l₁ ++ Obs.returned t k v :: l₂ → ∃ t', Obs.computed t' k v ∈ l₂
  justErr : ∀ l₁ l₂ t k x, s.log = l₁ ++ Obs.failed t k x :: l₂ → Obs.raised t k x ∈ l₂
  noInt : ∀ t k i, Obs.internal t k i ∈ s.log → i = .indexError

theorem Inv.init : Inv (init : Sys K V X) where
  si := SI.empty
  sig := by simp [Cache.init]
  wait := by simp [Cache.init]
  sent := by simp [Cache.init]
  prov := by simp [Cache.init]
  provSig := by simp [Cache.init]
  provErr := by simp [Cache.init]
  just := by simp [Cache.init]
  justErr := by simp [Cache.init]
  noInt := by simp [Cache.init]

theorem just_cons {log : List (Obs K V X)} {o : Obs K V X}
    (h : ∀ l₁ l₂ t k v, log = l₁ ++ Obs.returned t k v :: l₂ → ∃ t', Obs.computed t' k v ∈ l₂)
    (ho : ∀ t k v, o = .returned t k v → ∃ t', Obs.computed t' k v ∈ log) :
    ∀ l₁ l₂ t k v, o :: log = l₁ ++ Obs.returned t k v :: l₂ → ∃ t', Obs.computed t' k v ∈ l₂ := by
  intro l₁ l₂ t k v he
  cases l₁ with
  | nil => simp only [List.nil_append, List.cons.injEq] at he; obtain ⟨rfl, rfl⟩ := he; exact ho _ _ _ rfl
  | cons a l₁ => simp only [List.cons_append, List.cons.injEq] at he; exact h _ _ _ _ _ he.2

theorem justErr_cons {log : List (Obs K V X)} {o : Obs K V X}
    (h : ∀ l₁ l₂ t k x, log = l₁ ++ Obs.failed t k x :: l₂ → Obs.raised t k x ∈ l₂)
    (ho : ∀ t k x, o = .failed t k x → Obs.raised t k x ∈ log) :
    ∀ l₁ l₂ t k x, o :: log = l₁ ++ Obs.failed t k x :: l₂ → Obs.raised t k x ∈ l₂ := by
  intro l₁ l₂ t k v he
  cases l₁ with
  | nil => simp only [List.nil_append, List.cons.injEq] at he; obtain ⟨rfl, rfl⟩ := he; exact ho _ _ _ rfl
  | cons a l₁ => simp only [List.cons_append, List.cons.injEq] at he; exact h _ _ _ _ _ he.2

theorem thr_setThr {thr : Nat → Thr K V X} {t t' : Nat} {x y : Thr K V X}
    (h : setThr thr t x t' = y) : (t' = t ∧ x = y) ∨ (t' ≠ t ∧ thr t' = y) := by
  by_cases e : t' = t
  · subst e; left; exact ⟨rfl, by simpa using h⟩
  · right; exact ⟨e, by rwa [setThr_ne _ e] at h⟩

theorem Inv.doEnter {s : Sys K V X} (h : Inv s) (t : Nat) (k : K)
    (hid : s.thr t = .idle ∨ s.thr t = .retrying k) : Inv (doEnter s t k) := by
  have hnc : ∀ k', s.thr t ≠ .computing k' := by
    intro k' e; rcases hid with h' | h' <;> rw [h'] at e <;> cases e
  rcases doEnter_shape h.si t k with ⟨v, hc, he⟩ | ⟨e, hc, hev, he⟩ | ⟨hc, he⟩ <;> rw [he]
  · refine ⟨h.si, ?_, ?_, ?_, ?_, ?_, ?_, ?_, ?_, ?_⟩
    · intro t' e k' r h'
      rcases thr_setThr h' with ⟨_, h'⟩ | ⟨_, h'⟩
      · cases h'
      · exact h.sig _ _ _ _ h'
    · intro t' k' e h'
      rcases thr_setThr h' with ⟨_, h'⟩ | ⟨_, h'⟩
      · cases h'
      · exact h.wait _ _ _ h'
    · intro k' h'
      obtain ⟨t', ht⟩ := h.sent k' h'
      have : t' ≠ t := by rintro rfl; exact hnc _ ht
      exact ⟨t', by simp only [setThr_ne _ this, ht]⟩
    · intro k' v' h'
      obtain ⟨t', ht⟩ := h.prov _ _ h'
      exact ⟨t', List.mem_cons_of_mem _ ht⟩
    · intro t' e k' v' h'
      rcases thr_setThr h' with ⟨_, h'⟩ | ⟨_, h'⟩
      · cases h'
      · exact List.mem_cons_of_mem _ (h.provSig _ _ _ _ h')
    · intro t' e k' v' h'
      rcases thr_setThr h' with ⟨_, h'⟩ | ⟨_, h'⟩
      · cases h'
      · exact List.mem_cons_of_mem _ (h.provErr _ _ _ _ h')
    · refine just_cons h.just ?_
      intro t' k' v' e; cases e; exact h.prov _ _ hc
    · refine justErr_cons h.justErr ?_
      intro t' k' v' e; cases e
    · intro t' k' i h'
      rcases List.mem_cons.1 h' with h' | h'
      · cases h'
      · exact h.noInt _ _ _ h'
  · refine ⟨h.si, ?_, ?_, ?_, h.prov, ?_, ?_, h.just, h.justErr, h.noInt⟩
    · intro t' e k' r h'
      rcases thr_setThr h' with ⟨_, h'⟩ | ⟨_, h'⟩
      · cases h'
      · exact h.sig _ _ _ _ h'
    · intro t' k' e h'
      rcases thr_setThr h' with ⟨_, h'⟩ | ⟨_, h'⟩
      · cases h'; exact h.si.lt _ _ hev
      · exact h.wait _ _ _ h'
    · intro k' h'
      obtain ⟨t', ht⟩ := h.sent k' h'
      have : t' ≠ t := by rintro rfl; exact hnc _ ht
      exact ⟨t', by simp only [setThr_ne _ this, ht]⟩
    · intro t' e k' v' h'
      rcases thr_setThr h' with ⟨_, h'⟩ | ⟨_, h'⟩
      · cases h'
      · exact h.provSig _ _ _ _ h'
    · intro t' e k' v' h'
      rcases thr_setThr h' with ⟨_, h'⟩ | ⟨_, h'⟩
      · cases h'
      · exact h.provErr _ _ _ _ h'
  · refine ⟨h.si.entered hc, ?_, ?_, ?_, ?_, ?_, ?_, ?_, ?_, ?_⟩
    · intro t' e k' r h'
      rcases thr_setThr h' with ⟨_, h'⟩ | ⟨_, h'⟩
      · cases h'
      · have := h.sig _ _ _ _ h'; simp only [entered]; omega
    · intro t' k' e h'
      rcases thr_setThr h' with ⟨_, h'⟩ | ⟨_, h'⟩
      · cases h'
      · have := h.wait _ _ _ h'; simp only [entered]; omega
    · intro k' h'
      simp only [entered] at h'
      rw [Dict.get?_set] at h'
      by_cases e : k = k'
      · subst e; exact ⟨t, by simp⟩
      · rw [if_neg e] at h'
        obtain ⟨t', ht⟩ := h.sent k' h'
        have : t' ≠ t := by rintro rfl; exact hnc _ ht
        exact ⟨t', by simp only [setThr_ne _ this, ht]⟩
    · intro k' v' h'
      simp only [entered] at h'
      rw [Dict.get?_set] at h'
      split at h'
      · cases h'
      · obtain ⟨t', ht⟩ := h.prov _ _ h'
        exact ⟨t', List.mem_cons_of_mem _ ht⟩
    · intro t' e k' v' h'
      rcases thr_setThr h' with ⟨_, h'⟩ | ⟨_, h'⟩
      · cases h'
      · exact List.mem_cons_of_mem _ (h.provSig _ _ _ _ h')
    · intro t' e k' v' h'
      rcases thr_setThr h' with ⟨_, h'⟩ | ⟨_, h'⟩
      · cases h'
      · exact List.mem_cons_of_mem _ (h.provErr _ _ _ _ h')
    · exact just_cons h.just (by intro _ _ _ e; cases e)
    · exact justErr_cons h.justErr (by intro _ _ _ e; cases e)
    · intro t' k' i h'
      rcases List.mem_cons.1 h' with h' | h'
      · cases h'
      · exact h.noInt _ _ _ h'

/-- What the final lock section keeps: remaining entries were there before or are the new result. -/
theorem abort_cache {s : Shared K V} (h : SI s) (k : K) :
    (∀ k' x, (abort s k).1.cache.get? k' = some x → s.cache.get? k' = some x) ∧
    ((abort s k).1.cache.get? k ≠ some none) ∧ (abort s k).1.fresh = s.fresh ∧
    (abort s k).1.isSet = s.isSet ∧ (abort s k).1.events = s.events.erase k := by
  rcases abort_shape h k with ⟨hk, he⟩ | ⟨hk, he⟩ <;> rw [he]
  · refine ⟨?_, ?_, rfl, rfl, rfl⟩
    · intro k' x h'
      simp only at h'
      rw [Dict.get?_erase h.wfc] at h'
      split at h'
      · cases h'
      · exact h'
    · simp only
      rw [Dict.get?_erase h.wfc]; simp
  · exact ⟨fun _ _ h => h, hk, rfl, rfl, rfl⟩

theorem store_cache (m : Option Int) {s : Shared K V} (h : SI s) (k : K) (v : V) :
    (∀ k' x, (store m s k v).1.cache.get? k' = some x →
      (s.cache.set k (some v)).get? k' = some x) ∧
    ((store m s k v).1.cache.get? k ≠ some none) ∧ (store m s k v).1.fresh = s.fresh ∧
    (store m s k v).1.isSet = s.isSet := by
  obtain ⟨c', o', h1, h2, h3, h4, h5, h6⟩ := store_shape m h k v
  have hk : c'.get? k ≠ some none := fun e => (h5 k e).2 rfl
  rcases h6 with ⟨h6, _⟩ | ⟨h6, h7⟩ <;> rw [h6]
  · exact ⟨h4, hk, rfl, rfl⟩
  · exact ⟨h4, hk, rfl, rfl⟩

theorem Inv.doComplete (m : Option Int) {s : Sys K V X} (h : Inv s) (t : Nat) (k : K) (r : Except X V)
    (hc : s.thr t = .computing k) : Inv (doComplete m s t k r) := by
  rcases doComplete_shape m h.si t k r with ⟨x, rfl, he⟩ | ⟨v, rfl, hst, he⟩ | ⟨v, rfl, hst, he⟩ <;> rw [he]
  · obtain ⟨ha, hb, hf, -, -⟩ := abort_cache h.si k
    refine ⟨h.si.abort k, ?_, ?_, ?_, ?_, ?_, ?_, ?_, ?_, ?_⟩
    · intro t' e k' r' h'
      simp only [hf]
      rcases thr_setThr h' with ⟨_, h'⟩ | ⟨_, h'⟩
      · simp only [Thr.signalling.injEq] at h'; exact h.si.lt _ _ h'.1
      · exact h.sig _ _ _ _ h'
    · intro t' k' e h'
      simp only [hf]
      rcases thr_setThr h' with ⟨_, h'⟩ | ⟨_, h'⟩
      · cases h'
      · exact h.wait _ _ _ h'
    · intro k' h'
      have hne : k' ≠ k := by rintro rfl; exact hb h'
      obtain ⟨t', ht⟩ := h.sent k' (ha _ _ h')
      have : t' ≠ t := by rintro rfl; rw [hc] at ht; cases ht; exact hne rfl
      exact ⟨t', by simp only [setThr_ne _ this, ht]⟩
    · intro k' v' h'
      obtain ⟨t', ht⟩ := h.prov _ _ (ha _ _ h')
      exact ⟨t', List.mem_cons_of_mem _ ht⟩
    · intro t' e k' v' h'
      rcases thr_setThr h' with ⟨_, h'⟩ | ⟨_, h'⟩
      · cases h'
      · exact List.mem_cons_of_mem _ (h.provSig _ _ _ _ h')
    · intro t' e k' v' h'
      rcases thr_setThr h' with ⟨et, h'⟩ | ⟨_, h'⟩
      · cases h'; simp [et]
      · exact List.mem_cons_of_mem _ (h.provErr _ _ _ _ h')
    · exact just_cons h.just (by intro _ _ _ e; cases e)
    · exact justErr_cons h.justErr (by intro _ _ _ e; cases e)
    · intro t' k' i h'
      rcases List.mem_cons.1 h' with h' | h'
      · cases h'
      · exact h.noInt _ _ _ h'
  · obtain ⟨ha, hb, hf, -⟩ := store_cache m h.si k v
    refine ⟨h.si.store m k v, ?_, ?_, ?_, ?_, ?_, ?_, ?_, ?_, ?_⟩
    · intro t' e k' r' h'
      simp only [hf]
      rcases thr_setThr h' with ⟨_, h'⟩ | ⟨_, h'⟩
      · simp only [Thr.signalling.injEq] at h'; exact h.si.lt _ _ h'.1
      · exact h.sig _ _ _ _ h'
    · intro t' k' e h'
      simp only [hf]
      rcases thr_setThr h' with ⟨_, h'⟩ | ⟨_, h'⟩
      · cases h'
      · exact h.wait _ _ _ h'
    · intro k' h'
      have hne : k' ≠ k := by rintro rfl; exact hb h'
      have h'' := ha _ _ h'
      rw [Dict.get?_set, if_neg (fun e => hne e.symm)] at h''
      obtain ⟨t', ht⟩ := h.sent k' h''
      have : t' ≠ t := by rintro rfl; rw [hc] at ht; cases ht; exact hne rfl
      exact ⟨t', by simp only [setThr_ne _ this, ht]⟩
    · intro k' v' h'
      have h'' := ha _ _ h'
      rw [Dict.get?_set] at h''
      split at h''
      · cases h''; subst_vars; exact ⟨t, by simp⟩
      · obtain ⟨t', ht⟩ := h.prov _ _ h''
        exact ⟨t', List.mem_cons_of_mem _ ht⟩
    · intro t' e k' v' h'
      rcases thr_setThr h' with ⟨et, h'⟩ | ⟨_, h'⟩
      · cases h'; simp [et]
      · exact List.mem_cons_of_mem _ (h.provSig _ _ _ _ h')
    · intro t' e k' v' h'
      rcases thr_setThr h' with ⟨et, h'⟩ | ⟨_, h'⟩
      · cases h'
      · exact List.mem_cons_of_mem _ (h.provErr _ _ _ _ h')
    · exact just_cons h.just (by intro _ _ _ e; cases e)
    · exact justErr_cons h.justErr (by intro _ _ _ e; cases e)
    · intro t' k' i h'
      rcases List.mem_cons.1 h' with h' | h'
      · cases h'
      · exact h.noInt _ _ _ h'
  · obtain ⟨ha, hb, hf, -⟩ := store_cache m h.si k v
    refine ⟨h.si.store m k v, ?_, ?_, ?_, ?_, ?_, ?_, ?_, ?_, ?_⟩
    · intro t' e k' r' h'
      simp only [hf]
      rcases thr_setThr h' with ⟨_, h'⟩ | ⟨_, h'⟩
      · cases h'
      · exact h.sig _ _ _ _ h'
    · intro t' k' e h'
      simp only [hf]
      rcases thr_setThr h' with ⟨_, h'⟩ | ⟨_, h'⟩
      · cases h'
      · exact h.wait _ _ _ h'
    · intro k' h'
      have hne : k' ≠ k := by rintro rfl; exact hb h'
      have h'' := ha _ _ h'
      rw [Dict.get?_set, if_neg (fun e => hne e.symm)] at h''
      obtain ⟨t', ht⟩ := h.sent k' h''
      have : t' ≠ t := by rintro rfl; rw [hc] at ht; cases ht; exact hne rfl
      exact ⟨t', by simp only [setThr_ne _ this, ht]⟩
    · intro k' v' h'
      have h'' := ha _ _ h'
      rw [Dict.get?_set] at h''
      split at h''
      · cases h''; subst_vars; exact ⟨t, by simp⟩
      · obtain ⟨t', ht⟩ := h.prov _ _ h''
        exact ⟨t', List.mem_cons_of_mem _ (List.mem_cons_of_mem _ ht)⟩
    · intro t' e k' v' h'
      rcases thr_setThr h' with ⟨et, h'⟩ | ⟨_, h'⟩
      · cases h'
      · exact List.mem_cons_of_mem _ (List.mem_cons_of_mem _ (h.provSig _ _ _ _ h'))
    · intro t' e k' v' h'
      rcases thr_setThr h' with ⟨et, h'⟩ | ⟨_, h'⟩
      · cases h'
      · exact List.mem_cons_of_mem _ (List.mem_cons_of_mem _ (h.provErr _ _ _ _ h'))
    · exact just_cons (just_cons h.just (by intro _ _ _ e; cases e)) (by intro _ _ _ e; cases e)
    · exact justErr_cons (justErr_cons h.justErr (by intro _ _ _ e; cases e)) (by intro _ _ _ e; cases e)
    · intro t' k' i h'
      rcases List.mem_cons.1 h' with h' | h'
      · cases h'; rfl
      · rcases List.mem_cons.1 h' with h' | h'
        · cases h'
        · exact h.noInt _ _ _ h'

theorem Inv.step {m : Option Int} {s s' : Sys K V X} {op : Op K V X} (h : Inv s)
    (hs : step m s op = some s') : Inv s' := by
  rcases step_cases hs with ⟨t, k, -, ht, rfl⟩ | ⟨t, k, -, ht, rfl⟩ | ⟨t, k, r, -, ht, rfl⟩ |
    ⟨t, e, k, v, -, ht, rfl⟩ | ⟨t, e, k, x, -, ht, rfl⟩ | ⟨t, k, e, v, -, ht, hset, hr, rfl⟩ |
    ⟨t, k, e, -, ht, hset, hr, rfl⟩ | ⟨-, rfl⟩
  · exact h.doEnter t k (Or.inl ht)
  · exact h.doEnter t k (Or.inr ht)
  · exact h.doComplete m t k r ht
  · have hsh : ∀ k, (signalEv s.sh e).cache.get? k = s.sh.cache.get? k := by
      intro k; cases e <;> rfl
    have hfr : (signalEv s.sh e).fresh = s.sh.fresh := by cases e <;> rfl
    refine ⟨h.si.signal e (fun n hn => h.sig t n k _ (hn ▸ ht)), ?_, ?_, ?_, ?_, ?_, ?_, ?_, ?_, ?_⟩
    · intro t' e' k' r' h'
      rw [hfr]
      rcases thr_setThr h' with ⟨_, h'⟩ | ⟨_, h'⟩
      · cases h'
      · exact h.sig _ _ _ _ h'
    · intro t' k' e' h'
      rw [hfr]
      rcases thr_setThr h' with ⟨_, h'⟩ | ⟨_, h'⟩
      · cases h'
      · exact h.wait _ _ _ h'
    · intro k' h'
      rw [hsh] at h'
      obtain ⟨t', ht'⟩ := h.sent k' h'
      have : t' ≠ t := by rintro rfl; rw [ht] at ht'; cases ht'
      exact ⟨t', by simp only [setThr_ne _ this, ht']⟩
    · intro k' v' h'
      rw [hsh] at h'
      obtain ⟨t', ht'⟩ := h.prov _ _ h'
      exact ⟨t', List.mem_cons_of_mem _ ht'⟩
    · intro t' e' k' v' h'
      rcases thr_setThr h' with ⟨et, h'⟩ | ⟨_, h'⟩
      · cases h'
      · exact List.mem_cons_of_mem _ (h.provSig _ _ _ _ h')
    · intro t' e' k' v' h'
      rcases thr_setThr h' with ⟨et, h'⟩ | ⟨_, h'⟩
      · cases h'
      · exact List.mem_cons_of_mem _ (h.provErr _ _ _ _ h')
    · refine just_cons h.just ?_
      intro t' k' v' e'; cases e'; exact ⟨t, h.provSig _ _ _ _ ht⟩
    · exact justErr_cons h.justErr (by intro _ _ _ e; cases e)
    · intro t' k' i h'
      rcases List.mem_cons.1 h' with h' | h'
      · cases h'
      · exact h.noInt _ _ _ h'
  · have hsh : ∀ k, (signalEv s.sh e).cache.get? k = s.sh.cache.get? k := by
      intro k; cases e <;> rfl
    have hfr : (signalEv s.sh e).fresh = s.sh.fresh := by cases e <;> rfl
    refine ⟨h.si.signal e (fun n hn => h.sig t n k _ (hn ▸ ht)), ?_, ?_, ?_, ?_, ?_, ?_, ?_, ?_, ?_⟩
    · intro t' e' k' r' h'
      rw [hfr]
      rcases thr_setThr h' with ⟨_, h'⟩ | ⟨_, h'⟩
      · cases h'
      · exact h.sig _ _ _ _ h'
    · intro t' k' e' h'
      rw [hfr]
      rcases thr_setThr h' with ⟨_, h'⟩ | ⟨_, h'⟩
      · cases h'
      · exact h.wait _ _ _ h'
    · intro k' h'
      rw [hsh] at h'
      obtain ⟨t', ht'⟩ := h.sent k' h'
      have : t' ≠ t := by rintro rfl; rw [ht] at ht'; cases ht'
      exact ⟨t', by simp only [setThr_ne _ this, ht']⟩
    · intro k' v' h'
      rw [hsh] at h'
      obtain ⟨t', ht'⟩ := h.prov _ _ h'
      exact ⟨t', List.mem_cons_of_mem _ ht'⟩
    · intro t' e' k' v' h'
      rcases thr_setThr h' with ⟨et, h'⟩ | ⟨_, h'⟩
      · cases h'
      · exact List.mem_cons_of_mem _ (h.provSig _ _ _ _ h')
    · intro t' e' k' v' h'
      rcases thr_setThr h' with ⟨et, h'⟩ | ⟨_, h'⟩
      · cases h'
      · exact List.mem_cons_of_mem _ (h.provErr _ _ _ _ h')
    · exact just_cons h.just (by intro _ _ _ e; cases e)
    · refine justErr_cons h.justErr ?_
      intro t' k' v' e'; cases e'; exact h.provErr _ _ _ _ ht
    · intro t' k' i h'
      rcases List.mem_cons.1 h' with h' | h'
      · cases h'
      · exact h.noInt _ _ _ h'
  · refine ⟨h.si, ?_, ?_, ?_, ?_, ?_, ?_, ?_, ?_, ?_⟩
    · intro t' e' k' r' h'
      rcases thr_setThr h' with ⟨_, h'⟩ | ⟨_, h'⟩
      · cases h'
      · exact h.sig _ _ _ _ h'
    · intro t' k' e' h'
      rcases thr_setThr h' with ⟨_, h'⟩ | ⟨_, h'⟩
      · cases h'
      · exact h.wait _ _ _ h'
    · intro k' h'
      obtain ⟨t', ht'⟩ := h.sent k' h'
      have : t' ≠ t := by rintro rfl; rw [ht] at ht'; cases ht'
      exact ⟨t', by simp only [setThr_ne _ this, ht']⟩
    · intro k' v' h'
      obtain ⟨t', ht'⟩ := h.prov _ _ h'
      exact ⟨t', List.mem_cons_of_mem _ ht'⟩
    · intro t' e' k' v' h'
      rcases thr_setThr h' with ⟨et, h'⟩ | ⟨_, h'⟩
      · cases h'
      · exact List.mem_cons_of_mem _ (h.provSig _ _ _ _ h')
    · intro t' e' k' v' h'
      rcases thr_setThr h' with ⟨et, h'⟩ | ⟨_, h'⟩
      · cases h'
      · exact List.mem_cons_of_mem _ (h.provErr _ _ _ _ h')
    · refine just_cons h.just ?_
      intro t' k' v' e'; cases e'
      refine h.prov k v ?_
      unfold reread at hr
      split at hr <;> simp_all
    · exact justErr_cons h.justErr (by intro _ _ _ e; cases e)
    · intro t' k' i h'
      rcases List.mem_cons.1 h' with h' | h'
      · cases h'
      · exact h.noInt _ _ _ h'
  · refine ⟨h.si, ?_, ?_, ?_, h.prov, ?_, ?_, h.just, h.justErr, h.noInt⟩
    · intro t' e' k' r' h'
      rcases thr_setThr h' with ⟨_, h'⟩ | ⟨_, h'⟩
      · cases h'
      · exact h.sig _ _ _ _ h'
    · intro t' k' e' h'
      rcases thr_setThr h' with ⟨_, h'⟩ | ⟨_, h'⟩
      · cases h'
      · exact h.wait _ _ _ h'
    · intro k' h'
      obtain ⟨t', ht'⟩ := h.sent k' h'
      have : t' ≠ t := by rintro rfl; rw [ht] at ht'; cases ht'
      exact ⟨t', by simp only [setThr_ne _ this, ht']⟩
    · intro t' e' k' v' h'
      rcases thr_setThr h' with ⟨et, h'⟩ | ⟨_, h'⟩
      · cases h'
      · exact h.provSig _ _ _ _ h'
    · intro t' e' k' v' h'
      rcases thr_setThr h' with ⟨et, h'⟩ | ⟨_, h'⟩
      · cases h'
      · exact h.provErr _ _ _ _ h'
  · refine ⟨h.si.clear, h.sig, h.wait, ?_, ?_, ?_, ?_, ?_, ?_, ?_⟩
    · intro k' h'; simp [clear] at h'
    · intro k' v' h'; simp [clear] at h'
    · intro t' e' k' v' h'
      exact List.mem_cons_of_mem _ (h.provSig _ _ _ _ h')
    · intro t' e' k' v' h'
      exact List.mem_cons_of_mem _ (h.provErr _ _ _ _ h')
    · exact just_cons h.just (by intro _ _ _ e; cases e)
    · exact justErr_cons h.justErr (by intro _ _ _ e; cases e)
    · intro t' k' i h'
      rcases List.mem_cons.1 h' with h' | h'
      · cases h'
      · exact h.noInt _ _ _ h'

theorem After.inv {m : Option Int} {ops : List (Op K V X)} {s : Sys K V X} (h : After m ops s) : Inv s :=
  After.induct (P := fun _ s => Inv s) Inv.init (fun _ _ _ _ _ hi hs => hi.step hs) h

end Verif.Cache
