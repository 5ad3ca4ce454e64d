import Verif.Cache.Lemmas

/-! # Proof internals for the cache: runs whose keys all fit -/

namespace Verif.Cache
open Verif.Py
set_option linter.unusedSectionVars false

variable {K V X : Type} [DecidableEq K]

/-- The thread that makes a move. -/
def opThr : Op K V X → Option Nat
  | .call t _ => some t
  | .complete t _ => some t
  | .signal t => some t
  | .wake t => some t
  | .retry t => some t
  | .clear => none

theorem doEnter_thr_ne (s : Sys K V X) (t : Nat) (k : K) {t' : Nat} (h : t' ≠ t) :
    (doEnter s t k).thr t' = s.thr t' := by
  unfold doEnter; split <;> simp [setThr_ne _ h]

theorem doComplete_thr_ne (m : Option Int) (s : Sys K V X) (t : Nat) (k : K) (r : Except X V) {t' : Nat}
    (h : t' ≠ t) : (doComplete m s t k r).thr t' = s.thr t' := by
  unfold doComplete
  simp only
  split <;> simp [setThr_ne _ h]

theorem step_thr {m : Option Int} {s s' : Sys K V X} {op : Op K V X} (h : step m s op = some s')
    {t : Nat} (ht : opThr op ≠ some t) : s'.thr t = s.thr t := by
  rcases step_cases h with ⟨t', k, rfl, -, rfl⟩ | ⟨t', k, rfl, -, rfl⟩ | ⟨t', k, r, rfl, -, rfl⟩ |
    ⟨t', e, k, v, rfl, -, rfl⟩ | ⟨t', e, k, x, rfl, -, rfl⟩ | ⟨t', k, e, v, rfl, -, -, -, rfl⟩ |
    ⟨t', k, e, rfl, -, -, -, rfl⟩ | ⟨rfl, rfl⟩
  all_goals first
    | rfl
    | (have hne : t ≠ t' := by rintro rfl; exact ht rfl
       first
         | exact doEnter_thr_ne _ _ _ hne
         | exact doComplete_thr_ne _ _ _ _ _ hne
         | exact setThr_ne _ hne _)

/-- Invariant of a run without `cache_clear` whose keys satisfy `P`, and there is room for all of these. -/
structure RInv (P : K → Prop) (s : Sys K V X) : Prop where
  inv : Inv s
  keys : ∀ k ∈ s.sh.cache.keys, P k
  thrk : ∀ t k, InCall s t k → P k
  sf : ∀ t k, s.thr t = .computing k → s.sh.cache.get? k = some none
  uniq : ∀ t t' k, s.thr t = .computing k → s.thr t' = .computing k → t = t'
  done : ∀ t k v, Obs.computed t k v ∈ s.log → ∃ v', s.sh.cache.get? k = some (some v')
  evLive : ∀ k e, s.sh.events.get? k = some e → s.sh.isSet e = false ∧
    s.sh.cache.get? k = some none ∧ ∀ t k' r, s.thr t ≠ .signalling (some e) k' r
  evInj : ∀ k k' e, s.sh.events.get? k = some e → s.sh.events.get? k' = some e → k = k'
  wait : ∀ t k e, s.thr t = .waiting k e → s.sh.isSet e = true ∨ s.sh.events.get? k = some e ∨
    ∃ t' k' r, s.thr t' = .signalling (some e) k' r
  noInt : ∀ t k i, Obs.internal t k i ∉ s.log
  once : ∀ l₁ l₂ t k, s.log = l₁ ++ Obs.started t k :: l₂ → ∀ t' v, Obs.computed t' k v ∉ l₂
  once' : ∀ l₁ l₂ t k v, s.log = l₁ ++ Obs.computed t k v :: l₂ → ∀ t' v', Obs.computed t' k v' ∉ l₂

theorem RInv.init (P : K → Prop) : RInv P (init : Sys K V X) := by
  refine ⟨Inv.init, ?_, ?_, ?_, ?_, ?_, ?_, ?_, ?_, ?_, ?_, ?_⟩ <;> simp [Cache.init, InCall]

theorem store_roomy {m : Option Int} {P : K → Prop} (hf : KeysFit m P) {s : Shared K V} (h : SI s)
    (hk : ∀ k ∈ s.cache.keys, P k) {k : K} (hs : s.cache.get? k = some none) (v : V) :
    store m s k v = ({ s with cache := s.cache.set k (some v), events := s.events.erase k },
      s.events.get? k, none) := by
  cases m with
  | none => simp [store]
  | some n =>
    have hlen : ((s.cache.set k (some v)).length : Int) ≤ n := by
      have h1 : (s.cache.set k (some v)).length = s.cache.keys.length := by
        rw [Dict.length_set, if_pos (Dict.mem_keys_of_get? hs)]
        simp [Dict.keys]
      rw [h1]
      exact hf n rfl _ h.wfc hk
    simp [store, evict_id n _ s.order hlen]

theorem no_cons {o : Obs K V X} {log : List (Obs K V X)}
    (h : ∀ l₁ l₂ t k, log = l₁ ++ Obs.started t k :: l₂ → ∀ t' v, Obs.computed t' k v ∉ l₂)
    (ho : ∀ t k, o = .started t k → ∀ t' v, Obs.computed t' k v ∉ log) :
    ∀ l₁ l₂ t k, o :: log = l₁ ++ Obs.started t k :: l₂ → ∀ t' v, Obs.computed t' k v ∉ l₂ := by
  intro l₁ l₂ t k he
  cases l₁ with
  | nil => simp only [List.nil_append, List.cons.injEq] at he; obtain ⟨rfl, rfl⟩ := he; exact ho _ _ rfl
  | cons a l₁ => simp only [List.cons_append, List.cons.injEq] at he; exact h _ _ _ _ he.2

theorem no_cons' {o : Obs K V X} {log : List (Obs K V X)}
    (h : ∀ l₁ l₂ t k v, log = l₁ ++ Obs.computed t k v :: l₂ → ∀ t' v', Obs.computed t' k v' ∉ l₂)
    (ho : ∀ t k v, o = .computed t k v → ∀ t' v', Obs.computed t' k v' ∉ log) :
    ∀ l₁ l₂ t k v, o :: log = l₁ ++ Obs.computed t k v :: l₂ → ∀ t' v', Obs.computed t' k v' ∉ l₂ := by
  intro l₁ l₂ t k v he
  cases l₁ with
  | nil => simp only [List.nil_append, List.cons.injEq] at he; obtain ⟨rfl, rfl⟩ := he; exact ho _ _ _ rfl
  | cons a l₁ => simp only [List.cons_append, List.cons.injEq] at he; exact h _ _ _ _ _ he.2

theorem inCall_setThr {s : Sys K V X} {sh : Shared K V} {log : List (Obs K V X)} {t t' : Nat} {x : Thr K V X} {k : K}
    (h : InCall { sh := sh, thr := setThr s.thr t x, log := log } t' k) :
    (t' = t ∧ (x = .computing k ∨ (∃ e, x = .waiting k e) ∨ x = .retrying k ∨ ∃ e r, x = .signalling e k r)) ∨
    (t' ≠ t ∧ InCall s t' k) := by
  by_cases e : t' = t
  · subst e; left; simpa [InCall] using h
  · right; refine ⟨e, ?_⟩; simpa [InCall, setThr_ne _ e] using h

theorem mem_cons_notin {o : Obs K V X} {log : List (Obs K V X)}
    (h : ∀ t k i, Obs.internal t k i ∉ log) (ho : ∀ t k i, o ≠ .internal t k i) :
    ∀ t k i, Obs.internal t k i ∉ o :: log := by
  intro t k i h'
  rcases List.mem_cons.1 h' with h' | h'
  · exact ho _ _ _ h'.symm
  · exact h _ _ _ h'

theorem done_cons {s : Sys K V X} {c : Dict K (Option V)} {o : Obs K V X}
    (h : ∀ t k v, Obs.computed t k v ∈ s.log → ∃ v', c.get? k = some (some v'))
    (ho : ∀ t k v, o ≠ .computed t k v) :
    ∀ t k v, Obs.computed t k v ∈ o :: s.log → ∃ v', c.get? k = some (some v') := by
  intro t k v h'
  rcases List.mem_cons.1 h' with h' | h'
  · exact absurd h'.symm (ho _ _ _)
  · exact h _ _ _ h'

theorem RInv.doEnter {P : K → Prop} {s : Sys K V X} (h : RInv P s) (t : Nat) (k : K)
    (hid : s.thr t = .idle ∨ s.thr t = .retrying k) (hP : P k) : RInv P (doEnter s t k) := by
  have hInv := h.inv.doEnter t k hid
  rcases doEnter_shape h.inv.si t k with ⟨v, hc, he⟩ | ⟨e, hc, hev, he⟩ | ⟨hc, he⟩ <;> rw [he] at hInv ⊢
  · refine ⟨hInv, h.keys, ?_, ?_, ?_, ?_, ?_, h.evInj, ?_, ?_, ?_, ?_⟩
    · intro t' k' h'
      rcases inCall_setThr h' with ⟨_, h'⟩ | ⟨_, h'⟩
      · simp at h'
      · exact h.thrk _ _ h'
    · intro t' k' h'
      rcases thr_setThr h' with ⟨_, h'⟩ | ⟨_, h'⟩
      · cases h'
      · exact h.sf _ _ h'
    · intro t' t'' k' h' h''
      rcases thr_setThr h' with ⟨_, h'⟩ | ⟨_, h'⟩
      · cases h'
      rcases thr_setThr h'' with ⟨_, h''⟩ | ⟨_, h''⟩
      · cases h''
      exact h.uniq _ _ _ h' h''
    · exact done_cons h.done (by intro _ _ _ e; cases e)
    · intro k' e h'
      obtain ⟨h1, h2, h3⟩ := h.evLive _ _ h'
      refine ⟨h1, h2, ?_⟩
      intro t' k'' r h''
      rcases thr_setThr h'' with ⟨_, h''⟩ | ⟨_, h''⟩
      · cases h''
      · exact h3 _ _ _ h''
    · intro t' k' e h'
      rcases thr_setThr h' with ⟨_, h'⟩ | ⟨_, h'⟩
      · cases h'
      rcases h.wait _ _ _ h' with h1 | h1 | ⟨t'', k'', r, h1⟩
      · exact Or.inl h1
      · exact Or.inr (Or.inl h1)
      · refine Or.inr (Or.inr ⟨t'', k'', r, ?_⟩)
        have : t'' ≠ t := by rintro rfl; rcases hid with hid | hid <;> rw [hid] at h1 <;> cases h1
        simp only [setThr_ne _ this, h1]
    · exact mem_cons_notin h.noInt (by intro _ _ _ e; cases e)
    · exact no_cons h.once (by intro _ _ e; cases e)
    · exact no_cons' h.once' (by intro _ _ _ e; cases e)
  · refine ⟨hInv, h.keys, ?_, ?_, ?_, h.done, ?_, h.evInj, ?_, h.noInt, h.once, h.once'⟩
    · intro t' k' h'
      rcases inCall_setThr h' with ⟨_, h'⟩ | ⟨_, h'⟩
      · simp only [Thr.waiting.injEq, reduceCtorEq, false_or, exists_and_left, exists_false, or_false,
          exists_eq', and_true] at h'
        exact h' ▸ hP
      · exact h.thrk _ _ h'
    · intro t' k' h'
      rcases thr_setThr h' with ⟨_, h'⟩ | ⟨_, h'⟩
      · cases h'
      · exact h.sf _ _ h'
    · intro t' t'' k' h' h''
      rcases thr_setThr h' with ⟨_, h'⟩ | ⟨_, h'⟩
      · cases h'
      rcases thr_setThr h'' with ⟨_, h''⟩ | ⟨_, h''⟩
      · cases h''
      exact h.uniq _ _ _ h' h''
    · intro k' e h'
      obtain ⟨h1, h2, h3⟩ := h.evLive _ _ h'
      refine ⟨h1, h2, ?_⟩
      intro t' k'' r h''
      rcases thr_setThr h'' with ⟨_, h''⟩ | ⟨_, h''⟩
      · cases h''
      · exact h3 _ _ _ h''
    · intro t' k' e' h'
      rcases thr_setThr h' with ⟨_, h'⟩ | ⟨_, h'⟩
      · cases h'; exact Or.inr (Or.inl hev)
      rcases h.wait _ _ _ h' with h1 | h1 | ⟨t'', k'', r, h1⟩
      · exact Or.inl h1
      · exact Or.inr (Or.inl h1)
      · refine Or.inr (Or.inr ⟨t'', k'', r, ?_⟩)
        have : t'' ≠ t := by rintro rfl; rcases hid with hid | hid <;> rw [hid] at h1 <;> cases h1
        simp only [setThr_ne _ this, h1]
  · have hnk : ∀ t', s.thr t' ≠ .computing k := by
      intro t' ht'
      have := h.sf _ _ ht'
      rw [hc] at this; cases this
    have hnd : ∀ t' v, Obs.computed t' k v ∉ s.log := by
      intro t' v h'
      obtain ⟨v', h''⟩ := h.done _ _ _ h'
      rw [hc] at h''; cases h''
    have hnev : s.sh.events.get? k = none := by
      cases hev : s.sh.events.get? k with
      | none => rfl
      | some e => have := (h.evLive _ _ hev).2.1; rw [hc] at this; cases this
    refine ⟨hInv, ?_, ?_, ?_, ?_, ?_, ?_, ?_, ?_, ?_, ?_, ?_⟩
    · intro k' h'
      simp only [entered] at h'
      rw [Dict.mem_keys_set] at h'
      rcases h' with rfl | h'
      · exact hP
      · exact h.keys _ h'
    · intro t' k' h'
      rcases inCall_setThr h' with ⟨_, h'⟩ | ⟨_, h'⟩
      · simp only [Thr.computing.injEq, reduceCtorEq, exists_false, or_false] at h'
        exact h' ▸ hP
      · exact h.thrk _ _ h'
    · intro t' k' h'
      simp only [entered]
      rw [Dict.get?_set]
      rcases thr_setThr h' with ⟨_, h'⟩ | ⟨_, h'⟩
      · cases h'; simp
      · split
        · rfl
        · exact h.sf _ _ h'
    · intro t' t'' k' h' h''
      rcases thr_setThr h' with ⟨e1, h'⟩ | ⟨_, h'⟩
      · rcases thr_setThr h'' with ⟨e2, h''⟩ | ⟨_, h''⟩
        · rw [e1, e2]
        · cases h'; exact absurd h'' (hnk _)
      · rcases thr_setThr h'' with ⟨e2, h''⟩ | ⟨_, h''⟩
        · cases h''; exact absurd h' (hnk _)
        · exact h.uniq _ _ _ h' h''
    · refine done_cons ?_ (by intro _ _ _ e; cases e)
      intro t' k' v h'
      obtain ⟨v', h''⟩ := h.done _ _ _ h'
      refine ⟨v', ?_⟩
      simp only [entered]
      rw [Dict.get?_set, if_neg]
      · exact h''
      · rintro rfl; exact hnd _ _ h'
    · intro k' e h'
      simp only [entered] at h' ⊢
      rw [Dict.get?_set] at h' ⊢
      by_cases ek : k = k'
      · simp only [ek, if_true, Option.some.injEq] at h' ⊢
        refine ⟨?_, trivial, ?_⟩
        · cases hs : s.sh.isSet e with
          | false => rfl
          | true => have := h.inv.si.setlt _ hs; omega
        · intro t' k'' r h''
          rcases thr_setThr h'' with ⟨_, h''⟩ | ⟨_, h''⟩
          · cases h''
          · have := h.inv.sig _ _ _ _ h''; omega
      · simp only [ek, if_false] at h' ⊢
        obtain ⟨h1, h2, h3⟩ := h.evLive _ _ h'
        refine ⟨h1, h2, ?_⟩
        intro t' k'' r h''
        rcases thr_setThr h'' with ⟨_, h''⟩ | ⟨_, h''⟩
        · cases h''
        · exact h3 _ _ _ h''
    · intro k1 k2 e h1 h2
      simp only [entered] at h1 h2
      rw [Dict.get?_set] at h1 h2
      split at h1 <;> split at h2
      · subst_vars; rfl
      · cases h1; have := h.inv.si.lt _ _ h2; omega
      · cases h2; have := h.inv.si.lt _ _ h1; omega
      · exact h.evInj _ _ _ h1 h2
    · intro t' k' e' h'
      rcases thr_setThr h' with ⟨_, h'⟩ | ⟨_, h'⟩
      · cases h'
      rcases h.wait _ _ _ h' with h1 | h1 | ⟨t'', k'', r, h1⟩
      · exact Or.inl h1
      · refine Or.inr (Or.inl ?_)
        simp only [entered]
        rw [Dict.get?_set, if_neg]
        · exact h1
        · rintro rfl; rw [hnev] at h1; cases h1
      · refine Or.inr (Or.inr ⟨t'', k'', r, ?_⟩)
        have : t'' ≠ t := by rintro rfl; rcases hid with hid | hid <;> rw [hid] at h1 <;> cases h1
        simp only [setThr_ne _ this, h1]
    · exact mem_cons_notin h.noInt (by intro _ _ _ e; cases e)
    · refine no_cons h.once ?_
      intro t' k' e; cases e; exact hnd
    · exact no_cons' h.once' (by intro _ _ _ e; cases e)

/-- Effect of finishing an evaluation on a run with room: a common description of success and failure. -/
theorem RInv.doComplete {m : Option Int} {P : K → Prop} (hf : KeysFit m P) {s : Sys K V X} (h : RInv P s) (t : Nat)
    (k : K) (r : Except X V) (hc : s.thr t = .computing k) : RInv P (doComplete m s t k r) ∧
    (doComplete m s t k r).thr t = .signalling (s.sh.events.get? k) k r ∧
    (doComplete m s t k r).sh.events = s.sh.events.erase k ∧
    (∀ v, r = .ok v → (doComplete m s t k r).sh.cache.get? k = some (some v)) ∧
    (∀ x, r = .error x → (doComplete m s t k r).sh.cache.get? k = none) ∧
    (∀ k', k ≠ k' → (doComplete m s t k r).sh.cache.get? k' = s.sh.cache.get? k') ∧
    (doComplete m s t k r).sh.isSet = s.sh.isSet := by
  have hInv := h.inv.doComplete m t k r hc
  have hs := h.sf _ _ hc
  have si := h.inv.si
  obtain ⟨o, sh, he, ho, hev, hset, hck, hck', hck'', hkeys⟩ : ∃ o sh,
      Cache.doComplete m s t k r = { sh := sh, thr := setThr s.thr t (.signalling (s.sh.events.get? k) k r), log := o :: s.log } ∧
      ((∃ x, o = .raised t k x) ∨ (∃ v, o = .computed t k v ∧ r = .ok v)) ∧ sh.events = s.sh.events.erase k ∧
      sh.isSet = s.sh.isSet ∧
      (∀ v, r = .ok v → sh.cache.get? k = some (some v)) ∧ (∀ x, r = .error x → sh.cache.get? k = none) ∧
      (∀ k', k ≠ k' → sh.cache.get? k' = s.sh.cache.get? k') ∧
      (∀ k' ∈ sh.cache.keys, k' ∈ s.sh.cache.keys) := by
    cases r with
    | error x =>
      rcases abort_shape si k with ⟨_, he⟩ | ⟨hn, _⟩
      · refine ⟨.raised t k x, { s.sh with cache := s.sh.cache.erase k, order := s.sh.order.erase k, events := s.sh.events.erase k }, by simp only [Cache.doComplete, he], Or.inl ⟨x, rfl⟩, rfl, rfl, ?_, ?_, ?_, ?_⟩
        · intro v e; cases e
        · intro x' _; simp only; rw [Dict.get?_erase si.wfc]; simp
        · intro k' hne; simp only; rw [Dict.get?_erase si.wfc, if_neg hne]
        · intro k' hk'; simp only at hk'; rw [Dict.mem_keys_erase si.wfc] at hk'; exact hk'.2
      · exact absurd hs hn
    | ok v =>
      have he := store_roomy hf si h.keys hs v
      refine ⟨.computed t k v, { s.sh with cache := s.sh.cache.set k (some v), events := s.sh.events.erase k }, by simp only [Cache.doComplete, he], Or.inr ⟨v, rfl, rfl⟩, rfl, rfl, ?_, ?_, ?_, ?_⟩
      · intro v' e; cases e; simp only; rw [Dict.get?_set_self]
      · intro x e; cases e
      · intro k' hne; simp only; rw [Dict.get?_set, if_neg hne]
      · intro k' hk'; simp only at hk'; rw [Dict.mem_keys_set] at hk'
        rcases hk' with rfl | hk'
        · exact Dict.mem_keys_of_get? hs
        · exact hk'
  rw [he] at hInv ⊢
  refine ⟨?_, by simp, hev, hck, hck', hck'', hset⟩
  have hnd : ∀ t' v, Obs.computed t' k v ∉ s.log := by
    intro t' v h'
    obtain ⟨v', h''⟩ := h.done _ _ _ h'
    rw [hs] at h''; cases h''
  refine ⟨hInv, fun k' hk' => h.keys _ (hkeys _ hk'), ?_, ?_, ?_, ?_, ?_, ?_, ?_, ?_, ?_, ?_⟩
  · intro t' k' h'
    rcases inCall_setThr h' with ⟨_, h'⟩ | ⟨_, h'⟩
    · have hkk : k = k' := by
        rcases h' with h' | ⟨_, h'⟩ | h' | ⟨_, _, h'⟩
        · cases h'
        · cases h'
        · cases h'
        · simp only [Thr.signalling.injEq] at h'; exact h'.2.1
      exact hkk ▸ h.thrk t k (Or.inl hc)
    · exact h.thrk _ _ h'
  · intro t' k' h'
    rcases thr_setThr h' with ⟨_, h'⟩ | ⟨hne, h'⟩
    · cases h'
    · have hkk : k ≠ k' := by rintro rfl; exact hne (h.uniq _ _ _ h' hc)
      simp only; rw [hck'' _ hkk]; exact h.sf _ _ h'
  · intro t' t'' k' h' h''
    rcases thr_setThr h' with ⟨_, h'⟩ | ⟨_, h'⟩
    · cases h'
    rcases thr_setThr h'' with ⟨_, h''⟩ | ⟨_, h''⟩
    · cases h''
    exact h.uniq _ _ _ h' h''
  · intro t' k' v' h'
    rcases List.mem_cons.1 h' with h' | h'
    · rcases ho with ⟨x, ho⟩ | ⟨v, ho, hr⟩
      · rw [ho] at h'; cases h'
      · rw [ho] at h'; cases h'; exact ⟨_, hck _ hr⟩
    · have hkk : k ≠ k' := by rintro rfl; exact hnd _ _ h'
      simp only; rw [hck'' _ hkk]; exact h.done _ _ _ h'
  · intro k' e h'
    simp only [hev, hset] at h' ⊢
    rw [Dict.get?_erase si.wfe] at h'
    split at h'
    · cases h'
    rename_i hne
    obtain ⟨h1, h2, h3⟩ := h.evLive _ _ h'
    refine ⟨h1, by rw [hck'' _ hne]; exact h2, ?_⟩
    intro t' k'' r' h''
    rcases thr_setThr h'' with ⟨_, h''⟩ | ⟨_, h''⟩
    · simp only [Thr.signalling.injEq] at h''
      exact hne (h.evInj _ _ _ h''.1 h')
    · exact h3 _ _ _ h''
  · intro k1 k2 e h1 h2
    simp only [hev] at h1 h2
    rw [Dict.get?_erase si.wfe] at h1 h2
    split at h1
    · cases h1
    split at h2
    · cases h2
    exact h.evInj _ _ _ h1 h2
  · intro t' k' e h'
    rcases thr_setThr h' with ⟨_, h'⟩ | ⟨_, h'⟩
    · cases h'
    simp only [hset, hev]
    rcases h.wait _ _ _ h' with h1 | h1 | ⟨t'', k'', r', h1⟩
    · exact Or.inl h1
    · by_cases ek : k = k'
      · subst ek
        exact Or.inr (Or.inr ⟨t, k, r, by simp [h1]⟩)
      · refine Or.inr (Or.inl ?_)
        rw [Dict.get?_erase si.wfe, if_neg ek]; exact h1
    · refine Or.inr (Or.inr ⟨t'', k'', r', ?_⟩)
      have : t'' ≠ t := by rintro rfl; rw [hc] at h1; cases h1
      simp only [setThr_ne _ this, h1]
  · refine mem_cons_notin h.noInt ?_
    intro t' k' i e
    rcases ho with ⟨x, ho⟩ | ⟨v, ho, _⟩ <;> rw [ho] at e <;> cases e
  · refine no_cons h.once ?_
    intro t' k' e
    rcases ho with ⟨x, ho⟩ | ⟨v, ho, _⟩ <;> rw [ho] at e <;> cases e
  · refine no_cons' h.once' ?_
    intro t' k' v' e
    rcases ho with ⟨x, ho⟩ | ⟨v, ho, _⟩ <;> rw [ho] at e <;> cases e
    exact hnd

/-- A thread leaves a signalling or waiting position; `sh` differs only by events being set. -/
theorem RInv.leave {P : K → Prop} {s : Sys K V X} (h : RInv P s) {t : Nat} {x : Thr K V X} {sh : Shared K V}
    {log : List (Obs K V X)} (hInv : Inv { sh := sh, thr := setThr s.thr t x, log := log })
    (hc : sh.cache = s.sh.cache) (he : sh.events = s.sh.events)
    (hset : ∀ e, sh.isSet e = true → s.sh.isSet e = true ∨ ∃ k r, s.thr t = .signalling (some e) k r)
    (hset' : ∀ e, s.sh.isSet e = true → sh.isSet e = true)
    (hsig : ∀ e k r, s.thr t = .signalling (some e) k r → sh.isSet e = true)
    (hx : x = .idle ∨ ∃ k e, x = .retrying k ∧ s.thr t = .waiting k e)
    (hlog : log = s.log ∨ ∃ o, log = o :: s.log ∧ (∀ t k v, o ≠ .computed t k v) ∧ (∀ t k, o ≠ .started t k) ∧
      (∀ t k i, o ≠ .internal t k i)) :
    RInv P { sh := sh, thr := setThr s.thr t x, log := log } := by
  have hxc : ∀ k, x ≠ .computing k := by
    intro k e; rcases hx with rfl | ⟨_, _, rfl, _⟩ <;> cases e
  have hxw : ∀ k e', x ≠ .waiting k e' := by
    intro k e' e; rcases hx with rfl | ⟨_, _, rfl, _⟩ <;> cases e
  have hxs : ∀ e' k r, x ≠ .signalling e' k r := by
    intro e' k r e; rcases hx with rfl | ⟨_, _, rfl, _⟩ <;> cases e
  refine ⟨hInv, by simpa only [hc] using h.keys, ?_, ?_, ?_, ?_, ?_, by simpa only [he] using h.evInj, ?_, ?_, ?_, ?_⟩
  · intro t' k' h'
    rcases inCall_setThr h' with ⟨_, h'⟩ | ⟨_, h'⟩
    · rcases hx with rfl | ⟨k, e, rfl, hw⟩
      · simp at h'
      · have hkk : k = k' := by
          rcases h' with h' | ⟨_, h'⟩ | h' | ⟨_, _, h'⟩
          · cases h'
          · cases h'
          · simpa using h'
          · cases h'
        exact hkk ▸ h.thrk t k (Or.inr (Or.inl ⟨e, hw⟩))
    · exact h.thrk _ _ h'
  · intro t' k' h'
    rcases thr_setThr h' with ⟨_, h'⟩ | ⟨_, h'⟩
    · exact absurd h' (hxc _)
    · simp only [hc]; exact h.sf _ _ h'
  · intro t' t'' k' h' h''
    rcases thr_setThr h' with ⟨_, h'⟩ | ⟨_, h'⟩
    · exact absurd h' (hxc _)
    rcases thr_setThr h'' with ⟨_, h''⟩ | ⟨_, h''⟩
    · exact absurd h'' (hxc _)
    exact h.uniq _ _ _ h' h''
  · simp only [hc]
    rcases hlog with rfl | ⟨o, rfl, ho, _, _⟩
    · exact h.done
    · exact done_cons h.done ho
  · intro k' e h'
    simp only [he, hc] at h' ⊢
    obtain ⟨h1, h2, h3⟩ := h.evLive _ _ h'
    refine ⟨?_, h2, ?_⟩
    · cases hs : sh.isSet e with
      | false => rfl
      | true =>
        rcases hset _ hs with h4 | ⟨k, r, h4⟩
        · rw [h1] at h4; cases h4
        · exact absurd h4 (h3 _ _ _)
    · intro t' k'' r h''
      rcases thr_setThr h'' with ⟨_, h''⟩ | ⟨_, h''⟩
      · exact absurd h'' (hxs _ _ _)
      · exact h3 _ _ _ h''
  · intro t' k' e h'
    rcases thr_setThr h' with ⟨_, h'⟩ | ⟨_, h'⟩
    · exact absurd h' (hxw _ _)
    simp only [he]
    rcases h.wait _ _ _ h' with h1 | h1 | ⟨t'', k'', r', h1⟩
    · exact Or.inl (hset' _ h1)
    · exact Or.inr (Or.inl h1)
    · by_cases et : t'' = t
      · subst et; exact Or.inl (hsig _ _ _ h1)
      · exact Or.inr (Or.inr ⟨t'', k'', r', by simp only [setThr_ne _ et, h1]⟩)
  · rcases hlog with rfl | ⟨o, rfl, _, _, ho⟩
    · exact h.noInt
    · exact mem_cons_notin h.noInt ho
  · rcases hlog with rfl | ⟨o, rfl, _, ho, _⟩
    · exact h.once
    · exact no_cons h.once (fun t k e => absurd e (ho t k))
  · rcases hlog with rfl | ⟨o, rfl, ho, _, _⟩
    · exact h.once'
    · exact no_cons' h.once' (fun t k v e => absurd e (ho t k v))

theorem RInv.step {m : Option Int} {P : K → Prop} (hf : KeysFit m P) {s s' : Sys K V X} {op : Op K V X}
    (h : RInv P s) (hncl : op ≠ .clear) (hcall : ∀ t k, op = .call t k → P k)
    (hs : step m s op = some s') : RInv P s' := by
  have hInv := h.inv.step hs
  rcases step_cases hs with ⟨t, k, hop, ht, rfl⟩ | ⟨t, k, -, ht, rfl⟩ | ⟨t, k, r, -, ht, rfl⟩ |
    ⟨t, e, k, v, -, ht, rfl⟩ | ⟨t, e, k, x, -, ht, rfl⟩ | ⟨t, k, e, v, -, ht, hset, hr, rfl⟩ |
    ⟨t, k, e, -, ht, hset, hr, rfl⟩ | ⟨hop, rfl⟩
  · exact h.doEnter t k (Or.inl ht) (hcall t k hop)
  · exact h.doEnter t k (Or.inr ht) (h.thrk t k (Or.inr (Or.inr (Or.inl ht))))
  · exact (h.doComplete hf t k r ht).1
  · refine h.leave hInv ?_ ?_ ?_ ?_ ?_ (Or.inl rfl) (Or.inr ⟨_, rfl, ?_, ?_, ?_⟩)
    · cases e <;> rfl
    · cases e <;> rfl
    · intro e' h'
      cases e with
      | none => exact Or.inl h'
      | some e =>
        simp only [signalEv] at h'
        split at h'
        · subst_vars; exact Or.inr ⟨_, _, ht⟩
        · exact Or.inl h'
    · intro e' h'
      cases e with
      | none => exact h'
      | some e => simp [signalEv, h']
    · intro e' k' r' h'
      rw [ht] at h'; cases h'; simp [signalEv]
    all_goals intros; intro e; cases e
  · refine h.leave hInv ?_ ?_ ?_ ?_ ?_ (Or.inl rfl) (Or.inr ⟨_, rfl, ?_, ?_, ?_⟩)
    · cases e <;> rfl
    · cases e <;> rfl
    · intro e' h'
      cases e with
      | none => exact Or.inl h'
      | some e =>
        simp only [signalEv] at h'
        split at h'
        · subst_vars; exact Or.inr ⟨_, _, ht⟩
        · exact Or.inl h'
    · intro e' h'
      cases e with
      | none => exact h'
      | some e => simp [signalEv, h']
    · intro e' k' r' h'
      rw [ht] at h'; cases h'; simp [signalEv]
    all_goals intros; intro e; cases e
  · refine h.leave hInv rfl rfl (fun _ h => Or.inl h) (fun _ h => h) ?_ (Or.inl rfl) (Or.inr ⟨_, rfl, ?_, ?_, ?_⟩)
    · intro e' k' r' h'; rw [ht] at h'; cases h'
    all_goals intros; intro e; cases e
  · refine h.leave hInv rfl rfl (fun _ h => Or.inl h) (fun _ h => h) ?_ (Or.inr ⟨k, e, rfl, ht⟩) (Or.inl rfl)
    intro e' k' r' h'; rw [ht] at h'; cases h'
  · exact absurd hop hncl

theorem After.rinv {m : Option Int} {P : K → Prop} (hf : KeysFit m P) {ops : List (Op K V X)} {s : Sys K V X}
    (h : After m ops s) (hn : NoClear ops) (hP : ∀ k, Called ops k → P k) : RInv P s := by
  revert hn hP
  refine After.induct (P := fun ops s => NoClear ops → (∀ k, Called ops k → P k) → RInv P s) ?_ ?_ h
  · intro _ _; exact RInv.init P
  · intro ops s op s' _ ih hs hn hP
    refine (ih ?_ ?_).step hf ?_ ?_ hs
    · intro h'; exact hn (List.mem_append_left _ h')
    · rintro k ⟨t, h'⟩; exact hP k ⟨t, List.mem_append_left _ h'⟩
    · rintro rfl; exact hn (by simp)
    · rintro t k rfl; exact hP k ⟨t, by simp⟩

end Verif.Cache
