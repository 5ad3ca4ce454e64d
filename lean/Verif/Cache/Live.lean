import Verif.Cache.Roomy
import Mathlib.Order.Nat

/-! # Proof internals for the cache: liveness, dead events, sequential refinement -/

namespace Verif.Cache
open Verif.Py
set_option linter.unusedSectionVars false

variable {K V X : Type} [DecidableEq K]

/-! ### Dead events -/

/-- Nobody will ever set event `e`, on which `t` waits. -/
structure Dead (t : Nat) (k : K) (e : Nat) (s : Sys K V X) : Prop where
  inv : Inv s
  wait : s.thr t = .waiting k e
  unset : s.sh.isSet e = false
  lost : ∀ k', s.sh.events.get? k' ≠ some e
  nosig : ∀ t' k' r, s.thr t' ≠ .signalling (some e) k' r

theorem Dead.step {m : Option Int} {t : Nat} {k : K} {e : Nat} {s s' : Sys K V X} {op : Op K V X}
    (h : Dead t k e s) (hs : step m s op = some s') : Dead t k e s' := by
  have hInv := h.inv.step hs
  have hlt := h.inv.wait _ _ _ h.wait
  have enterCase : ∀ t' k', Inv (doEnter s t' k') → (s.thr t' = .idle ∨ s.thr t' = .retrying k') →
      Dead t k e (doEnter s t' k') := by
    intro t' k' hInv hid
    have hne : t ≠ t' := by
      rintro rfl; rcases hid with hid | hid <;> rw [h.wait] at hid <;> cases hid
    have hw : (doEnter s t' k').thr t = .waiting k e := by rw [doEnter_thr_ne _ _ _ hne]; exact h.wait
    rcases doEnter_shape h.inv.si t' k' with ⟨v, hc, he⟩ | ⟨e', hc, hev, he⟩ | ⟨hc, he⟩ <;> rw [he] at hInv hw ⊢
    · refine ⟨hInv, hw, h.unset, h.lost, ?_⟩
      intro t'' k'' r h'
      rcases thr_setThr h' with ⟨_, h'⟩ | ⟨_, h'⟩
      · cases h'
      · exact h.nosig _ _ _ h'
    · refine ⟨hInv, hw, h.unset, h.lost, ?_⟩
      intro t'' k'' r h'
      rcases thr_setThr h' with ⟨_, h'⟩ | ⟨_, h'⟩
      · cases h'
      · exact h.nosig _ _ _ h'
    · refine ⟨hInv, hw, h.unset, ?_, ?_⟩
      · intro k'' h'
        simp only [entered] at h'
        rw [Dict.get?_set] at h'
        split at h'
        · cases h'; omega
        · exact h.lost _ h'
      · intro t'' k'' r h'
        rcases thr_setThr h' with ⟨_, h'⟩ | ⟨_, h'⟩
        · cases h'
        · exact h.nosig _ _ _ h'
  rcases step_cases hs with ⟨t', k', -, ht, rfl⟩ | ⟨t', k', -, ht, rfl⟩ | ⟨t', k', r, -, ht, rfl⟩ |
    ⟨t', e', k', v, -, ht, rfl⟩ | ⟨t', e', k', x, -, ht, rfl⟩ | ⟨t', k', e', v, -, ht, hset, hr, rfl⟩ |
    ⟨t', k', e', -, ht, hset, hr, rfl⟩ | ⟨-, rfl⟩
  · exact enterCase _ _ hInv (Or.inl ht)
  · exact enterCase _ _ hInv (Or.inr ht)
  · have hne : t ≠ t' := by rintro rfl; rw [h.wait] at ht; cases ht
    have hw : (doComplete m s t' k' r).thr t = .waiting k e := by
      rw [doComplete_thr_ne _ _ _ _ _ hne]; exact h.wait
    rcases doComplete_shape m h.inv.si t' k' r with ⟨x, rfl, he⟩ | ⟨v, rfl, hst, he⟩ | ⟨v, rfl, hst, he⟩ <;>
      rw [he] at hInv hw ⊢
    · obtain ⟨-, -, -, hset, hev⟩ := abort_cache h.inv.si k'
      refine ⟨hInv, hw, by simp only [hset]; exact h.unset, ?_, ?_⟩
      · intro k'' h'
        simp only [hev] at h'
        rw [Dict.get?_erase h.inv.si.wfe] at h'
        split at h'
        · cases h'
        · exact h.lost _ h'
      · intro t'' k'' r' h'
        rcases thr_setThr h' with ⟨_, h'⟩ | ⟨_, h'⟩
        · simp only [Thr.signalling.injEq] at h'; exact h.lost _ h'.1
        · exact h.nosig _ _ _ h'
    · obtain ⟨-, -, -, hset⟩ := store_cache m h.inv.si k' v
      refine ⟨hInv, hw, by simp only [hset]; exact h.unset, ?_, ?_⟩
      · intro k'' h'
        obtain ⟨c', o', -, -, -, -, -, h6⟩ := store_shape m h.inv.si k' v
        rcases h6 with ⟨h6, _⟩ | ⟨h6, _⟩ <;> rw [h6] at h'
        · simp only at h'
          rw [Dict.get?_erase h.inv.si.wfe] at h'
          split at h'
          · cases h'
          · exact h.lost _ h'
        · exact h.lost _ h'
      · intro t'' k'' r' h'
        rcases thr_setThr h' with ⟨_, h'⟩ | ⟨_, h'⟩
        · simp only [Thr.signalling.injEq] at h'; exact h.lost _ h'.1
        · exact h.nosig _ _ _ h'
    · obtain ⟨-, -, -, hset⟩ := store_cache m h.inv.si k' v
      refine ⟨hInv, hw, by simp only [hset]; exact h.unset, ?_, ?_⟩
      · intro k'' h'
        obtain ⟨c', o', -, -, -, -, -, h6⟩ := store_shape m h.inv.si k' v
        rcases h6 with ⟨h6, _⟩ | ⟨h6, _⟩ <;> rw [h6] at h'
        · simp only at h'
          rw [Dict.get?_erase h.inv.si.wfe] at h'
          split at h'
          · cases h'
          · exact h.lost _ h'
        · exact h.lost _ h'
      · intro t'' k'' r' h'
        rcases thr_setThr h' with ⟨_, h'⟩ | ⟨_, h'⟩
        · cases h'
        · exact h.nosig _ _ _ h'
  · have hne : t ≠ t' := by rintro rfl; rw [h.wait] at ht; cases ht
    refine ⟨hInv, by simp only [setThr_ne _ hne]; exact h.wait, ?_, ?_, ?_⟩
    · cases e' with
      | none => exact h.unset
      | some e' =>
        have : e ≠ e' := by rintro rfl; exact h.nosig _ _ _ ht
        simp [signalEv, this, h.unset]
    · intro k'' h'
      cases e' <;> exact h.lost _ h'
    · intro t'' k'' r' h'
      rcases thr_setThr h' with ⟨_, h'⟩ | ⟨_, h'⟩
      · cases h'
      · exact h.nosig _ _ _ h'
  · have hne : t ≠ t' := by rintro rfl; rw [h.wait] at ht; cases ht
    refine ⟨hInv, by simp only [setThr_ne _ hne]; exact h.wait, ?_, ?_, ?_⟩
    · cases e' with
      | none => exact h.unset
      | some e' =>
        have : e ≠ e' := by rintro rfl; exact h.nosig _ _ _ ht
        simp [signalEv, this, h.unset]
    · intro k'' h'
      cases e' <;> exact h.lost _ h'
    · intro t'' k'' r' h'
      rcases thr_setThr h' with ⟨_, h'⟩ | ⟨_, h'⟩
      · cases h'
      · exact h.nosig _ _ _ h'
  · have hne : t ≠ t' := by
      rintro rfl; rw [h.wait] at ht; cases ht; rw [h.unset] at hset; cases hset
    refine ⟨hInv, by simp only [setThr_ne _ hne]; exact h.wait, h.unset, h.lost, ?_⟩
    intro t'' k'' r' h'
    rcases thr_setThr h' with ⟨_, h'⟩ | ⟨_, h'⟩
    · cases h'
    · exact h.nosig _ _ _ h'
  · have hne : t ≠ t' := by
      rintro rfl; rw [h.wait] at ht; cases ht; rw [h.unset] at hset; cases hset
    refine ⟨hInv, by simp only [setThr_ne _ hne]; exact h.wait, h.unset, h.lost, ?_⟩
    intro t'' k'' r' h'
    rcases thr_setThr h' with ⟨_, h'⟩ | ⟨_, h'⟩
    · cases h'
    · exact h.nosig _ _ _ h'
  · exact ⟨hInv, h.wait, h.unset, by simp [clear], h.nosig⟩

theorem Dead.stuck {m : Option Int} {t : Nat} {k : K} {e : Nat} {s : Sys K V X} (h : Dead t k e s) :
    StuckForever m s t k := by
  intro more
  induction more generalizing s with
  | nil => intro s' hr; simp only [run, Option.some.injEq] at hr; subst hr; exact ⟨e, h.wait⟩
  | cons op ops ih =>
    intro s' hr
    simp only [run] at hr
    cases hs : Cache.step m s op with
    | none => rw [hs] at hr; cases hr
    | some s1 => rw [hs] at hr; exact ih (h.step hs) s' hr

/-! ### Liveness -/

section Live
variable {m : Option Int} (x : Execution m K V X)

/-- The first move of thread `t` from time `n` on finds it where it was at time `n`. -/
theorem first_move {n m' : Nat} {t : Nat} (hm : n ≤ m') (ht : opThr (x.op m') = some t) :
    ∃ j, n ≤ j ∧ opThr (x.op j) = some t ∧ (x.st j).thr t = (x.st n).thr t ∧
      ∀ i, n ≤ i → i ≤ j → (x.st i).thr t = (x.st n).thr t := by
  obtain ⟨d, rfl⟩ := Nat.exists_eq_add_of_le hm
  clear hm
  induction d generalizing n with
  | zero =>
    refine ⟨n, (Nat.le_refl _), ht, rfl, ?_⟩
    intro i h1 h2; rw [Nat.le_antisymm h2 h1]
  | succ d ih =>
    by_cases hn : opThr (x.op n) = some t
    · refine ⟨n, (Nat.le_refl _), hn, rfl, ?_⟩
      intro i h1 h2; rw [Nat.le_antisymm h2 h1]
    · have h1 := step_thr (x.next n) hn
      obtain ⟨j, hj1, hj2, hj3, hj4⟩ := ih (n := n + 1) (by rwa [show n + 1 + d = n + (d + 1) by omega])
      refine ⟨j, by omega, hj2, by rw [hj3, h1], ?_⟩
      intro i hi1 hi2
      rcases Nat.eq_or_lt_of_le hi1 with rfl | hi1
      · rfl
      · rw [hj4 i hi1 hi2, h1]

/-- The moves that a busy thread can make. -/
theorem move_computing {s s' : Sys K V X} {op : Op K V X} {t : Nat} {k : K} (hs : step m s op = some s')
    (ho : opThr op = some t) (ht : s.thr t = .computing k) :
    ∃ r, op = .complete t r ∧ s' = doComplete m s t k r := by
  rcases step_cases hs with ⟨t', k', rfl, ht', rfl⟩ | ⟨t', k', rfl, ht', rfl⟩ | ⟨t', k', r, rfl, ht', rfl⟩ |
    ⟨t', e', k', v, rfl, ht', rfl⟩ | ⟨t', e', k', x, rfl, ht', rfl⟩ | ⟨t', k', e', v, rfl, ht', -, -, rfl⟩ |
    ⟨t', k', e', rfl, ht', -, -, rfl⟩ | ⟨rfl, rfl⟩ <;> simp only [opThr, Option.some.injEq, reduceCtorEq] at ho
  all_goals (subst ho; rw [ht] at ht'; cases ht')
  exact ⟨r, rfl, rfl⟩

theorem move_signalling {s s' : Sys K V X} {op : Op K V X} {t : Nat} {e : Option Nat} {k : K} {r : Except X V}
    (hs : step m s op = some s') (ho : opThr op = some t) (ht : s.thr t = .signalling e k r) :
    s'.thr t = .idle ∧ s'.sh = signalEv s.sh e := by
  rcases step_cases hs with ⟨t', k', rfl, ht', rfl⟩ | ⟨t', k', rfl, ht', rfl⟩ | ⟨t', k', r, rfl, ht', rfl⟩ |
    ⟨t', e', k', v, rfl, ht', rfl⟩ | ⟨t', e', k', x, rfl, ht', rfl⟩ | ⟨t', k', e', v, rfl, ht', -, -, rfl⟩ |
    ⟨t', k', e', rfl, ht', -, -, rfl⟩ | ⟨rfl, rfl⟩ <;> simp only [opThr, Option.some.injEq, reduceCtorEq] at ho
  all_goals (subst ho; rw [ht] at ht'; cases ht')
  all_goals simp

theorem move_waiting {s s' : Sys K V X} {op : Op K V X} {t : Nat} {e : Nat} {k : K}
    (hs : step m s op = some s') (ho : opThr op = some t) (ht : s.thr t = .waiting k e) :
    op = .wake t ∧ s.sh.isSet e = true ∧
    ((∃ v, s.sh.cache.get? k = some (some v) ∧ s'.thr t = .idle) ∨ s'.thr t = .retrying k) ∧
    ((∃ v, s.sh.cache.get? k = some (some v)) → s'.thr t = .idle) := by
  rcases step_cases hs with ⟨t', k', rfl, ht', rfl⟩ | ⟨t', k', rfl, ht', rfl⟩ | ⟨t', k', r, rfl, ht', rfl⟩ |
    ⟨t', e', k', v, rfl, ht', rfl⟩ | ⟨t', e', k', x, rfl, ht', rfl⟩ | ⟨t', k', e', v, rfl, ht', h1, h2, rfl⟩ |
    ⟨t', k', e', rfl, ht', h1, h2, rfl⟩ | ⟨rfl, rfl⟩ <;> simp only [opThr, Option.some.injEq, reduceCtorEq] at ho
  all_goals (subst ho; rw [ht] at ht'; cases ht')
  · refine ⟨rfl, h1, Or.inl ⟨v, ?_, by simp⟩, fun _ => by simp⟩
    unfold reread at h2; split at h2 <;> simp_all
  · refine ⟨rfl, h1, Or.inr (by simp), ?_⟩
    rintro ⟨v, hv⟩; simp [reread, hv] at h2

theorem move_retrying {s s' : Sys K V X} {op : Op K V X} {t : Nat} {k : K}
    (hs : step m s op = some s') (ho : opThr op = some t) (ht : s.thr t = .retrying k) :
    s' = doEnter s t k := by
  rcases step_cases hs with ⟨t', k', rfl, ht', rfl⟩ | ⟨t', k', rfl, ht', rfl⟩ | ⟨t', k', r, rfl, ht', rfl⟩ |
    ⟨t', e', k', v, rfl, ht', rfl⟩ | ⟨t', e', k', x, rfl, ht', rfl⟩ | ⟨t', k', e', v, rfl, ht', h1, h2, rfl⟩ |
    ⟨t', k', e', rfl, ht', h1, h2, rfl⟩ | ⟨rfl, rfl⟩ <;> simp only [opThr, Option.some.injEq, reduceCtorEq] at ho
  all_goals (subst ho; rw [ht] at ht'; cases ht')
  rfl

theorem isSet_step {s s' : Sys K V X} {op : Op K V X} (h : Inv s) (hs : step m s op = some s') {e : Nat}
    (he : s.sh.isSet e = true) : s'.sh.isSet e = true := by
  rcases step_cases hs with ⟨t', k', rfl, ht', rfl⟩ | ⟨t', k', rfl, ht', rfl⟩ | ⟨t', k', r, rfl, ht', rfl⟩ |
    ⟨t', e', k', v, rfl, ht', rfl⟩ | ⟨t', e', k', x, rfl, ht', rfl⟩ | ⟨t', k', e', v, rfl, ht', h1, h2, rfl⟩ |
    ⟨t', k', e', rfl, ht', h1, h2, rfl⟩ | ⟨rfl, rfl⟩
  · rcases doEnter_shape h.si t' k' with ⟨v, hc, h'⟩ | ⟨e', hc, hev, h'⟩ | ⟨hc, h'⟩ <;> rw [h'] <;> exact he
  · rcases doEnter_shape h.si t' k' with ⟨v, hc, h'⟩ | ⟨e', hc, hev, h'⟩ | ⟨hc, h'⟩ <;> rw [h'] <;> exact he
  · rcases doComplete_shape m h.si t' k' r with ⟨x, rfl, h'⟩ | ⟨v, rfl, hst, h'⟩ | ⟨v, rfl, hst, h'⟩ <;> rw [h']
    · simp only [(abort_cache h.si k').2.2.2.1]; exact he
    · simp only [(store_cache m h.si k' v).2.2.2]; exact he
    · simp only [(store_cache m h.si k' v).2.2.2]; exact he
  · cases e' with
    | none => exact he
    | some e' => simp [signalEv, he]
  · cases e' with
    | none => exact he
    | some e' => simp [signalEv, he]
  · exact he
  · exact he
  · exact he

/-- In a run with room, the entry of a key whose result is stored stays. -/
theorem ready_step {P : K → Prop} (hf : KeysFit m P) {s s' : Sys K V X} {op : Op K V X} (h : RInv P s)
    (hncl : op ≠ .clear) (hs : step m s op = some s') {k : K} {v : V}
    (hk : s.sh.cache.get? k = some (some v)) : s'.sh.cache.get? k = some (some v) := by
  have ent : ∀ t' k', (doEnter s t' k').sh.cache.get? k = some (some v) := by
    intro t' k'
    rcases doEnter_shape h.inv.si t' k' with ⟨v, hc, h'⟩ | ⟨e', hc, hev, h'⟩ | ⟨hc, h'⟩ <;> rw [h']
    · exact hk
    · exact hk
    · simp only [entered]; rw [Dict.get?_set, if_neg]
      · exact hk
      · rintro rfl; rw [hc] at hk; cases hk
  rcases step_cases hs with ⟨t', k', rfl, ht', rfl⟩ | ⟨t', k', rfl, ht', rfl⟩ | ⟨t', k', r, rfl, ht', rfl⟩ |
    ⟨t', e', k', v, rfl, ht', rfl⟩ | ⟨t', e', k', x, rfl, ht', rfl⟩ | ⟨t', k', e', v, rfl, ht', h1, h2, rfl⟩ |
    ⟨t', k', e', rfl, ht', h1, h2, rfl⟩ | ⟨hop, rfl⟩
  · exact ent _ _
  · exact ent _ _
  · obtain ⟨-, -, -, -, -, h4, -⟩ := h.doComplete hf t' k' r ht'
    rw [h4]
    · exact hk
    · rintro rfl; have := h.sf _ _ ht'; rw [hk] at this; cases this
  · cases e' <;> exact hk
  · cases e' <;> exact hk
  · exact hk
  · exact hk
  · exact absurd hop hncl

variable {P : K → Prop} (hf : KeysFit m P) (hn : ∀ n, x.op n ≠ .clear) (hP : ∀ n t k, x.op n = .call t k → P k)
include hf hn hP

theorem exec_rinv (n : Nat) : RInv P (x.st n) := by
  induction n with
  | zero => rw [x.start]; exact RInv.init P
  | succ n ih => exact ih.step hf (hn n) (hP n) (x.next n)

theorem isSet_mono {n n' : Nat} (h : n ≤ n') {e : Nat} (he : (x.st n).sh.isSet e = true) :
    (x.st n').sh.isSet e = true := by
  induction h with
  | refl => exact he
  | step _ ih => exact isSet_step (exec_rinv x hf hn hP _).inv (x.next _) ih

/-- Every waiting thread is eventually woken. -/
theorem woken (fair : Fair x) {n t : Nat} {k : K} {e : Nat} (hw : (x.st n).thr t = .waiting k e) :
    ∃ j, n ≤ j ∧ x.op j = .wake t ∧ ∀ i, n ≤ i → i ≤ j → (x.st i).thr t = .waiting k e := by
  have fin : ∀ j, n ≤ j → (∀ i, n ≤ i → i ≤ j → (x.st i).thr t = .waiting k e) → (x.st j).sh.isSet e = true →
      ∃ j, n ≤ j ∧ x.op j = .wake t ∧ ∀ i, n ≤ i → i ≤ j → (x.st i).thr t = .waiting k e := by
    intro j hj hall hset
    obtain ⟨m', hm', hop⟩ := fair.wakes j t k e (hall j hj (Nat.le_refl _)) hset
    obtain ⟨i, hi1, hi2, hi3, hi4⟩ := first_move x hm' (by rw [hop]; rfl : opThr (x.op m') = some t)
    have hwi : (x.st i).thr t = .waiting k e := by rw [hi3]; exact hall j hj (Nat.le_refl _)
    refine ⟨i, by omega, (move_waiting (x.next i) hi2 hwi).1, ?_⟩
    intro a ha1 ha2
    by_cases haj : a ≤ j
    · exact hall a ha1 haj
    · rw [hi4 a (by omega) ha2]; exact hall j hj (Nat.le_refl _)
  -- either the thread already moved before `j`, or it is still waiting up to `j`
  have dich : ∀ j, n ≤ j → (∃ j', n ≤ j' ∧ x.op j' = .wake t ∧ ∀ i, n ≤ i → i ≤ j' → (x.st i).thr t = .waiting k e) ∨
      (∀ i, n ≤ i → i ≤ j → (x.st i).thr t = .waiting k e) := by
    intro j hj
    induction hj with
    | refl =>
      right; intro i h1 h2; rw [Nat.le_antisymm h2 h1]; exact hw
    | @step j hj ih =>
      have hj : n ≤ j := hj
      rcases ih with ih | ih
      · exact Or.inl ih
      · by_cases ho : opThr (x.op j) = some t
        · left
          exact ⟨j, hj, (move_waiting (x.next j) ho (ih j hj (Nat.le_refl _))).1, ih⟩
        · right
          intro i h1 h2
          rcases Nat.lt_or_ge i (j + 1) with h3 | h3
          · exact ih i h1 (by omega)
          · have : i = j + 1 := by simp only [Nat.succ_eq_add_one] at h2; omega
            subst this
            rw [step_thr (x.next j) ho]; exact ih j hj (Nat.le_refl _)
  -- a thread signalling `e`
  have sig : ∀ j t' k' r, n ≤ j → (x.st j).thr t' = .signalling (some e) k' r →
      ∃ j, n ≤ j ∧ x.op j = .wake t ∧ ∀ i, n ≤ i → i ≤ j → (x.st i).thr t = .waiting k e := by
    intro j t' k' r hj hs
    obtain ⟨m', hm', hop⟩ := fair.signals j t' _ _ _ hs
    obtain ⟨i, hi1, hi2, hi3, -⟩ := first_move x hm' (by rw [hop]; rfl : opThr (x.op m') = some t')
    have h1 := (move_signalling (x.next i) hi2 (by rw [hi3]; exact hs)).2
    have hset : (x.st (i + 1)).sh.isSet e = true := by rw [h1]; simp [signalEv]
    rcases dich (i + 1) (by omega) with h2 | h2
    · exact h2
    · exact fin _ (by omega) h2 hset
  have hr := exec_rinv x hf hn hP n
  rcases hr.wait _ _ _ hw with h1 | h1 | ⟨t', k', r, h1⟩
  · refine fin n (Nat.le_refl _) ?_ h1
    intro i h1 h2; rw [Nat.le_antisymm h2 h1]; exact hw
  · obtain ⟨t', ht'⟩ := hr.inv.sent k (hr.evLive _ _ h1).2.1
    obtain ⟨m', hm', r, hop⟩ := fair.ends n t' k ht'
    obtain ⟨i, hi1, hi2, hi3, -⟩ := first_move x hm' (by rw [hop]; rfl : opThr (x.op m') = some t')
    obtain ⟨r', hr', hst⟩ := move_computing (x.next i) hi2 (by rw [hi3]; exact ht')
    have hri := exec_rinv x hf hn hP i
    obtain ⟨-, -, h5, -, -, -, -⟩ := hri.doComplete hf t' k r' (by rw [hi3]; exact ht')
    rcases dich (i + 1) (by omega) with h2 | h2
    · exact h2
    · rcases (exec_rinv x hf hn hP (i + 1)).wait _ _ _ (h2 (i + 1) (by omega) (Nat.le_refl _)) with h3 | h3 | ⟨t'', k'', r'', h3⟩
      · exact fin _ (by omega) h2 h3
      · rw [hst, h5, Dict.get?_erase hri.inv.si.wfe] at h3
        simp at h3
      · exact sig _ _ _ _ (by omega) h3
  · exact sig n t' k' r (Nat.le_refl _) h1

/-- A computing or signalling thread eventually leaves. -/
theorem signalling_ends (fair : Fair x) {n t : Nat} {e : Option Nat} {k : K} {r : Except X V}
    (h : (x.st n).thr t = .signalling e k r) : ∃ j, n ≤ j ∧ (x.st j).thr t = .idle := by
  obtain ⟨m', hm', hop⟩ := fair.signals n t _ _ _ h
  obtain ⟨i, hi1, hi2, hi3, -⟩ := first_move x hm' (by rw [hop]; rfl : opThr (x.op m') = some t)
  exact ⟨i + 1, by omega, (move_signalling (x.next i) hi2 (by rw [hi3]; exact h)).1⟩

theorem computing_ends (fair : Fair x) {n t : Nat} {k : K}
    (h : (x.st n).thr t = .computing k) : ∃ j, n ≤ j ∧ (x.st j).thr t = .idle := by
  obtain ⟨m', hm', r, hop⟩ := fair.ends n t k h
  obtain ⟨i, hi1, hi2, hi3, -⟩ := first_move x hm' (by rw [hop]; rfl : opThr (x.op m') = some t)
  obtain ⟨r', hr', hst⟩ := move_computing (x.next i) hi2 (by rw [hi3]; exact h)
  obtain ⟨-, h5, -⟩ := (exec_rinv x hf hn hP i).doComplete hf t k r' (by rw [hi3]; exact h)
  obtain ⟨j, hj1, hj2⟩ := signalling_ends x hf hn hP fair (n := i + 1) (by rw [hst]; exact h5)
  exact ⟨j, by omega, hj2⟩

/-- From time `N` on no evaluation for `k` raises: waiting on the live event of `k` ends with its result. -/
theorem live_or_ready {N : Nat} {k : K}
    (hN : ∀ n t r, N ≤ n → (x.st n).thr t = .computing k → x.op n = .complete t r → ∃ v, r = .ok v)
    {n e : Nat} (hNn : N ≤ n) (h : (x.st n).sh.events.get? k = some e) {j : Nat} (hj : n ≤ j) :
    (x.st j).sh.events.get? k = some e ∨ ∃ v, (x.st j).sh.cache.get? k = some (some v) := by
  induction hj with
  | refl => exact Or.inl h
  | @step j hj ih =>
    have hj : n ≤ j := hj
    have hr := exec_rinv x hf hn hP j
    rcases ih with ih | ⟨v, ih⟩
    · have hsent := (hr.evLive _ _ ih).2.1
      have ent : ∀ t' k', (doEnter (x.st j) t' k').sh.events.get? k = some e := by
        intro t' k'
        rcases doEnter_shape hr.inv.si t' k' with ⟨v, hc, h'⟩ | ⟨e', hc, hev, h'⟩ | ⟨hc, h'⟩ <;> rw [h']
        · exact ih
        · exact ih
        · simp only [entered]; rw [Dict.get?_set, if_neg]
          · exact ih
          · rintro rfl; rw [hc] at hsent; cases hsent
      rcases step_cases (x.next j) with ⟨t', k', -, ht', h1⟩ | ⟨t', k', -, ht', h1⟩ | ⟨t', k', r, hop, ht', h1⟩ |
        ⟨t', e', k', v, -, ht', h1⟩ | ⟨t', e', k', x, -, ht', h1⟩ | ⟨t', k', e', v, -, ht', _, _, h1⟩ |
        ⟨t', k', e', -, ht', _, _, h1⟩ | ⟨hop, h1⟩
      · left; rw [h1]; exact ent _ _
      · left; rw [h1]; exact ent _ _
      · obtain ⟨-, -, h5, h6, -⟩ := hr.doComplete hf t' k' r ht'
        by_cases ek : k' = k
        · subst ek
          obtain ⟨v, rfl⟩ := hN j t' r (by omega) ht' hop
          right; exact ⟨v, by rw [h1]; exact h6 v rfl⟩
        · left; rw [h1, h5, Dict.get?_erase hr.inv.si.wfe, if_neg ek]; exact ih
      · left; rw [h1]; cases e' <;> exact ih
      · left; rw [h1]; cases e' <;> exact ih
      · left; rw [h1]; exact ih
      · left; rw [h1]; exact ih
      · exact absurd hop (hn j)
    · exact Or.inr ⟨v, ready_step hf hr (hn j) (x.next j) ih⟩

theorem call_ends (fair : Fair x) {N : Nat} {k : K}
    (hN : ∀ n t r, N ≤ n → (x.st n).thr t = .computing k → x.op n = .complete t r → ∃ v, r = .ok v)
    {n t : Nat} (h : InCall (x.st n) t k) : ∃ j, n ≤ j ∧ (x.st j).thr t = .idle := by
  have late : ∀ n, N ≤ n → InCall (x.st n) t k → ∃ j, n ≤ j ∧ (x.st j).thr t = .idle := by
    have waitLive : ∀ n e, N ≤ n → (x.st n).thr t = .waiting k e → (x.st n).sh.events.get? k = some e →
        ∃ j, n ≤ j ∧ (x.st j).thr t = .idle := by
      intro n e hn' hw hev
      obtain ⟨j, hj1, hj2, hj3⟩ := woken x hf hn hP fair hw
      obtain ⟨-, hset, -, h4⟩ := move_waiting (x.next j) (by rw [hj2]; rfl) (hj3 j hj1 (Nat.le_refl _))
      rcases live_or_ready x hf hn hP hN hn' hev hj1 with h5 | h5
      · have := ((exec_rinv x hf hn hP j).evLive _ _ h5).1
        rw [hset] at this; cases this
      · exact ⟨j + 1, by omega, h4 h5⟩
    have retr : ∀ n, N ≤ n → (x.st n).thr t = .retrying k → ∃ j, n ≤ j ∧ (x.st j).thr t = .idle := by
      intro n hn' hw
      obtain ⟨m', hm', hop⟩ := fair.retries n t k hw
      obtain ⟨i, hi1, hi2, hi3, -⟩ := first_move x hm' (by rw [hop]; rfl : opThr (x.op m') = some t)
      have hst := move_retrying (x.next i) hi2 (by rw [hi3]; exact hw)
      rcases doEnter_shape (exec_rinv x hf hn hP i).inv.si t k with ⟨v, hc, h'⟩ | ⟨e', hc, hev, h'⟩ | ⟨hc, h'⟩ <;>
        rw [h'] at hst
      · exact ⟨i + 1, by omega, by rw [hst]; simp⟩
      · obtain ⟨j, hj1, hj2⟩ := waitLive (i + 1) e' (by omega) (by rw [hst]; simp) (by rw [hst]; exact hev)
        exact ⟨j, by omega, hj2⟩
      · obtain ⟨j, hj1, hj2⟩ := computing_ends x hf hn hP fair (n := i + 1) (t := t) (k := k) (by rw [hst]; simp)
        exact ⟨j, by omega, hj2⟩
    intro n hn' h
    rcases h with h | ⟨e, h⟩ | h | ⟨e, r, h⟩
    · exact computing_ends x hf hn hP fair h
    · obtain ⟨j, hj1, hj2, hj3⟩ := woken x hf hn hP fair h
      obtain ⟨-, -, h4, -⟩ := move_waiting (x.next j) (by rw [hj2]; rfl) (hj3 j hj1 (Nat.le_refl _))
      rcases h4 with ⟨_, _, h4⟩ | h4
      · exact ⟨j + 1, by omega, h4⟩
      · obtain ⟨j', h5, h6⟩ := retr (j + 1) (by omega) h4
        exact ⟨j', by omega, h6⟩
    · exact retr n hn' h
    · exact signalling_ends x hf hn hP fair h
  -- before `N`: the thread is still in the same call at `N`, or has left it
  have reach : ∀ j, n ≤ j → (∃ i, n ≤ i ∧ (x.st i).thr t = .idle) ∨ InCall (x.st j) t k := by
    intro j hj
    induction hj with
    | refl => exact Or.inr h
    | @step j hj ih =>
      have hj : n ≤ j := hj
      rcases ih with ih | ih
      · exact Or.inl ih
      · by_cases ho : opThr (x.op j) = some t
        · rcases ih with h1 | ⟨e, h1⟩ | h1 | ⟨e, r, h1⟩
          · obtain ⟨r', hr', hst⟩ := move_computing (x.next j) ho h1
            obtain ⟨-, h5, -⟩ := (exec_rinv x hf hn hP j).doComplete hf t k r' h1
            exact Or.inr (Or.inr (Or.inr (Or.inr ⟨_, _, by rw [hst]; exact h5⟩)))
          · obtain ⟨-, -, h4, -⟩ := move_waiting (x.next j) ho h1
            rcases h4 with ⟨_, _, h4⟩ | h4
            · exact Or.inl ⟨j + 1, by omega, h4⟩
            · exact Or.inr (Or.inr (Or.inr (Or.inl h4)))
          · have hst := move_retrying (x.next j) ho h1
            rcases doEnter_shape (exec_rinv x hf hn hP j).inv.si t k with ⟨v, hc, h'⟩ | ⟨e', hc, hev, h'⟩ | ⟨hc, h'⟩ <;>
              rw [h'] at hst
            · exact Or.inl ⟨j + 1, by omega, by rw [hst]; simp⟩
            · exact Or.inr (Or.inr (Or.inl ⟨e', by rw [hst]; simp⟩))
            · exact Or.inr (Or.inl (by rw [hst]; simp))
          · exact Or.inl ⟨j + 1, by omega, (move_signalling (x.next j) ho h1).1⟩
        · have := step_thr (x.next j) ho
          right; simpa only [InCall, this] using ih
  rcases reach (max n N) (Nat.le_max_left _ _) with h1 | h1
  · exact h1
  · obtain ⟨j, hj1, hj2⟩ := late _ (Nat.le_max_right _ _) h1
    exact ⟨j, Nat.le_trans (Nat.le_max_left _ _) hj1, hj2⟩

end Live

/-! ### Sequential refinement -/

/-- The code's variables represent the FIFO map `l`, nothing in flight. -/
structure Quiet (s : Shared K V) (l : Fifo K V) : Prop where
  cache : s.cache = l.map (fun p => (p.1, some p.2))
  order : s.order = l.map Prod.fst
  events : s.events = []
  nd : (l.map Prod.fst).Nodup

theorem get?_map (l : Fifo K V) (k : K) :
    Dict.get? (l.map (fun p => (p.1, some p.2))) k = (List.lookup k l).map some := by
  induction l with
  | nil => rfl
  | cons p l ih =>
    obtain ⟨a, v⟩ := p
    simp only [List.map_cons, Dict.get?_cons, List.lookup_cons]
    by_cases h : a = k
    · subst h; simp
    · have : (k == a) = false := by simpa using (fun e : k = a => h e.symm)
      simp [h, this, ih]

theorem erase_map (a : K) (v : V) (l : Fifo K V) :
    Dict.erase ((a, some v) :: l.map (fun p => (p.1, some p.2))) a = l.map (fun p => (p.1, some p.2)) := by
  simp [Dict.erase]

theorem evict_map (n : Nat) : ∀ l : Fifo K V,
    evict (n : Int) (l.map (fun p => (p.1, some p.2))) (l.map Prod.fst) =
      ((l.drop (l.length - n)).map (fun p => (p.1, some p.2)), (l.drop (l.length - n)).map Prod.fst, false) := by
  intro l
  induction l with
  | nil => simp [evict]
  | cons p l ih =>
    obtain ⟨a, v⟩ := p
    simp only [List.map_cons, evict, List.length_cons, List.length_map]
    by_cases h : ((l.length + 1 : Nat) : Int) > n
    · rw [if_pos h, erase_map, ih]
      have : l.length + 1 - n = (l.length - n) + 1 := by omega
      rw [this, List.drop_succ_cons]
    · rw [if_neg h]
      have : l.length + 1 - n = 0 := by omega
      rw [this, List.drop_zero]
      rfl

theorem lookup_none_notin {l : Fifo K V} {k : K} (h : List.lookup k l = none) : k ∉ l.map Prod.fst := by
  induction l with
  | nil => simp
  | cons p l ih =>
    obtain ⟨a, v⟩ := p
    rw [List.lookup_cons] at h
    by_cases e : k = a
    · subst e; simp at h
    · have : (k == a) = false := by simp [e]
      rw [this] at h
      simp [e]
      simpa using ih h

theorem set_map_new {l : Fifo K V} {k : K} (h : k ∉ l.map Prod.fst) (y : Option V) :
    Dict.set (l.map (fun p => (p.1, some p.2))) k y = l.map (fun p => (p.1, some p.2)) ++ [(k, y)] := by
  apply Dict.set_of_not_mem
  simpa [Dict.keys] using h

theorem set_last {l : Fifo K V} {k : K} (h : k ∉ l.map Prod.fst) (y z : Option V) :
    Dict.set (l.map (fun p => (p.1, some p.2)) ++ [(k, y)]) k z =
      l.map (fun p => (p.1, some p.2)) ++ [(k, z)] := by
  induction l with
  | nil => simp [Dict.set]
  | cons p l ih =>
    obtain ⟨a, v⟩ := p
    simp only [List.map_cons, List.mem_cons, not_or] at h
    have : ¬ a = k := fun e => h.1 e.symm
    simp [Dict.set, this]
    simpa using ih h.2

theorem erase_last {l : Fifo K V} {k : K} (h : k ∉ l.map Prod.fst) (y : Option V) :
    Dict.erase (l.map (fun p => (p.1, some p.2)) ++ [(k, y)]) k = l.map (fun p => (p.1, some p.2)) := by
  induction l with
  | nil => simp [Dict.erase]
  | cons p l ih =>
    obtain ⟨a, v⟩ := p
    simp only [List.map_cons, List.mem_cons, not_or] at h
    have : ¬ a = k := fun e => h.1 e.symm
    simp [Dict.erase, this]
    simpa using ih h.2

theorem callSeq_refines (n : Option Nat) {s : Shared K V} {l : Fifo K V} (h : Quiet s l) (k : K)
    (r : Except X V) :
    Quiet (callSeq (n.map Int.ofNat) s k r).1 (Fifo.call n l k r).1 ∧
    (callSeq (n.map Int.ofNat) s k r).2 = (Fifo.call n l k r).2 := by
  have hget : s.cache.get? k = (List.lookup k l).map some := by rw [h.cache, get?_map]
  cases hl : List.lookup k l with
  | some v =>
    rw [hl] at hget
    simp only [callSeq, Fifo.call, hl, enter_hit s k v hget]
    exact ⟨h, trivial⟩
  | none =>
    rw [hl] at hget
    have hni := lookup_none_notin hl
    have hent := enter_compute_iff s k hget
    have hc1 : s.cache.set k none = l.map (fun p => (p.1, some p.2)) ++ [(k, none)] := by
      rw [h.cache, set_map_new hni]
    have hnd : (List.map Prod.fst l ++ [k]).Nodup := by
      rw [List.nodup_append]
      refine ⟨h.nd, by simp, ?_⟩
      intro a ha b hb e; simp at hb; subst hb; subst e; exact hni ha
    have hev1 : s.events.set k s.fresh = [(k, s.fresh)] := by rw [h.events]; rfl
    cases r with
    | error e =>
      simp only [callSeq, Fifo.call, hl, hent]
      have hgs : Dict.get? (s.cache.set k none) k = some none := Dict.get?_set_self _ _ _
      have herase : Dict.erase [(k, s.fresh)] k = [] := by simp [Dict.erase]
      have hord : (s.order ++ [k]).erase k = s.order := by
        rw [h.order]
        rw [List.erase_append_right _ hni]
        simp
      have habort : abort { s with events := s.events.set k s.fresh, cache := s.cache.set k none, order := s.order ++ [k], fresh := s.fresh + 1 } k =
          ({ s with fresh := s.fresh + 1, cache := l.map (fun p => (p.1, some p.2)), order := s.order, events := [] }, some s.fresh, none) := by
        unfold abort
        simp only [hgs]
        rw [if_pos (by simp)]
        rw [hev1, herase, hord, hc1, erase_last hni]
        simp [Dict.get?]
      rw [habort]
      refine ⟨⟨rfl, h.order, rfl, h.nd⟩, rfl⟩
    | ok v =>
      simp only [callSeq, Fifo.call, hl, hent]
      have hcs : Dict.set (s.cache.set k none) k (some v) = (l ++ [(k, v)]).map (fun p => (p.1, some p.2)) := by
        rw [hc1, set_last hni]; simp
      have hos : s.order ++ [k] = (l ++ [(k, v)]).map Prod.fst := by rw [h.order]; simp
      have herase : Dict.erase [(k, s.fresh)] k = [] := by simp [Dict.erase]
      have hnd' : ((l ++ [(k, v)]).map Prod.fst).Nodup := by simpa using hnd
      cases n with
      | none =>
        simp only [Option.map_none, store, hcs, hev1, herase, Dict.get?, if_true]
        exact ⟨⟨rfl, hos, rfl, hnd'⟩, trivial⟩
      | some n =>
        simp only [Option.map_some, store, hcs, hos]
        have := evict_map n (l ++ [(k, v)])
        simp only [Int.ofNat_eq_natCast, this, hev1, herase, Dict.get?, if_true]
        refine ⟨⟨rfl, rfl, rfl, ?_⟩, trivial⟩
        simp only [Fifo.trim]
        rw [List.map_drop]
        exact hnd'.sublist (List.drop_sublist _ _)

theorem callsSeq_refines (n : Option Nat) (cs : List (K × Except X V)) : ∀ {s : Shared K V} {l : Fifo K V}, Quiet s l →
    Quiet (callsSeq (n.map Int.ofNat) s cs).1 (Fifo.calls n l cs).1 ∧
    (callsSeq (n.map Int.ofNat) s cs).2 = (Fifo.calls n l cs).2 := by
  induction cs with
  | nil => intro s l h; exact ⟨h, rfl⟩
  | cons c cs ih =>
    intro s l h
    obtain ⟨k, r⟩ := c
    obtain ⟨h1, h2⟩ := callSeq_refines n h k r
    obtain ⟨h3, h4⟩ := ih h1
    simp only [callsSeq, Fifo.calls]
    exact ⟨h3, by rw [h2, h4]⟩

/-! ### Size under concurrency -/

/-- Finished results never exceed `maxsize` unless the eviction loop crashed. -/
theorem results_bounded {n : Int} (hn : 0 ≤ n) {ops : List (Op K V X)} {s : Sys K V X}
    (h : After (some n) ops s) (hi : ∀ t k, Obs.internal t k .indexError ∉ s.log) :
    ∀ l : List K, l.Nodup → (∀ k ∈ l, ∃ v, Holds s k v) → (l.length : Int) ≤ n := by
  revert hi
  refine After.induct (P := fun _ s => (∀ t k, Obs.internal t k .indexError ∉ s.log) →
    ∀ l : List K, l.Nodup → (∀ k ∈ l, ∃ v, Holds s k v) → (l.length : Int) ≤ n) ?_ ?_ h
  · intro _ l _ hl
    cases l with
    | nil => simpa using hn
    | cons a l => obtain ⟨v, hv⟩ := hl a (by simp); simp [Holds, Cache.init] at hv
  · intro ops s op s' haft ih hs hi l hnd hl
    have hinv := haft.inv
    -- results are kept or dropped, except when a result is stored
    have keep : ∀ o : List (Obs K V X), s'.log = o ++ s.log → (∀ k v, Holds s' k v → Holds s k v) → (l.length : Int) ≤ n := by
      intro o ho hk
      refine ih ?_ l hnd ?_
      · intro t k h'; exact hi t k (by rw [ho]; exact List.mem_append_right _ h')
      · intro k hk'; obtain ⟨v, hv⟩ := hl k hk'; exact ⟨v, hk k v hv⟩
    have ent : ∀ t' k', s' = doEnter s t' k' → (l.length : Int) ≤ n := by
      intro t' k' e
      rcases doEnter_shape hinv.si t' k' with ⟨v, hc, h'⟩ | ⟨e', hc, hev, h'⟩ | ⟨hc, h'⟩ <;> rw [h'] at e
      · exact keep [_] (by rw [e]; rfl) (by rw [e]; exact fun _ _ h => h)
      · exact keep [] (by rw [e]; rfl) (by rw [e]; exact fun _ _ h => h)
      · refine keep [_] (by rw [e]; rfl) ?_
        intro k v hv
        rw [e] at hv
        simp only [Holds, entered] at hv ⊢
        rw [Dict.get?_set] at hv
        split at hv
        · cases hv
        · exact hv
    rcases step_cases hs with ⟨t', k', -, ht', e⟩ | ⟨t', k', -, ht', e⟩ | ⟨t', k', r, -, ht', e⟩ |
      ⟨t', e', k', v, -, ht', e⟩ | ⟨t', e', k', x, -, ht', e⟩ | ⟨t', k', e', v, -, ht', _, _, e⟩ |
      ⟨t', k', e', -, ht', _, _, e⟩ | ⟨-, e⟩
    · exact ent _ _ e
    · exact ent _ _ e
    · rcases doComplete_shape (some n) hinv.si t' k' r with ⟨x, rfl, h'⟩ | ⟨v, rfl, hst, h'⟩ | ⟨v, rfl, hst, h'⟩ <;>
        rw [h'] at e
      · refine keep [_] (by rw [e]; rfl) ?_
        intro k v hv
        rw [e] at hv
        exact (abort_cache hinv.si k').1 _ _ hv
      · obtain ⟨c', o', hwf, -, -, -, -, h6⟩ := store_shape (some n) hinv.si k' v
        rcases h6 with ⟨h6, h7⟩ | ⟨h6, _⟩
        · have hsub : l ⊆ Dict.keys c' := by
            intro k hk
            obtain ⟨v', hv'⟩ := hl k hk
            rw [e] at hv'
            simp only [Holds, h6] at hv'
            exact Dict.mem_keys_of_get? hv'
          have := (List.subperm_of_subset hnd hsub).length_le
          have h8 := h7 n rfl
          simp only [Dict.keys, List.length_map] at this
          omega
        · rw [h6] at hst; simp at hst
      · exact absurd (show Obs.internal t' k' .indexError ∈ s'.log by rw [e]; simp) (hi _ _)
    · exact keep [_] (by rw [e]; rfl) (by rw [e]; cases e' <;> exact fun _ _ h => h)
    · exact keep [_] (by rw [e]; rfl) (by rw [e]; cases e' <;> exact fun _ _ h => h)
    · exact keep [_] (by rw [e]; rfl) (by rw [e]; exact fun _ _ h => h)
    · exact keep [] (by rw [e]; rfl) (by rw [e]; exact fun _ _ h => h)
    · refine keep [_] (by rw [e]; rfl) ?_
      intro k v hv; rw [e] at hv; simp [Holds, clear] at hv

end Verif.Cache
