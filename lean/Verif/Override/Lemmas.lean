import Verif.Override.Spec
import Mathlib.Tactic.Linarith

/-!
# Lemmas for overridden methods
-/

namespace Verif.Override

variable {α β ε : Type}

theorem eval_ne (C : List (Method α β ε)) : ∀ a, eval C a ≠ .waits ∧ eval C a ≠ .deep := by
  induction C with
  | nil => intro a; simp [eval]
  | cons m C ih =>
    intro a
    unfold eval
    cases m.body a with
    | done v => simp
    | raise e => simp
    | super b k => cases h : eval C b <;> simp [Outcome.map, h] <;> simp_all
    | base b k => cases h : eval C b <;> simp [Outcome.map, h] <;> simp_all

variable [DecidableEq α]

/-- Results in the caches are right, and no call is in progress from class `l` on. -/
structure Good (C : List (Method α β ε)) (l : Nat) (s : State α β) : Prop where
  results : ∀ i a v, s.cache i a = some (.result v) → eval (C.drop i) a = .value v
  idle : ∀ i a, l ≤ i → s.cache i a ≠ some .computing

/-- What a call in class `l` and above leaves alone. -/
structure Kept (l : Nat) (s t : State α β) : Prop where
  dict : t.dict = s.dict
  stored : t.stored = s.stored
  cache : ∀ i a, i < l → t.cache i a = s.cache i a

theorem Kept.refl (l : Nat) (s : State α β) : Kept l s s := ⟨rfl, rfl, fun _ _ _ => rfl⟩

theorem lookup_kept {C : List (Method α β ε)} {j : Nat} {m : Method α β ε} (hm : C[j]? = some m) {s : State α β} (h : m.cached = true → s.dict = false) :
    lookup C j s = some (if m.cached then .wrapper j else .plain j, s) := by
  unfold lookup
  rw [hm]
  cases hc : m.cached with
  | false => simp [hc]
  | true => simp [hc, descriptor, h hc]

theorem drop_get {C : List (Method α β ε)} {j : Nat} {m : Method α β ε} (hm : C[j]? = some m) : C.drop j = m :: C.drop (j + 1) := by
  obtain ⟨hj, rfl⟩ := List.getElem?_eq_some_iff.mp hm
  exact List.drop_eq_getElem_cons hj

theorem call_right {C : List (Method α β ε)} (d : Bool) (hC : d = false ∨ NoCachedSuper C) : ∀ n,
    (∀ j a s, 2 * (C.length - j) + 1 ≤ n → s.dict = d → Good C (j + 1) s →
      (call C n (.plain j) a s).1 = eval (C.drop j) a ∧ Good C (j + 1) (call C n (.plain j) a s).2 ∧ Kept (j + 1) s (call C n (.plain j) a s).2) ∧
    (∀ j a s, 2 * (C.length - j) + 2 ≤ n → s.dict = d → Good C j s →
      (call C n (.wrapper j) a s).1 = eval (C.drop j) a ∧ Good C j (call C n (.wrapper j) a s).2 ∧ Kept j s (call C n (.wrapper j) a s).2) := by
  intro n
  induction n with
  | zero => exact ⟨fun _ _ _ h => absurd h (by omega), fun _ _ _ h => absurd h (by omega)⟩
  | succ n ih =>
    obtain ⟨ihp, ihw⟩ := ih
    constructor
    · intro j a s hn hd hg
      cases hm : C[j]? with
      | none =>
        have : C.length ≤ j := List.getElem?_eq_none_iff.mp hm
        rw [List.drop_eq_nil_of_le this]
        simp only [call, hm, eval]
        exact ⟨trivial, hg, Kept.refl _ _⟩
      | some m =>
        have hj : j < C.length := (List.getElem?_eq_some_iff.mp hm).1
        rw [drop_get hm]
        have hg' : Good C (j + 1 + 1) s := ⟨hg.results, fun i a hi => hg.idle i a (by omega)⟩
        have hweak : ∀ {t}, Kept (j + 1 + 1) s t → Kept (j + 1) s t := fun h => ⟨h.dict, h.stored, fun i a hi => h.cache i a (by omega)⟩
        have hback : ∀ {t}, Good C (j + 1 + 1) t → Kept (j + 1 + 1) s t → Good C (j + 1) t := fun h1 h2 => ⟨h1.results, fun i a hi => by
          rcases Nat.lt_or_ge i (j + 1 + 1) with h | h
          · rw [h2.cache i a h]
            exact hg.idle i a hi
          · exact h1.idle i a h⟩
        have hp := fun b => ihp (j + 1) b s (by omega) hd hg'
        have hw := fun b => ihw (j + 1) b s (by omega) hd hg
        cases hb : m.body a with
        | done v =>
          simp only [call, hm, eval, hb]
          exact ⟨trivial, hg, Kept.refl _ _⟩
        | raise e =>
          simp only [call, hm, eval, hb]
          exact ⟨trivial, hg, Kept.refl _ _⟩
        | base b k =>
          simp only [call, hm, eval, hb]
          obtain ⟨h1, h2, h3⟩ := hp b
          rw [← h1]
          generalize call C n (.plain (j + 1)) b s = r at h1 h2 h3
          obtain ⟨o, t⟩ := r
          cases o <;> exact ⟨rfl, hback h2 h3, hweak h3⟩
        | super b k =>
          simp only [call, hm, eval, hb]
          cases hm' : C[j + 1]? with
          | none =>
            have : C.length ≤ j + 1 := List.getElem?_eq_none_iff.mp hm'
            rw [List.drop_eq_nil_of_le this]
            have hl : lookup C (j + 1) s = none := by simp [lookup, hm']
            rw [hl]
            exact ⟨rfl, hg, Kept.refl _ _⟩
          | some m' =>
            rw [lookup_kept hm' (fun hc => by
              rcases hC with h | h
              · rw [hd, h]
              · exact absurd hb (h j m m' hm hm' hc a b k))]
            cases hc : m'.cached with
            | false =>
              simp only [Bool.false_eq_true, if_false]
              obtain ⟨h1, h2, h3⟩ := hp b
              rw [← h1]
              generalize call C n (.plain (j + 1)) b s = r at h1 h2 h3
              obtain ⟨o, t⟩ := r
              cases o <;> exact ⟨rfl, hback h2 h3, hweak h3⟩
            | true =>
              simp only [if_true]
              obtain ⟨h1, h2, h3⟩ := hw b
              rw [← h1]
              generalize call C n (.wrapper (j + 1)) b s = r at h1 h2 h3
              obtain ⟨o, t⟩ := r
              cases o <;> exact ⟨rfl, h2, h3⟩
    · intro j a s hn hd hg
      simp only [call]
      cases hc : s.cache j a with
      | some e =>
        cases e with
        | computing => exact absurd hc (hg.idle j a le_rfl)
        | result v => exact ⟨(hg.results j a v hc).symm, hg, Kept.refl _ _⟩
      | none =>
        have hput : Good C (j + 1) (put j a (some .computing) s) := by
          constructor
          · intro i b v h
            simp only [put] at h
            split at h
            · cases h
            · exact hg.results i b v h
          · intro i b hi h
            simp only [put] at h
            split at h
            · next h' => omega
            · exact hg.idle i b (by omega) h
        obtain ⟨h1, h2, h3⟩ := ihp j a (put j a (some .computing) s) (by omega) hd hput
        have hkeep : ∀ {t : State α β} {e}, Kept (j + 1) (put j a (some .computing) s) t → Kept j s (put j a e t) := fun h => ⟨h.dict, h.stored, fun i b hi => by
          have hij : ¬ (i = j ∧ b = a) := fun h => by omega
          simp only [put, if_neg hij]
          rw [h.cache i b (by omega)]
          simp only [put, if_neg hij]⟩
        have hgood : ∀ {t : State α β} {e}, Good C (j + 1) t → Kept (j + 1) (put j a (some .computing) s) t → e ≠ some .computing →
            (∀ v, e = some (.result v) → eval (C.drop j) a = .value v) → Good C j (put j a e t) := by
          intro t e k1 k2 k3 k4
          constructor
          · intro i b v h
            simp only [put] at h
            split at h
            · next h' => obtain ⟨rfl, rfl⟩ := h'; exact k4 v h
            · exact k1.results i b v h
          · intro i b hi h
            simp only [put] at h
            split at h
            · exact k3 h
            · next h' =>
              rcases Nat.lt_or_ge i (j + 1) with hlt | hge
              · rw [k2.cache i b hlt] at h
                simp only [put, if_neg h'] at h
                exact hg.idle i b hi h
              · exact k1.idle i b hge h
        have hne := eval_ne (C.drop j) a
        rw [← h1] at hne hgood ⊢
        generalize call C n (.plain j) a (put j a (some .computing) s) = r at h1 h2 h3 hne hgood
        obtain ⟨o, t⟩ := r
        cases o with
        | value v => exact ⟨rfl, hgood h2 h3 (by simp) (by simp), hkeep h3⟩
        | waits => exact absurd rfl hne.1
        | raised e => exact ⟨rfl, hgood h2 h3 (by simp) (by simp), hkeep h3⟩
        | missing => exact ⟨rfl, hgood h2 h3 (by simp) (by simp), hkeep h3⟩
        | deep => exact absurd rfl hne.2

/-- Between calls. -/
structure Rest (C : List (Method α β ε)) (d : Bool) (s : State α β) : Prop where
  dict : s.dict = d
  good : Good C 0 s
  stored : ∀ i, s.stored = some i → i = 0

theorem use_right {C : List (Method α β ε)} {d : Bool} (hC : d = false ∨ NoCachedSuper C) {n : Nat} (hn : 2 * C.length + 2 ≤ n) {s : State α β} (h : Rest C d s) (a : α) :
    (use C n a s).1 = eval C a ∧ Rest C d (use C n a s).2 := by
  have hw : ∀ s, Rest C d s → (call C n (.wrapper 0) a s).1 = eval C a ∧ Rest C d (call C n (.wrapper 0) a s).2 := by
    intro s h
    obtain ⟨h1, h2, h3⟩ := (call_right d hC n).2 0 a s (by omega) h.dict h.good
    exact ⟨h1, h3.dict.trans h.dict, h2, fun i hi => h.stored i (h3.stored ▸ hi)⟩
  unfold use access
  cases hs : s.stored with
  | some i =>
    obtain rfl := h.stored i hs
    exact hw s h
  | none =>
    cases hm : C[0]? with
    | none =>
      have : C = [] := by simpa using hm
      subst this
      simp only [lookup, hm, Option.map_none]
      exact ⟨rfl, h⟩
    | some m =>
      simp only [lookup, hm, Option.map_some]
      cases hc : m.cached with
      | false =>
        simp only [Bool.false_eq_true, if_false]
        obtain ⟨h1, h2, h3⟩ := (call_right d hC n).1 0 a s (by omega) h.dict ⟨h.good.results, fun i a hi => h.good.idle i a (by omega)⟩
        refine ⟨h1, h3.dict.trans h.dict, ⟨h2.results, fun i b _ => ?_⟩, fun i hi => h.stored i (h3.stored ▸ hi)⟩
        rcases Nat.eq_zero_or_pos i with rfl | hi
        · rw [h3.cache 0 b (by omega)]
          exact h.good.idle 0 b le_rfl
        · exact h2.idle i b hi
      | true =>
        simp only [if_true, descriptor, hs]
        split
        · exact hw _ ⟨h.dict, ⟨h.good.results, h.good.idle⟩, fun i hi => by simpa using hi.symm⟩
        · exact hw s h

theorem session_right {C : List (Method α β ε)} {d : Bool} (hC : d = false ∨ NoCachedSuper C) {n : Nat} (hn : 2 * C.length + 2 ≤ n) (as : List α) :
    ∀ {s : State α β}, Rest C d s → session C n as s = as.map (eval C) := by
  induction as with
  | nil => intro s _; rfl
  | cons a as ih =>
    intro s h
    obtain ⟨h1, h2⟩ := use_right hC hn h a
    simp only [session, List.map_cons, h1, ih h2]

theorem fresh_rest (C : List (Method α β ε)) (d : Bool) : Rest C d (fresh d) := ⟨rfl, ⟨fun _ _ _ h => by simp [fresh] at h, fun _ _ _ h => by simp [fresh] at h⟩, fun _ h => by simp [fresh] at h⟩

end Verif.Override
