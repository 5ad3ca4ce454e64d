import Verif.Optimizer.Spec

namespace Verif.Optimizer
open Verif.Py F Verif.Config
open Classical

/-! ### Options -/

theorem validateLoop_eq {α : Type} (opts must remove : List String) (ks : List String) (d : List (String × α)) :
    validateLoop opts must remove ks d =
      d.filter (fun p => decide (p.1 ∈ ks → p.1 ∈ opts ++ must ++ remove ∧ p.1 ∉ remove)) := by
  induction ks generalizing d with
  | nil => simp [validateLoop]
  | cons k ks ih =>
    rw [validateLoop, ih]
    have hpop : ∀ (P : Prop) [Decidable P] (d : List (String × α)),
        (if P then dictPop k d else d) = d.filter (fun p => decide (P → p.1 ≠ k)) := by
      intro P _ d
      by_cases h : P <;> simp [h, dictPop]
    rw [hpop, hpop, List.filter_filter, List.filter_filter]
    refine List.filter_congr (fun p _ => ?_)
    rw [Bool.eq_iff_iff]
    simp only [Bool.and_eq_true, decide_eq_true_eq, List.mem_cons]
    constructor
    · rintro ⟨⟨h1, h2⟩, h3⟩ hp
      rcases hp with rfl | hp
      · refine ⟨?_, ?_⟩
        · by_contra hc; exact h3 hc rfl
        · intro hc; exact h2 hc rfl
      · exact h1 hp
    · intro h
      refine ⟨⟨fun hp => h (Or.inr hp), ?_⟩, ?_⟩
      · rintro hr rfl
        exact (h (Or.inl rfl)).2 hr
      · rintro hr rfl
        exact hr (h (Or.inl rfl)).1

/-! ### Pinned parameters -/

theorem pins_mem (init : List ℝ) : ∀ (mask : List Bool) (i : ℕ) (cs : List Constraint), pins init i mask = .ok cs →
    ∀ j : ℕ, mask[j]? = some true → ∃ v, init[i + j]? = some v ∧ pin (i + j) v ∈ cs := by
  intro mask
  induction mask with
  | nil => intro i cs _ j hj; simp at hj
  | cons m mask ih =>
    intro i cs h j hj
    rw [pins] at h
    split at h
    · split at h
      · simp at h
      · rename_i v hv
        cases hr : pins init (i + 1) mask with
        | error e => rw [hr] at h; simp [Except.map] at h
        | ok cs' =>
          rw [hr] at h
          simp only [Except.map, Except.ok.injEq] at h
          subst h
          cases j with
          | zero => exact ⟨v, hv, List.mem_cons_self⟩
          | succ j =>
            obtain ⟨w, h1, h2⟩ := ih (i + 1) cs' hr j (by simpa using hj)
            refine ⟨w, ?_, ?_⟩
            · rw [← h1]; congr 1; omega
            · rw [show i + (j + 1) = i + 1 + j by omega]
              exact List.mem_cons_of_mem _ h2
    · rename_i hm
      cases j with
      | zero => simp at hj; exact absurd hj hm
      | succ j =>
        obtain ⟨w, h1, h2⟩ := ih (i + 1) cs h j (by simpa using hj)
        refine ⟨w, ?_, ?_⟩
        · rw [← h1]; congr 1; omega
        · rw [show i + (j + 1) = i + 1 + j by omega]
          exact h2

theorem retry_result (run : ℕ → List ℝ → List Bound → Trial) (poi : ℤ) :
    ∀ (left k : ℕ) (init : List ℝ) (b : List Bound) (t : Trial), (retry run poi left k init b).2 = .ok t →
      ∃ k' x b', t = run k' x b' := by
  intro left
  induction left with
  | zero =>
    intro k init b t h
    rw [retry] at h
    simp only [Except.ok.injEq] at h
    exact ⟨k, init, b, h.symm⟩
  | succ left ih =>
    intro k init b t h
    rw [retry] at h
    simp only at h
    split at h
    · simp only [Except.ok.injEq] at h
      exact ⟨k, init, b, h.symm⟩
    · split at h
      · simp at h
      · exact ih _ _ _ _ h

/-! ### Fixed values -/

theorem setFixed_length (l : List (ℤ × ℝ)) : ∀ (init : List ℝ) (mask : List Bool),
    (setFixed init mask l).1.1.length = init.length ∧ (setFixed init mask l).1.2.length = mask.length := by
  induction l with
  | nil => intro init mask; exact ⟨rfl, rfl⟩
  | cons p l ih =>
    obtain ⟨i, v⟩ := p
    intro init mask
    rw [setFixed]
    split
    · exact ⟨rfl, rfl⟩
    · have := ih (init.set ‹ℕ› v) (mask.set ‹ℕ› true)
      simpa using this

theorem setFixed_spec (l : List (ℤ × ℝ)) : ∀ (init : List ℝ) (mask : List Bool), mask.length = init.length →
    (∀ j : ℕ, (∀ p ∈ l, slot init.length p.1 ≠ some j) →
      (setFixed init mask l).1.1[j]? = init[j]? ∧ (setFixed init mask l).1.2[j]? = mask[j]?) ∧
    ((setFixed init mask l).2 = .ok () →
      (∀ l1 l2 i v k, l = l1 ++ (i, v) :: l2 → slot init.length i = some k → (∀ p ∈ l2, slot init.length p.1 ≠ some k) →
        (setFixed init mask l).1.1[k]? = some v) ∧
      (∀ p ∈ l, ∃ k, slot init.length p.1 = some k ∧ (setFixed init mask l).1.2[k]? = some true) ∧
      (∀ j : ℕ, mask[j]? = some true → (setFixed init mask l).1.2[j]? = some true)) := by
  induction l with
  | nil =>
    intro init mask _
    exact ⟨fun _ _ => ⟨rfl, rfl⟩, fun _ => ⟨by simp, by simp, fun _ h => h⟩⟩
  | cons p l ih =>
    obtain ⟨i, v⟩ := p
    intro init mask hlen
    rw [setFixed]
    split
    · exact ⟨fun _ _ => ⟨rfl, rfl⟩, fun h => by simp at h⟩
    rename_i k hk
    have hlt := slot_lt hk
    obtain ⟨h1, h2⟩ := ih (init.set k v) (mask.set k true) (by simpa using hlen)
    rw [List.length_set] at h1 h2
    refine ⟨?_, fun hok => ?_⟩
    · intro j hj
      have hne : k ≠ j := by
        rintro rfl
        exact hj (i, v) List.mem_cons_self hk
      obtain ⟨g1, g2⟩ := h1 j (fun p hp => hj p (List.mem_cons_of_mem _ hp))
      rw [g1, g2, List.getElem?_set_ne hne, List.getElem?_set_ne hne]
      exact ⟨rfl, rfl⟩
    · obtain ⟨g1, g2, g3⟩ := h2 hok
      have hmk : (mask.set k true)[k]? = some true := by
        rw [List.getElem?_set_self (by omega)]
      refine ⟨?_, ?_, ?_⟩
      · intro l1 l2 i' v' k' hl hk' hp
        cases l1 with
        | nil =>
          simp only [List.nil_append, List.cons.injEq, Prod.mk.injEq] at hl
          obtain ⟨⟨rfl, rfl⟩, rfl⟩ := hl
          rw [hk, Option.some.injEq] at hk'
          subst hk'
          rw [(h1 k hp).1, List.getElem?_set_self hlt]
        | cons q l1 =>
          simp only [List.cons_append, List.cons.injEq] at hl
          obtain ⟨rfl, rfl⟩ := hl
          exact g1 l1 l2 i' v' k' rfl hk' hp
      · intro p hp
        rw [List.mem_cons] at hp
        rcases hp with rfl | hp
        · exact ⟨k, hk, g3 k hmk⟩
        · exact g2 p hp
      · intro j hj
        apply g3
        by_cases hjk : k = j
        · rw [← hjk]; exact hmk
        · rw [List.getElem?_set_ne hjk]; exact hj

theorem setSuggested_spec (l : List Bool) : ∀ (i : ℕ) (mask r : List Bool), setSuggested i mask l = .ok r →
    r.length = mask.length ∧ (∀ j : ℕ, mask[j]? = some true → r[j]? = some true) ∧
    (∀ j : ℕ, l[j]? = some true → r[i + j]? = some true) := by
  induction l with
  | nil =>
    intro i mask r h
    simp only [setSuggested, Except.ok.injEq] at h
    subst h
    exact ⟨rfl, fun _ h => h, by simp⟩
  | cons f l ih =>
    intro i mask r h
    rw [setSuggested] at h
    split at h
    · split at h
      · rename_i hlt
        obtain ⟨h1, h2, h3⟩ := ih _ _ _ h
        rw [List.length_set] at h1
        have hmi : (mask.set i true)[i]? = some true := by rw [List.getElem?_set_self hlt]
        refine ⟨h1, ?_, ?_⟩
        · intro j hj
          apply h2
          by_cases hij : i = j
          · rw [← hij]; exact hmi
          · rw [List.getElem?_set_ne hij]; exact hj
        · intro j hj
          cases j with
          | zero => exact h2 i hmi
          | succ j =>
            rw [show i + (j + 1) = i + 1 + j by omega]
            exact h3 j (by simpa using hj)
      · simp at h
    · rename_i hf
      obtain ⟨h1, h2, h3⟩ := ih _ _ _ h
      refine ⟨h1, h2, ?_⟩
      intro j hj
      cases j with
      | zero => simp at hj; exact absurd hj hf
      | succ j =>
        rw [show i + (j + 1) = i + 1 + j by omega]
        exact h3 j (by simpa using hj)

/-! ### Wider bounds -/

theorem widen_within {poi : ℤ} {i : ℕ} {b b' : Bound} (h : widen poi i b = .ok b')
    (hb : ∀ hi, b.2 = some hi → le (fin 0) hi) : Within b b' := by
  obtain ⟨lo, hi⟩ := b
  cases hi with
  | none => simp [widen] at h
  | some hi =>
    have hpos := hb hi rfl
    have hup : ∀ (c v : ℝ), 1 ≤ c → le (fin v) hi → le (fin v) (scale c hi) := by
      intro c v hc hv
      cases hi with
      | fin x =>
        simp only [le, scale] at *
        nlinarith
      | pinf => simp [le, scale, lt_of_lt_of_le one_pos hc]
      | _ => simp [le] at hpos
    simp only [widen] at h
    split at h
    · simp only [Except.ok.injEq] at h
      subst h
      intro v h1 h2
      refine ⟨h1, ?_⟩
      rintro hi' hh
      simp only [Option.some.injEq] at hh
      subst hh
      exact hup 2 v (by norm_num) (h2 hi rfl)
    · cases lo with
      | none => simp at h
      | some lo =>
        simp only [Except.ok.injEq] at h
        subst h
        intro v h1 h2
        refine ⟨?_, ?_⟩
        · rintro lo' hl
          simp only [Option.some.injEq] at hl
          subst hl
          have h3 := h1 lo rfl
          split
          · rename_i hlt
            revert h3 hlt
            cases lo <;> simp [le, lt, scale]
            intro a b
            linarith
          · exact h3
        · rintro hi' hh
          simp only [Option.some.injEq] at hh
          subst hh
          exact hup 10 v (by norm_num) (h2 hi rfl)

theorem widen_nonneg {poi : ℤ} {i : ℕ} {b b' : Bound} (h : widen poi i b = .ok b')
    (hb : ∀ hi, b.2 = some hi → le (fin 0) hi) : ∀ hi, b'.2 = some hi → le (fin 0) hi := by
  obtain ⟨lo, hi⟩ := b
  cases hi with
  | none => simp [widen] at h
  | some hi =>
    have hpos := hb hi rfl
    have hup : ∀ c : ℝ, 0 < c → le (fin 0) (scale c hi) := by
      intro c hc
      cases hi with
      | fin x =>
        simp only [le, scale] at *
        positivity
      | pinf => simp [le, scale, hc]
      | _ => simp [le] at hpos
    simp only [widen] at h
    split at h
    · simp only [Except.ok.injEq] at h
      subst h
      rintro hi' hh
      simp only [Option.some.injEq] at hh
      subst hh
      exact hup 2 (by norm_num)
    · cases lo with
      | none => simp at h
      | some lo =>
        simp only [Except.ok.injEq] at h
        subst h
        rintro hi' hh
        simp only [Option.some.injEq] at hh
        subst hh
        exact hup 10 (by norm_num)

theorem widenAll_spec (poi : ℤ) : ∀ (b : List Bound) (i : ℕ) (b' : List Bound), widenAll poi i b = .ok b' →
    (∀ x ∈ b, ∀ hi, x.2 = some hi → le (fin 0) hi) →
    List.Forall₂ Within b b' ∧ (∀ x ∈ b', ∀ hi, x.2 = some hi → le (fin 0) hi) := by
  intro b
  induction b with
  | nil =>
    intro i b' h _
    simp only [widenAll, Except.ok.injEq] at h
    subst h
    exact ⟨.nil, by simp⟩
  | cons x b ih =>
    intro i b' h hb
    rw [widenAll] at h
    split at h
    · simp at h
    rename_i y hy
    cases hr : widenAll poi (i + 1) b with
    | error e => rw [hr] at h; simp [Except.map] at h
    | ok r =>
      rw [hr] at h
      simp only [Except.map, Except.ok.injEq] at h
      subst h
      obtain ⟨h1, h2⟩ := ih _ _ hr (fun z hz => hb z (List.mem_cons_of_mem _ hz))
      refine ⟨.cons (widen_within hy (hb x List.mem_cons_self)) h1, ?_⟩
      intro z hz
      rw [List.mem_cons] at hz
      rcases hz with rfl | hz
      · exact widen_nonneg hy (hb x List.mem_cons_self)
      · exact h2 z hz

theorem retry_head (run : ℕ → List ℝ → List Bound → Trial) (poi : ℤ) (left k : ℕ) (init : List ℝ) (b : List Bound) :
    ∃ t l, (retry run poi left k init b).1 = ⟨init, b, t⟩ :: l := by
  cases left with
  | zero => exact ⟨_, _, rfl⟩
  | succ left =>
    rw [retry]
    simp only
    split
    · exact ⟨_, _, rfl⟩
    · split <;> exact ⟨_, _, rfl⟩

theorem retry_trace (run : ℕ → List ℝ → List Bound → Trial) (poi : ℤ) : ∀ (left k : ℕ) (init : List ℝ) (b : List Bound),
    (retry run poi left k init b).1.length ≤ left + 1 ∧
    (retry run poi left k init b).1.IsChain (fun a b => Follows a b) ∧
    ((∀ x ∈ b, ∀ hi, x.2 = some hi → le (fin 0) hi) →
      (retry run poi left k init b).1.IsChain (fun a b => List.Forall₂ Within a.bounds b.bounds)) ∧
    (∀ t, (retry run poi left k init b).2 = .ok t →
      ((retry run poi left k init b).1.getLast?.map Call.trial = some t) ∧
      (t.success = false → (retry run poi left k init b).1.length = left + 1)) := by
  intro left
  induction left with
  | zero =>
    intro k init b
    rw [retry]
    simp
  | succ left ih =>
    intro k init b
    rw [retry]
    simp only
    split
    · rename_i hs
      simp only [List.length_singleton]
      refine ⟨by omega, List.IsChain.singleton _, fun _ => List.IsChain.singleton _, ?_⟩
      intro t ht
      simp only [Except.ok.injEq] at ht
      subst ht
      simp [hs]
    · rename_i hs
      split
      · refine ⟨by simp, List.IsChain.singleton _, fun _ => List.IsChain.singleton _, by simp⟩
      · rename_i b' hb'
        obtain ⟨h1, h2, h3, h4⟩ := ih (k + 1) (run k init b).x b'
        obtain ⟨t', l, hl⟩ := retry_head run poi left (k + 1) (run k init b).x b'
        refine ⟨by simp only [List.length_cons]; omega, ?_, ?_, ?_⟩
        · simp only
          rw [hl] at h2 ⊢
          exact List.IsChain.cons_cons ⟨by simpa using hs, rfl⟩ h2
        · intro hb
          obtain ⟨g1, g2⟩ := widenAll_spec poi b 0 b' hb' hb
          have h5 := h3 g2
          simp only
          rw [hl] at h5 ⊢
          exact List.IsChain.cons_cons g1 h5
        · intro t ht
          obtain ⟨g1, g2⟩ := h4 t ht
          refine ⟨?_, fun hf => by simp only [List.length_cons, g2 hf]⟩
          simp only
          rw [hl] at g1 ⊢
          simpa using g1

end Verif.Optimizer
