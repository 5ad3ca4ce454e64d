import Verif.Contour.Spec
import Mathlib.Data.List.GetD

/-!
# Properties C66 and C96: the parameters of the contour and the profiled ones
-/

namespace Verif.Contour

/-! ## C66 -/

/-- Every parameter is the POI, a contour parameter or a profile parameter, and only one of these, once. -/
def Partition (kTotal poi : ℕ) (contour profile : List ℤ) : Prop :=
  ((poi : ℤ) :: (contour ++ profile)).Perm ((List.range kTotal).map fun i : ℕ => (i : ℤ))

/-- The full vector has the POI at one and every value at the index of its parameter. -/
structure Embedded (kTotal poi : ℕ) (contour profile : List ℤ) (cp pp full : List ℝ) : Prop where
  length : full.length = kTotal
  poi : full[poi]? = some 1
  contour : ∀ j < contour.length, full[(contour.getD j 0).toNat]? = cp[j]?
  profile : ∀ j < profile.length, full[(profile.getD j 0).toNat]? = pp[j]?

theorem mem_signal (kTotal poi : ℕ) (i : ℤ) : i ∈ signalIndices kTotal poi ↔ 0 ≤ i ∧ i < kTotal ∧ i ≠ poi := by
  simp only [signalIndices, List.mem_map, List.mem_filter, List.mem_range, decide_eq_true_eq]
  constructor
  · rintro ⟨a, ⟨h1, h2⟩, rfl⟩
    exact ⟨by omega, by omega, by exact_mod_cast h2⟩
  · rintro ⟨h1, h2, h3⟩
    exact ⟨i.toNat, ⟨by omega, fun h => h3 (by omega)⟩, by omega⟩

theorem signal_nodup (kTotal poi : ℕ) : (signalIndices kTotal poi).Nodup :=
  List.Nodup.map (fun a b h => by exact_mod_cast h) (List.nodup_range.filter _)

theorem contour_nodup (kTotal poi : ℕ) (given : Option (List ℤ)) (h : ∀ l, given = some l → l.Nodup) :
    (contourIndices kTotal poi given).Nodup := by
  cases given with
  | none => exact signal_nodup _ _
  | some l => exact (List.mergeSort_perm _ _).nodup_iff.mpr ((h l rfl).filter _)

theorem positions_mem (signal : List ℤ) (l : List ℤ) (r : List ℕ) (h : positions signal l = .ok r) : ∀ i ∈ l, i ∈ signal := by
  induction l generalizing r with
  | nil => simp
  | cons a l ih =>
    rw [positions] at h
    split at h
    · rename_i ha
      cases hp : positions signal l with
      | error e => rw [hp] at h; simp at h
      | ok r' =>
        intro i hi
        rcases List.mem_cons.mp hi with rfl | hi
        · exact ha
        · exact ih r' hp i hi
    · simp at h

/-- What a choice that does not raise looks like. -/
theorem choose_ok {β : Type} (kTotal poi : ℕ) (cfgBounds : List β) (names : Option (List String)) (given : Option (List ℤ))
    (bounds : Option (List β)) (c : Choice β) (h : choose kTotal poi cfgBounds names given bounds = .ok c) :
    c.contour = contourIndices kTotal poi given ∧ c.profile = profileIndices kTotal poi c.contour ∧ c.contour ≠ [] ∧
      (∀ i ∈ c.contour, i ∈ signalIndices kTotal poi) ∧
      (∀ b, bounds = some b → c.bounds = b ∧ b.length = c.contour.length) ∧ (bounds = none → pyGets cfgBounds c.contour = .ok c.bounds) := by
  unfold choose at h
  dsimp only at h
  split at h
  · simp at h
  · rename_i hlen
    have hne : contourIndices kTotal poi given ≠ [] := by
      intro h0; rw [h0] at hlen; simp at hlen
    split at h
    · simp at h
    · rename_i b hb
      split at h
      · simp at h
      · split at h
        · simp at h
        · rename_i r hr
          simp only [Except.ok.injEq] at h
          subst h
          refine ⟨rfl, rfl, hne, positions_mem _ _ _ hr, fun b' hb' => ?_, fun hb' => ?_⟩
          · subst hb'
            simp only at hb
            split at hb
            · simp at hb
            · rename_i hl
              simp only [Except.ok.injEq] at hb
              exact ⟨hb.symm, not_not.mp hl⟩
          · subst hb'
            exact hb

/-- C66, where it holds: if the indices given are all different, then a choice that is accepted divides the parameters. Missing: that
duplicates are refused. -/
theorem C66_partition_partial {β : Type} (kTotal poi : ℕ) (hpoi : poi < kTotal) (cfgBounds : List β) (names : Option (List String))
    (given : Option (List ℤ)) (hgiven : ∀ l, given = some l → l.Nodup) (bounds : Option (List β)) (c : Choice β)
    (h : choose kTotal poi cfgBounds names given bounds = .ok c) : Partition kTotal poi c.contour c.profile ∧ c.contour ≠ [] := by
  obtain ⟨h1, h2, h3, h4, _⟩ := choose_ok _ _ _ _ _ _ _ h
  refine ⟨?_, h3⟩
  have hc : c.contour.Nodup := h1 ▸ contour_nodup kTotal poi given hgiven
  have hp : c.profile.Nodup := h2 ▸ (signal_nodup kTotal poi).filter _
  refine (List.perm_ext_iff_of_nodup ?_ ?_).mpr fun i => ?_
  · refine List.nodup_cons.mpr ⟨fun hm => ?_, List.nodup_append.mpr ⟨hc, hp, fun a ha b hb hab => ?_⟩⟩
    · rcases List.mem_append.mp hm with hm | hm
      · exact ((mem_signal _ _ _).mp (h4 _ hm)).2.2 rfl
      · rw [h2] at hm
        exact ((mem_signal _ _ _).mp (List.mem_filter.mp hm).1).2.2 rfl
    · subst hab
      rw [h2] at hb
      have := (List.mem_filter.mp hb).2
      simp only [decide_eq_true_eq] at this
      exact this ha
  · exact List.Nodup.map (fun a b h => by exact_mod_cast h) List.nodup_range
  · have hrange : i ∈ (List.range kTotal).map (fun i : ℕ => (i : ℤ)) ↔ 0 ≤ i ∧ i < kTotal := by
      simp only [List.mem_map, List.mem_range]
      constructor
      · rintro ⟨a, ha, rfl⟩; omega
      · rintro ⟨a, b⟩; exact ⟨i.toNat, by omega, by omega⟩
    rw [hrange, List.mem_cons, List.mem_append]
    constructor
    · rintro (rfl | hm | hm)
      · omega
      · have := (mem_signal _ _ _).mp (h4 _ hm); omega
      · rw [h2] at hm
        have := (mem_signal _ _ _).mp (List.mem_filter.mp hm).1
        omega
    · rintro ⟨ha, hb⟩
      by_cases hi : i = poi
      · exact .inl hi
      · by_cases hm : i ∈ c.contour
        · exact .inr (.inl hm)
        · refine .inr (.inr ?_)
          rw [h2]
          exact List.mem_filter.mpr ⟨(mem_signal _ _ _).mpr ⟨ha, hb, hi⟩, by simpa using hm⟩

/-- Four parameters, the POI is the second, contours for the first and the fourth; the third is profiled. -/
example : choose 4 1 ["a", "b", "c", "d"] none (some [3, 1, 0]) none = .ok ⟨[0, 3], [2], ["a", "d"]⟩ := by
  have h1 : contourIndices 4 1 (some [3, 1, 0]) = [0, 3] := by simp [contourIndices, List.mergeSort, List.MergeSort.Internal.splitInTwo]
  have h2 : profileIndices 4 1 [0, 3] = [2] := by decide
  simp only [choose, h1, h2]
  rfl

/-- C66 fails: an index that is given twice is accepted. There are two contour parameters with the same index, and the value of the
first is lost. -/
theorem C66_duplicates_fails :
    ∃ c : Choice String, choose 3 0 ["a", "b", "c"] none (some [1, 1]) none = .ok c ∧ ¬ Partition 3 0 c.contour c.profile ∧
      ∀ g x y z, assemble 0 c.contour c.profile g [x, y] [z] = assemble 0 c.contour c.profile g [y, y] [z] := by
  have h1 : contourIndices 3 0 (some [1, 1]) = [1, 1] := by simp [contourIndices, List.mergeSort, List.MergeSort.Internal.splitInTwo]
  have h2 : profileIndices 3 0 [1, 1] = [2] := by decide
  refine ⟨⟨[1, 1], [2], ["b", "b"]⟩, ?_, ?_, ?_⟩
  · simp only [choose, h1, h2]
    rfl
  · intro h
    have := h.length_eq
    simp at this
  · intro g x y z
    simp [assemble, assign, List.set_set]

/-! ### Assignments -/

theorem assign_length (idx : List ℤ) : ∀ (full vs : List ℝ), (assign full idx vs).length = full.length := by
  induction idx with
  | nil => intro full vs; cases vs <;> rfl
  | cons i r ih =>
    intro full vs
    cases vs with
    | nil => rfl
    | cons v vs => rw [assign, ih]; simp

theorem assign_other (idx : List ℤ) (m : ℕ) (hm : ∀ i ∈ idx, i.toNat ≠ m) : ∀ (full vs : List ℝ), (assign full idx vs)[m]? = full[m]? := by
  induction idx with
  | nil => intro full vs; cases vs <;> rfl
  | cons i r ih =>
    intro full vs
    cases vs with
    | nil => rfl
    | cons v vs =>
      rw [assign, ih fun j hj => hm j (List.mem_cons_of_mem _ hj), List.getElem?_set_ne (hm i (List.mem_cons_self ..))]

theorem assign_at (idx : List ℤ) (h0 : ∀ i ∈ idx, 0 ≤ i) (hn : idx.Nodup) :
    ∀ (full vs : List ℝ), vs.length = idx.length → (∀ i ∈ idx, i.toNat < full.length) →
      ∀ j < idx.length, (assign full idx vs)[(idx.getD j 0).toNat]? = vs[j]? := by
  induction idx with
  | nil => intro full vs _ _ j hj; simp at hj
  | cons i r ih =>
    intro full vs hl hlt j hj
    cases vs with
    | nil => simp at hl
    | cons v vs =>
      obtain ⟨hi, hr⟩ := List.nodup_cons.mp hn
      rw [assign]
      cases j with
      | zero =>
        simp only [List.getD_cons_zero]
        rw [assign_other]
        · simp [List.getElem?_set_self (hlt i (List.mem_cons_self ..))]
        · intro k hk hki
          have := h0 k (List.mem_cons_of_mem _ hk)
          have := h0 i (List.mem_cons_self ..)
          exact hi (by rwa [show i = k by omega])
      | succ j =>
        simp only [List.getD_cons_succ, List.getElem?_cons_succ]
        exact ih (fun k hk => h0 k (List.mem_cons_of_mem _ hk)) hr _ _ (by simpa using hl)
          (fun k hk => by rw [List.length_set]; exact hlt k (List.mem_cons_of_mem _ hk)) j (by simpa using hj)

theorem partition_facts {kTotal poi : ℕ} {contour profile : List ℤ} (h : Partition kTotal poi contour profile) :
    (∀ i ∈ contour ++ profile, 0 ≤ i ∧ i < kTotal ∧ i ≠ poi) ∧ contour.Nodup ∧ profile.Nodup ∧ (∀ i ∈ contour, i ∉ profile) ∧ poi < kTotal ∧
      ∀ m < kTotal, m = poi ∨ (m : ℤ) ∈ contour ∨ (m : ℤ) ∈ profile := by
  have hnd : ((poi : ℤ) :: (contour ++ profile)).Nodup :=
    h.nodup_iff.mpr (List.Nodup.map (fun a b h => by exact_mod_cast h) List.nodup_range)
  obtain ⟨h1, h2⟩ := List.nodup_cons.mp hnd
  obtain ⟨h3, h4, h5⟩ := List.nodup_append.mp h2
  have hmem : ∀ i, i ∈ (poi : ℤ) :: (contour ++ profile) ↔ 0 ≤ i ∧ i < kTotal := by
    intro i
    rw [h.mem_iff]
    simp only [List.mem_map, List.mem_range]
    constructor
    · rintro ⟨a, ha, rfl⟩; omega
    · rintro ⟨a, b⟩; exact ⟨i.toNat, by omega, by omega⟩
  refine ⟨fun i hi => ?_, h3, h4, fun i hi hi' => h5 i hi i hi' rfl, ?_, fun m hm => ?_⟩
  · obtain ⟨a, b⟩ := (hmem i).mp (List.mem_cons_of_mem _ hi)
    exact ⟨a, b, fun he => h1 (he ▸ hi)⟩
  · have := (hmem poi).mp (List.mem_cons_self ..); omega
  · have := (hmem m).mpr (by omega)
    rcases List.mem_cons.mp this with h | h
    · left; exact_mod_cast h
    · exact .inr (List.mem_append.mp h)

/-- C66. The assembled vector has every value at its own index and the POI at one, whatever was in the memory before. -/
theorem C66_assemble (kTotal poi : ℕ) (contour profile : List ℤ) (h : Partition kTotal poi contour profile) (garbage cp pp : List ℝ)
    (hg : garbage.length = kTotal) (hc : cp.length = contour.length) (hp : pp.length = profile.length) :
    Embedded kTotal poi contour profile cp pp (assemble poi contour profile garbage cp pp) := by
  obtain ⟨h1, h2, h3, h4, h5, _⟩ := partition_facts h
  have hc1 := fun i hi => h1 i (List.mem_append_left profile hi)
  have hp1 := fun i hi => h1 i (List.mem_append_right contour hi)
  refine ⟨?_, ?_, fun j hj => ?_, fun j hj => ?_⟩
  · simp [assemble, assign_length, hg]
  · rw [assemble, assign_other _ _ fun i hi => ?_, assign_other _ _ fun i hi => ?_, List.getElem?_set_self (by omega)]
    · have := hc1 i hi; omega
    · have := hp1 i hi; omega
  · have hmem : contour.getD j 0 ∈ contour := by
      rw [List.getD_eq_getElem _ _ hj]; exact List.getElem_mem _
    rw [assemble, assign_other _ _ fun i hi => ?_]
    · exact assign_at _ (fun i hi => (hc1 i hi).1) h2 _ _ hc (fun i hi => by rw [List.length_set, hg]; have := hc1 i hi; omega) j hj
    · intro he
      have := hc1 _ hmem
      have := hp1 i hi
      exact h4 _ hmem (by rwa [show contour.getD j 0 = i by omega])
  · exact assign_at _ (fun i hi => (hp1 i hi).1) h3 _ _ hp
      (fun i hi => by rw [assign_length, List.length_set, hg]; have := hp1 i hi; omega) j hj

example : assemble 1 [0, 3] [2] [7, 7, 7, 7] [10, 13] [12] = [10, 1, 12, 13] ∧ Partition 4 1 [0, 3] [2] := by
  refine ⟨by simp [assemble, assign], ?_⟩
  show ([1, 0, 3, 2] : List ℤ).Perm [0, 1, 2, 3]
  decide

/-- C66. There is only one such vector. -/
theorem C66_unique (kTotal poi : ℕ) (contour profile : List ℤ) (h : Partition kTotal poi contour profile) (cp pp full full' : List ℝ)
    (h1 : Embedded kTotal poi contour profile cp pp full) (h2 : Embedded kTotal poi contour profile cp pp full') : full = full' := by
  obtain ⟨hrange, _, _, _, _, hall⟩ := partition_facts h
  refine List.ext_getElem? fun m => ?_
  by_cases hm : m < kTotal
  · rcases hall m hm with rfl | hc | hp
    · rw [h1.poi, h2.poi]
    · obtain ⟨j, hj, he⟩ := List.getElem_of_mem hc
      have a := h1.contour j hj
      have b := h2.contour j hj
      rw [List.getD_eq_getElem _ _ hj, he, Int.toNat_natCast] at a b
      rw [a, b]
    · obtain ⟨j, hj, he⟩ := List.getElem_of_mem hp
      have a := h1.profile j hj
      have b := h2.profile j hj
      rw [List.getD_eq_getElem _ _ hj, he, Int.toNat_natCast] at a b
      rw [a, b]
  · rw [List.getElem?_eq_none (by rw [h1.length]; omega), List.getElem?_eq_none (by rw [h2.length]; omega)]

example : Embedded 2 0 [1] [] [5] [] [1, 5] := ⟨rfl, rfl, by simp, by simp⟩

theorem signal_split (poi n : ℕ) : signalIndices (poi + 1 + n) poi =
    (List.range poi).map (fun i : ℕ => (i : ℤ)) ++ (List.range n).map fun i => ((poi + 1 + i : ℕ) : ℤ) := by
  unfold signalIndices
  rw [List.range_add, List.range_succ, List.filter_append, List.filter_append, List.map_append, List.map_append]
  congr 1
  · have h1 : (List.range poi).filter (fun i => decide (i ≠ poi)) = List.range poi := by
      refine List.filter_eq_self.mpr fun a ha => ?_
      have := List.mem_range.mp ha
      simp; omega
    rw [h1]; simp
  · rw [List.filter_eq_self.mpr, List.map_map]
    · rfl
    · intro a ha
      obtain ⟨b, _, rfl⟩ := List.mem_map.mp ha
      simp; omega

/-- C66. Without profile parameters the value one is inserted at the index of the POI, with the same outcome. -/
theorem C66_insert (kTotal poi : ℕ) (hpoi : poi < kTotal) (pars : List ℝ) (hl : pars.length + 1 = kTotal) :
    Embedded kTotal poi (signalIndices kTotal poi) [] pars [] (insertPoi poi pars) := by
  obtain ⟨n, rfl⟩ : ∃ n, kTotal = poi + 1 + n := ⟨kTotal - poi - 1, by omega⟩
  have htake : (pars.take poi).length = poi := by rw [List.length_take]; omega
  refine ⟨?_, ?_, fun j hj => ?_, by simp⟩
  · simp [insertPoi]; omega
  · rw [insertPoi, List.append_assoc, List.getElem?_append_right (by omega), htake]; simp
  · rw [signal_split] at hj ⊢
    simp only [List.length_append, List.length_map, List.length_range] at hj
    rw [List.getD_eq_getElem?_getD]
    by_cases hjp : j < poi
    · rw [List.getElem?_append_left (by simpa using hjp), List.getElem?_map, List.getElem?_range hjp]
      simp only [Option.map_some, Option.getD_some, Int.toNat_natCast]
      rw [insertPoi, List.append_assoc, List.getElem?_append_left (by omega), List.getElem?_take_of_lt hjp]
    · rw [List.getElem?_append_right (by simpa using hjp), List.getElem?_map, List.length_map, List.length_range,
        List.getElem?_range (by omega)]
      simp only [Option.map_some, Option.getD_some, Int.toNat_natCast]
      rw [insertPoi, List.getElem?_append_right (by simp; omega), List.length_append, htake, List.getElem?_drop]
      congr 1
      simp; omega

example : insertPoi 1 [10, 12, 13] = [10, 1, 12, 13] := rfl

/-- C66. Without bounds given, each contour parameter has the bounds of the configuration. -/
theorem C66_bounds {β : Type} (kTotal poi : ℕ) (cfgBounds : List β) (names : Option (List String)) (given : Option (List ℤ))
    (c : Choice β) (h : choose kTotal poi cfgBounds names given none = .ok c) :
    c.bounds.length = c.contour.length ∧ ∀ j < c.contour.length, c.bounds[j]? = cfgBounds[(c.contour.getD j 0).toNat]? := by
  obtain ⟨_, _, _, h4, _, h6⟩ := choose_ok _ _ _ _ _ _ _ h
  have key : ∀ (l : List ℤ) (b : List β), (∀ i ∈ l, 0 ≤ i) → pyGets cfgBounds l = .ok b →
      b.length = l.length ∧ ∀ j < l.length, b[j]? = cfgBounds[(l.getD j 0).toNat]? := by
    intro l
    induction l with
    | nil => intro b _ hb; simp only [pyGets, Except.ok.injEq] at hb; subst hb; simp
    | cons i l ih =>
      intro b h0 hb
      rw [pyGets] at hb
      cases hg : pyGet cfgBounds i with
      | error e => rw [hg] at hb; simp at hb
      | ok a =>
        rw [hg] at hb
        simp only at hb
        cases hr : pyGets cfgBounds l with
        | error e => rw [hr] at hb; simp at hb
        | ok as =>
          rw [hr] at hb
          simp only [Except.ok.injEq] at hb
          subst hb
          obtain ⟨i1, i2⟩ := ih as (fun k hk => h0 k (List.mem_cons_of_mem _ hk)) hr
          refine ⟨by simp [i1], fun j hj => ?_⟩
          cases j with
          | zero =>
            simp only [List.getElem?_cons_zero, List.getD_cons_zero]
            unfold pyGet at hg
            rw [if_pos (h0 i (List.mem_cons_self ..))] at hg
            cases hx : cfgBounds[i.toNat]? with
            | none => rw [hx] at hg; simp at hg
            | some x => rw [hx] at hg; simp only [Except.ok.injEq] at hg; rw [hg]
          | succ j => simpa using i2 j (by simpa using hj)
  exact key _ _ (fun i hi => ((mem_signal _ _ _).mp (h4 i hi)).1) (h6 rfl)

example : choose 3 2 ["a", "b", "c"] none none none = .ok ⟨[0, 1], [], ["a", "b"]⟩ := by
  have h1 : contourIndices 3 2 none = [0, 1] := by decide
  have h2 : profileIndices 3 2 [0, 1] = [] := by decide
  simp only [choose, h1, h2]
  rfl

/-! ## C96 -/

/-- A feasible point: all constraints are satisfied at the assembled vector. -/
def Feasible (cs : List (List ℝ → ℝ)) (full : List ℝ) : Prop := ∀ f ∈ cs, 0 ≤ f full

/-- The inner minimiser: a point that it reports as a success is feasible and not worse than any feasible point. -/
def MinimiserCorrect (slsqp : (List ℝ → ℝ) → List (List ℝ → ℝ) → Except Err (List ℝ × Bool)) : Prop :=
  ∀ obj cs x, slsqp obj cs = .ok (x, true) → (∀ c ∈ cs, 0 ≤ c x) ∧ ∀ y, (∀ c ∈ cs, 0 ≤ c y) → obj x ≤ obj y

theorem adapt_dicts (asm : List ℝ → List ℝ) (fs : List (List ℝ → ℝ)) :
    adapt asm (fs.map Constraint.dict) = .ok (fs.map fun f pp => f (asm pp)) := by
  induction fs with
  | nil => rfl
  | cons f fs ih => simp only [List.map_cons, adapt, ih]

/-- C96, where it holds: if the constraints are dictionaries and the inner minimiser succeeds, then the profiled NLL is the smallest
over the profile parameters that satisfy the constraints, and it is reached. Missing: other constraints, and failures. -/
theorem C96_profile_partial (slsqp : (List ℝ → ℝ) → List (List ℝ → ℝ) → Except Err (List ℝ × Bool)) (hs : MinimiserCorrect slsqp)
    (logpdf : List ℝ → ℝ) (asm : List ℝ → List ℝ) (fs : List (List ℝ → ℝ)) (init : List ℝ)
    (hok : ∀ obj cs, ∃ x, slsqp obj cs = .ok (x, true)) :
    ∃ pp, profiledNll slsqp logpdf asm (fs.map Constraint.dict) init = .ok (-logpdf (asm pp)) ∧ Feasible fs (asm pp) ∧
      ∀ pp', Feasible fs (asm pp') → -logpdf (asm pp) ≤ -logpdf (asm pp') := by
  obtain ⟨x, hx⟩ := hok (fun pp => -logpdf (asm pp)) (fs.map fun f pp => f (asm pp))
  obtain ⟨h1, h2⟩ := hs _ _ _ hx
  refine ⟨x, ?_, ?_, fun pp' h => ?_⟩
  · simp only [profiledNll, profileOpt, adapt_dicts, hx, if_true]
  · intro f hf; exact h1 _ (List.mem_map.mpr ⟨f, hf, rfl⟩)
  · refine h2 pp' fun c hc => ?_
    obtain ⟨f, hf, rfl⟩ := List.mem_map.mp hc
    exact h f hf

/-- C96. The inner minimiser is given the NLL as a function of the profile parameters and every constraint at the assembled vector. -/
theorem C96_problem (slsqp : (List ℝ → ℝ) → List (List ℝ → ℝ) → Except Err (List ℝ × Bool)) (logpdf : List ℝ → ℝ)
    (asm : List ℝ → List ℝ) (fs : List (List ℝ → ℝ)) (init x : List ℝ)
    (hx : slsqp (fun pp => -logpdf (asm pp)) (fs.map fun f pp => f (asm pp)) = .ok (x, true)) :
    profiledNll slsqp logpdf asm (fs.map Constraint.dict) init = .ok (-logpdf (asm x)) := by
  simp only [profiledNll, profileOpt, adapt_dicts, hx, if_true]

/-- C96 fails for constraints that are objects of `scipy.optimize`, which the default backends use: every
evaluation raises `TypeError`. -/
theorem C96_object_fails (slsqp : (List ℝ → ℝ) → List (List ℝ → ℝ) → Except Err (List ℝ × Bool)) (logpdf : List ℝ → ℝ)
    (asm : List ℝ → List ℝ) (constraints : List Constraint) (h : Constraint.object ∈ constraints) (init : List ℝ) :
    profiledNll slsqp logpdf asm constraints init = .error .type := by
  have : adapt asm constraints = .error .type := by
    induction constraints with
    | nil => simp at h
    | cons c l ih =>
      cases c with
      | object => rfl
      | dict f =>
        have h' : Constraint.object ∈ l := by simpa using h
        simp only [adapt, ih h']
  simp only [profiledNll, profileOpt, this]

example : Constraint.object ∈ [Constraint.dict fun _ => 0, Constraint.object] := by simp

/-- C96 fails when the inner minimiser fails: the NLL at the initial values is used without a word, though a smaller one exists. -/
theorem C96_failure_fails (slsqp : (List ℝ → ℝ) → List (List ℝ → ℝ) → Except Err (List ℝ × Bool)) (x : List ℝ)
    (hs : ∀ obj cs, slsqp obj cs = .ok (x, false)) :
    ∃ (logpdf : List ℝ → ℝ) (init better : List ℝ), profiledNll slsqp logpdf id [] init = .ok (-logpdf init) ∧
      -logpdf better < -logpdf init := by
  refine ⟨fun l => l.getD 0 0, [0], [1], ?_, by simp⟩
  simp only [profiledNll, profileOpt, adapt, hs]
  simp

example : ∀ (obj : List ℝ → ℝ) (cs : List (List ℝ → ℝ)),
    (fun _ _ => .ok ([0], false) : (List ℝ → ℝ) → List (List ℝ → ℝ) → Except Err (List ℝ × Bool)) obj cs = .ok ([0], false) :=
  fun _ _ => rfl

end Verif.Contour
