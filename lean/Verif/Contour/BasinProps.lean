import Verif.Contour.Spec

/-!
# Property C64: the list of basins
-/

namespace Verif.Contour

open Matrix

/-! ### Removing duplicates -/

theorem dedup_append {k : ℕ} (tol : ℝ) (l : List (Vec k × ℝ)) : ∀ u, ∃ r, dedup tol u l = u ++ r ∧ r.Sublist l := by
  induction l with
  | nil => intro u; exact ⟨[], by simp [dedup], List.Sublist.refl _⟩
  | cons x l ih =>
    intro u
    rw [dedup]
    split
    · obtain ⟨r, h1, h2⟩ := ih (u ++ [x])
      exact ⟨x :: r, by rw [h1]; simp, h2.cons_cons x⟩
    · obtain ⟨r, h1, h2⟩ := ih u
      exact ⟨r, h1, h2.cons x⟩

theorem dedup_apart {k : ℕ} (tol : ℝ) (l : List (Vec k × ℝ)) :
    ∀ u, u.Pairwise (fun x y => tol ≤ norm (y.1 - x.1)) → (dedup tol u l).Pairwise fun x y => tol ≤ norm (y.1 - x.1) := by
  induction l with
  | nil => intro u h; exact h
  | cons x l ih =>
    intro u h
    rw [dedup]
    split
    · rename_i hall
      refine ih _ (List.pairwise_append.mpr ⟨h, List.pairwise_singleton _ _, fun y hy z hz => ?_⟩)
      rw [List.mem_singleton.mp hz]
      have := List.all_eq_true.mp hall y hy
      simpa using this
    · exact ih _ h

theorem dedup_covers {k : ℕ} (tol : ℝ) (l : List (Vec k × ℝ)) :
    ∀ u, (u ++ l).Pairwise (fun x y => x.2 ≤ y.2) → ∀ x ∈ l,
      x ∈ dedup tol u l ∨ ∃ y ∈ dedup tol u l, norm (x.1 - y.1) < tol ∧ y.2 ≤ x.2 := by
  induction l with
  | nil => intro u _ x hx; simp at hx
  | cons a l ih =>
    intro u hs x hx
    rw [dedup]
    have hs' : (u ++ l).Pairwise fun x y => x.2 ≤ y.2 := hs.sublist ((List.sublist_cons_self a l).append_left u)
    split
    · obtain ⟨r, hr, _⟩ := dedup_append tol l (u ++ [a])
      rcases List.mem_cons.mp hx with rfl | hx
      · left; rw [hr]; simp
      · exact ih (u ++ [a]) (by simpa using hs) x hx
    · rename_i hall
      rcases List.mem_cons.mp hx with rfl | hx
      · right
        simp only [List.all_eq_true, decide_eq_true_eq, not_forall, not_not] at hall
        obtain ⟨y, hy, hlt⟩ := hall
        obtain ⟨r, hr, _⟩ := dedup_append tol l u
        refine ⟨y, by rw [hr]; exact List.mem_append_left _ hy, hlt, ?_⟩
        exact (List.pairwise_append.mp hs).2.2 y hy x (List.mem_cons_self ..)
      · exact ih u hs' x hx

theorem mem_polish {k : ℕ} (minimise : Minimiser k) (starts : List (Vec k)) (c : Vec k × ℝ) :
    c ∈ polish minimise starts ↔ ∃ x ∈ starts, minimise x = .ok (c.1, some c.2) := by
  induction starts with
  | nil => simp [polish]
  | cons x l ih =>
    rw [polish]
    cases h : minimise x with
    | error e => simp [ih, h]
    | ok r =>
      obtain ⟨t, v⟩ := r
      cases v with
      | none => simp [ih, h]
      | some v =>
        simp only [List.mem_cons, ih, exists_eq_or_imp, h, Except.ok.injEq, Prod.mk.injEq, Option.some.injEq]
        constructor
        · rintro (rfl | h)
          · exact .inl ⟨rfl, rfl⟩
          · exact .inr h
        · rintro (⟨h1, h2⟩ | h)
          · exact .inl (Prod.ext h1.symm h2.symm)
          · exact .inr h

/-- A candidate for a basin: the primary minimum, or what the minimiser finds from one of the starting points. -/
def Candidate {k : ℕ} (minimise : Minimiser k) (primary : Vec k × ℝ) (starts : List (Vec k)) (c : Vec k × ℝ) : Prop :=
  c = primary ∨ ∃ x ∈ starts, minimise x = .ok (c.1, some c.2)

theorem sorted_candidates {k : ℕ} (l : List (Vec k × ℝ)) :
    (l.mergeSort fun a b => decide (a.2 ≤ b.2)).Pairwise fun a b => a.2 ≤ b.2 := by
  have := List.pairwise_mergeSort (le := fun a b : Vec k × ℝ => decide (a.2 ≤ b.2))
    (fun a b c h1 h2 => by simp only [decide_eq_true_eq] at *; exact le_trans h1 h2)
    (fun a b => by simp only [Bool.or_eq_true, decide_eq_true_eq]; exact le_total _ _) l
  exact this.imp fun h => by simpa using h

theorem mem_candidates {k : ℕ} (minimise : Minimiser k) (primary : Vec k × ℝ) (starts : List (Vec k)) (c : Vec k × ℝ) :
    c ∈ (primary :: polish minimise starts).mergeSort (fun a b => decide (a.2 ≤ b.2)) ↔ Candidate minimise primary starts c := by
  rw [(List.mergeSort_perm _ _).mem_iff, List.mem_cons, mem_polish]
  rfl

/-! ### C64 -/

/-- C64. The basins are sorted by their NLL. -/
theorem C64_sorted {k : ℕ} (minimise : Minimiser k) (tol : ℝ) (primary : Vec k × ℝ) (starts : List (Vec k)) :
    (basins minimise tol primary starts).Pairwise fun a b => a.2 ≤ b.2 := by
  obtain ⟨r, h1, h2⟩ := dedup_append tol ((primary :: polish minimise starts).mergeSort fun a b => decide (a.2 ≤ b.2)) []
  rw [basins, h1, List.nil_append]
  exact (sorted_candidates _).sublist h2

/-- C64. Any two basins are at least the tolerance apart. -/
theorem C64_apart {k : ℕ} (minimise : Minimiser k) (tol : ℝ) (primary : Vec k × ℝ) (starts : List (Vec k)) :
    (basins minimise tol primary starts).Pairwise fun a b => tol ≤ norm (b.1 - a.1) :=
  dedup_apart tol _ [] List.Pairwise.nil

/-- C64. Every basin is a candidate. -/
theorem C64_candidate {k : ℕ} (minimise : Minimiser k) (tol : ℝ) (primary : Vec k × ℝ) (starts : List (Vec k)) :
    ∀ b ∈ basins minimise tol primary starts, Candidate minimise primary starts b := by
  intro b hb
  obtain ⟨r, h1, h2⟩ := dedup_append tol ((primary :: polish minimise starts).mergeSort fun a b => decide (a.2 ≤ b.2)) []
  rw [basins, h1, List.nil_append] at hb
  exact (mem_candidates _ _ _ _).mp (h2.subset hb)

/-- C64. Every candidate is a basin, or closer than the tolerance to one whose NLL is not larger. -/
theorem C64_covers {k : ℕ} (minimise : Minimiser k) (tol : ℝ) (primary : Vec k × ℝ) (starts : List (Vec k)) (c : Vec k × ℝ)
    (hc : Candidate minimise primary starts c) :
    c ∈ basins minimise tol primary starts ∨ ∃ b ∈ basins minimise tol primary starts, norm (c.1 - b.1) < tol ∧ b.2 ≤ c.2 :=
  dedup_covers tol _ [] (by simpa using sorted_candidates _) c ((mem_candidates _ _ _ _).mpr hc)

/-- C64. There is a first basin, and its NLL is the smallest of all candidates. -/
theorem C64_best {k : ℕ} (minimise : Minimiser k) (tol : ℝ) (primary : Vec k × ℝ) (starts : List (Vec k)) :
    ∃ b rest, basins minimise tol primary starts = b :: rest ∧ Candidate minimise primary starts b ∧
      ∀ c, Candidate minimise primary starts c → b.2 ≤ c.2 := by
  have hs := C64_sorted minimise tol primary starts
  have hcov := C64_covers minimise tol primary starts
  have hcan := C64_candidate minimise tol primary starts
  cases h : basins minimise tol primary starts with
  | nil =>
    rw [h] at hcov
    rcases hcov primary (.inl rfl) with h | ⟨b, h, _⟩ <;> simp at h
  | cons b rest =>
    rw [h] at hs hcov hcan
    refine ⟨b, rest, rfl, hcan b (List.mem_cons_self ..), fun c hc => ?_⟩
    have hle : ∀ d ∈ b :: rest, b.2 ≤ d.2 := by
      intro d hd
      rcases List.mem_cons.mp hd with rfl | hd
      · exact le_refl _
      · exact (List.pairwise_cons.mp hs).1 d hd
    rcases hcov c hc with h | ⟨d, h, _, h2⟩
    · exact hle c h
    · exact le_trans (hle d h) h2

/-- Three candidates in one dimension: the primary one at 0, one at 5 with a smaller NLL, one at 5.01. -/
noncomputable def exMinimise : Minimiser 1 := fun x => .ok (if x 0 < 2 then ![5] else ![5.01], if x 0 < 2 then some 1 else some 1.5)

example : basins exMinimise 0.05 (![0], 3) [![3], ![1]] = [(![5], 1), (![0], 3)] := by
  have h1 : exMinimise ![3] = .ok (![5.01], some 1.5) := by simp [exMinimise]; norm_num
  have h2 : exMinimise ![1] = .ok (![5], some 1) := by simp [exMinimise]
  have hp : polish exMinimise [![3], ![1]] = [(![5.01], 1.5), (![5], 1)] := by simp only [polish, h1, h2]
  have hnorm : ∀ a b c : ℝ, 0 ≤ c → |a - b| = c → norm ((![a] : Vec 1) - ![b]) = c := by
    intro a b c hc h
    simp only [norm, dotProduct, Fin.sum_univ_one, Pi.sub_apply, cons_val_zero]
    rw [Real.sqrt_mul_self_eq_abs, h]
  have n1 : norm ((![5.01] : Vec 1) - ![5]) = 0.01 := hnorm _ _ _ (by norm_num) (by rw [abs_of_pos] <;> norm_num)
  have n2 : norm ((![0] : Vec 1) - ![5]) = 5 := hnorm _ _ _ (by norm_num) (by rw [abs_of_neg] <;> norm_num)
  have hs : ((![0], (3 : ℝ)) :: [(![5.01], 1.5), (![5], 1)]).mergeSort (fun a b : Vec 1 × ℝ => decide (a.2 ≤ b.2)) =
      [(![5], 1), (![5.01], 1.5), (![0], 3)] := by
    have hperm := List.mergeSort_perm ((![0], (3 : ℝ)) :: [(![5.01], 1.5), ((![5] : Vec 1), 1)]) (fun a b : Vec 1 × ℝ => decide (a.2 ≤ b.2))
    have hsort := sorted_candidates ((![0], (3 : ℝ)) :: [(![5.01], 1.5), ((![5] : Vec 1), 1)])
    refine List.Perm.eq_of_pairwise (le := fun a b : Vec 1 × ℝ => a.2 ≤ b.2) ?_ hsort ?_ (hperm.trans ?_)
    · intro a b ha hb h1 h2
      rw [hperm.mem_iff] at ha
      simp only [List.mem_cons, List.not_mem_nil, or_false] at ha hb
      rcases ha with rfl | rfl | rfl <;> rcases hb with rfl | rfl | rfl <;> first | rfl | (exfalso; norm_num at h1; done) | (exfalso; norm_num at h2; done)
    · refine List.Pairwise.cons ?_ (List.Pairwise.cons ?_ (List.pairwise_singleton _ _)) <;> simp <;> norm_num
    · refine List.Perm.trans (List.Perm.swap _ _ _) ?_
      refine List.Perm.trans (List.Perm.cons _ (List.Perm.swap _ _ _)) ?_
      exact List.Perm.swap _ _ _
  rw [basins, hp, hs]
  rw [dedup, if_pos (by simp), dedup, if_neg, dedup, if_pos, dedup]
  · rfl
  · simp only [List.nil_append, List.all_cons, List.all_nil, Bool.and_true, decide_eq_true_eq, n2]; norm_num
  · simp only [List.nil_append, List.all_cons, List.all_nil, Bool.and_true, decide_eq_true_eq, n1]; norm_num

/-- C64. The starting points are inside the bounds, where both are ordered; without bounds they are within `span` of the primary
minimum, next to a bound within `span` of it. -/
theorem C64_starts {k : ℕ} (b : Bounds k) (primary : Vec k) (span : ℝ) (u : Vec k) (hu : ∀ j, 0 ≤ u j ∧ u j < 1) (hspan : 0 ≤ span)
    (hb : ∀ j lo hi, (b j).1 = some lo → (b j).2 = some hi → lo ≤ hi) :
    Inside b (startPoint b primary span u) ∧ ∀ j,
      ((b j).1 = none → (b j).2 = none → |startPoint b primary span u j - primary j| ≤ span) ∧
      (∀ lo, (b j).1 = some lo → (b j).2 = none → startPoint b primary span u j ≤ lo + span) ∧
      (∀ hi, (b j).1 = none → (b j).2 = some hi → hi - span ≤ startPoint b primary span u j) := by
  have key : ∀ j, ((∀ lo, (b j).1 = some lo → lo ≤ startPoint b primary span u j) ∧
      ∀ hi, (b j).2 = some hi → startPoint b primary span u j ≤ hi) ∧
      (((b j).1 = none → (b j).2 = none → |startPoint b primary span u j - primary j| ≤ span) ∧
      (∀ lo, (b j).1 = some lo → (b j).2 = none → startPoint b primary span u j ≤ lo + span) ∧
      (∀ hi, (b j).1 = none → (b j).2 = some hi → hi - span ≤ startPoint b primary span u j)) := by
    intro j
    obtain ⟨h0, h1⟩ := hu j
    have hbj := hb j
    unfold startPoint
    cases hl : (b j).1 with
    | none =>
      cases hh : (b j).2 with
      | none =>
        simp only [startValue]
        refine ⟨⟨by simp, by simp⟩, fun _ _ => ?_, by simp, by simp⟩
        rw [abs_le]; constructor <;> nlinarith
      | some hi =>
        simp only [startValue, Option.some.injEq]
        refine ⟨⟨by simp, fun x hx => ?_⟩, by simp, by simp, fun x _ hx => ?_⟩ <;> subst hx <;> nlinarith
    | some lo =>
      cases hh : (b j).2 with
      | none =>
        simp only [startValue, Option.some.injEq]
        refine ⟨⟨fun x hx => ?_, by simp⟩, by simp, fun x hx _ => ?_, by simp⟩ <;> subst hx <;> nlinarith
      | some hi =>
        have := hbj lo hi hl hh
        simp only [startValue, Option.some.injEq]
        refine ⟨⟨fun x hx => ?_, fun x hx => ?_⟩, by simp, by simp, by simp⟩ <;> subst hx <;> nlinarith
  exact ⟨fun j => (key j).1, fun j => (key j).2⟩

example : startPoint (![(some (-1), some 3), (none, none)] : Bounds 2) ![0, 7] 5 ![1 / 2, 1 / 4] = ![1, 9 / 2] := by
  funext j
  fin_cases j <;> simp [startPoint, startValue] <;> norm_num

theorem startPoints_mem {k : ℕ} (G : Gen k) (b : Bounds k) (primary : Vec k) (span : ℝ) (n : ℕ) :
    ∀ s, (startPoints G b primary span n s).1.length = n ∧
      ∀ x ∈ (startPoints G b primary span n s).1, ∃ s', x = startPoint b primary span fun j => (uniforms G k s').1.getD j 0 := by
  induction n with
  | zero => intro s; simp [startPoints]
  | succ n ih =>
    intro s
    obtain ⟨h1, h2⟩ := ih (uniforms G k s).2
    refine ⟨by simp [startPoints, h1], fun x hx => ?_⟩
    simp only [startPoints, List.mem_cons] at hx
    rcases hx with rfl | hx
    · exact ⟨s, rfl⟩
    · exact h2 x hx

theorem uniforms_range {k : ℕ} (G : Gen k) (hG : ∀ s, 0 ≤ (G.uniform s).1 ∧ (G.uniform s).1 < 1) (n : ℕ) :
    ∀ s j, 0 ≤ (uniforms G n s).1.getD j 0 ∧ (uniforms G n s).1.getD j 0 < 1 := by
  induction n with
  | zero => intro s j; simp [uniforms]
  | succ n ih =>
    intro s j
    cases j with
    | zero => simpa [uniforms] using hG s
    | succ j => simpa [uniforms] using ih (G.uniform s).2 j

/-- C64. If the minimiser keeps to the bounds, then every basin but the primary one is inside them. -/
theorem C64_inside {k : ℕ} (b : Bounds k) (minimise : Minimiser k) (hm : ∀ x t v, Inside b x → minimise x = .ok (t, v) → Inside b t)
    (G : Gen k) (hG : ∀ s, 0 ≤ (G.uniform s).1 ∧ (G.uniform s).1 < 1) (span : ℝ) (hspan : 0 ≤ span)
    (hb : ∀ j lo hi, (b j).1 = some lo → (b j).2 = some hi → lo ≤ hi) (tol : ℝ) (primary : Vec k × ℝ) (n : ℕ) (s : G.State) :
    ∀ c ∈ basins minimise tol primary (startPoints G b primary.1 span n s).1, c = primary ∨ Inside b c.1 := by
  intro c hc
  rcases C64_candidate _ _ _ _ c hc with h | ⟨x, hx, h⟩
  · exact .inl h
  · obtain ⟨s', rfl⟩ := (startPoints_mem G b primary.1 span n s).2 x hx
    exact .inr (hm _ _ _ (C64_starts b primary.1 span _ (fun j => uniforms_range G hG k s' j) hspan hb).1 h)

/-- A minimiser that stays where it is, a box, and a generator that always gives one half. -/
example : (∀ x t v, Inside (fun _ : Fin 2 => (some (-1 : ℝ), some 1)) x → (fun x => .ok (x, some 0) : Minimiser 2) x = .ok (t, v) →
      Inside (fun _ : Fin 2 => (some (-1 : ℝ), some 1)) t) ∧
    ∃ G : Gen 2, ∀ s, 0 ≤ (G.uniform s).1 ∧ (G.uniform s).1 < 1 := by
  refine ⟨fun x t v hx h => ?_, ⟨Unit, fun s => (0, s), fun s => (0, s), fun s => (1 / 2, s)⟩, fun s => by norm_num⟩
  simp only [Except.ok.injEq, Prod.mk.injEq] at h
  rw [← h.1]; exact hx

end Verif.Contour
