import Verif.Chi2.Spec
import Verif.UpperLimit.Lemmas

/-!
# Lemmas about the interval search
-/

namespace Verif.Chi2
open Verif.Py F Verif.UpperLimit
open Classical

/-! ### The grid -/

theorem linspace_mem {lo hi x : ℝ} {n : ℕ} (hn : 2 ≤ n) (h : lo ≤ hi) (hx : x ∈ linspace lo hi n) : lo ≤ x ∧ x ≤ hi := by
  simp only [linspace, List.mem_map, List.mem_range] at hx
  obtain ⟨i, hi', rfl⟩ := hx
  have h1 : (1 : ℝ) ≤ (n : ℝ) - 1 := by
    have : (2 : ℝ) ≤ n := by exact_mod_cast hn
    linarith
  have h2 : (i : ℝ) ≤ (n : ℝ) - 1 := by
    have : (i : ℝ) + 1 ≤ n := by exact_mod_cast hi'
    linarith
  have h0 : (0 : ℝ) ≤ i := Nat.cast_nonneg i
  have h3 : 0 ≤ (hi - lo) / ((n : ℝ) - 1) := div_nonneg (by linarith) (by linarith)
  have h4 : (n - 1 : ℝ) * ((hi - lo) / ((n : ℝ) - 1)) = hi - lo := by field_simp
  constructor
  · nlinarith
  · nlinarith

theorem linspace_length (lo hi : ℝ) (n : ℕ) : (linspace lo hi n).length = n := by simp [linspace]

theorem linspace_three (lo hi : ℝ) : linspace lo hi 3 = [lo, lo + (hi - lo) / 2, hi] := by
  simp [linspace, List.range_succ]
  constructor
  · norm_num
  · norm_num; ring

theorem linspace_two (lo hi : ℝ) : linspace lo hi 2 = [lo, hi] := by
  simp [linspace, List.range_succ]
  norm_num

/-! ### Re-anchoring -/

theorem foldl_better (nll : ℝ → F) (l : List ℝ) (b : F × ℝ) :
    let r := l.foldl (better nll) b
    (r = b ∨ (r.1 = nll r.2 ∧ r.2 ∈ l ∧ lt r.1 b.1)) := by
  induction l generalizing b with
  | nil => exact Or.inl rfl
  | cons x l ih =>
    simp only [List.foldl_cons]
    have := ih (better nll b x)
    simp only at this
    by_cases hc : isFinite (nll x) ∧ lt (nll x) b.1
    · have hb : better nll b x = (nll x, x) := if_pos hc
      rw [hb] at this ⊢
      rcases this with h | ⟨h1, h2, h3⟩
      · rw [h]
        exact Or.inr ⟨rfl, List.mem_cons_self, hc.2⟩
      · refine Or.inr ⟨h1, List.mem_cons_of_mem _ h2, ?_⟩
        have h4 := hc.2
        revert h3 h4
        generalize (List.foldl (better nll) (nll x, x) l).1 = u
        generalize nll x = v
        generalize b.1 = w
        cases u <;> cases v <;> cases w <;> simp [lt]
        intro h1 h2
        linarith
    · have hb : better nll b x = b := if_neg hc
      rw [hb] at this ⊢
      rcases this with h | ⟨h1, h2, h3⟩
      · exact Or.inl h
      · exact Or.inr ⟨h1, List.mem_cons_of_mem _ h2, h3⟩

/-- After the scan no scanned finite value is below the best. -/
theorem foldl_better_le (nll : ℝ → F) (l : List ℝ) (b : F × ℝ) (hb : b.1 ≠ nan) :
    (l.foldl (better nll) b).1 ≠ nan ∧ (∀ x ∈ l, Stats.Finite (nll x) → le (l.foldl (better nll) b).1 (nll x)) ∧
      le (l.foldl (better nll) b).1 b.1 := by
  have htrans : ∀ u v w : F, le u v → le v w → le u w := by
    intro u v w
    cases u <;> cases v <;> cases w <;> simp [le]
    intro h1 h2
    linarith
  induction l generalizing b with
  | nil =>
    refine ⟨hb, by simp, ?_⟩
    simp only [List.foldl_nil]
    revert hb
    generalize b.1 = w
    cases w <;> simp [le]
  | cons x l ih =>
    simp only [List.foldl_cons]
    have hb' : (better nll b x).1 ≠ nan := by
      unfold better
      split
      · rename_i hc
        revert hc
        cases nll x <;> simp [isFinite]
      · exact hb
    obtain ⟨h1, h2, h3⟩ := ih (better nll b x) hb'
    have key : le (better nll b x).1 b.1 ∧ (Stats.Finite (nll x) → le (better nll b x).1 (nll x)) := by
      unfold better
      split
      · rename_i hc
        obtain ⟨hc1, hc2⟩ := hc
        revert hc1 hc2
        generalize nll x = v
        generalize b.1 = w
        cases v <;> cases w <;> simp [isFinite, le, lt]
        intro h; exact h.le
      · rename_i hc
        revert hc hb
        generalize nll x = v
        generalize b.1 = w
        cases v <;> cases w <;> simp [isFinite, le, lt, Stats.Finite]
    refine ⟨h1, ?_, htrans _ _ _ h3 key.1⟩
    intro y hy hyf
    rcases List.mem_cons.1 hy with rfl | hy
    · exact htrans _ _ _ h3 (key.2 hyf)
    · exact h2 y hy hyf

theorem lt_trans' {u v w : F} : lt u v → lt v w → lt u w := by
  cases u <;> cases v <;> cases w <;> simp [lt]
  intro h1 h2
  linarith

theorem refineMin_anchor {minimize : Minimizer} (hm : Honest minimize) (nll : ℝ → F) (mllhd : F) (ref lo hi : ℝ) (n : ℕ) :
    let r := refineMin minimize nll mllhd ref lo hi n
    r = (mllhd, ref) ∨ (r.1 = nll r.2 ∧ lt r.1 mllhd ∧ lo ≤ r.2 ∧ r.2 ≤ hi) := by
  intro r
  by_cases hc : ¬ lo < hi ∨ n < 2
  · left; exact if_pos hc
  · have hlo : lo < hi := by by_contra h; exact hc (Or.inl h)
    have hn : 2 ≤ n := by by_contra h; exact hc (Or.inr (by omega))
    have hr : r = refineMin minimize nll mllhd ref lo hi n := rfl
    unfold refineMin at hr
    rw [if_neg hc] at hr
    have hbest := foldl_better nll (linspace lo hi n) (mllhd, ref)
    simp only at hbest hr
    generalize (linspace lo hi n).foldl (better nll) (mllhd, ref) = best at hbest hr
    have hbest' : best = (mllhd, ref) ∨ (best.1 = nll best.2 ∧ lt best.1 mllhd ∧ lo ≤ best.2 ∧ best.2 ≤ hi) := by
      rcases hbest with h | ⟨h1, h2, h3⟩
      · exact Or.inl h
      · exact Or.inr ⟨h1, h3, linspace_mem hn hlo.le h2⟩
    split at hr
    · exact Or.inl hr
    · split at hr
      · split at hr
        · rename_i res hres
          obtain ⟨v, x⟩ := res
          obtain ⟨h1, h2, h3⟩ := hm _ _ _ _ _ hres
          split at hr
          · rename_i hlt
            rw [hr]
            refine Or.inr ⟨h1, ?_, (le_max_left _ _).trans h2, h3.trans (min_le_left _ _)⟩
            rcases hbest' with h | ⟨-, h, -⟩
            · rw [h] at hlt; exact hlt.2
            · exact lt_trans' hlt.2 h
          · rw [hr]; exact hbest'
        · rw [hr]; exact hbest'
      · rw [hr]; exact hbest'

/-! ### Roots of the scan -/

theorem le_of_sub {x y : F} (h : le (sub x y) (fin 0)) : le x y := by
  cases x <;> cases y <;> simp_all [le, sub, add, neg]

theorem ge_of_sub {x y : F} (h : le (fin 0) (sub x y)) : le y x := by
  cases x <;> cases y <;> simp_all [le, sub, add, neg]

/-- `r` is a crossing of `f`, as the contract of the root finders gives it, with the points in `[lo, hi]`. -/
def Root (f : ℝ → F) (t lo hi r : ℝ) : Prop :=
  (lo ≤ r ∧ r ≤ hi) ∧ (∃ y, lo ≤ y ∧ y ≤ hi ∧ |y - r| ≤ t ∧ le (f y) (fin 0)) ∧
    (∃ y, lo ≤ y ∧ y ≤ hi ∧ |y - r| ≤ t ∧ le (fin 0) (f y))

theorem Root.crosses {nll : ℝ → F} {m thr : F} {t lo hi r : ℝ} (h : Root (profile nll m thr) t lo hi r) :
    Crosses nll m thr t r := by
  obtain ⟨-, ⟨y, -, -, h1, h2⟩, ⟨z, -, -, h3, h4⟩⟩ := h
  exact ⟨⟨y, h1, le_of_sub h2⟩, ⟨z, h3, ge_of_sub h4⟩⟩

theorem Root.mono {f : ℝ → F} {t lo hi lo' hi' r : ℝ} (h : Root f t lo hi r) (h1 : lo' ≤ lo) (h2 : hi ≤ hi') :
    Root f t lo' hi' r := by
  obtain ⟨⟨a, b⟩, ⟨y, y1, y2, y3, y4⟩, ⟨z, z1, z2, z3, z4⟩⟩ := h
  exact ⟨⟨h1.trans a, b.trans h2⟩, ⟨y, h1.trans y1, y2.trans h2, y3, y4⟩, ⟨z, h1.trans z1, z2.trans h2, z3, z4⟩⟩

theorem eq_zero_le {x : F} (h : F.eq x (fin 0)) : le x (fin 0) ∧ le (fin 0) x := by
  cases x <;> simp_all [F.eq, le]

theorem sound_root {tol : ℝ → ℝ} {solve : Solver} (hs : Sound tol solve) {f : ℝ → F} {a b r : ℝ}
    (h : solve f a b = .ok r) : Root f (tol r) a b r :=
  ⟨⟨(hs.inside _ _ _ _ h).2.1, (hs.inside _ _ _ _ h).2.2⟩, hs.below _ _ _ _ h, hs.above _ _ _ _ h⟩

theorem cell_root {tol : ℝ → ℝ} (h0 : ∀ x, 0 ≤ tol x) {toms brent : Solver} (ht : Sound tol toms) (hb : Sound tol brent)
    {f : ℝ → F} {a b r : ℝ} {last : Bool} (hab : a ≤ b) (h : r ∈ cell toms brent f a b last) :
    Root f (tol r) a b r := by
  unfold cell at h
  split at h
  · simp at h
  split at h
  · rename_i hz
    obtain rfl : r = a := by simpa using h
    have := eq_zero_le hz
    exact ⟨⟨le_refl _, hab⟩, ⟨r, le_refl _, hab, by simpa using h0 r, this.1⟩, ⟨r, le_refl _, hab, by simpa using h0 r, this.2⟩⟩
  split at h
  · rename_i hz
    obtain rfl : r = b := by simpa using h
    have := eq_zero_le hz.1
    exact ⟨⟨hab, le_refl _⟩, ⟨r, hab, le_refl _, by simpa using h0 r, this.1⟩, ⟨r, hab, le_refl _, by simpa using h0 r, this.2⟩⟩
  split at h
  · unfold refineRoot at h
    split at h
    · rename_i x hx
      obtain rfl : r = x := by simpa using h
      exact sound_root ht hx
    · split at h
      · rename_i x hx
        obtain rfl : r = x := by simpa using h
        exact sound_root hb hx
      · simp at h
  · simp at h

theorem cells_root {tol : ℝ → ℝ} (h0 : ∀ x, 0 ≤ tol x) {toms brent : Solver} (ht : Sound tol toms) (hb : Sound tol brent)
    {f : ℝ → F} {xs : List ℝ} {lo hi r : ℝ} (hs : xs.Pairwise (· ≤ ·)) (hm : ∀ x ∈ xs, lo ≤ x ∧ x ≤ hi)
    (h : r ∈ cells toms brent f xs) : Root f (tol r) lo hi r := by
  induction xs with
  | nil => simp [cells] at h
  | cons a l ih =>
    cases l with
    | nil => simp [cells] at h
    | cons b l =>
      rw [List.pairwise_cons] at hs
      rw [cells, List.mem_append] at h
      rcases h with h | h
      · exact (cell_root h0 ht hb (hs.1 b List.mem_cons_self) h).mono (hm a List.mem_cons_self).1
          (hm b (List.mem_cons_of_mem _ List.mem_cons_self)).2
      · exact ih hs.2 (fun x hx => hm x (List.mem_cons_of_mem _ hx)) h

theorem cells_length (toms brent : Solver) (f : ℝ → F) (xs : List ℝ) : (cells toms brent f xs).length ≤ xs.length - 1 := by
  induction xs with
  | nil => simp [cells]
  | cons a l ih =>
    cases l with
    | nil => simp [cells]
    | cons b l =>
      rw [cells, List.length_append]
      have : (cell toms brent f a b l.isEmpty).length ≤ 1 := by
        unfold cell refineRoot
        split
        · simp
        split
        · simp
        split
        · simp
        split
        · split
          · simp
          · split <;> simp
        · simp
      simp only [List.length_cons] at ih ⊢
      omega

theorem linspace_sorted {lo hi : ℝ} {n : ℕ} (hn : 2 ≤ n) (h : lo < hi) : (linspace lo hi n).Pairwise (· < ·) := by
  unfold linspace
  rw [List.pairwise_map]
  refine List.pairwise_lt_range.imp (fun {i j} hij => ?_)
  have h1 : (1 : ℝ) ≤ (n : ℝ) - 1 := by
    have : (2 : ℝ) ≤ n := by exact_mod_cast hn
    linarith
  have h2 : (i : ℝ) < j := by exact_mod_cast hij
  have h3 : 0 < (hi - lo) / ((n : ℝ) - 1) := div_pos (by linarith) (by linarith)
  nlinarith

theorem sort_pairwise (l : List ℝ) : (sort l).Pairwise (· ≤ ·) := by
  have := List.pairwise_mergeSort (le := fun a b : ℝ => decide (a ≤ b))
    (by intro a b c h1 h2; simp only [decide_eq_true_eq] at *; exact h1.trans h2)
    (by intro a b; simp [le_total]) l
  simpa [sort] using this

theorem mem_sort {l : List ℝ} {x : ℝ} : x ∈ sort l ↔ x ∈ l := by simp [sort]

theorem gap_pos (r : ℝ) : 0 < gap r := lt_of_lt_of_le (by norm_num) (le_max_left _ _)

theorem dedup_spec (l : List ℝ) (hs : l.Pairwise (· ≤ ·)) (o : Option ℝ) (ho : ∀ x, o = some x → ∀ r ∈ l, x ≤ r) :
    (dedup o l).Sublist l ∧ Ascending (dedup o l) ∧ (∀ x, o = some x → ∀ r ∈ dedup o l, gap r < r - x) ∧
    (∀ r ∈ l, ∃ q, (q ∈ dedup o l ∨ o = some q) ∧ q ≤ r ∧ r - q ≤ gap r) := by
  induction l generalizing o with
  | nil => cases o <;> simp [dedup, Ascending]
  | cons r l ih =>
    rw [List.pairwise_cons] at hs
    obtain ⟨i1, i2, i3, i4⟩ := ih hs.2 (some r) (by rintro x h y hy; simp only [Option.some.injEq] at h; exact h ▸ hs.1 y hy)
    have keep : (r :: dedup (some r) l).Sublist (r :: l) ∧ Ascending (r :: dedup (some r) l) ∧
        (∀ y ∈ r :: l, ∃ q, (q ∈ r :: dedup (some r) l) ∧ q ≤ y ∧ y - q ≤ gap y) := by
      refine ⟨i1.cons_cons r, List.pairwise_cons.2 ⟨fun y hy => i3 r rfl y hy, i2⟩, ?_⟩
      intro y hy
      rcases List.mem_cons.1 hy with rfl | hy
      · exact ⟨y, List.mem_cons_self, le_refl _, by simpa using (gap_pos y).le⟩
      · obtain ⟨q, hq, hq1, hq2⟩ := i4 y hy
        refine ⟨q, ?_, hq1, hq2⟩
        rcases hq with hq | hq
        · exact List.mem_cons_of_mem _ hq
        · simp only [Option.some.injEq] at hq
          exact hq ▸ List.mem_cons_self
    cases o with
    | none =>
      rw [dedup]
      refine ⟨keep.1, keep.2.1, by simp, fun y hy => ?_⟩
      obtain ⟨q, h1, h2⟩ := keep.2.2 y hy
      exact ⟨q, Or.inl h1, h2⟩
    | some x =>
      have hxr := ho x rfl r List.mem_cons_self
      rw [dedup]
      split
      · rename_i hg
        rw [abs_of_nonneg (by linarith)] at hg
        refine ⟨keep.1, keep.2.1, ?_, fun y hy => ?_⟩
        · rintro z hz y hy
          simp only [Option.some.injEq] at hz
          subst hz
          rcases List.mem_cons.1 hy with rfl | hy'
          · exact hg
          · have := i3 r rfl y hy'
            linarith
        · obtain ⟨q, h1, h2⟩ := keep.2.2 y hy
          exact ⟨q, Or.inl h1, h2⟩
      · rename_i hg
        rw [abs_of_nonneg (by linarith), not_lt] at hg
        obtain ⟨j1, j2, j3, j4⟩ := ih hs.2 (some x) (fun z hz y hy => ho z hz y (List.mem_cons_of_mem _ hy))
        refine ⟨j1.cons r, j2, j3, fun y hy => ?_⟩
        rcases List.mem_cons.1 hy with rfl | hy
        · exact ⟨x, Or.inr rfl, hxr, hg⟩
        · exact j4 y hy

theorem enumerate_spec {tol : ℝ → ℝ} (h0 : ∀ x, 0 ≤ tol x) {toms brent : Solver} (ht : Sound tol toms) (hb : Sound tol brent)
    (f : ℝ → F) (lo hi : ℝ) (n : ℕ) :
    Ascending (enumerate toms brent f lo hi n) ∧
    (∀ r ∈ enumerate toms brent f lo hi n, Root f (tol r) lo hi r) := by
  unfold enumerate
  split
  · simp [Ascending]
  · rename_i h
    rw [not_not] at h
    have hn : 2 ≤ max 3 n := le_trans (by norm_num) (le_max_left _ _)
    obtain ⟨d1, d2, -, -⟩ := dedup_spec _ (sort_pairwise (cells toms brent f (linspace lo hi (max 3 n)))) none (by simp)
    refine ⟨d2, fun r hr => ?_⟩
    exact cells_root h0 ht hb ((linspace_sorted hn h).imp le_of_lt) (fun x hx => linspace_mem hn h.le hx)
      (mem_sort.1 (d1.subset hr))

theorem enumerate_length (toms brent : Solver) (f : ℝ → F) (lo hi : ℝ) : (enumerate toms brent f lo hi 3).length ≤ 2 := by
  unfold enumerate
  split
  · simp
  · obtain ⟨d1, -, -, -⟩ := dedup_spec _ (sort_pairwise (cells toms brent f (linspace lo hi (max 3 3)))) none (by simp)
    have h1 := d1.length_le
    have h2 := cells_length toms brent f (linspace lo hi (max 3 3))
    rw [show (sort (cells toms brent f (linspace lo hi (max 3 3)))).length = (cells toms brent f (linspace lo hi (max 3 3))).length
      from by simp [sort]] at h1
    rw [linspace_length] at h2
    exact h1.trans h2

/-! ### The widening loop -/

theorem scanLoop_mem (scan : ℝ → ℝ → List ℝ) (t : LimitType) (ref hardLo hardHi : ℝ) (n : ℕ) (roots : List ℝ) (lo hi : ℝ) :
    scanLoop scan t ref hardLo hardHi n roots lo hi = roots ∨
      ∃ a b, scanLoop scan t ref hardLo hardHi n roots lo hi = scan a b := by
  induction n generalizing roots lo hi with
  | zero => exact Or.inl rfl
  | succ n ih =>
    right
    rw [scanLoop]
    simp only
    split
    · split
      · exact ⟨lo, hi, rfl⟩
      · rcases ih (scan lo hi) (max hardLo (ref - 3 * (ref - lo))) (min hardHi (ref + 3 * (hi - ref))) with h | ⟨a, b, h⟩
        · rw [h]; exact ⟨lo, hi, rfl⟩
        · exact ⟨a, b, h⟩
    · exact ⟨lo, hi, rfl⟩

theorem scanLoop_scan (scan : ℝ → ℝ → List ℝ) (t : LimitType) (ref hardLo hardHi : ℝ) (n : ℕ) (roots : List ℝ) (lo hi : ℝ) :
    ∃ a b, scanLoop scan t ref hardLo hardHi (n + 1) roots lo hi = scan a b := by
  rw [scanLoop]
  simp only
  split
  · split
    · exact ⟨lo, hi, rfl⟩
    · rcases scanLoop_mem scan t ref hardLo hardHi n (scan lo hi) (max hardLo (ref - 3 * (ref - lo)))
        (min hardHi (ref + 3 * (hi - ref))) with h | ⟨a, b, h⟩
      · rw [h]; exact ⟨lo, hi, rfl⟩
      · exact ⟨a, b, h⟩
  · exact ⟨lo, hi, rfl⟩

theorem scanLoop_mem_within (scan : ℝ → ℝ → List ℝ) (t : LimitType) (ref hardLo hardHi : ℝ) (n : ℕ) (roots : List ℝ) (lo hi : ℝ)
    (h1 : hardLo ≤ lo) (h2 : hi ≤ hardHi) :
    scanLoop scan t ref hardLo hardHi n roots lo hi = roots ∨
      ∃ a b, scanLoop scan t ref hardLo hardHi n roots lo hi = scan a b ∧ hardLo ≤ a ∧ b ≤ hardHi := by
  induction n generalizing roots lo hi with
  | zero => exact Or.inl rfl
  | succ n ih =>
    right
    rw [scanLoop]
    simp only
    split
    · split
      · exact ⟨lo, hi, rfl, h1, h2⟩
      · rcases ih (scan lo hi) (max hardLo (ref - 3 * (ref - lo))) (min hardHi (ref + 3 * (hi - ref))) (le_max_left _ _)
          (min_le_left _ _) with h | ⟨a, b, h⟩
        · rw [h]; exact ⟨lo, hi, rfl, h1, h2⟩
        · exact ⟨a, b, h⟩
    · exact ⟨lo, hi, rfl, h1, h2⟩

theorem scanLoop_within (scan : ℝ → ℝ → List ℝ) (t : LimitType) (ref hardLo hardHi : ℝ) (n : ℕ) (roots : List ℝ) (lo hi : ℝ)
    (h1 : hardLo ≤ lo) (h2 : hi ≤ hardHi) :
    ∃ a b, scanLoop scan t ref hardLo hardHi (n + 1) roots lo hi = scan a b ∧ hardLo ≤ a ∧ b ≤ hardHi := by
  rw [scanLoop]
  simp only
  split
  · split
    · exact ⟨lo, hi, rfl, h1, h2⟩
    · rcases scanLoop_mem_within scan t ref hardLo hardHi n (scan lo hi) (max hardLo (ref - 3 * (ref - lo)))
        (min hardHi (ref + 3 * (hi - ref))) (le_max_left _ _) (min_le_left _ _) with h | ⟨a, b, h⟩
      · rw [h]; exact ⟨lo, hi, rfl, h1, h2⟩
      · exact ⟨a, b, h⟩
  · exact ⟨lo, hi, rfl, h1, h2⟩

/-! ### The fallback -/

theorem walk_ends (f : ℝ → F) (go : F → Prop) (stop : ℝ → Prop) (next : ℝ → ℝ) (n : ℕ) (x : ℝ) (h : stop (next^[n] x)) :
    ∃ r, ∀ fuel, n + 1 ≤ fuel → walk f go stop next fuel x = some r := by
  induction n generalizing x with
  | zero =>
    refine ⟨x, fun fuel hf => ?_⟩
    obtain ⟨k, rfl⟩ : ∃ k, fuel = k + 1 := ⟨fuel - 1, by omega⟩
    rw [walk, if_neg (fun hc => hc.2 h)]
  | succ n ih =>
    by_cases hc : go (f x) ∧ ¬ stop x
    · rw [Function.iterate_succ_apply] at h
      obtain ⟨r, hr⟩ := ih (next x) h
      refine ⟨r, fun fuel hf => ?_⟩
      obtain ⟨k, rfl⟩ : ∃ k, fuel = k + 1 := ⟨fuel - 1, by omega⟩
      rw [walk, if_pos hc]
      exact hr k (by omega)
    · refine ⟨x, fun fuel hf => ?_⟩
      obtain ⟨k, rfl⟩ : ∃ k, fuel = k + 1 := ⟨fuel - 1, by omega⟩
      rw [walk, if_neg hc]

/-- The walks of a side come to a stop. -/
structure Side.Stops (s : Side) : Prop where
  outer : ∃ n, s.outerStop (s.expand^[n] s.outer)
  inner : ∃ n, s.innerStop (s.contract^[n] s.inner)
  again : ∀ r stop, s.retry = some (r, stop) → ∃ n, stop (s.contract^[n] r)

theorem legacySide_ends (toms : Solver) (f : ℝ → F) (s : Side) (hs : s.Stops) :
    ∃ r, ∀ N, ∃ M, N ≤ M ∧ ∀ fuel, M ≤ fuel → legacySide fuel toms f s = some r := by
  obtain ⟨n1, h1⟩ := hs.outer
  obtain ⟨n2, h2⟩ := hs.inner
  obtain ⟨o, ho⟩ := walk_ends f (fun v => lt v (fin 0)) s.outerStop s.expand n1 s.outer h1
  obtain ⟨i, hi⟩ := walk_ends f (fun v => lt (fin 0) v) s.innerStop s.contract n2 s.inner h2
  have hj : ∃ j M, ∀ fuel, M ≤ fuel → retryInner fuel f s.contract i o s.retry = some j := by
    unfold retryInner
    cases hr : s.retry with
    | none => exact ⟨i, 0, fun _ _ => rfl⟩
    | some p =>
      obtain ⟨r, stop⟩ := p
      obtain ⟨n3, h3⟩ := hs.again r stop hr
      obtain ⟨j, hj⟩ := walk_ends f (fun v => lt (fin 0) v) stop s.contract n3 r h3
      by_cases hc : eqSign (f i) (f o)
      · exact ⟨j, n3 + 1, fun fuel hf => by simp only [if_pos hc]; exact hj fuel hf⟩
      · exact ⟨i, 0, fun _ _ => by simp only [if_neg hc]⟩
  have hb : ∃ r, ∃ M, ∀ fuel, M ≤ fuel →
      bracketAndSolve fuel toms f s.inner s.outer s.expand s.contract s.outerStop s.innerStop s.retry = some r := by
    obtain ⟨j, M, hj⟩ := hj
    refine ⟨solveBracket toms f j o, M + n1 + n2 + 1, fun fuel hf => ?_⟩
    unfold bracketAndSolve
    simp only [ho fuel (by omega), hi fuel (by omega), hj fuel (by omega), Option.map_some]
  obtain ⟨r, M, hM⟩ := hb
  cases r with
  | error e =>
    refine ⟨.error e, fun N => ⟨max N M, le_max_left _ _, fun fuel hf => ?_⟩⟩
    unfold legacySide
    rw [hM fuel ((le_max_right _ _).trans hf)]
  | ok v =>
    obtain ⟨a, b, x0⟩ := v
    refine ⟨.ok (if isNan x0 then s.fallback b else x0), fun N => ⟨max N M, le_max_left _ _, fun fuel hf => ?_⟩⟩
    unfold legacySide
    rw [hM fuel ((le_max_right _ _).trans hf)]

theorem bracketAndSolve_ok {fuel : ℕ} {toms : Solver} {f : ℝ → F} {i o : ℝ} {e c : ℝ → ℝ} {os is : ℝ → Prop}
    {r : Option (ℝ × (ℝ → Prop))} {v : ℝ × ℝ × F}
    (h : bracketAndSolve fuel toms f i o e c os is r = some (.ok v)) :
    v.2.2 = nan ∨ ∃ a b x, toms f a b = .ok x ∧ v.2.2 = fin x := by
  unfold bracketAndSolve at h
  split at h
  · simp at h
  rename_i o' _
  split at h
  · simp at h
  simp only [Option.map_eq_some_iff] at h
  obtain ⟨j', -, h⟩ := h
  unfold solveBracket at h
  split at h
  · simp only [Except.ok.injEq] at h
    left; rw [← h]
  · right
    cases hs : toms f (min j' o') (max j' o') with
    | error e => simp [hs, Except.map] at h
    | ok x =>
      simp only [hs, Except.map, Except.ok.injEq] at h
      exact ⟨_, _, x, hs, by rw [← h]⟩

theorem legacySide_ok {tol : ℝ → ℝ} {toms : Solver} (ht : Sound tol toms) {fuel : ℕ} {f : ℝ → F} {s : Side} {v : F}
    (h : legacySide fuel toms f s = some (.ok v)) :
    (∃ o, v = s.fallback o) ∨ ∃ x a b, v = fin x ∧ Root f (tol x) a b x := by
  unfold legacySide at h
  split at h
  · simp at h
  · simp at h
  · rename_i a outer x0 hb
    simp only [Option.some.injEq, Except.ok.injEq] at h
    subst h
    rcases bracketAndSolve_ok hb with h | ⟨a, b, x, hx, h⟩
    · simp only at h
      left; exact ⟨outer, by simp [h, isNan]⟩
    · simp only at h
      right; exact ⟨x, a, b, by simp [h, isNan], sound_root ht hx⟩

end Verif.Chi2
