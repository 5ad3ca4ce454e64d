import Verif.Interval.Model
import Verif.Chi2.WindowProps
import Verif.Chain.LimitProps

/-!
# Lemmas for `chi2_test` of models
-/

namespace Verif.Interval
open Verif.Py F Verif.Hypotest Verif.Chi2 Verif.Chain
open Verif.UpperLimit (Sound Succeeds)
open Classical

variable {tol : ℝ → ℝ} {toms brent : UpperLimit.Solver}

/-- Below zero between `z₁` and `z₂`, as far as `lo` to `hi`. -/
def Valley (f : ℝ → F) (lo hi z₁ z₂ : ℝ) : Prop := ∀ x, lo ≤ x → x ≤ hi → ∃ g, f x = fin g ∧ (g ≤ 0 ↔ z₁ ≤ x ∧ x ≤ z₂) ∧ (g < 0 ↔ z₁ < x ∧ x < z₂)

theorem Valley.mono {f : ℝ → F} {lo hi lo' hi' z₁ z₂ : ℝ} (h : Valley f lo hi z₁ z₂) (h1 : lo ≤ lo') (h2 : hi' ≤ hi) : Valley f lo' hi' z₁ z₂ := fun x k1 k2 => h x (h1.trans k1) (k2.trans h2)

/-- Two points of the grid with a zero between them. -/
theorem cell_left (ht : Sound tol toms) (hs : Succeeds toms) {f : ℝ → F} {a b z₁ z₂ : ℝ} (hf : Valley f a b z₁ z₂) (ha : a < z₁) (hb1 : z₁ < b) (hb2 : b < z₂) (last : Bool) :
    ∃ r, cell toms brent f a b last = [r] ∧ a ≤ r ∧ r ≤ b ∧ |r - z₁| ≤ tol r := by
  have hab : a < b := ha.trans hb1
  obtain ⟨ga, ha1, ha2, ha3⟩ := hf a le_rfl hab.le
  obtain ⟨gb, hb3, hb4, hb5⟩ := hf b hab.le le_rfl
  have pa : 0 < ga := not_le.mp fun h => absurd (ha2.mp h).1 (not_le.mpr ha)
  have pb : gb < 0 := hb5.mpr ⟨hb1, hb2⟩
  obtain ⟨r, hr⟩ := hs f a b hab (fun x x1 x2 => by obtain ⟨g, hg, -⟩ := hf x x1 x2; exact ⟨g, hg⟩) (.inr ⟨by rw [ha1]; exact pa.le, by rw [hb3]; exact pb.le⟩)
  have hin := ht.inside _ _ _ _ hr
  obtain ⟨x, x1, x2, x3, x4⟩ := ht.below _ _ _ _ hr
  obtain ⟨y, y1, y2, y3, y4⟩ := ht.above _ _ _ _ hr
  obtain ⟨gx, gx1, gx2, gx3⟩ := hf x x1 x2
  obtain ⟨gy, gy1, gy2, gy3⟩ := hf y y1 y2
  rw [gx1] at x4
  rw [gy1] at y4
  have x5 := (gx2.mp x4).1
  have y5 : y ≤ z₁ := not_lt.mp fun h => absurd (gy3.mpr ⟨h, y2.trans_lt hb2⟩) (not_lt.mpr y4)
  refine ⟨r, ?_, hin.2.1, hin.2.2, ?_⟩
  · unfold cell
    rw [ha1, hb3, if_neg (by simp [isFinite]), if_neg (by simpa [F.eq] using pa.ne'), if_neg (by simp [F.eq, pb.ne]), if_pos (.inr ⟨pa, pb⟩)]
    simp [refineRoot, hr]
  · rw [abs_le] at x3 y3 ⊢
    exact ⟨by linarith, by linarith⟩

theorem cell_right (ht : Sound tol toms) (hs : Succeeds toms) {f : ℝ → F} {a b z₁ z₂ : ℝ} (hf : Valley f a b z₁ z₂) (ha1 : z₁ < a) (ha2 : a < z₂) (hb : z₂ < b) (last : Bool) :
    ∃ r, cell toms brent f a b last = [r] ∧ a ≤ r ∧ r ≤ b ∧ |r - z₂| ≤ tol r := by
  have hab : a < b := ha2.trans hb
  obtain ⟨ga, ha3, ha4, ha5⟩ := hf a le_rfl hab.le
  obtain ⟨gb, hb3, hb4, hb5⟩ := hf b hab.le le_rfl
  have pb : 0 < gb := not_le.mp fun h => absurd (hb4.mp h).2 (not_le.mpr hb)
  have pa : ga < 0 := ha5.mpr ⟨ha1, ha2⟩
  obtain ⟨r, hr⟩ := hs f a b hab (fun x x1 x2 => by obtain ⟨g, hg, -⟩ := hf x x1 x2; exact ⟨g, hg⟩) (.inl ⟨by rw [ha3]; exact pa.le, by rw [hb3]; exact pb.le⟩)
  have hin := ht.inside _ _ _ _ hr
  obtain ⟨x, x1, x2, x3, x4⟩ := ht.below _ _ _ _ hr
  obtain ⟨y, y1, y2, y3, y4⟩ := ht.above _ _ _ _ hr
  obtain ⟨gx, gx1, gx2, gx3⟩ := hf x x1 x2
  obtain ⟨gy, gy1, gy2, gy3⟩ := hf y y1 y2
  rw [gx1] at x4
  rw [gy1] at y4
  have x5 := (gx2.mp x4).2
  have y5 : z₂ ≤ y := not_lt.mp fun h => absurd (gy3.mpr ⟨ha1.trans_le y1, h⟩) (not_lt.mpr y4)
  refine ⟨r, ?_, hin.2.1, hin.2.2, ?_⟩
  · unfold cell
    rw [ha3, hb3, if_neg (by simp [isFinite]), if_neg (by simpa [F.eq] using pa.ne), if_neg (by simp [F.eq, pb.ne']), if_pos (.inl ⟨pa, pb⟩)]
    simp [refineRoot, hr]
  · rw [abs_le] at x3 y3 ⊢
    exact ⟨by linarith, by linarith⟩

/-- No zero between two points of the grid, on the right of the valley. -/
theorem cell_beyond {f : ℝ → F} {a b z₁ z₂ : ℝ} (hf : Valley f a b z₁ z₂) (ha : z₂ < a) (hab : a < b) (last : Bool) : cell toms brent f a b last = [] := by
  obtain ⟨ga, ha1, ha2, ha3⟩ := hf a le_rfl hab.le
  obtain ⟨gb, hb3, hb4, hb5⟩ := hf b hab.le le_rfl
  have pa : 0 < ga := not_le.mp fun h => absurd (ha2.mp h).2 (not_le.mpr ha)
  have pb : 0 < gb := not_le.mp fun h => absurd (hb4.mp h).2 (not_le.mpr (ha.trans hab))
  unfold cell
  rw [ha1, hb3, if_neg (by simp [isFinite]), if_neg (by simpa [F.eq] using pa.ne'), if_neg (by simp [F.eq, pb.ne']), if_neg (by
    rintro (⟨h, -⟩ | ⟨-, h⟩)
    · exact absurd h (not_lt.mpr pa.le)
    · exact absurd h (not_lt.mpr pb.le))]

/-- No zero between two points of the grid, or one that belongs to the next cell. -/
theorem cell_inside {f : ℝ → F} {a b z₁ z₂ : ℝ} (hf : Valley f a b z₁ z₂) (ha : z₁ < a) (hab : a < b) (hb : b ≤ z₂) : cell toms brent f a b false = [] := by
  obtain ⟨ga, ha1, ha2, ha3⟩ := hf a le_rfl hab.le
  obtain ⟨gb, hb3, hb4, hb5⟩ := hf b hab.le le_rfl
  have pa : ga < 0 := ha3.mpr ⟨ha, hab.trans_le hb⟩
  have pb : gb ≤ 0 := hb4.mpr ⟨(ha.trans hab).le, hb⟩
  unfold cell
  rw [ha1, hb3, if_neg (by simp [isFinite]), if_neg (by simpa [F.eq] using pa.ne), if_neg (by simp), if_neg (by
    rintro (⟨-, h⟩ | ⟨h, -⟩)
    · exact absurd h (not_lt.mpr pb)
    · exact absurd h (not_lt.mpr pa.le))]

theorem sort_two {x y : ℝ} (h : x ≤ y) : sort [x, y] = [x, y] := by
  unfold sort
  exact List.mergeSort_of_pairwise (by simpa using h)

/-- The scan with three points, if the middle one is in the valley and the others are not. -/
theorem scan_two (ht : Sound tol toms) (hs : Succeeds toms) {f : ℝ → F} {lo hi mid z₁ z₂ : ℝ} (hf : Valley f lo hi z₁ z₂) (hmid : mid = lo + (hi - lo) / 2) (h1 : lo < z₁) (h2 : z₁ < mid)
    (h3 : mid < z₂) (h4 : z₂ < hi) (hgap : ∀ x y, lo ≤ x → x ≤ y → y ≤ hi → |x - z₁| ≤ tol x → |y - z₂| ≤ tol y → gap y < y - x) :
    ∃ x y, enumerate toms brent f lo hi 3 = [x, y] ∧ |x - z₁| ≤ tol x ∧ |y - z₂| ≤ tol y ∧ lo ≤ x ∧ x ≤ mid ∧ mid ≤ y ∧ y ≤ hi := by
  have hlh : lo < hi := by linarith
  obtain ⟨x, x1, x2, x3, x4⟩ := cell_left (brent := brent) ht hs (hf.mono le_rfl (by linarith : mid ≤ hi)) h1 h2 h3 false
  obtain ⟨y, y1, y2, y3, y4⟩ := cell_right (brent := brent) ht hs (hf.mono (by linarith : lo ≤ mid) le_rfl) h2 h3 h4 true
  refine ⟨x, y, ?_, x4, y4, x2, x3, y2, y3⟩
  unfold enumerate
  rw [if_neg (not_not.mpr hlh), max_self, linspace_three, ← hmid]
  simp only [cells, List.isEmpty_cons, List.isEmpty_nil, x1, y1, List.append_nil, List.cons_append, List.nil_append]
  rw [sort_two (x3.trans y2)]
  have := hgap x y x2 (x3.trans y2) y3 x4 y4
  simp only [dedup]
  rw [if_pos (by rwa [abs_of_nonneg (by linarith)])]

/-- The scan with three points, if the first is in the valley and the last is not. -/
theorem scan_one (h0 : ∀ x, 0 ≤ tol x) (ht : Sound tol toms) (hs : Succeeds toms) {f : ℝ → F} {lo hi z₁ z₂ : ℝ} (hf : Valley f lo hi z₁ z₂) (h1 : z₁ < lo) (h2 : lo < z₂) (h3 : z₂ < hi) :
    ∃ x, enumerate toms brent f lo hi 3 = [x] ∧ |x - z₂| ≤ tol x ∧ lo ≤ x ∧ x ≤ hi := by
  have hlh : lo < hi := h2.trans h3
  obtain ⟨mid, hmid⟩ : ∃ mid, mid = lo + (hi - lo) / 2 := ⟨_, rfl⟩
  have m1 : lo < mid := by linarith
  have m2 : mid < hi := by linarith
  have key : ∃ x, cell toms brent f lo mid false ++ cell toms brent f mid hi true = [x] ∧ |x - z₂| ≤ tol x ∧ lo ≤ x ∧ x ≤ hi := by
    rcases lt_trichotomy mid z₂ with h | h | h
    · obtain ⟨x, x1, x2, x3, x4⟩ := cell_right (brent := brent) ht hs (hf.mono m1.le le_rfl) (h1.trans m1) h h3 true
      exact ⟨x, by rw [cell_inside (hf.mono le_rfl m2.le) h1 m1 h.le, x1]; rfl, x4, by linarith, x3⟩
    · refine ⟨mid, ?_, by rw [h, sub_self, abs_zero]; exact h0 _, m1.le, m2.le⟩
      rw [cell_inside (hf.mono le_rfl m2.le) h1 m1 h.le]
      obtain ⟨g, g1, g2, g3⟩ := hf mid m1.le m2.le
      obtain ⟨g', g1', -, -⟩ := hf hi hlh.le le_rfl
      have : g = 0 := le_antisymm (g2.mpr ⟨(h1.trans m1).le, h.le⟩) (not_lt.mp fun hg => absurd (g3.mp hg).2 (by rw [h]; exact lt_irrefl _))
      unfold cell
      rw [g1, g1', if_neg (by simp [isFinite]), if_pos (by simp [F.eq, this])]
      rfl
    · obtain ⟨x, x1, x2, x3, x4⟩ := cell_right (brent := brent) ht hs (hf.mono le_rfl m2.le) h1 h2 h false
      exact ⟨x, by rw [x1, cell_beyond (hf.mono m1.le le_rfl) h m2]; rfl, x4, x2, by linarith⟩
  obtain ⟨x, x1, x2, x3, x4⟩ := key
  refine ⟨x, ?_, x2, x3, x4⟩
  unfold enumerate
  rw [if_neg (not_not.mpr hlh), max_self, linspace_three, ← hmid]
  simp only [cells, List.isEmpty_cons, List.isEmpty_nil, List.append_nil, x1]
  simp [sort, dedup]

/-- The minimum of the fit is kept if none of the points that are tried is lower. -/
theorem refineMin_points {minimize : Minimizer} {nll : ℝ → F} {m : ℝ} {ref lo hi : ℝ} {n : ℕ} (h : ∀ x ∈ linspace lo hi n, ¬ lt (nll x) (fin m)) : refineMin minimize nll (fin m) ref lo hi n = (fin m, ref) := by
  unfold refineMin
  split
  · rfl
  · have : (linspace lo hi n).foldl (better nll) (fin m, ref) = (fin m, ref) := by
      generalize linspace lo hi n = l at h
      induction l with
      | nil => rfl
      | cons x l ih =>
        rw [List.foldl_cons]
        have hb : better nll (fin m, ref) x = (fin m, ref) := by
          unfold better
          rw [if_neg fun hx => h x (by simp) hx.2]
        rw [hb]
        exact ih fun y hy => h y (by simp [hy])
    simp only [this]
    rw [if_pos]
    simp [sub, add, neg, le]
    norm_num

/-- The search for a two-sided interval ends with the first scan. -/
theorem search_two {fuel : ℕ} {minimize : Minimizer} {nll : ℝ → F} {thr : F} {P : Problem} {nMulti : ℕ} {m : F} {ref x y : ℝ}
    (hm : refineMin minimize nll P.mllhd P.reference P.scanLo P.scanHi (max 2 nMulti) = (m, ref)) (he : enumerate toms brent (profile nll m thr) P.scanLo P.scanHi 3 = [x, y])
    (hx : x < ref - 1e-12) (hy : ref + 1e-12 < y) : chi2Test fuel toms brent minimize nll thr .twoSided P 3 nMulti = some (.ok [fin x, fin y]) := by
  rw [C23_two_sided_partial fuel toms brent minimize nll thr P 3 nMulti le_rfl m ref hm ⟨x, by simp [he], hx⟩ ⟨y, by simp [he], hy⟩, he]
  rfl

/-- The same for one limit. -/
theorem search_right {fuel : ℕ} {minimize : Minimizer} {nll : ℝ → F} {thr : F} {P : Problem} {nMulti : ℕ} {m : F} {ref y : ℝ} {l : List ℝ}
    (hm : refineMin minimize nll P.mllhd P.reference P.scanLo P.scanHi (max 2 nMulti) = (m, ref)) (he : enumerate toms brent (profile nll m thr) P.scanLo P.scanHi 3 = l ++ [y])
    (hl : ∀ x ∈ l, x ≤ ref + 1e-12) (hy : ref + 1e-12 < y) : chi2Test fuel toms brent minimize nll thr .right P 3 nMulti = some (.ok [fin y]) := by
  unfold chi2Test
  simp only [hm, max_self]
  have hu : ¬ unfinished .right ref (l ++ [y]) := by
    rintro (⟨h, -⟩ | ⟨-, h⟩)
    · simp at h
    · exact h ⟨y, by simp, hy⟩
  rw [scanLoop]
  simp only [he, if_neg hu]
  have hf : (l ++ [y]).filter (fun r => decide (isRight ref r)) = [y] := by
    have h1 : l.filter (fun r => decide (isRight ref r)) = [] := List.filter_eq_nil_iff.mpr fun x hx h => absurd (of_decide_eq_true h) (not_lt.mpr (hl x hx))
    have h2 : [y].filter (fun r => decide (isRight ref r)) = [y] := List.filter_cons_of_pos (decide_eq_true hy)
    rw [List.filter_append, h1, h2, List.nil_append]
  unfold select
  simp only [hf]
  simp

end Verif.Interval
