import Verif.Chi2.Props

/-!
# C23: the windows of the search
-/

namespace Verif.Chi2
open Verif.Py F Verif.UpperLimit
open Classical

/-- There are roots on all sides that are asked for. -/
def Complete (t : LimitType) (ref : ℝ) (roots : List ℝ) : Prop := (t ≠ .right → ∃ r ∈ roots, r < ref - 1e-12) ∧ (t ≠ .left → ∃ r ∈ roots, ref + 1e-12 < r)

/-- The distances of the ends of the first window from the minimum, times a power of three, within the outer limits. -/
noncomputable def window (P : Problem) (ref : ℝ) (k : ℕ) : ℝ × ℝ := (max P.hardLo (ref - 3 ^ k * (ref - P.scanLo)), min P.hardHi (ref + 3 ^ k * (P.scanHi - ref)))

/-- It is larger than the previous one by more than the tolerance at one end at least. -/
def Wider (w w' : ℝ × ℝ) : Prop := w'.1 < w.1 - 1e-12 ∨ w.2 + 1e-12 < w'.2

/-- The roots on the sides that are asked for. -/
noncomputable def wanted (t : LimitType) (ref : ℝ) (roots : List ℝ) : List ℝ :=
  match t with
  | .left => roots.filter fun r => r < ref - 1e-12
  | .right => roots.filter fun r => ref + 1e-12 < r
  | .twoSided => roots

theorem unfinished_complete (t : LimitType) (ref : ℝ) (roots : List ℝ) : unfinished t ref roots ↔ ¬ Complete t ref roots := by
  unfold unfinished Complete isLeft isRight
  cases t <;> simp only [reduceCtorEq, or_false, false_or, or_true, true_and, false_and, ne_eq, not_true_eq_false, not_false_eq_true, false_imp_iff, true_imp_iff, and_true, forall_const, not_and_or] <;> tauto

theorem window_next {P : Problem} {ref : ℝ} (h1 : P.hardLo ≤ ref) (h2 : ref ≤ P.hardHi) (k : ℕ) :
    window P ref (k + 1) = (max P.hardLo (ref - 3 * (ref - (window P ref k).1)), min P.hardHi (ref + 3 * ((window P ref k).2 - ref))) := by
  have e1 : ref - 3 ^ (k + 1) * (ref - P.scanLo) = ref - 3 * (ref - (ref - 3 ^ k * (ref - P.scanLo))) := by ring
  have e2 : ref + 3 ^ (k + 1) * (P.scanHi - ref) = ref + 3 * ((ref + 3 ^ k * (P.scanHi - ref)) - ref) := by ring
  unfold window
  rw [e1, e2]
  generalize ref - 3 ^ k * (ref - P.scanLo) = a
  generalize ref + 3 ^ k * (P.scanHi - ref) = b
  refine Prod.ext ?_ ?_
  · show max P.hardLo (ref - 3 * (ref - a)) = max P.hardLo (ref - 3 * (ref - max P.hardLo a))
    rcases le_total P.hardLo a with h | h
    · rw [max_eq_right h]
    · rw [max_eq_left h, max_eq_left (by linarith), max_eq_left (by linarith)]
  · show min P.hardHi (ref + 3 * (b - ref)) = min P.hardHi (ref + 3 * (min P.hardHi b - ref))
    rcases le_total P.hardHi b with h | h
    · rw [min_eq_left h, min_eq_left (by linarith), min_eq_left (by linarith)]
    · rw [min_eq_right h]

theorem scanLoop_window (scan : ℝ → ℝ → List ℝ) (t : LimitType) {P : Problem} {ref : ℝ} (h1 : P.hardLo ≤ ref) (h2 : ref ≤ P.hardHi) (k : ℕ) :
    ∀ n j roots, k < n → (∀ i < k, ¬ Complete t ref (scan (window P ref (j + i)).1 (window P ref (j + i)).2) ∧ Wider (window P ref (j + i)) (window P ref (j + i + 1))) →
      Complete t ref (scan (window P ref (j + k)).1 (window P ref (j + k)).2) →
      scanLoop scan t ref P.hardLo P.hardHi n roots (window P ref j).1 (window P ref j).2 = scan (window P ref (j + k)).1 (window P ref (j + k)).2 := by
  induction k with
  | zero =>
    intro n j roots hn _ hc
    obtain ⟨n, rfl⟩ : ∃ n', n = n' + 1 := ⟨n - 1, by omega⟩
    rw [scanLoop]
    simp only [_root_.add_zero] at hc ⊢
    rw [if_neg (by rw [unfinished_complete]; exact not_not.mpr hc)]
  | succ k ih =>
    intro n j roots hn hk hc
    obtain ⟨n, rfl⟩ : ∃ n', n = n' + 1 := ⟨n - 1, by omega⟩
    obtain ⟨k1, k2⟩ := hk 0 (by omega)
    simp only [_root_.add_zero] at k1 k2
    have hw := window_next h1 h2 j (P := P)
    rw [scanLoop]
    simp only
    rw [if_pos ((unfinished_complete _ _ _).mpr k1), if_neg]
    · have := ih n (j + 1) (scan (window P ref j).1 (window P ref j).2) (by omega) (fun i hi => by
        have := hk (i + 1) (by omega)
        rwa [show j + (i + 1) = j + 1 + i by omega] at this) (by rwa [show j + (k + 1) = j + 1 + k by omega] at hc)
      rw [show j + (k + 1) = j + 1 + k by omega, ← this, hw]
    · rw [hw] at k2
      rintro ⟨a, b⟩
      rcases k2 with h | h
      · exact absurd a (not_le.mpr h)
      · exact absurd b (not_le.mpr h)

/-- C23: the search widens the window, up to three times, until there are roots on all sides that are asked for, and returns those of the first window with such roots. -/
theorem C23_windows (fuel : ℕ) (toms brent : Solver) (minimize : Minimizer) (nll : ℝ → F) (thr : F) (t : LimitType) (P : Problem) (nScan nMulti : ℕ) (hn : 3 ≤ nScan) (m : F) (ref : ℝ)
    (hm : refineMin minimize nll P.mllhd P.reference P.scanLo P.scanHi (max 2 nMulti) = (m, ref)) (h1 : P.hardLo ≤ P.scanLo) (h2 : P.scanLo ≤ ref) (h3 : ref ≤ P.scanHi) (h4 : P.scanHi ≤ P.hardHi)
    {k : ℕ} (hk : k < 4) (hw : ∀ j < k, Wider (window P ref j) (window P ref (j + 1)))
    (hj : ∀ j < k, ¬ Complete t ref (enumerate toms brent (profile nll m thr) (window P ref j).1 (window P ref j).2 nScan))
    (hc : Complete t ref (enumerate toms brent (profile nll m thr) (window P ref k).1 (window P ref k).2 nScan)) :
    chi2Test fuel toms brent minimize nll thr t P nScan nMulti =
      some (.ok ((wanted t ref (enumerate toms brent (profile nll m thr) (window P ref k).1 (window P ref k).2 nScan)).map fin)) := by
  have h0 : window P ref 0 = (P.scanLo, P.scanHi) := by
    unfold window
    rw [pow_zero, one_mul, one_mul, sub_sub_cancel, add_sub_cancel, max_eq_right h1, min_eq_right h4]
  have key := scanLoop_window (fun lo hi => enumerate toms brent (profile nll m thr) lo hi nScan) t (h1.trans h2) (h3.trans h4) k 4 0 [] hk (fun i hi => by
    rw [_root_.zero_add]
    exact ⟨hj i hi, hw i hi⟩) (by rw [_root_.zero_add]; exact hc)
  rw [h0, _root_.zero_add] at key
  unfold chi2Test
  simp only [hm, max_eq_right hn]
  rw [key]
  generalize enumerate toms brent (profile nll m thr) (window P ref k).1 (window P ref k).2 nScan = roots at hc
  have hL : (∃ r ∈ roots, r < ref - 1e-12) → ∃ x l, roots.filter (fun r => decide (isLeft ref r)) = x :: l := by
    rintro ⟨r, r1, r2⟩
    refine List.exists_cons_of_ne_nil fun h => ?_
    have := (List.mem_filter (p := fun r => decide (isLeft ref r))).mpr ⟨r1, decide_eq_true (show isLeft ref r from r2)⟩
    rw [h] at this
    simp at this
  have hR : (∃ r ∈ roots, ref + 1e-12 < r) → roots.filter (fun r => decide (isRight ref r)) ≠ [] := by
    rintro ⟨r, r1, r2⟩ h
    have := (List.mem_filter (p := fun r => decide (isRight ref r))).mpr ⟨r1, decide_eq_true (show isRight ref r from r2)⟩
    rw [h] at this
    simp at this
  unfold select
  cases t
  · obtain ⟨x, l, h⟩ := hL (hc.1 (by simp))
    simp only
    rw [if_pos (by rw [h]; simp)]
    rfl
  · simp only
    rw [if_pos (hR (hc.2 (by simp)))]
    rfl
  · obtain ⟨x, l, h⟩ := hL (hc.1 (by simp))
    have hR := hR (hc.2 (by simp))
    simp only
    cases hB : (roots.filter (fun r => decide (isRight ref r))).getLast? with
    | none =>
      rw [List.getLast?_eq_none_iff] at hB
      exact absurd hB hR
    | some y =>
      rw [h]
      rfl

/-- The profile `2 x² - 4` with a first window from -1 to 1: the roots are found in the second one, from -3 to 3. -/
example (fuel : ℕ) {toms brent : Solver} (ht : Sound (fun _ => 1e-3) toms) (hb : Sound (fun _ => 1e-3) brent) (hs : Succeeds toms) {minimize : Minimizer} (hmin : Honest minimize) (left right : Side) (nMulti : ℕ) :
    chi2Test fuel toms brent minimize (fun x => fin (x ^ 2)) (fin 4) .twoSided ⟨fin 0, 0, -1, 1, -100, 100, left, right⟩ 3 nMulti =
      some (.ok ((enumerate toms brent (profile (fun x => fin (x ^ 2)) (fin 0) (fin 4)) (-3) 3 3).map fin)) := by
  have hprof : profile (fun x => fin (x ^ 2)) (fin 0) (fin 4) = fun x => fin (2 * x ^ 2 - 4) := by
    funext x
    simp [profile, sub, scale, add, neg]
    ring
  have hw1 : window ⟨fin 0, 0, -1, 1, -100, 100, left, right⟩ 0 1 = (-3, 3) := by
    unfold window
    norm_num
  have hw0 : window ⟨fin 0, 0, -1, 1, -100, 100, left, right⟩ 0 0 = (-1, 1) := by
    unfold window
    norm_num
  have hsq : √2 ^ 2 = 2 := Real.sq_sqrt (by norm_num)
  have h1 : 11 / 10 < √2 := Real.lt_sqrt_of_sq_lt (by norm_num)
  have h2 : √2 < 2 := by nlinarith
  have hres : Resolved (fun x => 2 * x ^ 2 - 4) (-3) 3 3 := by
    intro i hi z h1 h2 h3
    beta_reduce at h3 ⊢
    have : i = 0 ∨ i = 1 := by omega
    rcases this with rfl | rfl
    all_goals
      simp only [gridPoint] at *
      norm_num at *
      intro y hy1 hy2 hy3
      have h : (y - z) * (y + z) = 0 := by nlinarith
      rcases mul_eq_zero.1 h with h | h
      · linarith
      · obtain rfl : z = 0 := by linarith
        norm_num at h3
  have found : ∀ z, |z| = √2 → ∃ q ∈ enumerate toms brent (fun x => fin (2 * x ^ 2 - 4)) (-3) 3 3, |z - q| < 1 := by
    intro z hz
    have hz2 : z ^ 2 = 2 := by rw [← sq_abs, hz, hsq]
    have hz3 : |z| ≤ 3 := by linarith
    obtain ⟨q, hq, r, k1, k2⟩ := C23_scan_complete_partial ht hs (by fun_prop) (-3) 3 3 (by norm_num) le_rfl hres z (abs_le.mp hz3).1 (abs_le.mp hz3).2 (by linarith)
    refine ⟨q, hq, ?_⟩
    have hr : |r| ≤ 4 := by
      have := abs_sub_abs_le_abs_sub r z
      rw [abs_sub_comm] at this
      linarith
    have hm : max 1e-10 (1e-8 * |r|) ≤ 1 / 10 := max_le (by norm_num) (by linarith)
    have := abs_sub_le z r q
    linarith
  refine (C23_windows fuel toms brent minimize (fun x => fin (x ^ 2)) (fin 4) .twoSided ⟨fin 0, 0, -1, 1, -100, 100, left, right⟩ 3 nMulti le_rfl (fin 0) 0
    (refineMin_keep hmin (fun x => by simp [lt, sq_nonneg]) _ _ _ _) (by norm_num) (by norm_num) (by norm_num) (by norm_num) (k := 1) (by norm_num) ?_ ?_ ?_).trans ?_
  · intro j hj
    obtain rfl : j = 0 := by omega
    rw [hw0, hw1]
    exact .inl (by norm_num)
  · intro j hj
    obtain rfl : j = 0 := by omega
    rw [hw0, hprof]
    rintro ⟨h, -⟩
    obtain ⟨r, hr, -⟩ := h (by simp)
    obtain ⟨-, -, x, x1, x2, -, x3⟩ := (enumerate_spec (fun _ => by norm_num) ht hb _ _ _ _).2 r hr
    have : (0 : ℝ) ≤ 2 * x ^ 2 - 4 := x3
    nlinarith
  · rw [hw1, hprof]
    obtain ⟨a, a1, a2⟩ := found (-√2) (by rw [abs_neg, abs_of_nonneg (by positivity)])
    obtain ⟨b, b1, b2⟩ := found √2 (abs_of_nonneg (by positivity))
    exact ⟨fun _ => ⟨a, a1, by norm_num; linarith [(abs_lt.mp a2).1, (abs_lt.mp a2).2]⟩, fun _ => ⟨b, b1, by norm_num; linarith [(abs_lt.mp b2).1, (abs_lt.mp b2).2]⟩⟩
  · rw [hw1]
    rfl

end Verif.Chi2
