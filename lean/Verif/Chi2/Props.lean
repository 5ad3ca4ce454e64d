import Verif.Chi2.Lemmas
import Verif.UpperLimit.Props

/-!
# C22-C24, C75: confidence intervals from the profile likelihood
-/

set_option linter.unusedSectionVars false

namespace Verif.Chi2
open Verif.Py F Verif.UpperLimit
open Classical

/-! ## C24 -/

/-- C24: the re-anchored minimum belongs to its position and is not above the fitted minimum, for every function and window. -/
theorem C24_anchor {minimize : Minimizer} (hm : Honest minimize) (nll : ℝ → F) (mllhd : F) (ref lo hi : ℝ) (n : ℕ) :
    let r := refineMin minimize nll mllhd ref lo hi n
    (r.1 = mllhd ∧ r.2 = ref) ∨ (r.1 = nll r.2 ∧ lt r.1 mllhd ∧ lo ≤ r.2 ∧ r.2 ≤ hi) := by
  rcases refineMin_anchor hm nll mllhd ref lo hi n with h | h
  · left; rw [h]; exact ⟨rfl, rfl⟩
  · exact Or.inr h

theorem le_trans' {u v w : F} : le u v → le v w → le u w := by
  cases u <;> cases v <;> cases w <;> simp [le]
  intro h1 h2
  linarith

theorem le_of_lt' {u v : F} : lt u v → le u v := by
  cases u <;> cases v <;> simp [le, lt]
  intro h; exact h.le

/-- C24: a fitted minimum that is a number is replaced if one of the `n` equidistant points has a value lower by more than
`1e-9`: afterwards `m - 1e-9` is not above any finite value on the grid. -/
theorem C24_below_scanned_partial {minimize : Minimizer} (nll : ℝ → F) (mllhd : F) (hn : mllhd ≠ nan)
    (ref lo hi : ℝ) (n i : ℕ) (hlo : lo < hi) (h2 : 2 ≤ n) (hi' : i < n) (v : ℝ)
    (hv : nll (lo + i * ((hi - lo) / (n - 1))) = fin v) :
    le (sub (refineMin minimize nll mllhd ref lo hi n).1 (fin 1e-9)) (fin v) := by
  have hx : lo + i * ((hi - lo) / (n - 1)) ∈ linspace lo hi n := by
    simp only [linspace, List.mem_map, List.mem_range]
    exact ⟨i, hi', rfl⟩
  have hsub : ∀ u : F, u ≠ nan → le (sub u (fin 1e-9)) u := by
    intro u hu
    cases u <;> simp_all [le, sub, add, neg]
    norm_num
  obtain ⟨b1, b2, b3⟩ := foldl_better_le nll (linspace lo hi n) (mllhd, ref) hn
  have b4 := b2 _ hx ⟨v, hv⟩
  rw [hv] at b4
  have hfin : ∀ b : F × ℝ, isFinite b.1 → b.1 ≠ nan := by
    rintro ⟨u, x⟩
    cases u <;> simp [isFinite]
  unfold refineMin
  rw [if_neg (by rw [not_or, not_not, not_lt]; exact ⟨hlo, h2⟩)]
  simp only
  split
  · rename_i h
    exact le_trans' h b4
  · split
    · split
      · rename_i res _
        split
        · rename_i hlt
          exact le_trans' (hsub _ (hfin res hlt.1)) (le_trans' (le_of_lt' hlt.2) b4)
        · exact le_trans' (hsub _ b1) b4
      · exact le_trans' (hsub _ b1) b4
    · exact le_trans' (hsub _ b1) b4

/-- A minimiser for the examples: the left end of the interval. -/
noncomputable def leftEnd : Minimizer := fun nll a b => if a ≤ b then some (nll a, a) else none

theorem leftEnd_honest : Honest leftEnd := by
  intro nll a b v x h
  unfold leftEnd at h
  split at h
  · rename_i hab
    simp only [Option.some.injEq, Prod.mk.injEq] at h
    obtain ⟨rfl, rfl⟩ := h
    exact ⟨rfl, le_refl _, hab⟩
  · simp at h

-- the fitted minimum 0 at 0 of a profile that is lower at -3 is replaced
example : refineMin leftEnd (fun x => fin (x + 1)) (fin 0) 0 (-3) 3 2 = (fin (-2), -3) := by
  unfold refineMin
  rw [if_neg (by norm_num), linspace_two]
  have h1 : better (fun x => fin (x + 1)) (fin 0, 0) (-3) = (fin (-2), -3) := by
    unfold better
    norm_num [isFinite, lt]
  have h2 : better (fun x => fin (x + 1)) (fin (-2), -3) 3 = (fin (-2), -3) := by
    unfold better
    norm_num [isFinite, lt]
  simp only [List.foldl_cons, List.foldl_nil, h1, h2]
  rw [if_neg (by simp only [sub, add, neg, le]; norm_num), if_pos (by norm_num)]
  norm_num [leftEnd, lt]

/-- The full claim is false when the fit returned nan: the nan is kept even if the profile is finite everywhere, so that every
later comparison fails. -/
theorem C24_nan_minimum_is_kept_fails (minimize : Minimizer) (nll : ℝ → F) (ref lo hi : ℝ) (n : ℕ) :
    (refineMin minimize nll nan ref lo hi n).1 = nan := by
  have hb : ∀ l : List ℝ, ∀ b : F × ℝ, b.1 = nan → (l.foldl (better nll) b) = b := by
    intro l
    induction l with
    | nil => exact fun b _ => rfl
    | cons x l ih =>
      intro b hb
      have : better nll b x = b := by
        unfold better
        rw [if_neg]
        rw [hb]
        cases nll x <;> simp [lt]
      rw [List.foldl_cons, this, ih b hb]
  unfold refineMin
  split
  · rfl
  rw [hb _ _ rfl]
  simp only
  split
  · rfl
  · split
    · split
      · rename_i res _
        split
        · rename_i hlt
          have := hlt.2
          revert this
          cases res.1 <;> simp [lt]
        · rfl
      · rfl
    · rfl

/-! ## C22 -/

/-- The problems `chi2_test` prepares: for the parameter of interest, or for a nuisance parameter, with the limits between which
it may search: `±1e5` for the parameter of interest, zero below if negative values are not allowed and no limit on the left
side is asked for; the bounds of a nuisance parameter. -/
def Prepared (t : LimitType) (P : Problem) (lo hi : ℝ) : Prop :=
  (∃ allowNegative muhat mllhd sigma, P = poiProblem t allowNegative muhat mllhd sigma ∧
    lo = (if allowNegative = false ∧ t = .right then 0 else -1e5) ∧ hi = 1e5) ∨
  (∃ theta mllhd cfgLo cfgHi, P = nuisanceProblem theta mllhd cfgLo cfgHi ∧ lo = cfgLo.getD (-1e5) ∧ hi = cfgHi.getD 1e5)

theorem Prepared.window {t : LimitType} {P : Problem} {lo hi : ℝ} (hP : Prepared t P lo hi) :
    P.hardLo = lo ∧ P.hardHi = hi ∧ lo ≤ P.scanLo ∧ P.scanHi ≤ hi := by
  rcases hP with ⟨a, mu, m, s, rfl, rfl, rfl⟩ | ⟨th, m, clo, chi, rfl, rfl, rfl⟩
  · refine ⟨?_, rfl, ?_, min_le_left _ _⟩
    · cases a <;> cases t <;> simp [poiProblem]
    · cases a <;> cases t <;> simp [poiProblem]
  · exact ⟨rfl, rfl, le_max_left _ _, min_le_left _ _⟩

/-- What one side may be given when the scan found nothing there: nan, the limit of the search, or a crossing. -/
def SideValue (nll : ℝ → F) (m thr : F) (tol : ℝ → ℝ) (limit : ℝ) (v : F) : Prop :=
  v = nan ∨ v = fin limit ∨ ∃ x, v = fin x ∧ Crosses nll m thr (tol x) x

theorem prepared_fallback {t : LimitType} {P : Problem} {lo hi : ℝ} (hP : Prepared t P lo hi) (o : ℝ) :
    (t ≠ .right → P.left.fallback o = nan ∨ P.left.fallback o = fin P.hardLo) ∧
    (P.right.fallback o = nan ∨ P.right.fallback o = fin P.hardHi) := by
  rcases hP with ⟨a, mu, m, s, rfl, -, -⟩ | ⟨th, m, lo, hi, rfl, -, -⟩
  · constructor
    · intro ht
      simp only [poiProblem]
      split
      · right
        cases t <;> simp_all
      · exact Or.inl rfl
    · simp only [poiProblem]
      split
      · exact Or.inr rfl
      · exact Or.inl rfl
  · constructor
    · intro _
      simp only [nuisanceProblem]
      split
      · exact Or.inr rfl
      · exact Or.inl rfl
    · simp only [nuisanceProblem]
      split
      · exact Or.inr rfl
      · exact Or.inl rfl

/-- C22: whatever `chi2_test` returns, for every profile, scan size and tolerance. `NLL_min` is the fitted minimum or a lower
value found by the scan. Either the values are those found by the scan: crossings of the threshold by `2 (NLL - NLL_min)`,
ascending and distinct, within the limits of the search, on the requested side of the minimum, for two-sided limits at least
one on each side. Or a side
without such values has one value from the fallback: a crossing, nan, or the limit of the search. -/
theorem C22_crossings {tol : ℝ → ℝ} (h0 : ∀ x, 0 ≤ tol x) {toms brent : Solver} (ht : Sound tol toms)
    (hb : Sound tol brent) {minimize : Minimizer} (hm : Honest minimize) (nll : ℝ → F) (thr : F) (t : LimitType) (P : Problem)
    (lo hi : ℝ) (hP : Prepared t P lo hi) (nScan nMulti fuel : ℕ) (L : List F)
    (h : chi2Test fuel toms brent minimize nll thr t P nScan nMulti = some (.ok L)) :
    ∃ m ref, Anchor nll P m ref ∧
      ((∃ l : List ℝ, l ≠ [] ∧ L = l.map fin ∧ Ascending l ∧ (∀ x ∈ l, Crosses nll m thr (tol x) x) ∧
          (∀ x ∈ l, lo ≤ x ∧ x ≤ hi) ∧
          (t = .left → ∀ x ∈ l, x < ref) ∧ (t = .right → ∀ x ∈ l, ref < x) ∧
          (t = .twoSided → (∃ x ∈ l, x < ref) ∧ (∃ x ∈ l, ref < x))) ∨
       (∃ v, (t = .left ∧ L = [v] ∧ SideValue nll m thr tol lo v) ∨
          (t = .right ∧ L = [v] ∧ SideValue nll m thr tol hi v)) ∨
       (∃ v w, t = .twoSided ∧ L = [v, w] ∧
          (SideValue nll m thr tol lo v ∨ ∃ x, v = fin x ∧ x < ref ∧ lo ≤ x ∧ x ≤ hi ∧ Crosses nll m thr (tol x) x) ∧
          (SideValue nll m thr tol hi w ∨ ∃ x, w = fin x ∧ ref < x ∧ lo ≤ x ∧ x ≤ hi ∧ Crosses nll m thr (tol x) x))) := by
  obtain ⟨w1, w2, w3, w4⟩ := hP.window
  have hanchor := C24_anchor hm nll P.mllhd P.reference P.scanLo P.scanHi (max 2 nMulti)
  unfold chi2Test at h
  simp only at h hanchor
  generalize refineMin minimize nll P.mllhd P.reference P.scanLo P.scanHi (max 2 nMulti) = mr at h hanchor
  obtain ⟨m, ref⟩ := mr
  simp only at h hanchor
  refine ⟨m, ref, hanchor, ?_⟩
  obtain ⟨a, b, hs, hloa, hbhi⟩ := scanLoop_within (fun lo hi => enumerate toms brent (profile nll m thr) lo hi (max 3 nScan)) t ref P.hardLo
    P.hardHi 3 [] P.scanLo P.scanHi (by rw [w1]; exact w3) (by rw [w2]; exact w4)
  rw [hs] at h
  obtain ⟨e1, e2⟩ := enumerate_spec h0 ht hb (profile nll m thr) a b (max 3 nScan)
  generalize enumerate toms brent (profile nll m thr) a b (max 3 nScan) = roots at h e1 e2
  have e3 : ∀ x ∈ roots, Crosses nll m thr (tol x) x := fun x hx => (e2 x hx).crosses
  have e4 : ∀ x ∈ roots, lo ≤ x ∧ x ≤ hi := fun x hx =>
    ⟨(w1 ▸ hloa).trans (e2 x hx).1.1, (e2 x hx).1.2.trans (w2 ▸ hbhi)⟩
  have hl : ∀ v, t ≠ .right → legacySide fuel toms (profile nll m thr) P.left = some (.ok v) →
      SideValue nll m thr tol lo v := by
    intro v htr hv
    rcases legacySide_ok ht hv with ⟨o, rfl⟩ | ⟨x, a, b, g1, g2⟩
    · rcases (prepared_fallback hP o).1 htr with g | g
      · exact Or.inl g
      · exact Or.inr (Or.inl (by rw [g, w1]))
    · exact Or.inr (Or.inr ⟨x, g1, g2.crosses⟩)
  have hr : ∀ v, legacySide fuel toms (profile nll m thr) P.right = some (.ok v) → SideValue nll m thr tol hi v := by
    intro v hv
    rcases legacySide_ok ht hv with ⟨o, rfl⟩ | ⟨x, a, b, g1, g2⟩
    · rcases (prepared_fallback hP o).2 with g | g
      · exact Or.inl g
      · exact Or.inr (Or.inl (by rw [g, w2]))
    · exact Or.inr (Or.inr ⟨x, g1, g2.crosses⟩)
  generalize legacySide fuel toms (profile nll m thr) P.left = ll at h hl
  generalize legacySide fuel toms (profile nll m thr) P.right = rr at h hr
  have hleft : ∀ x ∈ roots.filter (fun r => decide (isLeft ref r)), x ∈ roots ∧ x < ref := by
    intro x hx
    rw [List.mem_filter] at hx
    refine ⟨hx.1, ?_⟩
    have h2 := of_decide_eq_true hx.2
    unfold isLeft at h2
    have : (0 : ℝ) < 1e-12 := by norm_num
    linarith
  have hright : ∀ x ∈ roots.filter (fun r => decide (isRight ref r)), x ∈ roots ∧ ref < x := by
    intro x hx
    rw [List.mem_filter] at hx
    refine ⟨hx.1, ?_⟩
    have h2 := of_decide_eq_true hx.2
    unfold isRight at h2
    have : (0 : ℝ) < 1e-12 := by norm_num
    linarith
  have hlsub : (roots.filter (fun r => decide (isLeft ref r))).Sublist roots := List.filter_sublist
  have hrsub : (roots.filter (fun r => decide (isRight ref r))).Sublist roots := List.filter_sublist
  unfold select at h
  simp only at h
  generalize roots.filter (fun r => decide (isLeft ref r)) = left at h hleft hlsub
  generalize roots.filter (fun r => decide (isRight ref r)) = right at h hright hrsub
  cases t with
  | left =>
    simp only at h
    split at h
    · rename_i hne
      simp only [Option.some.injEq, Except.ok.injEq] at h
      refine Or.inl ⟨left, hne, h.symm, e1.sublist hlsub, fun x hx => e3 x (hleft x hx).1,
        fun x hx => e4 x (hleft x hx).1, fun _ x hx => (hleft x hx).2,
        by simp, by simp⟩
    · rcases ll with _ | _ | v
      · simp at h
      · simp [Except.map] at h
      · simp only [Option.map_some, Except.map, Option.some.injEq, Except.ok.injEq] at h
        exact Or.inr (Or.inl ⟨v, Or.inl ⟨rfl, h.symm, hl v (by simp) rfl⟩⟩)
  | right =>
    simp only at h
    split at h
    · rename_i hne
      simp only [Option.some.injEq, Except.ok.injEq] at h
      refine Or.inl ⟨right, hne, h.symm, e1.sublist hrsub, fun x hx => e3 x (hright x hx).1,
        fun x hx => e4 x (hright x hx).1, by simp,
        fun _ x hx => (hright x hx).2, by simp⟩
    · rcases rr with _ | _ | v
      · simp at h
      · simp [Except.map] at h
      · simp only [Option.map_some, Except.map, Option.some.injEq, Except.ok.injEq] at h
        exact Or.inr (Or.inl ⟨v, Or.inr ⟨rfl, h.symm, hr v rfl⟩⟩)
  | twoSided =>
    simp only at h
    split at h
    · rename_i x y hx hy
      have hx' := hleft x (List.mem_of_mem_head? hx)
      have hy' := hright y (List.mem_of_getLast? hy)
      simp only [Option.some.injEq, Except.ok.injEq] at h
      refine Or.inl ⟨roots, List.ne_nil_of_mem hx'.1, h.symm, e1, e3, e4, by simp, by simp, fun _ => ⟨⟨x, hx'⟩, ⟨y, hy'⟩⟩⟩
    · rename_i x hx hy
      have hx' := hleft x (List.mem_of_mem_head? hx)
      rcases rr with _ | _ | v
      · simp at h
      · simp [Except.map] at h
      · simp only [Option.map_some, Except.map, Option.some.injEq, Except.ok.injEq] at h
        exact Or.inr (Or.inr ⟨fin x, v, rfl, h.symm, Or.inr ⟨x, rfl, hx'.2, (e4 x hx'.1).1, (e4 x hx'.1).2, e3 x hx'.1⟩, Or.inl (hr v rfl)⟩)
    · rename_i y hx hy
      have hy' := hright y (List.mem_of_getLast? hy)
      rcases ll with _ | _ | v
      · simp at h
      · simp [Except.map] at h
      · simp only [Option.map_some, Except.map, Option.some.injEq, Except.ok.injEq] at h
        exact Or.inr (Or.inr ⟨v, fin y, rfl, h.symm, Or.inl (hl v (by simp) rfl), Or.inr ⟨y, rfl, hy'.2, (e4 y hy'.1).1, (e4 y hy'.1).2, e3 y hy'.1⟩⟩)
    · rcases ll with _ | _ | v
      · simp at h
      · simp at h
      · rcases rr with _ | _ | w
        · simp at h
        · simp [Except.map] at h
        · simp only [Option.map_some, Except.map, Option.some.injEq, Except.ok.injEq] at h
          exact Or.inr (Or.inr ⟨v, w, rfl, h.symm, Or.inl (hl v (by simp) rfl), Or.inl (hr w rfl)⟩)

/-! ## C75 -/

theorem iterate_mul (c : ℝ) (n : ℕ) (x : ℝ) : (fun h => h * c)^[n] x = x * c ^ n := by
  induction n generalizing x with
  | zero => simp
  | succ n ih => rw [Function.iterate_succ_apply, ih]; ring

theorem iterate_away (t : ℝ) (n : ℕ) (x : ℝ) : (fun h => 2 * h - t)^[n] x = t + (x - t) * 2 ^ n := by
  induction n generalizing x with
  | zero => simp
  | succ n ih => rw [Function.iterate_succ_apply, ih]; ring

theorem iterate_towards (t : ℝ) (n : ℕ) (x : ℝ) : (fun l => (l + t) / 2)^[n] x = t + (x - t) * 0.5 ^ n := by
  induction n generalizing x with
  | zero => simp
  | succ n ih => rw [Function.iterate_succ_apply, ih]; ring

/-- Doubling reaches every bound. -/
theorem exists_large (x b : ℝ) (hx : 0 < x) : ∃ n : ℕ, b ≤ x * 2 ^ n := by
  obtain ⟨n, hn⟩ := pow_unbounded_of_one_lt (b / x) (by norm_num : (1 : ℝ) < 2)
  refine ⟨n, ?_⟩
  rw [div_lt_iff₀ hx] at hn
  linarith

/-- Halving gets below every positive number. -/
theorem exists_small (x e : ℝ) (hx : 0 < x) (he : 0 < e) : ∃ n : ℕ, x * 0.5 ^ n ≤ e := by
  obtain ⟨n, hn⟩ := exists_pow_lt_of_lt_one (div_pos he hx) (by norm_num : (0.5 : ℝ) < 1)
  refine ⟨n, ?_⟩
  rw [lt_div_iff₀ hx] at hn
  linarith

theorem poi_stops (t : LimitType) (a : Bool) (mu : ℝ) (m s : F) :
    (poiProblem t a mu m s).left.Stops ∧ (poiProblem t a mu m s).right.Stops := by
  have hx : 0 < positiveOr1 s := by
    unfold positiveOr1
    split
    · split
      · assumption
      · exact one_pos
    · exact one_pos
  have hneg : ∀ y, y < 0 → (∃ n : ℕ, (fun h => h * 2)^[n] y ≤ -1e5) ∧ ∃ n : ℕ, -1e-5 ≤ (fun h : ℝ => h * 0.5)^[n] y := by
    intro y hy
    obtain ⟨n, hn⟩ := exists_large (-y) 1e5 (by linarith)
    obtain ⟨k, hk⟩ := exists_small (-y) 1e-5 (by linarith) (by norm_num)
    refine ⟨⟨n, ?_⟩, ⟨k, ?_⟩⟩
    · rw [iterate_mul]; linarith
    · rw [iterate_mul]; linarith
  have hpos : ∀ y, 0 < y → (∃ n : ℕ, 1e5 ≤ (fun h => h * 2)^[n] y) ∧ ∃ n : ℕ, (fun h : ℝ => h * 0.5)^[n] y ≤ 1e-5 := by
    intro y hy
    obtain ⟨n, hn⟩ := exists_large y 1e5 hy
    obtain ⟨k, hk⟩ := exists_small y 1e-5 hy (by norm_num)
    refine ⟨⟨n, ?_⟩, ⟨k, ?_⟩⟩
    · rw [iterate_mul]; linarith
    · rw [iterate_mul]; linarith
  simp only [poiProblem]
  generalize positiveOr1 s = x at hx
  constructor
  · have hin : (if close0 mu ∨ 0 < mu then (-1 : ℝ) else mu - 1.5 * x) < 0 := by
      split
      · norm_num
      · rename_i hc
        rw [not_or, not_lt] at hc
        nlinarith [hc.2]
    have hout : (if close0 mu ∨ 0 < mu then (-1 : ℝ) else mu - 2.5 * x) < 0 := by
      split
      · norm_num
      · rename_i hc
        rw [not_or, not_lt] at hc
        nlinarith [hc.2]
    refine ⟨(hneg _ hout).1, (hneg _ hin).2, ?_⟩
    intro r stop hr
    replace hr : (if 0 < mu then some (mu, fun l : ℝ => l ≤ 1e-5) else none) = some (r, stop) := hr
    split at hr
    · rename_i hmu
      simp only [Option.some.injEq, Prod.mk.injEq] at hr
      obtain ⟨rfl, rfl⟩ := hr
      exact (hpos _ hmu).2
    · simp at hr
  · have hin : 0 < (if close0 mu ∨ mu < 0 then (1 : ℝ) else mu + 1.5 * x) := by
      split
      · norm_num
      · rename_i hc
        rw [not_or, not_lt] at hc
        nlinarith [hc.2]
    have hout : 0 < (if close0 mu ∨ mu < 0 then (1 : ℝ) else mu + 2.5 * x) := by
      split
      · norm_num
      · rename_i hc
        rw [not_or, not_lt] at hc
        nlinarith [hc.2]
    refine ⟨(hpos _ hout).1, (hpos _ hin).2, ?_⟩
    intro r stop hr
    replace hr : (if mu < 0 then some (mu, fun l : ℝ => -1e-5 ≤ l) else none) = some (r, stop) := hr
    split at hr
    · rename_i hmu
      simp only [Option.some.injEq, Prod.mk.injEq] at hr
      obtain ⟨rfl, rfl⟩ := hr
      exact (hneg _ hmu).2
    · simp at hr

theorem nuisance_stops (th : ℝ) (m : F) (lo hi : Option ℝ) :
    (nuisanceProblem th m lo hi).left.Stops ∧ (nuisanceProblem th m lo hi).right.Stops := by
  simp only [nuisanceProblem]
  have hL : 0 < max (|th - lo.getD (-1e5)| * 0.5) 0.5 := lt_of_lt_of_le (by norm_num) (le_max_right _ _)
  have hR : 0 < max (|hi.getD 1e5 - th| * 0.5) 0.5 := lt_of_lt_of_le (by norm_num) (le_max_right _ _)
  generalize max (|th - lo.getD (-1e5)| * 0.5) 0.5 = L at hL
  generalize max (|hi.getD 1e5 - th| * 0.5) 0.5 = R at hR
  constructor
  · refine ⟨?_, ?_, by simp⟩
    · obtain ⟨n, hn⟩ := exists_large L (th - lo.getD (-1e5)) hL
      refine ⟨n, ?_⟩
      dsimp only
      rw [iterate_away]
      nlinarith
    · obtain ⟨n, hn⟩ := exists_small (L * 0.5) 1e-10 (by linarith) (by norm_num)
      refine ⟨n, ?_⟩
      dsimp only
      rw [iterate_towards]
      nlinarith
  · refine ⟨?_, ?_, by simp⟩
    · obtain ⟨n, hn⟩ := exists_large R (hi.getD 1e5 - th) hR
      refine ⟨n, ?_⟩
      dsimp only
      rw [iterate_away]
      nlinarith
    · obtain ⟨n, hn⟩ := exists_small (R * 0.5) 1e-10 (by linarith) (by norm_num)
      refine ⟨n, ?_⟩
      dsimp only
      rw [iterate_towards]
      nlinarith

theorem legacySide_endsWith (toms : Solver) (f : ℝ → F) (s : Side) (hs : s.Stops) :
    ∃ r, EndsWith (fun fuel => legacySide fuel toms f s) r := by
  obtain ⟨r, h⟩ := legacySide_ends toms f s hs
  obtain ⟨M, -, hM⟩ := h 0
  exact ⟨r, M, hM⟩

/-- C75: the search of `chi2_test` ends, whatever the profile looks like (it may be nan, infinite or flat anywhere) and for
every fitted value, standard deviation and bounds. -/
theorem C75_ends (toms brent : Solver) (minimize : Minimizer) (nll : ℝ → F) (thr : F) (t : LimitType) (P : Problem)
    (lo hi : ℝ) (hP : Prepared t P lo hi) (nScan nMulti : ℕ) :
    ∃ r, EndsWith (fun fuel => chi2Test fuel toms brent minimize nll thr t P nScan nMulti) r := by
  have hst : P.left.Stops ∧ P.right.Stops := by
    rcases hP with ⟨a, mu, m, s, rfl, -, -⟩ | ⟨th, m, lo, hi, rfl, -, -⟩
    · exact poi_stops t a mu m s
    · exact nuisance_stops th m lo hi
  unfold chi2Test
  simp only
  generalize refineMin minimize nll P.mllhd P.reference P.scanLo P.scanHi (max 2 nMulti) = mr
  obtain ⟨l, N1, hl⟩ := legacySide_endsWith toms (profile nll mr.1 thr) P.left hst.1
  obtain ⟨r, N2, hr⟩ := legacySide_endsWith toms (profile nll mr.1 thr) P.right hst.2
  generalize scanLoop (fun lo hi => enumerate toms brent (profile nll mr.1 thr) lo hi (max 3 nScan)) t mr.2 P.hardLo P.hardHi 4 []
    P.scanLo P.scanHi = roots
  have key : ∃ x, select t mr.2 roots (some l) (some r) = some x := by
    unfold select
    simp only
    cases t with
    | left => simp only; split <;> simp
    | right => simp only; split <;> simp
    | twoSided =>
      simp only
      split
      · simp
      · simp
      · simp
      · cases l <;> simp
  obtain ⟨x, hx⟩ := key
  refine ⟨x, max N1 N2, fun n hn => ?_⟩
  have h1 := hl n (le_trans (le_max_left _ _) hn)
  have h2 := hr n (le_trans (le_max_right _ _) hn)
  simp only at h1 h2
  simp only [h1, h2, hx]

-- both kinds of problems, with awkward arguments: a flat profile, nan for the standard deviation, a value outside its bounds
example : Prepared .twoSided (poiProblem .twoSided false (-7) nan nan) (-1e5) 1e5 := Or.inl ⟨false, -7, nan, nan, rfl, rfl, rfl⟩
example : Prepared .right (poiProblem .right false 2 (fin 3) (fin 1)) 0 1e5 := Or.inl ⟨false, 2, fin 3, fin 1, rfl, rfl, rfl⟩
example : Prepared .left (nuisanceProblem 30 (fin 0) (some (-1)) (some 1)) (-1) 1 := Or.inr ⟨30, fin 0, some (-1), some 1, rfl, rfl, rfl⟩

/-! ## C22: where the fallback goes wrong -/

theorem walk_neg (f : ℝ → F) (go : F → Prop) (stop : ℝ → Prop) {c : ℝ} (hc : 0 < c) :
    ∀ (n : ℕ) (x y : ℝ), x < 0 → walk f go stop (fun l => l * c) n x = some y → y < 0 := by
  intro n
  induction n with
  | zero => intro x y _ h; simp [walk] at h
  | succ n ih =>
    intro x y hx h
    rw [walk] at h
    split at h
    · exact ih _ y (by nlinarith) h
    · simp only [Option.some.injEq] at h
      rw [← h]; exact hx

theorem legacySide_eq {fuel : ℕ} {toms : Solver} {f : ℝ → F} {s : Side} {o i : ℝ}
    (ho : walk f (fun v => lt v (fin 0)) s.outerStop s.expand fuel s.outer = some o)
    (hi : walk f (fun v => lt (fin 0) v) s.innerStop s.contract fuel s.inner = some i) (hr : s.retry = none) :
    legacySide fuel toms f s =
      match solveBracket toms f i o with
      | .error e => some (.error e)
      | .ok (_, o', x) => some (.ok (if isNan x then s.fallback o' else x)) := by
  unfold legacySide bracketAndSolve
  rw [ho, hi, hr]
  simp only [retryInner, Option.map_some]
  rcases solveBracket toms f i o with e | ⟨a, b, c⟩
  · rfl
  · rfl

/-- A profile with its minimum at zero; negative signal strengths are impossible. -/
noncomputable def halfProfile (x : ℝ) : F := if 0 ≤ x then fin (x ^ 2) else pinf

theorem refineMin_keep {minimize : Minimizer} (hm : Honest minimize) {nll : ℝ → F} {mllhd : F} (h : ∀ x, ¬ lt (nll x) mllhd)
    (ref lo hi : ℝ) (n : ℕ) : refineMin minimize nll mllhd ref lo hi n = (mllhd, ref) := by
  rcases refineMin_anchor hm nll mllhd ref lo hi n with g | g
  · exact g
  · exact absurd (g.1 ▸ g.2.1) (h _)

/-- A two-sided interval may contain nan instead of a crossing or a limit: this happens for every scan size when the profile is
infinite for negative signal strengths and the fit is at zero. -/
theorem C22_nan_in_interval_fails {minimize : Minimizer} (hm : Honest minimize) (nScan nMulti : ℕ) :
    ∃ x, EndsWith (fun fuel => chi2Test fuel exactSolve exactSolve minimize halfProfile (fin 4) .twoSided
      (poiProblem .twoSided false 0 (fin 0) (fin 1)) nScan nMulti) (.ok [nan, fin x]) := by
  have hkeep : ∀ lo hi n, refineMin minimize halfProfile (fin 0) 0 lo hi n = (fin 0, 0) := by
    intro lo hi n
    refine refineMin_keep hm (fun x => ?_) _ _ _ _
    unfold halfProfile
    split
    · simp only [lt, not_lt]; positivity
    · simp [lt]
  have hf : ∀ x, profile halfProfile (fin 0) (fin 4) x = if 0 ≤ x then fin (2 * x ^ 2 - 4) else pinf := by
    intro x
    unfold profile halfProfile
    split
    · simp only [sub, add, neg, scale]
      congr 1; ring
    · simp [sub, add, neg, scale]
  have hroots : ∀ a b n, ∀ r ∈ enumerate exactSolve exactSolve (profile halfProfile (fin 0) (fin 4)) a b n, 0 ≤ r := by
    intro a b n r hr
    obtain ⟨-, ⟨y, -, -, h1, h2⟩, -⟩ := (enumerate_spec (fun _ => le_refl 0) exactSolve_sound exactSolve_sound _ a b n).2 r hr
    have hy : y = r := by
      have := abs_nonpos_iff.1 h1
      linarith
    subst hy
    by_contra hc
    rw [hf, if_neg hc] at h2
    exact h2
  have hc0 : close0 0 := by norm_num [close0]
  have hleft : EndsWith (fun fuel => legacySide fuel exactSolve (profile halfProfile (fin 0) (fin 4))
      (poiProblem .twoSided false 0 (fin 0) (fin 1)).left) (.ok nan) := by
    have e1 : (poiProblem .twoSided false 0 (fin 0) (fin 1)).left.outer = -1 := by simp [poiProblem, hc0]
    have e2 : (poiProblem .twoSided false 0 (fin 0) (fin 1)).left.inner = -1 := by simp [poiProblem, hc0]
    have e3 : (poiProblem .twoSided false 0 (fin 0) (fin 1)).left.retry = none := by simp [poiProblem]
    obtain ⟨n, hn⟩ := (poi_stops .twoSided false 0 (fin 0) (fin 1)).1.inner
    obtain ⟨i, hi⟩ := walk_ends (profile halfProfile (fin 0) (fin 4)) (fun v => lt (fin 0) v) _ _ n _ hn
    refine ⟨n + 1, fun fuel hfuel => ?_⟩
    obtain ⟨k, rfl⟩ : ∃ k, fuel = k + 1 := ⟨fuel - 1, by omega⟩
    have w2 := hi _ hfuel
    rw [e2] at w2
    have hneg : i < 0 := walk_neg _ _ _ (c := 0.5) (by norm_num) _ _ _ (by norm_num) w2
    have w1 : walk (profile halfProfile (fin 0) (fin 4)) (fun v => lt v (fin 0))
        (poiProblem .twoSided false 0 (fin 0) (fin 1)).left.outerStop
        (poiProblem .twoSided false 0 (fin 0) (fin 1)).left.expand (k + 1) (-1) = some (-1) := by
      rw [walk, if_neg]
      rw [hf, if_neg (by norm_num)]
      simp [lt]
    beta_reduce
    rw [legacySide_eq (o := -1) (i := i) (by rw [e1]; exact w1) (by rw [e2]; exact w2) e3]
    unfold solveBracket
    rw [if_pos]
    · simp only [isNan, if_true, poiProblem]
      rw [if_neg (show ¬ (-1 : ℝ) ≤ -1e5 by norm_num)]
    · rw [hf, hf, if_neg (show ¬ (0 : ℝ) ≤ i by linarith), if_neg (show ¬ (0 : ℝ) ≤ -1 by norm_num)]
      left
      simp [sameSign, lt]
  have hright : ∃ x, EndsWith (fun fuel => legacySide fuel exactSolve (profile halfProfile (fin 0) (fin 4))
      (poiProblem .twoSided false 0 (fin 0) (fin 1)).right) (.ok (fin x)) := by
    have e1 : (poiProblem .twoSided false 0 (fin 0) (fin 1)).right.outer = 1 := by simp [poiProblem, hc0]
    have e2 : (poiProblem .twoSided false 0 (fin 0) (fin 1)).right.inner = 1 := by simp [poiProblem, hc0]
    have e3 : (poiProblem .twoSided false 0 (fin 0) (fin 1)).right.retry = none := by simp [poiProblem]
    have hroot : ∃ x, exactSolve (profile halfProfile (fin 0) (fin 4)) 1 2 = .ok x := by
      unfold exactSolve
      rw [dif_pos]
      · exact ⟨_, rfl⟩
      refine ⟨by norm_num, Real.sqrt 2, ?_, ?_, ?_⟩
      · exact Real.one_le_sqrt.2 (by norm_num)
      · rw [Real.sqrt_le_left (by norm_num)]; norm_num
      · rw [hf, if_pos (Real.sqrt_nonneg _), Real.sq_sqrt (by norm_num)]
        norm_num
    obtain ⟨x, hx⟩ := hroot
    refine ⟨x, 2, fun fuel hfuel => ?_⟩
    obtain ⟨k, rfl⟩ : ∃ k, fuel = k + 2 := ⟨fuel - 2, by omega⟩
    have w1 : walk (profile halfProfile (fin 0) (fin 4)) (fun v => lt v (fin 0))
        (poiProblem .twoSided false 0 (fin 0) (fin 1)).right.outerStop
        (poiProblem .twoSided false 0 (fin 0) (fin 1)).right.expand (k + 2) 1 = some 2 := by
      have hex : (poiProblem .twoSided false 0 (fin 0) (fin 1)).right.expand 1 = 2 := by simp [poiProblem]
      rw [walk, if_pos, hex, walk, if_neg]
      · rw [hf, if_pos (by norm_num)]
        simp only [lt, not_and_or]
        left; norm_num
      · refine ⟨?_, ?_⟩
        · rw [hf, if_pos (by norm_num)]
          simp only [lt]; norm_num
        · simp only [poiProblem]; norm_num
    have w2 : walk (profile halfProfile (fin 0) (fin 4)) (fun v => lt (fin 0) v)
        (poiProblem .twoSided false 0 (fin 0) (fin 1)).right.innerStop
        (poiProblem .twoSided false 0 (fin 0) (fin 1)).right.contract (k + 2) 1 = some 1 := by
      rw [walk, if_neg]
      rw [hf, if_pos (by norm_num)]
      simp only [lt, not_and_or]
      left; norm_num
    beta_reduce
    rw [legacySide_eq (o := 2) (i := 1) (by rw [e1]; exact w1) (by rw [e2]; exact w2) e3]
    unfold solveBracket
    rw [if_neg]
    · rw [min_eq_left (show (1 : ℝ) ≤ 2 by norm_num), max_eq_right (show (1 : ℝ) ≤ 2 by norm_num), hx]
      simp [Except.map, isNan]
    · rw [hf, hf, if_pos (show (0 : ℝ) ≤ 1 by norm_num), if_pos (show (0 : ℝ) ≤ 2 by norm_num)]
      norm_num [eqSign, sameSign, F.eq, lt]
  obtain ⟨N1, hl⟩ := hleft
  obtain ⟨x, N2, hr⟩ := hright
  have hP : (poiProblem .twoSided false 0 (fin 0) (fin 1)).mllhd = fin 0 ∧
    (poiProblem .twoSided false 0 (fin 0) (fin 1)).reference = 0 := ⟨rfl, rfl⟩
  have key : ∃ y, ∀ n, N1 ≤ n → N2 ≤ n → chi2Test n exactSolve exactSolve minimize halfProfile (fin 4) .twoSided
      (poiProblem .twoSided false 0 (fin 0) (fin 1)) nScan nMulti = some (.ok [nan, fin y]) := by
    unfold chi2Test
    rw [hP.1, hP.2]
    simp only [hkeep]
    obtain ⟨a, b, hs⟩ := scanLoop_scan (fun lo hi => enumerate exactSolve exactSolve (profile halfProfile (fin 0) (fin 4)) lo hi
      (max 3 nScan)) .twoSided 0 (poiProblem .twoSided false 0 (fin 0) (fin 1)).hardLo
      (poiProblem .twoSided false 0 (fin 0) (fin 1)).hardHi 3 [] (poiProblem .twoSided false 0 (fin 0) (fin 1)).scanLo
      (poiProblem .twoSided false 0 (fin 0) (fin 1)).scanHi
    rw [hs]
    beta_reduce
    have hnil : (enumerate exactSolve exactSolve (profile halfProfile (fin 0) (fin 4)) a b (max 3 nScan)).filter
        (fun r => decide (isLeft 0 r)) = [] := by
      rw [List.filter_eq_nil_iff]
      intro r hr'
      have h1 := hroots a b _ r hr'
      have h2 : (0 : ℝ) < 1e-12 := by norm_num
      intro h3
      have h4 := of_decide_eq_true h3
      unfold isLeft at h4
      linarith
    cases hq : ((enumerate exactSolve exactSolve (profile halfProfile (fin 0) (fin 4)) a b (max 3 nScan)).filter
      (fun r => decide (isRight 0 r))).getLast? with
    | none =>
      refine ⟨x, fun n h1 h2 => ?_⟩
      have h3 := hl n h1
      have h4 := hr n h2
      beta_reduce at h3 h4
      rw [h3, h4]
      unfold select
      simp only [hnil, hq]
      rfl
    | some r =>
      refine ⟨r, fun n h1 h2 => ?_⟩
      have h3 := hl n h1
      have h4 := hr n h2
      beta_reduce at h3 h4
      rw [h3, h4]
      unfold select
      simp only [hnil, hq]
      rfl
  obtain ⟨y, hy⟩ := key
  exact ⟨y, max N1 N2, fun n hn => hy n (le_trans (le_max_left _ _) hn) (le_trans (le_max_right _ _) hn)⟩

/-! The value for the left side may lie above the minimum: the fallback starts from the fitted value even if the scan has found
a lower minimum elsewhere, and the scan is not extended beyond a minimum at its edge. -/

theorem scanLoop_edge (scan : ℝ → ℝ → List ℝ) (t : LimitType) (ref hardLo hardHi : ℝ) (h : hardLo ≤ ref) (n : ℕ)
    (roots : List ℝ) (hi : ℝ) : ∃ b, scanLoop scan t ref hardLo hardHi (n + 1) roots ref hi = scan ref b := by
  induction n generalizing roots hi with
  | zero =>
    rw [scanLoop]
    simp only [scanLoop, ite_self]
    exact ⟨hi, rfl⟩
  | succ n ih =>
    rw [scanLoop]
    simp only
    split
    · split
      · exact ⟨hi, rfl⟩
      · rw [show max hardLo (ref - 3 * (ref - ref)) = ref by rw [sub_self, mul_zero, sub_zero, max_eq_right h]]
        exact ih _ _
    · exact ⟨hi, rfl⟩

/-- A continuous profile with a local minimum at 0 and the absolute minimum, -1, between -7 and -5. -/
noncomputable def twoMinima (x : ℝ) : ℝ :=
  if -1 ≤ x then 3 * x ^ 2 else if -5 ≤ x then x + 4 else if -7 ≤ x then -1 else (x + 7) ^ 2 - 1

theorem twoMinima_ge (x : ℝ) : -1 ≤ twoMinima x := by
  unfold twoMinima
  split
  · nlinarith [sq_nonneg x]
  · split
    · linarith
    · split
      · exact le_refl _
      · nlinarith [sq_nonneg (x + 7)]

/-- The `left` limit (threshold 4) of this profile lies between -1 and -0.5, above the minimum the interval refers to (-6),
although the profile also crosses the threshold below the minimum, at `-7 - √2`. -/
theorem C22_left_above_minimum_fails {minimize : Minimizer} (hm : Honest minimize) (allowNegative : Bool) (nScan : ℕ) :
    (refineMin minimize (fun x => fin (twoMinima x)) (fin 0) 0 (-6) 6 2 = (fin (-1), -6)) ∧
    (chi2At (fun x => fin (twoMinima x)) (fin (-1)) (-7 - Real.sqrt 2) = fin 4) ∧
    ∃ v, -1 ≤ v ∧ v ≤ -0.5 ∧ EndsWith (fun fuel => chi2Test fuel exactSolve exactSolve minimize (fun x => fin (twoMinima x)) (fin 4)
      .left (poiProblem .left allowNegative 0 (fin 0) (fin 1)) nScan 2) (.ok [fin v]) := by
  have t1 : twoMinima (-6) = -1 := by
    unfold twoMinima
    rw [if_neg (by norm_num), if_neg (by norm_num), if_pos (by norm_num)]
  have t2 : twoMinima 6 = 108 := by
    unfold twoMinima
    rw [if_pos (by norm_num)]
    norm_num
  have href : refineMin minimize (fun x => fin (twoMinima x)) (fin 0) 0 (-6) 6 2 = (fin (-1), -6) := by
    have h1 : better (fun x => fin (twoMinima x)) (fin 0, 0) (-6) = (fin (-1), -6) := by
      unfold better
      norm_num [isFinite, lt, t1]
    have h2 : better (fun x => fin (twoMinima x)) (fin (-1), -6) 6 = (fin (-1), -6) := by
      unfold better
      norm_num [isFinite, lt, t2]
    unfold refineMin
    rw [if_neg (by norm_num), linspace_two]
    simp only [List.foldl_cons, List.foldl_nil, h1, h2]
    rw [if_neg (by simp only [sub, add, neg, le]; norm_num)]
    split
    · split
      · rename_i res hres
        rw [if_neg]
        rintro ⟨-, hlt⟩
        have := (hm _ _ _ res.1 res.2 hres).1
        rw [this] at hlt
        exact absurd (twoMinima_ge res.2) (not_le.2 hlt)
      · rfl
    · rfl
  have hf : ∀ x, profile (fun x => fin (twoMinima x)) (fin (-1)) (fin 4) x = fin (2 * (twoMinima x + 1) - 4) := by
    intro x
    simp only [profile, sub, add, neg, scale]
    congr 1; ring
  refine ⟨href, ?_, ?_⟩
  · have hs : 0 < Real.sqrt 2 := Real.sqrt_pos.2 (by norm_num)
    have : twoMinima (-7 - Real.sqrt 2) = 1 := by
      unfold twoMinima
      rw [if_neg (by linarith), if_neg (by linarith), if_neg (by linarith)]
      have := Real.sq_sqrt (show (0 : ℝ) ≤ 2 by norm_num)
      nlinarith
    simp only [chi2At, this, sub, add, neg, scale]
    norm_num
  · have hc0 : close0 0 := by norm_num [close0]
    have e1 : (poiProblem .left allowNegative 0 (fin 0) (fin 1)).left.outer = -1 := by simp [poiProblem, hc0]
    have e2 : (poiProblem .left allowNegative 0 (fin 0) (fin 1)).left.inner = -1 := by simp [poiProblem, hc0]
    have e3 : (poiProblem .left allowNegative 0 (fin 0) (fin 1)).left.retry = none := by simp [poiProblem]
    have e4 : (poiProblem .left allowNegative 0 (fin 0) (fin 1)).scanLo = -6 := by
      simp [poiProblem, positiveOr1]; norm_num
    have e5 : (poiProblem .left allowNegative 0 (fin 0) (fin 1)).scanHi = 6 := by
      simp [poiProblem, positiveOr1]; norm_num
    have e6 : (poiProblem .left allowNegative 0 (fin 0) (fin 1)).hardLo = -1e5 := by simp [poiProblem]
    have u1 : twoMinima (-1) = 3 := by
      unfold twoMinima
      rw [if_pos (by norm_num)]
      norm_num
    have u2 : twoMinima (-0.5) = 0.75 := by
      unfold twoMinima
      rw [if_pos (by norm_num)]
      norm_num
    have hroot : ∃ x, -1 ≤ x ∧ x ≤ -0.5 ∧
        exactSolve (profile (fun x => fin (twoMinima x)) (fin (-1)) (fin 4)) (-1) (-0.5) = .ok x := by
      have hex : ∃ r, exactSolve (profile (fun x => fin (twoMinima x)) (fin (-1)) (fin 4)) (-1) (-0.5) = .ok r := by
        unfold exactSolve
        rw [dif_pos]
        · exact ⟨_, rfl⟩
        have h3 : 0 < Real.sqrt (1 / 3) := Real.sqrt_pos.2 (by norm_num)
        have h4 := Real.sq_sqrt (show (0 : ℝ) ≤ 1 / 3 by norm_num)
        have h5 : Real.sqrt (1 / 3) ≤ 1 := by nlinarith
        have h6 : 0.5 ≤ Real.sqrt (1 / 3) := by
          by_contra hc
          rw [not_le] at hc
          nlinarith
        refine ⟨by norm_num, -Real.sqrt (1 / 3), by linarith, by linarith, ?_⟩
        rw [hf]
        unfold twoMinima
        rw [if_pos (by linarith)]
        congr 1
        nlinarith
      obtain ⟨r, hr⟩ := hex
      exact ⟨r, (exactSolve_sound.inside _ _ _ _ hr).2.1, (exactSolve_sound.inside _ _ _ _ hr).2.2, hr⟩
    obtain ⟨v, v1, v2, hv⟩ := hroot
    refine ⟨v, v1, v2, 2, fun fuel hfuel => ?_⟩
    obtain ⟨k, rfl⟩ : ∃ k, fuel = k + 2 := ⟨fuel - 2, by omega⟩
    have w1 : walk (profile (fun x => fin (twoMinima x)) (fin (-1)) (fin 4)) (fun v => lt v (fin 0))
        (poiProblem .left allowNegative 0 (fin 0) (fin 1)).left.outerStop
        (poiProblem .left allowNegative 0 (fin 0) (fin 1)).left.expand (k + 2) (-1) = some (-1) := by
      rw [walk, if_neg]
      rw [hf, u1]
      simp only [lt, not_and_or]
      left; norm_num
    have w2 : walk (profile (fun x => fin (twoMinima x)) (fin (-1)) (fin 4)) (fun v => lt (fin 0) v)
        (poiProblem .left allowNegative 0 (fin 0) (fin 1)).left.innerStop
        (poiProblem .left allowNegative 0 (fin 0) (fin 1)).left.contract (k + 2) (-1) = some (-0.5) := by
      have hex : (poiProblem .left allowNegative 0 (fin 0) (fin 1)).left.contract (-1) = -0.5 := by
        simp [poiProblem]
      rw [walk, if_pos, hex, walk, if_neg]
      · rw [hf, u2]
        simp only [lt, not_and_or]
        left; norm_num
      · refine ⟨?_, ?_⟩
        · rw [hf, u1]
          simp only [lt]; norm_num
        · simp only [poiProblem]; norm_num
    have hleg : legacySide (k + 2) exactSolve (profile (fun x => fin (twoMinima x)) (fin (-1)) (fin 4))
        (poiProblem .left allowNegative 0 (fin 0) (fin 1)).left = some (.ok (fin v)) := by
      rw [legacySide_eq (o := -1) (i := -0.5) (by rw [e1]; exact w1) (by rw [e2]; exact w2) e3]
      unfold solveBracket
      rw [if_neg]
      · rw [min_eq_right (show (-1 : ℝ) ≤ -0.5 by norm_num), max_eq_left (show (-1 : ℝ) ≤ -0.5 by norm_num), hv]
        simp [Except.map, isNan]
      · rw [hf, hf, u1, u2]
        norm_num [eqSign, sameSign, F.eq, lt]
    beta_reduce
    unfold chi2Test
    have hP : (poiProblem .left allowNegative 0 (fin 0) (fin 1)).mllhd = fin 0 ∧
      (poiProblem .left allowNegative 0 (fin 0) (fin 1)).reference = 0 := ⟨rfl, rfl⟩
    rw [hP.1, hP.2, e4, e5, e6]
    simp only [max_self, href, hleg]
    obtain ⟨b, hb⟩ := scanLoop_edge (fun lo hi => enumerate exactSolve exactSolve
      (profile (fun x => fin (twoMinima x)) (fin (-1)) (fin 4)) lo hi (max 3 nScan)) .left (-6) (-1e5)
      (poiProblem .left allowNegative 0 (fin 0) (fin 1)).hardHi (by norm_num) 3 [] 6
    rw [hb]
    have hnil : (enumerate exactSolve exactSolve (profile (fun x => fin (twoMinima x)) (fin (-1)) (fin 4)) (-6) b
        (max 3 nScan)).filter (fun r => decide (isLeft (-6) r)) = [] := by
      rw [List.filter_eq_nil_iff]
      intro r hr' h3
      have h1 := ((enumerate_spec (fun _ => le_refl 0) exactSolve_sound exactSolve_sound _ _ _ _).2 r hr').1.1
      have h2 : (0 : ℝ) < 1e-12 := by norm_num
      have h4 := of_decide_eq_true h3
      unfold isLeft at h4
      linarith
    unfold select
    simp only [hnil]
    rw [if_neg (by simp)]
    rfl

/-! ## C23 -/

/-- Point `i` of the grid. -/
noncomputable def gridPoint (lo hi : ℝ) (n i : ℕ) : ℝ := lo + i * ((hi - lo) / (n - 1))

/-- The grid of `n` points resolves the zeros of `g`: there is at most one in each cell, and `g` changes sign there. -/
def Resolved (g : ℝ → ℝ) (lo hi : ℝ) (n : ℕ) : Prop :=
  ∀ i, i + 1 < n → ∀ z, gridPoint lo hi n i ≤ z → z ≤ gridPoint lo hi n (i + 1) → g z = 0 →
    g (gridPoint lo hi n i) * g (gridPoint lo hi n (i + 1)) < 0 ∧
    ∀ y, gridPoint lo hi n i ≤ y → y ≤ gridPoint lo hi n (i + 1) → g y = 0 → y = z

theorem cells_mem (toms brent : Solver) (f : ℝ → F) (xs : List ℝ) (i : ℕ) (h : i + 1 < xs.length) :
    ∃ last, ∀ r ∈ cell toms brent f (xs[i]'(by omega)) (xs[i + 1]) last, r ∈ cells toms brent f xs := by
  induction xs generalizing i with
  | nil => simp at h
  | cons a l ih =>
    cases l with
    | nil => simp at h
    | cons b l =>
      cases i with
      | zero =>
        refine ⟨l.isEmpty, fun r hr => ?_⟩
        rw [cells, List.mem_append]
        exact Or.inl hr
      | succ i =>
        obtain ⟨last, hl⟩ := ih i (by simpa using h)
        refine ⟨last, fun r hr => ?_⟩
        rw [cells, List.mem_append]
        exact Or.inr (hl r hr)

theorem exists_cell {lo hi z : ℝ} {n : ℕ} (hn : 2 ≤ n) (h1 : lo ≤ z) (h2 : z ≤ hi) :
    ∃ i, i + 1 < n ∧ gridPoint lo hi n i ≤ z ∧ z ≤ gridPoint lo hi n (i + 1) := by
  have hend : gridPoint lo hi n (n - 1) = hi := by
    unfold gridPoint
    rw [Nat.cast_sub (by omega), Nat.cast_one]
    have : (n : ℝ) - 1 ≠ 0 := by
      have : (2 : ℝ) ≤ n := by exact_mod_cast hn
      linarith
    field_simp
    ring
  by_contra hc
  push Not at hc
  have : ∀ i, i ≤ n - 1 → gridPoint lo hi n i ≤ z := by
    intro i
    induction i with
    | zero => intro _; simpa [gridPoint] using h1
    | succ i ih =>
      intro hi'
      exact (hc i (by omega) (ih (by omega))).le
  have h3 := hc (n - 2) (by omega) (this _ (by omega))
  rw [show n - 2 + 1 = n - 1 by omega, hend] at h3
  linarith

/-- C23 for the scan, for profiles that the grid resolves: every crossing in the window is found, up to the tolerance of the
root finder and the merging of close roots. -/
theorem C23_scan_complete_partial {tol : ℝ → ℝ} {toms brent : Solver} (ht : Sound tol toms) (hs : Succeeds toms)
    {g : ℝ → ℝ} (hg : Continuous g) (lo hi : ℝ) (n : ℕ) (hlo : lo < hi) (hn : 3 ≤ n) (hres : Resolved g lo hi n)
    (z : ℝ) (hz1 : lo ≤ z) (hz2 : z ≤ hi) (hz : g z = 0) :
    ∃ q ∈ enumerate toms brent (fun x => fin (g x)) lo hi n, ∃ r, |z - r| ≤ tol r ∧ |r - q| ≤ max 1e-10 (1e-8 * |r|) := by
  obtain ⟨i, hi', c1, c2⟩ := exists_cell (by omega : 2 ≤ n) hz1 hz2
  obtain ⟨hsign, huniq⟩ := hres i hi' z c1 c2 hz
  have hab : gridPoint lo hi n i < gridPoint lo hi n (i + 1) := by
    rcases lt_or_eq_of_le (c1.trans c2) with h | h
    · exact h
    · rw [h] at hsign
      nlinarith [mul_self_nonneg (g (gridPoint lo hi n (i + 1)))]
  have hlen : i + 1 < (linspace lo hi n).length := by rw [linspace_length]; exact hi'
  have hx1 : (linspace lo hi n)[i]'(by omega) = gridPoint lo hi n i := by simp [linspace, gridPoint]
  have hx2 : (linspace lo hi n)[i + 1] = gridPoint lo hi n (i + 1) := by simp [linspace, gridPoint]
  obtain ⟨last, hlast⟩ := cells_mem toms brent (fun x => fin (g x)) _ i hlen
  rw [hx1, hx2] at hlast
  generalize gridPoint lo hi n i = a at *
  generalize gridPoint lo hi n (i + 1) = b at *
  have hsign' : (g a < 0 ∧ 0 < g b) ∨ (0 < g a ∧ g b < 0) := by
    rcases mul_neg_iff.1 hsign with h | h
    · exact Or.inr h
    · exact Or.inl h
  obtain ⟨r, hr⟩ := hs (fun x => fin (g x)) a b hab (fun x _ _ => ⟨g x, rfl⟩)
    (hsign'.imp (fun h => ⟨h.1.le, h.2.le⟩) (fun h => ⟨h.1.le, h.2.le⟩))
  have hmem : r ∈ cells toms brent (fun x => fin (g x)) (linspace lo hi n) := by
    apply hlast
    unfold cell
    rw [if_neg (by simp [isFinite]), if_neg, if_neg, if_pos]
    · simp [refineRoot, hr]
    · exact hsign'
    · rintro ⟨h, -⟩
      have : g b = 0 := h
      rcases hsign' with h | h <;> linarith [h.1, h.2]
    · intro h
      have : g a = 0 := h
      rcases hsign' with h | h <;> linarith [h.1, h.2]
  obtain ⟨x, x1, x2, x3, x4⟩ := ht.below _ _ _ _ hr
  obtain ⟨y, y1, y2, y3, y4⟩ := ht.above _ _ _ _ hr
  have hzr : |z - r| ≤ tol r := by
    have : (0 : ℝ) ∈ g '' Set.uIcc x y := intermediate_value_uIcc hg.continuousOn (Set.mem_uIcc.2 (Or.inl ⟨x4, y4⟩))
    obtain ⟨w, hw, hw0⟩ := this
    have hwz : w = z := by
      refine huniq w ?_ ?_ hw0
      · rcases Set.mem_uIcc.1 hw with h | h
        · exact x1.trans h.1
        · exact y1.trans h.1
      · rcases Set.mem_uIcc.1 hw with h | h
        · exact h.2.trans y2
        · exact h.2.trans x2
    subst hwz
    rw [abs_le] at *
    rcases Set.mem_uIcc.1 hw with h | h
    · exact ⟨by linarith [x3.1, h.1], by linarith [y3.2, h.2]⟩
    · exact ⟨by linarith [y3.1, h.1], by linarith [x3.2, h.2]⟩
  obtain ⟨-, -, -, d4⟩ := dedup_spec _ (sort_pairwise (cells toms brent (fun x => fin (g x)) (linspace lo hi n))) none (by simp)
  obtain ⟨q, hq, hq1, hq2⟩ := d4 r (mem_sort.2 hmem)
  refine ⟨q, ?_, r, hzr, ?_⟩
  · unfold enumerate
    rw [if_neg (not_not.2 hlo), max_eq_right hn]
    simpa using hq
  · rw [abs_of_nonneg (by linarith)]
    exact hq2

-- the profile 2 x² - 4 on [-6, 6] is resolved by three points
example : Resolved (fun x => 2 * x ^ 2 - 4) (-6) 6 3 := by
  intro i hi z h1 h2 h3
  beta_reduce at h3 ⊢
  have : i = 0 ∨ i = 1 := by omega
  rcases this with rfl | rfl
  · simp only [gridPoint] at *
    norm_num at *
    intro y hy1 hy2 hy3
    have h : (y - z) * (y + z) = 0 := by nlinarith
    rcases mul_eq_zero.1 h with h | h
    · linarith
    · obtain rfl : z = 0 := by linarith
      norm_num at h3
  · simp only [gridPoint] at *
    norm_num at *
    intro y hy1 hy2 hy3
    have h : (y - z) * (y + z) = 0 := by nlinarith
    rcases mul_eq_zero.1 h with h | h
    · linarith
    · obtain rfl : z = 0 := by linarith
      norm_num at h3

/-- C23: if the first scan has roots on the requested sides, a two-sided interval lists all roots of the scan of the window. -/
theorem C23_two_sided_partial (fuel : ℕ) (toms brent : Solver) (minimize : Minimizer) (nll : ℝ → F) (thr : F) (P : Problem)
    (nScan nMulti : ℕ) (hn : 3 ≤ nScan) (m : F) (ref : ℝ)
    (hm : refineMin minimize nll P.mllhd P.reference P.scanLo P.scanHi (max 2 nMulti) = (m, ref))
    (hl : ∃ r ∈ enumerate toms brent (profile nll m thr) P.scanLo P.scanHi nScan, r < ref - 1e-12)
    (hr : ∃ r ∈ enumerate toms brent (profile nll m thr) P.scanLo P.scanHi nScan, ref + 1e-12 < r) :
    chi2Test fuel toms brent minimize nll thr .twoSided P nScan nMulti =
      some (.ok ((enumerate toms brent (profile nll m thr) P.scanLo P.scanHi nScan).map fin)) := by
  unfold chi2Test
  simp only [hm, max_eq_right hn]
  have hu : ¬ unfinished .twoSided ref (enumerate toms brent (profile nll m thr) P.scanLo P.scanHi nScan) := by
    rintro (⟨-, h⟩ | ⟨-, h⟩)
    · exact h hl
    · exact h hr
  rw [scanLoop]
  simp only [if_neg hu]
  obtain ⟨a, ha1, ha2⟩ := hl
  obtain ⟨b, hb1, hb2⟩ := hr
  unfold select
  simp only
  have h1 : a ∈ (enumerate toms brent (profile nll m thr) P.scanLo P.scanHi nScan).filter (fun r => decide (isLeft ref r)) := by
    rw [List.mem_filter]
    exact ⟨ha1, decide_eq_true ha2⟩
  have h2 : b ∈ (enumerate toms brent (profile nll m thr) P.scanLo P.scanHi nScan).filter (fun r => decide (isRight ref r)) := by
    rw [List.mem_filter]
    exact ⟨hb1, decide_eq_true hb2⟩
  cases hA : ((enumerate toms brent (profile nll m thr) P.scanLo P.scanHi nScan).filter (fun r => decide (isLeft ref r))).head? with
  | none => rw [List.head?_eq_none_iff] at hA; rw [hA] at h1; simp at h1
  | some x =>
    cases hB : ((enumerate toms brent (profile nll m thr) P.scanLo P.scanHi nScan).filter
      (fun r => decide (isRight ref r))).getLast? with
    | none => rw [List.getLast?_eq_none_iff] at hB; rw [hB] at h2; simp at h2
    | some y => rfl

/-- With the default number of scan points (3) there are never more than two values. -/
theorem C23_default_at_most_two (fuel : ℕ) (toms brent : Solver) (minimize : Minimizer) (nll : ℝ → F) (thr : F) (t : LimitType)
    (P : Problem) (nMulti : ℕ) (L : List F) (h : chi2Test fuel toms brent minimize nll thr t P 3 nMulti = some (.ok L)) :
    L.length ≤ 2 := by
  unfold chi2Test at h
  simp only [max_self] at h
  generalize refineMin minimize nll P.mllhd P.reference P.scanLo P.scanHi (max 2 nMulti) = mr at h
  obtain ⟨a, b, hs⟩ := scanLoop_scan (fun lo hi => enumerate toms brent (profile nll mr.1 thr) lo hi 3) t mr.2 P.hardLo
    P.hardHi 3 [] P.scanLo P.scanHi
  rw [hs] at h
  have hlen := enumerate_length toms brent (profile nll mr.1 thr) a b
  generalize enumerate toms brent (profile nll mr.1 thr) a b 3 = roots at h hlen
  generalize legacySide fuel toms (profile nll mr.1 thr) P.left = ll at h
  generalize legacySide fuel toms (profile nll mr.1 thr) P.right = rr at h
  have h1 := (List.length_filter_le (fun r => decide (isLeft mr.2 r)) roots).trans hlen
  have h2 := (List.length_filter_le (fun r => decide (isRight mr.2 r)) roots).trans hlen
  unfold select at h
  simp only at h
  cases t with
  | left =>
    simp only at h
    split at h
    · simp only [Option.some.injEq, Except.ok.injEq] at h
      rw [← h, List.length_map]; exact h1
    · rcases ll with _ | _ | v <;> simp [Except.map] at h
      rw [← h]; simp
  | right =>
    simp only at h
    split at h
    · simp only [Option.some.injEq, Except.ok.injEq] at h
      rw [← h, List.length_map]; exact h2
    · rcases rr with _ | _ | v <;> simp [Except.map] at h
      rw [← h]; simp
  | twoSided =>
    simp only at h
    split at h
    · simp only [Option.some.injEq, Except.ok.injEq] at h
      rw [← h, List.length_map]; exact hlen
    · rcases rr with _ | _ | v <;> simp [Except.map] at h
      rw [← h]; simp
    · rcases ll with _ | _ | v <;> simp [Except.map] at h
      rw [← h]; simp
    · rcases ll with _ | _ | v <;> simp at h
      rcases rr with _ | _ | w <;> simp [Except.map] at h
      rw [← h]; simp

/-- A continuous profile with two equal minima, at 0 and 3. -/
noncomputable def twinMinima (x : ℝ) : ℝ := min (x ^ 2) (100 * (x - 3) ^ 2)

/-- The full claim is false with the default number of scan points: the profile `min (x², 100 (x - 3)²)` crosses the threshold
4 at four points of the window, and only two values are returned, for all root finders and minimisers. -/
theorem C23_every_crossing_fails :
    Continuous twinMinima ∧
    (∃ l : List ℝ, l.length = 4 ∧ l.Pairwise (· < ·) ∧ ∀ x ∈ l, (-6 ≤ x ∧ x ≤ 6) ∧
      chi2At (fun x => fin (twinMinima x)) (fin 0) x = fin 4) ∧
    ((poiProblem .twoSided false 0 (fin 0) (fin 1)).scanLo = -6 ∧ (poiProblem .twoSided false 0 (fin 0) (fin 1)).scanHi = 6) ∧
    ∀ (toms brent : Solver) (minimize : Minimizer) (_ : Honest minimize) (fuel nMulti : ℕ) (L : List F),
      (refineMin minimize (fun x => fin (twinMinima x)) (fin 0) 0 (-6) 6 (max 2 nMulti) = (fin 0, 0)) ∧
      (chi2Test fuel toms brent minimize (fun x => fin (twinMinima x)) (fin 4) .twoSided
        (poiProblem .twoSided false 0 (fin 0) (fin 1)) 3 nMulti = some (.ok L) → L.length ≤ 2) := by
  have hs := Real.sq_sqrt (show (0 : ℝ) ≤ 2 by norm_num)
  have hs0 : 0 < Real.sqrt 2 := Real.sqrt_pos.2 (by norm_num)
  have hs1 : 1 < Real.sqrt 2 := by nlinarith
  have hs2 : Real.sqrt 2 < 1.5 := by nlinarith
  refine ⟨by unfold twinMinima; fun_prop, ⟨[-Real.sqrt 2, Real.sqrt 2, 3 - Real.sqrt 2 / 10, 3 + Real.sqrt 2 / 10], rfl, ?_, ?_⟩,
    ⟨?_, ?_⟩, ?_⟩
  · simp only [List.pairwise_cons, List.mem_cons, List.not_mem_nil, or_false, forall_eq_or_imp, forall_eq]
    refine ⟨⟨?_, ?_, ?_⟩, ⟨?_, ?_⟩, ?_, ?_⟩ <;> first | linarith | simp
  · have key : ∀ x, twinMinima x = 2 → chi2At (fun x => fin (twinMinima x)) (fin 0) x = fin 4 := by
      intro x hx
      simp only [chi2At, hx, sub, add, neg, scale]
      norm_num
    intro x hx
    simp only [List.mem_cons, List.not_mem_nil, or_false] at hx
    rcases hx with rfl | rfl | rfl | rfl
    · refine ⟨⟨by linarith, by linarith⟩, key _ ?_⟩
      unfold twinMinima
      rw [min_eq_left (by nlinarith)]
      nlinarith
    · refine ⟨⟨by linarith, by linarith⟩, key _ ?_⟩
      unfold twinMinima
      rw [min_eq_left (by nlinarith)]
      exact hs
    · refine ⟨⟨by linarith, by linarith⟩, key _ ?_⟩
      unfold twinMinima
      rw [min_eq_right (by nlinarith)]
      nlinarith
    · refine ⟨⟨by linarith, by linarith⟩, key _ ?_⟩
      unfold twinMinima
      rw [min_eq_right (by nlinarith)]
      nlinarith
  · simp [poiProblem, positiveOr1]; norm_num
  · simp [poiProblem, positiveOr1]; norm_num
  · intro toms brent minimize hm fuel nMulti L
    refine ⟨refineMin_keep hm (fun x => ?_) _ _ _ _, fun h => C23_default_at_most_two _ _ _ _ _ _ _ _ _ _ h⟩
    simp only [lt, not_lt, twinMinima, le_min_iff]
    constructor <;> positivity

end Verif.Chi2
