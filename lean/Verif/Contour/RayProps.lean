import Verif.Contour.RayLemmas
import Verif.Contour.Props

/-!
# Properties C62, C91 and C95: the points of the searches, their bounds and their level
-/

namespace Verif.Contour

open Matrix

/-! ## C62: bounds -/

/-- C62. Along a ray from an anchor inside the bounds, every radius up to the largest one gives a point inside the bounds. -/
theorem C62_ray {k : ℕ} (R : Rays k) (e : Vec k) (r : ℝ) (ha : Inside R.bounds R.anchor) (hn : NoTiny R.M e) (h0 : 0 ≤ r)
    (hr : r ≤ R.eff e) : Inside R.bounds (R.at e r) :=
  at_inside R e r ha hn h0 hr

/-- Two parameters, one bounded on both sides and the other below, the unit matrix. -/
noncomputable def exRays : Rays 2 :=
  { F := exAffine, anchor := ![0, 1], M := 1, T := 7, maxBracket := 30, bounds := ![(some (-1), some 2), (some 0, none)],
    brent := fun _ _ _ => .error .value }

/-- The largest radius in the direction `(4/5, -3/5)` is that of the bound of the second parameter. -/
example : exRays.eff ![4 / 5, -3 / 5] = 5 / 3 ∧ Inside exRays.bounds exRays.anchor ∧ NoTiny exRays.M ![4 / 5, -3 / 5] := by
  refine ⟨?_, ?_, ?_⟩
  · have h1 : ¬ ((4 / 5 : ℝ) < -1e-30) := by norm_num
    have h2 : (1e-30 : ℝ) < 4 / 5 := by norm_num
    have h3 : (-3 / 5 : ℝ) < -1e-30 := by norm_num
    simp only [Rays.eff, maxR, exRays, List.finRange_succ, List.finRange_zero, List.map_nil, List.map_cons, List.foldl_cons,
      List.foldl_nil, capAt, one_mulVec, cons_val_zero, Fin.succ_zero_eq_one, cons_val_one, if_pos h2, if_neg h1, if_pos h3, minR,
      effectiveMax]
    norm_num
  · intro i
    fin_cases i <;> simp [exRays]
  · intro i hi
    simp only [exRays, one_mulVec] at hi ⊢
    fin_cases i <;> norm_num [abs_of_pos, abs_of_neg] at hi

/-- Inside the bounds, up to a slack. -/
def InsideUpTo {k : ℕ} (b : Bounds k) (slack : Fin k → ℝ) (t : Vec k) : Prop :=
  ∀ i, (∀ lo, (b i).1 = some lo → lo - slack i ≤ t i) ∧ ∀ hi, (b i).2 = some hi → t i ≤ hi + slack i

/-- A ray that is followed a little too far. -/
theorem at_slack {k : ℕ} (R : Rays k) (e : Vec k) (r : ℝ) (ha : Inside R.bounds R.anchor) (h0 : 0 ≤ r) (he : 0 ≤ R.eff e)
    (hr : r ≤ max 1e-8 (R.eff e)) :
    InsideUpTo R.bounds (fun i => 1e-8 * |(R.M.mulVec e) i| + 1e-30 * R.maxBracket) (R.at e r) := by
  have hbr := eff_bracket R e
  have hover : r ≤ R.eff e + 1e-8 := by
    rcases le_total 1e-8 (R.eff e) with h | h
    · rw [max_eq_right h] at hr; linarith [show (0:ℝ) ≤ 1e-8 by norm_num]
    · rw [max_eq_left h] at hr; linarith
  intro i
  rw [at_apply]
  set m := (R.M.mulVec e) i with hm
  have habs := abs_nonneg m
  have hmle := le_abs_self m
  have hmge := neg_abs_le m
  have hB0 : 0 ≤ R.maxBracket := le_trans he hbr
  have hcase : |m| ≤ 1e-30 ∨ 1e-30 < m ∨ m < -1e-30 := by
    by_cases h : |m| ≤ 1e-30
    · exact .inl h
    · rcases lt_abs.mp (not_le.mp h) with h | h
      · exact .inr (.inl h)
      · exact .inr (.inr (by linarith))
  have htiny : |m| ≤ 1e-30 → |r * m| ≤ 1e-8 * |m| + 1e-30 * R.maxBracket := by
    intro h
    rw [abs_mul, abs_of_nonneg h0]
    have h1 : r * |m| ≤ (R.eff e + 1e-8) * |m| := mul_le_mul_of_nonneg_right hover habs
    have h2 : R.eff e * |m| ≤ R.maxBracket * 1e-30 := mul_le_mul hbr h habs hB0
    nlinarith
  refine ⟨fun lo hlo => ?_, fun hi hhi => ?_⟩
  · have hA := (ha i).1 lo hlo
    simp only
    rcases hcase with h | h | h
    · have := htiny h
      have := neg_abs_le (r * m)
      linarith
    · have : 0 ≤ r * m := mul_nonneg h0 (le_of_lt (lt_trans (by norm_num) h))
      nlinarith
    · have hb := eff_le R e (foldl_lower R.bounds R.anchor (R.M.mulVec e) _ none i lo (List.mem_finRange i) hlo h)
      rw [← hm, le_div_iff_of_neg (lt_trans h (by norm_num))] at hb
      have hmneg : |m| = -m := abs_of_neg (lt_trans h (by norm_num))
      rw [hmneg]
      nlinarith
  · have hA := (ha i).2 hi hhi
    simp only
    rcases hcase with h | h | h
    · have := htiny h
      have := le_abs_self (r * m)
      linarith
    · have hb := eff_le R e (foldl_upper R.bounds R.anchor (R.M.mulVec e) _ none i hi (List.mem_finRange i) hhi h)
      rw [← hm, le_div_iff₀ (lt_trans (by norm_num) h)] at hb
      have hmpos : |m| = m := abs_of_pos (lt_trans (by norm_num) h)
      rw [hmpos]
      nlinarith
    · have : r * m ≤ 0 := mul_nonpos_of_nonneg_of_nonpos h0 (le_of_lt (lt_trans h (by norm_num)))
      nlinarith

/-- C62. The points of the radial search are inside the bounds, if the anchor is: up to the step over a radius of `1e-8` and a
fraction `1e-30` of the largest radius, by which the code can miss them. -/
theorem C62_radial_partial {k : ℕ} (G : Gen k) (R : Rays k) (hb : BrentInBracket R.brent) (ha : Inside R.bounds R.anchor) (n : ℕ)
    (s s' : G.State) (l : List (Vec k × Vec k)) (h : radialSearch G R n s = .ok (l, s')) :
    l.length ≤ n ∧ ∀ x ∈ l, InsideUpTo R.bounds (fun i => 1e-8 * |(R.M.mulVec x.2) i| + 1e-30 * R.maxBracket) x.1 := by
  obtain ⟨h1, h2⟩ := radialSearch_mem G R n s s' l h
  refine ⟨h1, fun x hx => ?_⟩
  obtain ⟨z, r, r0, hr0, _, _, hray, hat⟩ := h2 x hx
  obtain ⟨heff, v, w, hi, _, _, _, _, hlo, hle, hbr⟩ := ray_some _ _ _ _ _ hr0 hray
  obtain ⟨b1, b2⟩ := hb _ _ _ _ hbr
  have heff0 : 0 ≤ R.eff x.2 := le_trans (by norm_num) heff
  have hpos : 0 ≤ hi := le_trans (le_min hr0.le heff0) hlo
  rw [hat]
  refine at_slack R x.2 r ha (le_trans (le_min (by norm_num) hpos) b1) heff0 (le_trans b2 (max_le_max (le_refl _) hle))

/-- C62. The same for the starts in the gaps. -/
theorem C62_gap_partial {k : ℕ} (R : Rays k) (hb : BrentInBracket R.brent) (ha : Inside R.bounds R.anchor) (r0 : ℝ) (hr0 : 0 < r0)
    (radial : List (Vec k × Vec k)) (dirs : List (Vec k)) (t : Vec k) (ht : t ∈ gapStarts R r0 radial dirs) :
    (∃ e ∈ dirs, InsideUpTo R.bounds (fun i => 1e-8 * |(R.M.mulVec e) i| + 1e-30 * R.maxBracket) t) ∨ ∃ x ∈ radial, t = x.1 := by
  rcases gapStarts_mem R r0 radial dirs t ht with ⟨e, he, r, hray, hat⟩ | h
  · obtain ⟨heff, v, w, hi, _, _, _, _, hlo, hle, hbr⟩ := gapRay_some _ _ _ _ _ hr0 hray
    obtain ⟨b1, b2⟩ := hb _ _ _ _ hbr
    have heff0 : 0 ≤ R.eff e := le_trans (by norm_num) heff.le
    have hpos : 0 ≤ hi := le_trans (le_min hr0.le heff0) hlo
    refine .inl ⟨e, he, ?_⟩
    rw [hat]
    exact at_slack R e r ha (le_trans (le_min (by norm_num) hpos) b1) heff0 (le_trans b2 (max_le_max (le_refl _) hle))
  · exact .inr h

/-- C62. The points of a walk after the first are inside the bounds, or `nan`. Missing: the first point, and `nan`. -/
theorem C62_walk_partial {k : ℕ} (F : Target k) (w : Walk k) (raw : ℕ → Vec k) (start : Option (Vec k)) (l : List (Option (Vec k)))
    (h : rattleWalk F w raw start = .ok l) :
    ∃ θ l', l = θ :: l' ∧ project F w.T w.tol w.maxIter start = .ok θ ∧ l'.length ≤ w.nSteps ∧ ∀ t, some t ∈ l' → Inside w.bounds t := by
  unfold rattleWalk at h
  cases hp : project F w.T w.tol w.maxIter start with
  | error e => rw [hp] at h; simp at h
  | ok θ =>
    rw [hp] at h
    simp only at h
    cases hm : tangentMomentum F θ (raw 0) with
    | error e => rw [hm] at h; simp at h
    | ok p =>
      rw [hm] at h
      simp only at h
      cases hl : walkLoop F w raw w.nSteps 0 θ p 1 with
      | error e => rw [hl] at h; simp at h
      | ok l' =>
        rw [hl] at h
        simp only [Except.ok.injEq] at h
        subst h
        obtain ⟨a, b⟩ := loop_points F w raw _ _ _ _ _ _ hl
        exact ⟨θ, l', rfl, rfl, a, fun t ht => (b t ht).2⟩

/-- C62 fails for the first point of a walk: the projection moves the start, and the bounds are only looked at later. -/
theorem C62_start_fails (raw : ℕ → Vec 2) (n : ℕ) :
    ∃ (w : Walk 2) (start t : Vec 2), Inside w.bounds start ∧ w.maxIter = n + 1 ∧
      rattleWalk exAffine w raw (some start) = .ok [some t] ∧ OnLevel exAffine w.T w.tol t ∧ ¬ Inside w.bounds t := by
  let w : Walk 2 := ⟨1 + 25, 0, 0.05, 1e-9, n + 1, fun _ => (none, some 2)⟩
  have hp : project exAffine w.T w.tol w.maxIter (some ![0, 0]) = .ok (some ![3, 4]) := by
    have hlev : OnLevel exAffine (1 + 25) 1e-9 ![3, 4] := by
      refine ⟨26, by simp [exAffine, dotProduct]; norm_num, by norm_num⟩
    show project exAffine (1 + 25) 1e-9 (n + 1) (some ![0, 0]) = _
    simp only [project, exAffine, Option.map_some]
    rw [if_neg, if_neg]
    · have hn : newton (some ![0, 0]) (some ((![3, 4] : Vec 2) ⬝ᵥ ![0, 0] + 1 - (1 + 25))) (some (![3, 4] : Vec 2)) = some ![3, 4] := by
        simp only [newton, Option.some.injEq]
        funext i
        fin_cases i <;> simp [dotProduct] <;> norm_num
      rw [hn]
      exact C63_fixed exAffine (1 + 25) 1e-9 n _ hlev
    · rw [Num.lt_some]; simp [dotProduct]; norm_num
    · rw [Num.lt_some]; simp [dotProduct]; norm_num
  refine ⟨w, ![0, 0], ![3, 4], ?_, rfl, ?_, ?_, ?_⟩
  · intro i
    fin_cases i <;> simp [w]
  · have hm : ∃ q, tangentMomentum exAffine (some ![3, 4]) (raw 0) = .ok q := ⟨_, rfl⟩
    obtain ⟨q, hm⟩ := hm
    simp only [rattleWalk, hp, hm]
    rfl
  · refine ⟨26, by simp [exAffine, dotProduct]; norm_num, by simp [w]; norm_num⟩
  · intro h
    have := (h 0).2 2 rfl
    norm_num at this

/-- C62 fails for `nan`: a point where the likelihood is `nan` makes the position `nan`, which is not outside the bounds, and the walk
goes on with it. -/
theorem C62_nan_fails {k : ℕ} (F : Target k) (w : Walk k) (raw : ℕ → Vec k) (θ p : Option (Vec k))
    (hn : F.nll none = .ok none) (hg : F.grad none = .ok none) (n step d : ℕ) (hmax : 0 < w.maxIter)
    (hs : rattleStep F w.T w.eps w.tol w.maxIter θ p = .ok (none, none)) (hstep : ¬ (0 < step ∧ step % resampleEvery w.nSteps = 0)) :
    ∃ l, walkLoop F w raw (n + 1) step θ p d = .ok (none :: l) ∧ l.length = n := by
  have hproj : ∀ m, project F w.T w.tol m none = .ok none := by
    intro m
    induction m with
    | zero => rfl
    | succ m ih =>
      simp only [project, hn, hg, Option.map_none]
      rw [if_neg (Num.not_lt_none _), if_neg (Num.not_lt_none _), newton_none]
      exact ih
  have hnone : ∀ p, rattleStep F w.T w.eps w.tol w.maxIter none p = .ok (none, none) ∨
      ∃ p1, rattleStep F w.T w.eps w.tol w.maxIter none p = .ok (none, p1) := by
    intro p
    right
    have hd : ∀ q : Option (Vec k), drift none w.eps q = none := by intro q; cases q <;> rfl
    simp only [rattleStep, hg, hd, hproj]
    exact ⟨_, rfl⟩
  have hrest : ∀ n step p d, ∃ l, walkLoop F w raw n step none p d = .ok l ∧ l.length = n := by
    intro n
    induction n with
    | zero => intro step p d; exact ⟨[], rfl, rfl⟩
    | succ n ih =>
      intro step p d
      have hmom : ∃ p' d', momentum F w raw step none p d = .ok (p', d') := by
        unfold momentum
        split
        · simp only [tangentMomentum, hg]
          exact ⟨_, _, rfl⟩
        · exact ⟨_, _, rfl⟩
      obtain ⟨p', d', hm⟩ := hmom
      obtain ⟨p1, hs1⟩ : ∃ p1, rattleStep F w.T w.eps w.tol w.maxIter none p' = .ok (none, p1) := by
        rcases hnone p' with h | h
        · exact ⟨_, h⟩
        · exact h
      obtain ⟨l, hl, hlen⟩ := ih (step + 1) p1 d'
      refine ⟨none :: l, ?_, by simp [hlen]⟩
      simp only [walkLoop, hm, hs1]
      rw [if_neg (show ¬ Outside w.bounds none from id), hl]
  obtain ⟨l, hl, hlen⟩ := hrest n (step + 1) none d
  refine ⟨l, ?_, hlen⟩
  have hmom : momentum F w raw step θ p d = .ok (p, d) := by
    unfold momentum
    rw [if_neg hstep]
  simp only [walkLoop, hmom, hs]
  rw [if_neg (show ¬ Outside w.bounds none from id), hl]

/-- A function in one dimension that is `nan` for positive arguments; the first step of a walk from `-1` with momentum `200` ends
there. -/
noncomputable def exNan : Target 1 :=
  ⟨fun θ => .ok (θ.bind fun t => if 0 < t 0 then none else some (t 0)), fun θ => .ok (θ.map fun _ => ![1])⟩

example : rattleStep exNan (-1) 0.05 1e-9 100 (some ![-1]) (some ![200]) = .ok (none, none) := by
  have hproj : ∀ m, project exNan (-1) 1e-9 m none = .ok none := by
    intro m
    induction m with
    | zero => rfl
    | succ m ih =>
      simp only [project, exNan, Option.bind_none, Option.map_none]
      rw [if_neg (Num.not_lt_none _), if_neg (Num.not_lt_none _), newton_none]
      exact ih
  have hp : project exNan (-1) 1e-9 100 (drift (some ![-1]) 0.05 (kick (some ![200]) (0.05 / 2) (some ![1]))) = .ok none := by
    rw [show (100 : ℕ) = 99 + 1 from rfl, project]
    obtain ⟨q, hq⟩ : ∃ q : Vec 1, q = (![-1] : Vec 1) + (0.05 : ℝ) • ((![200] : Vec 1) - (0.05 / 2 : ℝ) • (![1] : Vec 1)) := ⟨_, rfl⟩
    have hpos : (0 : ℝ) < q 0 := by rw [hq]; simp; norm_num
    have hk : drift (some ![-1]) 0.05 (kick (some ![200]) (0.05 / 2) (some ![1])) = some q := by rw [hq]; rfl
    have h1 : exNan.nll (some q) = .ok none := by simp only [exNan, Option.bind_some, if_pos hpos]
    have h2 : exNan.grad (some q) = .ok (some ![1]) := rfl
    rw [hk, h1, h2]
    simp only [Option.map_none, Option.map_some]
    rw [if_neg (Num.not_lt_none _), if_neg]
    · exact hproj 99
    · rw [Num.lt_some]; simp [dotProduct]; norm_num
  have hg : exNan.grad (some ![-1]) = .ok (some ![1]) := rfl
  have hg1 : exNan.grad none = .ok none := rfl
  simp only [rattleStep, hg, hp, hg1]
  simp only [tangent, Option.map_none, kick]
  rw [if_neg (Num.not_lt_none' _)]

/-! ## C91: the level along rays -/

/-- C91. For a continuous function, a point of the radial search is next to a point that is exactly on the level, on the same ray. -/
theorem C91_radial {k : ℕ} (G : Gen k) (R : Rays k) (hb : BrentAccurate R.brent) (g : Vec k → ℝ) (hF : ∀ t, R.F.nll (some t) = .ok (some (g t)))
    (hcont : Continuous g) (n : ℕ) (s s' : G.State) (l : List (Vec k × Vec k)) (h : radialSearch G R n s = .ok (l, s')) :
    ∀ x ∈ l, ∃ r z, x.1 = R.at x.2 r ∧ g (R.at x.2 z) = R.T ∧ |r - z| ≤ 1e-12 + 1e-12 * |r| := by
  intro x hx
  obtain ⟨_, h2⟩ := radialSearch_mem G R n s s' l h
  obtain ⟨z, r, r0, hr0, _, _, hray, hat⟩ := h2 x hx
  obtain ⟨_, v, w, hi, hv, hvn, hw, hwn, _, _, hbr⟩ := ray_some _ _ _ _ _ hr0 hray
  have hf : ∀ y, R.f x.2 y = .ok (some (g (R.at x.2 y) - R.T)) := by
    intro y
    simp only [Rays.f, along, hF, Option.map_some, Rays.at]
  have hc : Continuous fun y => g (R.at x.2 y) - R.T := by
    refine Continuous.sub (hcont.comp ?_) continuous_const
    refine continuous_pi fun i => ?_
    simp only [at_apply]
    fun_prop
  rw [hf] at hv hw
  simp only [Except.ok.injEq] at hv hw
  subst hv hw
  have hlo : g (R.at x.2 1e-8) - R.T < 0 := not_le.mp hvn
  have hhi : 0 < g (R.at x.2 hi) - R.T := not_le.mp hwn
  obtain ⟨z', hz, hd⟩ := hb _ _ _ _ _ hf hc (mul_neg_of_neg_of_pos hlo hhi) hbr
  exact ⟨r, z', hat, by linarith, hd⟩

/-! ## C95: no crossing is missed -/

/-- Brent's method converges for a function with values of both signs at the ends of the bracket. -/
def BrentConverges (brent : Brent) : Prop :=
  ∀ (f : ℝ → Except Err Num) (g : ℝ → ℝ) lo hi, (∀ x, f x = .ok (some (g x))) → g lo * g hi < 0 → ∃ r, brent f lo hi = .ok (r, true)

/-- C95, where it holds: if the function is below the level next to the anchor and above it at the largest radius, then the direction
is not skipped. -/
theorem C95_found_partial (brent : Brent) (hb : BrentConverges brent) (f : ℝ → Except Err Num) (g : ℝ → ℝ)
    (hf : ∀ x, f x = .ok (some (g x))) (r0 eff : ℝ) (h0 : 0 < r0) (heff : 1e-10 ≤ eff) (hlo : g 1e-8 < 0) (hhi : 0 < g eff) :
    ∃ r, ray brent f r0 eff = .ok (some r) := by
  have heff0 : 0 < eff := lt_of_lt_of_le (by norm_num) heff
  have hr := lt_min h0 heff0
  unfold ray
  rw [if_neg (not_lt.mpr heff), hf]
  simp only
  rw [if_neg (show ¬ Num.Le (some 0) (some (g 1e-8)) from not_le.mpr hlo)]
  have hends := grow_ends f eff _ hr (min_le_right r0 eff)
  have hnoerr : ∀ n r e, grow f eff n r ≠ .error e := by
    intro n
    induction n with
    | zero => intro r e h; simp [grow] at h
    | succ n ih =>
      intro r e h
      simp only [grow, hf] at h
      split at h
      · exact ih _ _ h
      · simp at h
  cases hg : grow f eff (rounds (min r0 eff) eff) (min r0 eff) with
  | error e => exact absurd hg (hnoerr _ _ _)
  | ok o =>
    cases o with
    | none => exact absurd hg hends
    | some hi =>
      have hpos : 0 < g hi := by
        rcases grow_last f eff _ _ hi hg (min_le_right _ _) with rfl | ⟨v, hv, hn⟩
        · exact hhi
        · rw [hf] at hv
          simp only [Except.ok.injEq] at hv
          subst hv
          exact not_le.mp hn
      simp only [hf]
      rw [if_neg (show ¬ Num.Le (some (g hi)) (some 0) from not_le.mpr hpos)]
      obtain ⟨r, hr⟩ := hb f g 1e-8 hi hf (mul_neg_of_neg_of_pos hlo hpos)
      rw [hr]
      exact ⟨r, rfl⟩

example : (fun r : ℝ => r ^ 2 / 2 - 2) 1e-8 < 0 ∧ 0 < (fun r : ℝ => r ^ 2 / 2 - 2) 30 := by norm_num

/-- C95. A direction in which the function never exceeds the level is skipped. -/
theorem C95_none (brent : Brent) (f : ℝ → Except Err Num) (g : ℝ → ℝ) (hf : ∀ x, f x = .ok (some (g x))) (r0 eff : ℝ) (h0 : 0 < r0)
    (h : ∀ r, 0 < r → r ≤ eff → g r ≤ 0) : ray brent f r0 eff = .ok none := by
  cases hr : ray brent f r0 eff with
  | error e =>
    exfalso
    unfold ray at hr
    split at hr
    · simp at hr
    · rename_i heff
      have heff0 : 0 < eff := lt_of_lt_of_le (by norm_num) (not_lt.mp heff)
      rw [hf] at hr
      simp only at hr
      split at hr
      · simp at hr
      · cases hg : grow f eff (rounds (min r0 eff) eff) (min r0 eff) with
        | error e => rw [hg] at hr; simp at hr
        | ok o =>
          rw [hg] at hr
          cases o with
          | none => simp at hr
          | some hi =>
            obtain ⟨g1, g2⟩ := grow_range f eff _ _ hi (lt_min h0 heff0) (min_le_right _ _) hg
            simp only [hf] at hr
            rw [if_pos (show Num.Le (some (g hi)) (some 0) from h hi (lt_of_lt_of_le (lt_min h0 heff0) g1) g2)] at hr
            simp at hr
  | ok o =>
    cases o with
    | none => rfl
    | some r =>
      exfalso
      obtain ⟨heff, v, w, hi, _, _, hw, hwn, h1, h2, _⟩ := ray_some _ _ _ _ _ h0 hr
      have heff0 : 0 < eff := lt_of_lt_of_le (by norm_num) heff
      rw [hf] at hw
      simp only [Except.ok.injEq] at hw
      subst hw
      exact hwn (h hi (lt_of_lt_of_le (lt_min h0 heff0) h1) h2)

example : ∀ r : ℝ, 0 < r → r ≤ 30 → (fun r : ℝ => r / 30 - 1) r ≤ 0 := by intro r _ h; simp only; linarith

theorem grow_on (f : ℝ → Except Err Num) (g : ℝ → ℝ) (hf : ∀ x, f x = .ok (some (g x))) (eff : ℝ) (n : ℕ) (r r' : ℝ) (h : g r ≤ 0)
    (hr : r < eff) (hr' : min (r * 2) eff = r') : grow f eff (n + 1) r = grow f eff n r' := by
  simp only [grow, hf]
  rw [if_pos ⟨h, hr⟩, hr']

/-- C95 fails: only the radii `r_init`, `2 r_init` and so on are looked at. A function that exceeds the level between two of them and
is below it at the largest radius is skipped, although the ray crosses the contour twice. -/
theorem C95_missed_fails (brent : Brent) :
    ∃ g : ℝ → ℝ, Continuous g ∧ g 1e-8 < 0 ∧ 0 < g 5 ∧ ray brent (fun x => .ok (some (g x))) 2 30 = .ok none := by
  let g : ℝ → ℝ := fun r => 1 - 100 * (r - 5) ^ 2
  refine ⟨g, by fun_prop, by norm_num [g], by norm_num [g], ?_⟩
  have hf : ∀ x, (fun x => .ok (some (g x)) : ℝ → Except Err Num) x = .ok (some (g x)) := fun _ => rfl
  unfold ray
  rw [if_neg (by norm_num)]
  simp only
  rw [if_neg (show ¬ Num.Le (some 0) (some (g 1e-8)) from not_le.mpr (by norm_num [g]))]
  have hm : min (2 : ℝ) 30 = 2 := min_eq_left (by norm_num)
  have hround : rounds 2 30 = 10 + 1 + 1 + 1 + 1 + 1 + 1 := by
    unfold rounds
    have : (30 : ℝ) / 2 = (15 : ℕ) := by norm_num
    rw [this, Nat.ceil_natCast]
  have hg : grow (fun x => .ok (some (g x))) 30 (rounds (min 2 30) 30) (min 2 30) = .ok (some 30) := by
    rw [hm, hround]
    rw [grow_on _ g hf 30 _ 2 4 (by norm_num [g]) (by norm_num) (by norm_num),
      grow_on _ g hf 30 _ 4 8 (by norm_num [g]) (by norm_num) (by norm_num),
      grow_on _ g hf 30 _ 8 16 (by norm_num [g]) (by norm_num) (by norm_num),
      grow_on _ g hf 30 _ 16 30 (by norm_num [g]) (by norm_num) (by norm_num)]
    simp only [grow]
    rw [if_neg (by simp)]
  rw [hg]
  simp only
  rw [if_pos (show Num.Le (some (g 30)) (some 0) from by show g 30 ≤ 0; norm_num [g])]

end Verif.Contour
