import Verif.Contour.Lemmas

/-!
# Lemmas about rays
-/

namespace Verif.Contour

open Matrix

/-! ### The radius at which a bound is reached -/

/-- A radius that is not infinite and at most `c`. -/
def BoundedBy (r : Option ℝ) (c : ℝ) : Prop := ∃ x, r = some x ∧ x ≤ c

theorem minR_left {r : Option ℝ} {c : ℝ} (b : ℝ) (h : BoundedBy r c) : BoundedBy (minR r b) c := by
  obtain ⟨x, rfl, hx⟩ := h
  exact ⟨min x b, rfl, le_trans (min_le_left _ _) hx⟩

theorem minR_right (r : Option ℝ) (b : ℝ) : BoundedBy (minR r b) b := by
  cases r with
  | none => exact ⟨b, rfl, le_refl _⟩
  | some x => exact ⟨min x b, rfl, min_le_right _ _⟩

/-- The first half of a round. -/
noncomputable def capUpper {k : ℕ} (b : Bounds k) (anchor step : Vec k) (r : Option ℝ) (i : Fin k) : Option ℝ :=
  match (b i).2 with
  | some hi => if 1e-30 < step i then minR r ((hi - anchor i) / step i) else r
  | none => r

/-- The second half of a round. -/
noncomputable def capLower {k : ℕ} (b : Bounds k) (anchor step : Vec k) (r : Option ℝ) (i : Fin k) : Option ℝ :=
  match (b i).1 with
  | some lo => if step i < -1e-30 then minR r ((lo - anchor i) / step i) else r
  | none => r

theorem capAt_eq {k : ℕ} (b : Bounds k) (anchor step : Vec k) (r : Option ℝ) (i : Fin k) :
    capAt b anchor step r i = capLower b anchor step (capUpper b anchor step r i) i := rfl

theorem capUpper_mono {k : ℕ} (b : Bounds k) (anchor step : Vec k) (r : Option ℝ) (i : Fin k) {c : ℝ} (h : BoundedBy r c) :
    BoundedBy (capUpper b anchor step r i) c := by
  unfold capUpper
  split
  · split
    · exact minR_left _ h
    · exact h
  · exact h

theorem capLower_mono {k : ℕ} (b : Bounds k) (anchor step : Vec k) (r : Option ℝ) (i : Fin k) {c : ℝ} (h : BoundedBy r c) :
    BoundedBy (capLower b anchor step r i) c := by
  unfold capLower
  split
  · split
    · exact minR_left _ h
    · exact h
  · exact h

theorem foldl_mono {k : ℕ} (b : Bounds k) (anchor step : Vec k) (l : List (Fin k)) (r : Option ℝ) {c : ℝ} (h : BoundedBy r c) :
    BoundedBy (l.foldl (capAt b anchor step) r) c := by
  induction l generalizing r with
  | nil => exact h
  | cons i l ih => exact ih _ (by rw [capAt_eq]; exact capLower_mono _ _ _ _ _ (capUpper_mono _ _ _ _ _ h))

theorem foldl_upper {k : ℕ} (b : Bounds k) (anchor step : Vec k) (l : List (Fin k)) (r : Option ℝ) (i : Fin k) (hi : ℝ) (hil : i ∈ l)
    (hb : (b i).2 = some hi) (hs : 1e-30 < step i) : BoundedBy (l.foldl (capAt b anchor step) r) ((hi - anchor i) / step i) := by
  induction l generalizing r with
  | nil => simp at hil
  | cons j l ih =>
    rcases List.mem_cons.mp hil with rfl | h
    · rw [List.foldl_cons]
      refine foldl_mono _ _ _ _ _ ?_
      rw [capAt_eq]
      refine capLower_mono _ _ _ _ _ ?_
      simp only [capUpper, hb, if_pos hs]
      exact minR_right _ _
    · exact ih _ h

theorem foldl_lower {k : ℕ} (b : Bounds k) (anchor step : Vec k) (l : List (Fin k)) (r : Option ℝ) (i : Fin k) (lo : ℝ) (hil : i ∈ l)
    (hb : (b i).1 = some lo) (hs : step i < -1e-30) : BoundedBy (l.foldl (capAt b anchor step) r) ((lo - anchor i) / step i) := by
  induction l generalizing r with
  | nil => simp at hil
  | cons j l ih =>
    rcases List.mem_cons.mp hil with rfl | h
    · rw [List.foldl_cons]
      refine foldl_mono _ _ _ _ _ ?_
      rw [capAt_eq]
      simp only [capLower, hb, if_pos hs]
      exact minR_right _ _
    · exact ih _ h

theorem eff_le {k : ℕ} (R : Rays k) (e : Vec k) {c : ℝ} (h : BoundedBy (maxR R.bounds R.anchor R.M e) c) : R.eff e ≤ c := by
  obtain ⟨x, hx, hc⟩ := h
  simp only [Rays.eff, hx, effectiveMax]
  exact le_trans (min_le_right _ _) hc

theorem eff_bracket {k : ℕ} (R : Rays k) (e : Vec k) : R.eff e ≤ R.maxBracket := by
  unfold Rays.eff
  cases maxR R.bounds R.anchor R.M e with
  | none => exact le_refl _
  | some x => exact min_le_left _ _

theorem at_apply {k : ℕ} (R : Rays k) (e : Vec k) (r : ℝ) (i : Fin k) : R.at e r i = R.anchor i + r * (R.M.mulVec e) i := by
  simp [Rays.at, toTheta, Matrix.mulVec_smul]

/-- The steps in the parameters are not almost zero without being zero. -/
def NoTiny {k : ℕ} (M : Matrix (Fin k) (Fin k) ℝ) (e : Vec k) : Prop := ∀ i, |(M.mulVec e) i| ≤ 1e-30 → (M.mulVec e) i = 0

theorem at_inside {k : ℕ} (R : Rays k) (e : Vec k) (r : ℝ) (ha : Inside R.bounds R.anchor) (hn : NoTiny R.M e) (h0 : 0 ≤ r)
    (hr : r ≤ R.eff e) : Inside R.bounds (R.at e r) := by
  intro i
  rw [at_apply]
  have htri : (R.M.mulVec e) i = 0 ∨ 1e-30 < (R.M.mulVec e) i ∨ (R.M.mulVec e) i < -1e-30 := by
    by_cases h : |(R.M.mulVec e) i| ≤ 1e-30
    · exact .inl (hn i h)
    · rcases lt_abs.mp (not_le.mp h) with h | h
      · exact .inr (.inl h)
      · exact .inr (.inr (by linarith))
  refine ⟨fun lo hlo => ?_, fun hi hhi => ?_⟩
  · have hA := (ha i).1 lo hlo
    rcases htri with h | h | h
    · rw [h]; linarith [mul_zero r]
    · have : 0 ≤ r * (R.M.mulVec e) i := mul_nonneg h0 (le_of_lt (lt_trans (by norm_num) h))
      linarith
    · have hb := eff_le R e (foldl_lower R.bounds R.anchor (R.M.mulVec e) _ none i lo (List.mem_finRange i) hlo h)
      have hneg : (R.M.mulVec e) i < 0 := lt_trans h (by norm_num)
      have h1 : r ≤ (lo - R.anchor i) / (R.M.mulVec e) i := le_trans hr hb
      rw [le_div_iff_of_neg hneg] at h1
      linarith
  · have hA := (ha i).2 hi hhi
    rcases htri with h | h | h
    · rw [h]; linarith [mul_zero r]
    · have hb := eff_le R e (foldl_upper R.bounds R.anchor (R.M.mulVec e) _ none i hi (List.mem_finRange i) hhi h)
      have hpos : 0 < (R.M.mulVec e) i := lt_trans (by norm_num) h
      have h1 : r ≤ (hi - R.anchor i) / (R.M.mulVec e) i := le_trans hr hb
      rw [le_div_iff₀ hpos] at h1
      linarith
    · have : r * (R.M.mulVec e) i ≤ 0 := mul_nonpos_of_nonneg_of_nonpos h0 (le_of_lt (lt_trans h (by norm_num)))
      linarith

/-! ### Widening the bracket -/

theorem grow_range (f : ℝ → Except Err Num) (eff : ℝ) (n : ℕ) (r hi : ℝ) (h0 : 0 < r) (hr : r ≤ eff) (h : grow f eff n r = .ok (some hi)) :
    r ≤ hi ∧ hi ≤ eff := by
  induction n generalizing r with
  | zero => simp [grow] at h
  | succ n ih =>
    simp only [grow] at h
    cases hf : f r with
    | error e => rw [hf] at h; simp at h
    | ok v =>
      rw [hf] at h
      simp only at h
      split at h
      · have hle : r ≤ min (r * 2) eff := le_min (by linarith) hr
        obtain ⟨h1, h2⟩ := ih _ (lt_of_lt_of_le h0 hle) (min_le_right _ _) h
        exact ⟨le_trans hle h1, h2⟩
      · simp only [Except.ok.injEq, Option.some.injEq] at h
        subst h
        exact ⟨le_refl _, hr⟩

/-- The loop ends: where the function is positive, or `nan`, or at the largest radius. -/
theorem grow_last (f : ℝ → Except Err Num) (eff : ℝ) (n : ℕ) (r hi : ℝ) (h : grow f eff n r = .ok (some hi)) (hr : r ≤ eff) :
    hi = eff ∨ ∃ v, f hi = .ok v ∧ ¬ Num.Le v (some 0) := by
  induction n generalizing r with
  | zero => simp [grow] at h
  | succ n ih =>
    simp only [grow] at h
    cases hf : f r with
    | error e => rw [hf] at h; simp at h
    | ok v =>
      rw [hf] at h
      simp only at h
      split at h
      · exact ih _ h (min_le_right _ _)
      · rename_i hc
        simp only [Except.ok.injEq, Option.some.injEq] at h
        subst h
        rw [not_and_or] at hc
        rcases hc with hc | hc
        · exact .inr ⟨v, hf, hc⟩
        · exact .inl (le_antisymm hr (not_lt.mp hc))

theorem grow_enough (f : ℝ → Except Err Num) (eff : ℝ) (n : ℕ) (r : ℝ) (h0 : 0 < r) (hr : r ≤ eff) (h : eff ≤ r * 2 ^ n) :
    grow f eff (n + 1) r ≠ .ok none := by
  induction n generalizing r with
  | zero =>
    simp only [grow]
    cases hf : f r with
    | error e => simp
    | ok v =>
      simp only
      rw [if_neg (by rintro ⟨_, h2⟩; simp at h; linarith)]
      simp
  | succ n ih =>
    rw [grow]
    cases hf : f r with
    | error e => simp
    | ok v =>
      simp only
      split
      · have hle : r ≤ min (r * 2) eff := le_min (by linarith) hr
        refine ih _ (lt_of_lt_of_le h0 hle) (min_le_right _ _) ?_
        rcases le_total (r * 2) eff with h' | h'
        · rw [min_eq_left h']
          calc eff ≤ r * 2 ^ (n + 1) := h
            _ = r * 2 * 2 ^ n := by ring
        · rw [min_eq_right h']
          have : (1 : ℝ) ≤ 2 ^ n := one_le_pow₀ (by norm_num)
          nlinarith
      · simp

/-- The loop always ends within `rounds` rounds. -/
theorem grow_ends (f : ℝ → Except Err Num) (eff r : ℝ) (h0 : 0 < r) (hr : r ≤ eff) : grow f eff (rounds r eff) r ≠ .ok none := by
  refine grow_enough f eff _ r h0 hr ?_
  have h1 : eff / r ≤ ⌈eff / r⌉₊ := Nat.le_ceil _
  have h2 : ((⌈eff / r⌉₊ : ℕ) : ℝ) ≤ 2 ^ ⌈eff / r⌉₊ := by
    exact_mod_cast (Nat.lt_two_pow_self).le
  rw [div_le_iff₀ h0] at h1
  nlinarith

/-! ### What a ray gives -/

theorem ray_some (brent : Brent) (f : ℝ → Except Err Num) (r0 eff r : ℝ) (h0 : 0 < r0) (h : ray brent f r0 eff = .ok (some r)) :
    1e-10 ≤ eff ∧ ∃ v w hi, f 1e-8 = .ok v ∧ ¬ Num.Le (some 0) v ∧ f hi = .ok w ∧ ¬ Num.Le w (some 0) ∧
      min r0 eff ≤ hi ∧ hi ≤ eff ∧ brent f 1e-8 hi = .ok (r, true) := by
  unfold ray at h
  split at h
  · simp at h
  · rename_i heff
    have heff' : (1e-10 : ℝ) ≤ eff := not_lt.mp heff
    have heff0 : 0 < eff := lt_of_lt_of_le (by norm_num) heff'
    refine ⟨heff', ?_⟩
    cases hv : f 1e-8 with
    | error e => rw [hv] at h; simp at h
    | ok v =>
      rw [hv] at h
      simp only at h
      split at h
      · simp at h
      · rename_i hlo
        cases hg : grow f eff (rounds (min r0 eff) eff) (min r0 eff) with
        | error e => rw [hg] at h; simp at h
        | ok o =>
          rw [hg] at h
          cases o with
          | none => simp at h
          | some hi =>
            simp only at h
            cases hw : f hi with
            | error e => rw [hw] at h; simp at h
            | ok w =>
              rw [hw] at h
              simp only at h
              split at h
              · simp at h
              · rename_i hhi
                have hr := grow_range f eff _ _ hi (lt_min h0 heff0) (min_le_right _ _) hg
                cases hb : brent f 1e-8 hi with
                | error e =>
                  rw [hb] at h
                  cases e <;> simp at h
                | ok rc =>
                  obtain ⟨r', conv⟩ := rc
                  rw [hb] at h
                  cases conv with
                  | false => simp at h
                  | true =>
                    simp only [if_true, Except.ok.injEq, Option.some.injEq] at h
                    subst h
                    exact ⟨v, w, hi, rfl, hlo, hw, hhi, hr.1, hr.2, hb⟩

theorem gapRay_some (brent : Brent) (f : ℝ → Except Err Num) (r0 eff r : ℝ) (h0 : 0 < r0) (h : gapRay brent f r0 eff = some r) :
    1e-10 < eff ∧ ∃ v w hi, f 1e-8 = .ok v ∧ Num.Lt v (some 0) ∧ f hi = .ok w ∧ Num.Lt (some 0) w ∧
      min r0 eff ≤ hi ∧ hi ≤ eff ∧ brent f 1e-8 hi = .ok (r, true) := by
  unfold gapRay at h
  split at h
  · rename_i heff
    have heff0 : 0 < eff := lt_trans (by norm_num) heff
    refine ⟨heff, ?_⟩
    cases hv : f 1e-8 with
    | error e => rw [hv] at h; simp at h
    | ok v =>
      rw [hv] at h
      simp only at h
      split at h
      · rename_i hlo
        cases hg : grow f eff (rounds (min r0 eff) eff) (min r0 eff) with
        | error e => rw [hg] at h; simp at h
        | ok o =>
          rw [hg] at h
          cases o with
          | none => simp at h
          | some hi =>
            simp only at h
            cases hw : f hi with
            | error e => rw [hw] at h; simp at h
            | ok w =>
              rw [hw] at h
              simp only at h
              split at h
              · rename_i hhi
                have hr := grow_range f eff _ _ hi (lt_min h0 heff0) (min_le_right _ _) hg
                cases hb : brent f 1e-8 hi with
                | error e => rw [hb] at h; simp at h
                | ok rc =>
                  obtain ⟨r', conv⟩ := rc
                  rw [hb] at h
                  cases conv with
                  | false => simp at h
                  | true =>
                    simp only [if_true, Option.some.injEq] at h
                    subst h
                    exact ⟨v, w, hi, rfl, hlo, hw, hhi, hr.1, hr.2, hb⟩
              · simp at h
      · simp at h
  · simp at h

theorem rInit_pos (T v : ℝ) : 0 < rInit T v := by
  unfold rInit
  refine Real.sqrt_pos.mpr ?_
  have : (1 : ℝ) ≤ max (T - v) 1 := le_max_right _ _
  linarith

/-! ### The points of the searches -/

theorem radialLoop_mem {k : ℕ} (G : Gen k) (R : Rays k) (r0 : ℝ) (n : ℕ) (s s' : G.State) (l : List (Vec k × Vec k))
    (h : radialLoop G R r0 n s = .ok (l, s')) : l.length ≤ n ∧ ∀ x ∈ l, ∃ z r, 1e-15 ≤ norm z ∧ x.2 = (norm z)⁻¹ • z ∧
      ray R.brent (R.f x.2) r0 (R.eff x.2) = .ok (some r) ∧ x.1 = R.at x.2 r := by
  induction n generalizing s l s' with
  | zero =>
    simp only [radialLoop, Except.ok.injEq, Prod.mk.injEq] at h
    obtain ⟨rfl, _⟩ := h
    simp
  | succ n ih =>
    rw [radialLoop] at h
    generalize hz : G.normal s = zs at h
    obtain ⟨z, s1⟩ := zs
    dsimp only at h
    split at h
    · obtain ⟨h1, h2⟩ := ih _ _ _ h
      exact ⟨by omega, h2⟩
    · rename_i hn
      cases hr : ray R.brent (R.f ((norm z)⁻¹ • z)) r0 (R.eff ((norm z)⁻¹ • z)) with
      | error e => rw [hr] at h; simp at h
      | ok o =>
        rw [hr] at h
        cases o with
        | none =>
          obtain ⟨h1, h2⟩ := ih _ _ _ h
          exact ⟨by omega, h2⟩
        | some r =>
          simp only at h
          cases hl : radialLoop G R r0 n s1 with
          | error e => rw [hl] at h; simp at h
          | ok ls =>
            obtain ⟨l1, s2⟩ := ls
            rw [hl] at h
            simp only [Except.ok.injEq, Prod.mk.injEq] at h
            obtain ⟨rfl, _⟩ := h
            obtain ⟨h1, h2⟩ := ih _ _ _ hl
            refine ⟨by simpa using h1, fun x hx => ?_⟩
            rcases List.mem_cons.mp hx with rfl | hx
            · exact ⟨z, r, not_lt.mp hn, rfl, hr, rfl⟩
            · exact h2 x hx

theorem radialSearch_mem {k : ℕ} (G : Gen k) (R : Rays k) (n : ℕ) (s s' : G.State) (l : List (Vec k × Vec k))
    (h : radialSearch G R n s = .ok (l, s')) : l.length ≤ n ∧ ∀ x ∈ l, ∃ z r r0, 0 < r0 ∧ 1e-15 ≤ norm z ∧ x.2 = (norm z)⁻¹ • z ∧
      ray R.brent (R.f x.2) r0 (R.eff x.2) = .ok (some r) ∧ x.1 = R.at x.2 r := by
  unfold radialSearch at h
  cases ha : atAnchor R.F R.anchor with
  | error e => rw [ha] at h; simp at h
  | ok v =>
    rw [ha] at h
    simp only at h
    split at h
    · simp only [Except.ok.injEq, Prod.mk.injEq] at h
      obtain ⟨rfl, _⟩ := h
      simp
    · obtain ⟨h1, h2⟩ := radialLoop_mem G R _ n s s' l h
      refine ⟨h1, fun x hx => ?_⟩
      obtain ⟨z, r, a1, a2, a3, a4⟩ := h2 x hx
      exact ⟨z, r, _, rInit_pos _ _, a1, a2, a3, a4⟩

theorem gapStarts_mem {k : ℕ} (R : Rays k) (r0 : ℝ) (radial : List (Vec k × Vec k)) (dirs : List (Vec k)) (t : Vec k)
    (h : t ∈ gapStarts R r0 radial dirs) :
    (∃ e ∈ dirs, ∃ r, gapRay R.brent (R.f e) r0 (R.eff e) = some r ∧ t = R.at e r) ∨ ∃ x ∈ radial, t = x.1 := by
  induction dirs with
  | nil => simp [gapStarts] at h
  | cons e l ih =>
    have lift : ((∃ e ∈ l, ∃ r, gapRay R.brent (R.f e) r0 (R.eff e) = some r ∧ t = R.at e r) ∨ ∃ x ∈ radial, t = x.1) →
        ((∃ e' ∈ e :: l, ∃ r, gapRay R.brent (R.f e') r0 (R.eff e') = some r ∧ t = R.at e' r) ∨ ∃ x ∈ radial, t = x.1) := by
      rintro (⟨e', h1, h2⟩ | h)
      · exact .inl ⟨e', List.mem_cons_of_mem _ h1, h2⟩
      · exact .inr h
    simp only [gapStarts] at h
    cases hg : gapRay R.brent (R.f e) r0 (R.eff e) with
    | some r =>
      rw [hg] at h
      rcases List.mem_cons.mp h with rfl | h
      · exact .inl ⟨e, by simp, r, hg, rfl⟩
      · exact lift (ih h)
    | none =>
      rw [hg] at h
      simp only at h
      split at h
      · rename_i x hx
        rcases List.mem_cons.mp h with rfl | h
        · exact .inr ⟨x, List.mem_of_getElem? hx, rfl⟩
        · exact lift (ih h)
      · exact lift (ih h)

end Verif.Contour
