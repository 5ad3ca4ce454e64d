import Verif.Contour.Lemmas

/-!
# Properties C63 and C91: projection, RATTLE steps and points on the level
-/

namespace Verif.Contour

open Matrix

/-! ## C63: projection and steps -/

/-- C63. What the projection returns: the point after some number of Newton steps, none of which starts on the level. If that number
is below the limit, the point is on the level or the gradient vanishes there. -/
theorem C63_project {k : ℕ} (F : Target k) (T tol : ℝ) (n : ℕ) (t t' : Vec k)
    (h : project F T tol n (some t) = .ok (some t')) :
    ∃ j ≤ n, NewtonSteps F T tol j t t' ∧ (j < n → OnLevel F T tol t' ∨ Flat F t') := by
  induction n generalizing t with
  | zero =>
    simp only [project, Except.ok.injEq, Option.some.injEq] at h
    exact ⟨0, le_refl _, h ▸ .zero t, fun hj => absurd hj (lt_irrefl _)⟩
  | succ n ih =>
    simp only [project] at h
    cases hv : F.nll (some t) with
    | error e => rw [hv] at h; simp at h
    | ok v =>
      rw [hv] at h
      simp only at h
      split at h
      · rename_i hlt
        simp only [Except.ok.injEq, Option.some.injEq] at h
        cases v with
        | none => exact absurd hlt (Num.not_lt_none _)
        | some v => exact ⟨0, by omega, h ▸ .zero t, fun _ => .inl (h ▸ ⟨v, hv, hlt⟩)⟩
      · rename_i hnot
        cases hg : F.grad (some t) with
        | error e => rw [hg] at h; simp at h
        | ok g =>
          rw [hg] at h
          simp only at h
          split at h
          · rename_i hflat
            simp only [Except.ok.injEq, Option.some.injEq] at h
            cases g with
            | none => exact absurd hflat (Num.not_lt_none _)
            | some g => exact ⟨0, by omega, h ▸ .zero t, fun _ => .inr (h ▸ ⟨g, hg, hflat⟩)⟩
          · rename_i hflat
            cases hn : newton (some t) (v.map fun x => x - T) g with
            | none =>
              rw [hn] at h
              have := project_none F T tol n _ h
              simp at this
            | some t1 =>
              rw [hn] at h
              obtain ⟨t0, r, g', e1, e2, e3, e4⟩ := newton_some hn
              simp only [Option.some.injEq] at e1
              subst e1 e3
              cases v with
              | none => simp at e2
              | some v =>
                simp only [Option.map_some, Option.some.injEq] at e2
                subst e2
                obtain ⟨j, hj, hs, hend⟩ := ih t1 h
                refine ⟨j + 1, by omega, .succ t t1 t' j ?_ ⟨v, g', hv, hg, dot_self_eq_zero hflat, ?_⟩ hs, fun hlt => hend (by omega)⟩
                · rintro ⟨v', hv', hlt⟩
                  rw [hv] at hv'
                  simp only [Except.ok.injEq, Option.some.injEq] at hv'
                  subst hv'
                  exact hnot hlt
                · intro i; rw [e4]; simp

/-- C63. A point on the level stays where it is. -/
theorem C63_fixed {k : ℕ} (F : Target k) (T tol : ℝ) (n : ℕ) (t : Vec k) (h : OnLevel F T tol t) :
    project F T tol n (some t) = .ok (some t) := by
  obtain ⟨v, hv, hlt⟩ := h
  cases n with
  | zero => rfl
  | succ n =>
    simp only [project, hv]
    rw [if_pos (show Num.Lt ((some v).map fun x => |x - T|) (some tol) from hlt)]

/-- The point 2 is on the level 7 of the function `3 t + 1`. -/
example : OnLevel (⟨fun θ => .ok (θ.map fun t => 3 * t 0 + 1), fun θ => .ok (θ.map fun _ => ![3])⟩ : Target 1) 7 1e-9 ![2] :=
  ⟨7, by simp; norm_num, by norm_num⟩

/-- C63. For an affine function with a gradient that does not vanish, one step is enough. -/
theorem C63_affine {k : ℕ} (F : Target k) (a : Vec k) (c T tol : ℝ) (htol : 0 < tol) (ha : 1e-20 ≤ a ⬝ᵥ a)
    (hF : ∀ t, F.nll (some t) = .ok (some (a ⬝ᵥ t + c))) (hG : ∀ t, F.grad (some t) = .ok (some a)) (n : ℕ) (t : Vec k) :
    ∃ t', project F T tol (n + 1) (some t) = .ok (some t') ∧ |a ⬝ᵥ t' + c - T| < tol := by
  have ha0 : a ⬝ᵥ a ≠ 0 := by intro h; rw [h] at ha; norm_num at ha
  by_cases h : |a ⬝ᵥ t + c - T| < tol
  · exact ⟨t, C63_fixed F T tol _ t ⟨_, hF t, h⟩, h⟩
  · have hval : a ⬝ᵥ (t - ((a ⬝ᵥ t + c - T) / (a ⬝ᵥ a)) • a) + c - T = 0 := by
      rw [dotProduct_sub, dotProduct_smul, smul_eq_mul, div_mul_cancel₀ _ ha0]; ring
    refine ⟨t - ((a ⬝ᵥ t + c - T) / (a ⬝ᵥ a)) • a, ?_, by rw [hval, abs_zero]; exact htol⟩
    simp only [project, hF, hG]
    rw [if_neg (show ¬ Num.Lt ((some (a ⬝ᵥ t + c)).map fun x => |x - T|) (some tol) from h),
      if_neg (show ¬ Num.Lt ((some a).map fun g => g ⬝ᵥ g) (some 1e-20) from not_lt.mpr ha)]
    refine C63_fixed F T tol n _ ⟨_, hF _, ?_⟩
    rw [hval, abs_zero]
    exact htol

/-- The function `a · t` in two dimensions, with `a = (3, 4)`. -/
noncomputable def exAffine : Target 2 :=
  ⟨fun θ => .ok (θ.map fun t => ![3, 4] ⬝ᵥ t + 1), fun θ => .ok (θ.map fun _ => ![3, 4])⟩

example : ∃ t', project exAffine 7 1e-9 100 (some ![0, 0]) = .ok (some t') ∧ |(![3, 4] : Vec 2) ⬝ᵥ t' + 1 - 7| < 1e-9 :=
  C63_affine exAffine ![3, 4] 1 7 1e-9 (by norm_num) (by simp [dotProduct]; norm_num) (fun _ => rfl) (fun _ => rfl) 99 ![0, 0]

/-- C63. After a RATTLE step the momentum is orthogonal to the gradient at the new point, unless the gradient vanishes there. -/
theorem C63_tangent {k : ℕ} (F : Target k) (T eps tol : ℝ) (n : ℕ) (θ p : Option (Vec k)) (t1 p1 g1 : Vec k)
    (h : rattleStep F T eps tol n θ p = .ok (some t1, some p1)) (hg1 : F.grad (some t1) = .ok (some g1)) (hg : 1e-20 < g1 ⬝ᵥ g1) :
    p1 ⬝ᵥ g1 = 0 := by
  unfold rattleStep at h
  cases hg0 : F.grad θ with
  | error e => rw [hg0] at h; simp at h
  | ok g0 =>
    rw [hg0] at h
    simp only at h
    cases hp : project F T tol n (drift θ eps (kick p (eps / 2) g0)) with
    | error e => rw [hp] at h; simp at h
    | ok θ1 =>
      rw [hp] at h
      simp only at h
      cases hg2 : F.grad θ1 with
      | error e => rw [hg2] at h; simp at h
      | ok g2 =>
        rw [hg2] at h
        simp only [Except.ok.injEq, Prod.mk.injEq] at h
        obtain ⟨rfl, h⟩ := h
        rw [hg1] at hg2
        simp only [Except.ok.injEq] at hg2
        subst hg2
        cases hq : kick (kick p (eps / 2) g0) (eps / 2) (some g1) with
        | none =>
          rw [hq] at h
          simp only [tangent] at h
          split at h <;> simp at h
        | some q =>
          rw [hq] at h
          exact tangent_orthogonal q g1 p1 hg h

/-- A step along the level of the affine function meets the hypotheses of `C63_tangent` and `C63_position`. -/
example : ∃ t1 p1, rattleStep exAffine 7 0.05 1e-9 100 (some ![2, 0]) (some ![4, -3]) = .ok (some t1, some p1) ∧
    exAffine.grad (some ![2, 0]) = .ok (some ![3, 4]) ∧ exAffine.grad (some t1) = .ok (some ![3, 4]) ∧
    (1e-20 : ℝ) < (![3, 4] : Vec 2) ⬝ᵥ ![3, 4] := by
  obtain ⟨t', ht', _⟩ := C63_affine exAffine ![3, 4] 1 7 1e-9 (by norm_num) (by simp [dotProduct]; norm_num) (fun _ => rfl) (fun _ => rfl) 99
    ((![2, 0] : Vec 2) + (0.05 : ℝ) • (![4, -3] - (0.05 / 2 : ℝ) • ![3, 4]))
  have hg : ∀ t, exAffine.grad (some t) = .ok (some ![3, 4]) := fun _ => rfl
  have hpos : (1e-20 : ℝ) < (![3, 4] : Vec 2) ⬝ᵥ ![3, 4] := by simp [dotProduct]; norm_num
  have hd : drift (some (![2, 0] : Vec 2)) 0.05 (kick (some ![4, -3]) (0.05 / 2) (some ![3, 4])) =
      some ((![2, 0] : Vec 2) + (0.05 : ℝ) • (![4, -3] - (0.05 / 2 : ℝ) • ![3, 4])) := rfl
  rw [show (99 : ℕ) + 1 = 100 from rfl] at ht'
  unfold rattleStep
  simp only [hg, hd, ht']
  simp only [kick, tangent]
  rw [if_pos (show Num.Lt (some 1e-20) ((some (![3, 4] : Vec 2)).map fun g => g ⬝ᵥ g) from hpos)]
  exact ⟨_, _, rfl, trivial, trivial, hpos⟩

/-- C63. The new point of a RATTLE step is the projection of the point after a half kick and a drift. -/
theorem C63_position {k : ℕ} (F : Target k) (T eps tol : ℝ) (n : ℕ) (t p t1 g0 : Vec k) (p1 : Option (Vec k))
    (h : rattleStep F T eps tol n (some t) (some p) = .ok (some t1, p1)) (hg0 : F.grad (some t) = .ok (some g0)) :
    ∃ t', (∀ i, t' i = t i + eps * (p i - eps / 2 * g0 i)) ∧ ∃ j ≤ n, NewtonSteps F T tol j t' t1 ∧
      (j < n → OnLevel F T tol t1 ∨ Flat F t1) := by
  unfold rattleStep at h
  rw [hg0] at h
  simp only [kick, drift] at h
  cases hp : project F T tol n (some (t + eps • (p - (eps / 2) • g0))) with
  | error e => rw [hp] at h; simp at h
  | ok θ1 =>
    rw [hp] at h
    simp only at h
    cases hg2 : F.grad θ1 with
    | error e => rw [hg2] at h; simp at h
    | ok g2 =>
      rw [hg2] at h
      simp only [Except.ok.injEq, Prod.mk.injEq] at h
      obtain ⟨rfl, _⟩ := h
      exact ⟨_, fun i => by simp, C63_project F T tol n _ _ hp⟩

/-- C63. The initial and the resampled momentum are orthogonal to the gradient, and of length one unless almost zero. -/
theorem C63_momentum {k : ℕ} (F : Target k) (θ : Option (Vec k)) (raw g q : Vec k) (hg : F.grad θ = .ok (some g))
    (hpos : 1e-20 < g ⬝ᵥ g) (h : tangentMomentum F θ raw = .ok (some q)) :
    q ⬝ᵥ g = 0 ∧ (norm q = 1 ∨ norm q ≤ 1e-15) := by
  unfold tangentMomentum at h
  rw [hg] at h
  simp only [Except.ok.injEq] at h
  cases ht : tangent (some raw) (some g) with
  | none => rw [ht] at h; simp [normalise] at h
  | some q0 =>
    have h0 := tangent_orthogonal raw g q0 hpos ht
    rw [ht] at h
    simp only [normalise] at h
    split at h
    · rename_i hn
      simp only [Option.some.injEq] at h
      subst h
      have hpos' : 0 < norm q0 := lt_trans (by norm_num) hn
      refine ⟨by rw [smul_dotProduct, h0, smul_zero], .inl ?_⟩
      have hsq : q0 ⬝ᵥ q0 = norm q0 * norm q0 := by
        unfold norm
        rw [Real.mul_self_sqrt]
        exact Finset.sum_nonneg fun i _ => mul_self_nonneg _
      have : ((norm q0)⁻¹ • q0) ⬝ᵥ ((norm q0)⁻¹ • q0) = 1 := by
        rw [smul_dotProduct, dotProduct_smul, hsq, smul_eq_mul, smul_eq_mul]
        field_simp
      unfold norm at this ⊢
      rw [this, Real.sqrt_one]
    · rename_i hn
      simp only [Option.some.injEq] at h
      subst h
      exact ⟨h0, .inr (not_lt.mp hn)⟩

example : ∃ q, tangentMomentum exAffine (some ![0, 0]) ![1, 0] = .ok (some q) ∧ q ⬝ᵥ (![3, 4] : Vec 2) = 0 := by
  have hpos : (1e-20 : ℝ) < (![3, 4] : Vec 2) ⬝ᵥ ![3, 4] := by simp [dotProduct]; norm_num
  have : ∃ q, tangentMomentum exAffine (some ![0, 0]) ![1, 0] = .ok (some q) := by
    have ht : ∃ q0, tangent (some (![1, 0] : Vec 2)) (some ![3, 4]) = some q0 := by
      simp only [tangent]
      rw [if_pos (show Num.Lt (some 1e-20) ((some (![3, 4] : Vec 2)).map fun g => g ⬝ᵥ g) from hpos)]
      exact ⟨_, rfl⟩
    obtain ⟨q0, hq0⟩ := ht
    simp only [tangentMomentum, exAffine, Option.map_some, hq0, normalise]
    split
    · exact ⟨_, rfl⟩
    · exact ⟨_, rfl⟩
  obtain ⟨q, hq⟩ := this
  exact ⟨q, hq, (C63_momentum exAffine _ _ ![3, 4] q rfl hpos hq).1⟩

/-! ## C91: points on the level -/

/-- The function `x ^ 3 - 2 x + 2` in one dimension. -/
noncomputable def exCubic : Target 1 :=
  ⟨fun θ => .ok (θ.map fun t => t 0 ^ 3 - 2 * t 0 + 2), fun θ => .ok (θ.map fun t => ![3 * t 0 ^ 2 - 2])⟩

theorem cubic_step0 (n : ℕ) : project exCubic 0 1e-9 (n + 1) (some ![0]) = project exCubic 0 1e-9 n (some ![1]) := by
  simp only [project, exCubic, Option.map_some]
  rw [if_neg, if_neg]
  · simp only [newton]
    congr 2
    funext i
    fin_cases i
    simp [dotProduct]
    try norm_num
  · rw [Num.lt_some]; simp [dotProduct]; norm_num
  · rw [Num.lt_some]; simp; norm_num

theorem cubic_step1 (n : ℕ) : project exCubic 0 1e-9 (n + 1) (some ![1]) = project exCubic 0 1e-9 n (some ![0]) := by
  simp only [project, exCubic, Option.map_some]
  rw [if_neg, if_neg]
  · simp only [newton]
    congr 2
    funext i
    fin_cases i
    simp [dotProduct]
    try norm_num
  · rw [Num.lt_some]; simp [dotProduct]; norm_num
  · rw [Num.lt_some]; simp; norm_num

theorem cubic_project (n : ℕ) : ∀ t : Vec 1, t = ![0] ∨ t = ![1] →
    ∃ t', (t' = ![0] ∨ t' = ![1]) ∧ project exCubic 0 1e-9 n (some t) = .ok (some t') := by
  induction n with
  | zero => exact fun t ht => ⟨t, ht, rfl⟩
  | succ n ih =>
    rintro t (rfl | rfl)
    · rw [cubic_step0]; exact ih _ (.inr rfl)
    · rw [cubic_step1]; exact ih _ (.inl rfl)

theorem cubic_off (t : Vec 1) (ht : t = ![0] ∨ t = ![1]) : ¬ OnLevel exCubic 0 1 t := by
  rintro ⟨v, hv, hlt⟩
  rcases ht with rfl | rfl <;>
    simp only [exCubic, Option.map_some, Except.ok.injEq, Option.some.injEq] at hv <;> subst hv <;>
    norm_num at hlt

/-- C91 fails for the chains: Newton's method need not converge, and the point where it ends is returned all the same. For the
function `x ^ 3 - 2 x + 2` and every limit on the number of iterations the first point of a walk misses the level by one or more. -/
theorem C91_chain_fails (n : ℕ) (raw : ℕ → Vec 1) (b : Bounds 1) :
    ∃ t', rattleWalk exCubic ⟨0, 0, 0.05, 1e-9, n, b⟩ raw (some ![0]) = .ok [some t'] ∧ ¬ OnLevel exCubic 0 1 t' := by
  obtain ⟨t', ht', hp⟩ := cubic_project n ![0] (.inl rfl)
  refine ⟨t', ?_, cubic_off t' ht'⟩
  have hm : ∃ q, tangentMomentum exCubic (some t') (raw 0) = .ok q := ⟨_, rfl⟩
  obtain ⟨q, hm⟩ := hm
  simp only [rattleWalk, hp, hm, walkLoop]

/-- The points of a walk are results of projections that were not `nan` before; C91, where it holds: a point of a walk is on the level
or the gradient vanishes there or the limit on the number of iterations was reached. Missing: the last case, see above. -/
def Projected {k : ℕ} (F : Target k) (T tol : ℝ) (n : ℕ) (t : Vec k) : Prop :=
  OnLevel F T tol t ∨ Flat F t ∨ ∃ t0, NewtonSteps F T tol n t0 t

theorem projected_of {k : ℕ} (F : Target k) (T tol : ℝ) (n : ℕ) (θ : Option (Vec k)) (t : Vec k)
    (h : project F T tol n θ = .ok (some t)) : Projected F T tol n t := by
  cases θ with
  | none => have := project_none F T tol n _ h; simp at this
  | some t0 =>
    obtain ⟨j, hj, hs, he⟩ := C63_project F T tol n t0 t h
    rcases lt_or_eq_of_le hj with hlt | rfl
    · rcases he hlt with h | h
      · exact .inl h
      · exact .inr (.inl h)
    · exact .inr (.inr ⟨t0, hs⟩)

theorem step_projected {k : ℕ} (F : Target k) (T eps tol : ℝ) (n : ℕ) (θ p : Option (Vec k)) (t1 : Vec k) (p1 : Option (Vec k))
    (h : rattleStep F T eps tol n θ p = .ok (some t1, p1)) : Projected F T tol n t1 := by
  unfold rattleStep at h
  cases hg0 : F.grad θ with
  | error e => rw [hg0] at h; simp at h
  | ok g0 =>
    rw [hg0] at h
    simp only at h
    cases hp : project F T tol n (drift θ eps (kick p (eps / 2) g0)) with
    | error e => rw [hp] at h; simp at h
    | ok θ1 =>
      rw [hp] at h
      simp only at h
      cases hg2 : F.grad θ1 with
      | error e => rw [hg2] at h; simp at h
      | ok g2 =>
        rw [hg2] at h
        simp only [Except.ok.injEq, Prod.mk.injEq] at h
        obtain ⟨rfl, _⟩ := h
        exact projected_of F T tol n _ _ hp

theorem loop_points {k : ℕ} (F : Target k) (w : Walk k) (raw : ℕ → Vec k) (n : ℕ) :
    ∀ step θ p d l, walkLoop F w raw n step θ p d = .ok l → l.length ≤ n ∧
      ∀ t, some t ∈ l → Projected F w.T w.tol w.maxIter t ∧ Inside w.bounds t := by
  induction n with
  | zero =>
    intro step θ p d l h
    simp only [walkLoop, Except.ok.injEq] at h
    subst h
    simp
  | succ n ih =>
    intro step θ p d l h
    simp only [walkLoop] at h
    cases hm : momentum F w raw step θ p d with
    | error e => rw [hm] at h; simp at h
    | ok pd =>
      obtain ⟨p', d'⟩ := pd
      rw [hm] at h
      simp only at h
      cases hs : rattleStep F w.T w.eps w.tol w.maxIter θ p' with
      | error e => rw [hs] at h; simp only [Except.ok.injEq] at h; subst h; simp
      | ok tp =>
        obtain ⟨θ1, p1⟩ := tp
        rw [hs] at h
        simp only at h
        split at h
        · simp only [Except.ok.injEq] at h; subst h; simp
        · rename_i hout
          cases hl : walkLoop F w raw n (step + 1) θ1 p1 d' with
          | error e => rw [hl] at h; simp at h
          | ok l' =>
            rw [hl] at h
            simp only [Except.ok.injEq] at h
            subst h
            obtain ⟨h1, h2⟩ := ih _ _ _ _ _ hl
            refine ⟨by simpa using h1, fun t ht => ?_⟩
            rcases List.mem_cons.mp ht with rfl | ht
            · refine ⟨step_projected F _ _ _ _ _ _ _ _ hs, fun i => ⟨fun lo hlo => ?_, fun hi hhi => ?_⟩⟩
              · by_contra hc
                exact hout ⟨i, .inl ⟨lo, hlo, not_le.mp hc⟩⟩
              · by_contra hc
                exact hout ⟨i, .inr ⟨hi, hhi, not_le.mp hc⟩⟩
            · exact h2 t ht

/-- C91, where it holds: a point of a walk that is not `nan` is on the level, unless the gradient vanishes there or the limit on the
number of Newton steps was reached. Missing: these two cases. -/
theorem C91_chain_partial {k : ℕ} (F : Target k) (w : Walk k) (raw : ℕ → Vec k) (start : Option (Vec k)) (l : List (Option (Vec k)))
    (h : rattleWalk F w raw start = .ok l) (t : Vec k) (ht : some t ∈ l) :
    OnLevel F w.T w.tol t ∨ Flat F t ∨ ∃ t0, NewtonSteps F w.T w.tol w.maxIter t0 t := by
  unfold rattleWalk at h
  cases hp : project F w.T w.tol w.maxIter start with
  | error e => rw [hp] at h; simp at h
  | ok θ =>
    rw [hp] at h
    simp only at h
    cases hm : tangentMomentum F θ (raw 0) with
    | error e => rw [hm] at h; simp at h
    | ok p =>
      rw [hm] at h
      simp only at h
      cases hl : walkLoop F w raw w.nSteps 0 θ p 1 with
      | error e => rw [hl] at h; simp at h
      | ok l' =>
        rw [hl] at h
        simp only [Except.ok.injEq] at h
        subst h
        rcases List.mem_cons.mp ht with e | ht
        · subst e; exact projected_of F _ _ _ _ _ hp
        · exact ((loop_points F w raw _ _ _ _ _ _ hl).2 t ht).1

end Verif.Contour
