import Verif.Contour.Spec
import Mathlib.Tactic

/-!
# Lemmas about contours
-/

namespace Verif.Contour

open Matrix

theorem Num.lt_some (a b : ℝ) : Num.Lt (some a) (some b) ↔ a < b := Iff.rfl
theorem Num.le_some (a b : ℝ) : Num.Le (some a) (some b) ↔ a ≤ b := Iff.rfl
theorem Num.not_lt_none (a : Num) : ¬ Num.Lt none a := by cases a <;> exact id
theorem Num.not_lt_none' (a : Num) : ¬ Num.Lt a none := by cases a <;> exact id
theorem Num.not_le_none (a : Num) : ¬ Num.Le none a := by cases a <;> exact id
theorem Num.not_le_none' (a : Num) : ¬ Num.Le a none := by cases a <;> exact id

/-- Once a position is `nan`, so is what a Newton step gives. -/
theorem newton_some {k : ℕ} {θ : Option (Vec k)} {r : Num} {g : Option (Vec k)} {t' : Vec k} (h : newton θ r g = some t') :
    ∃ t r' g', θ = some t ∧ r = some r' ∧ g = some g' ∧ t' = t - (r' / (g' ⬝ᵥ g')) • g' := by
  cases θ <;> cases r <;> cases g <;> simp_all [newton]

theorem newton_none {k : ℕ} (r : Num) (g : Option (Vec k)) : newton none r g = none := by cases r <;> cases g <;> rfl

/-- A projection does not come back from `nan`. -/
theorem project_none {k : ℕ} (F : Target k) (T tol : ℝ) (n : ℕ) (θ : Option (Vec k))
    (h : project F T tol n none = .ok θ) : θ = none := by
  induction n with
  | zero => simp only [project, Except.ok.injEq] at h; exact h.symm
  | succ n ih =>
    simp only [project] at h
    cases hv : F.nll none with
    | error e => rw [hv] at h; simp at h
    | ok v =>
      rw [hv] at h
      simp only at h
      split at h
      · simpa using h.symm
      · cases hg : F.grad none with
        | error e => rw [hg] at h; simp at h
        | ok g =>
          rw [hg] at h
          simp only at h
          split at h
          · simpa using h.symm
          · rw [newton_none] at h
            exact ih h

theorem dot_self_eq_zero {k : ℕ} {g : Vec k} (h : ¬ g ⬝ᵥ g < 1e-20) : g ⬝ᵥ g ≠ 0 := by
  intro h0; rw [h0] at h; norm_num at h

theorem tangent_orthogonal {k : ℕ} (p g q : Vec k) (hg : 1e-20 < g ⬝ᵥ g) (h : tangent (some p) (some g) = some q) : q ⬝ᵥ g = 0 := by
  have hne : g ⬝ᵥ g ≠ 0 := by intro h0; rw [h0] at hg; norm_num at hg
  have hlt : Num.Lt (some 1e-20) ((some g).map fun g => g ⬝ᵥ g) := hg
  simp only [tangent, if_pos hlt, Option.some.injEq] at h
  rw [← h, sub_dotProduct, smul_dotProduct, smul_eq_mul, div_mul_cancel₀ _ hne, sub_self]

end Verif.Contour
