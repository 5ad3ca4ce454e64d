import Verif.Interval.Lemmas

/-!
# What `chi2_test` has computed
-/

namespace Verif.Interval
open Verif.Py F Verif.Hypotest Verif.Chi2
open Verif.Stats (Expect)

/-- What `chi2_test` has computed when it returns. -/
theorem interval_reads {σ : Type} {I : σ → Prop} {M : Methods σ} {sigma : Expect → ℝ → Comp σ F} {e : Expect} {isf : ℝ → F} {fuel nScan nMulti : ℕ} {toms brent : UpperLimit.Solver} {minimize : Minimizer} {CL r : ℝ} {m : F}
    {t : LimitType} {negative n : Bool}
    (hneg : (negative || decide (t = .twoSided) || decide (t = .left)) = n) (hm : Ends I (M.maximize e n none) (.ok (.one r, m))) (hs : ∀ w, I w → I (sigma e r w).2) {l : List F} {w : σ} (hw : I w)
    (h : (chi2Interval fuel toms brent minimize isf M sigma e CL t negative nScan nMulti w).1 = .ok (some l)) :
    ∃ s w', I w' ∧ chi2Test fuel toms brent minimize (nllFn M e w') (isf (1 - CL)) t (poiProblem t negative r m s) nScan nMulti = some (.ok l) := by
  unfold chi2Interval at h
  split at h
  case isFalse => simp [lift] at h
  obtain ⟨h1, h2⟩ := hm w hw
  have h3 : M.maximize e n none w = (.ok (.one r, m), (M.maximize e n none w).2) := Prod.ext h1 rfl
  generalize (M.maximize e n none w).2 = w1 at h2 h3
  rw [bind_ok (by convert h3 using 2)] at h
  dsimp only at h
  have h4 := hs w1 h2
  cases hc : orOne (sigma e r) w1 with
  | mk x w' =>
    have h5 : I w' := by
      have : w' = (sigma e r w1).2 := by
        unfold orOne at hc
        split at hc
        · rename_i _ k hk
          rw [hk]
          exact ((Prod.mk.injEq ..).mp hc).2.symm
        · rw [hc]
      exact this ▸ h4
    cases x with
    | error err =>
      rw [bind_error hc] at h
      simp at h
    | ok s =>
      rw [bind_ok hc] at h
      refine ⟨s, w', h5, ?_⟩
      unfold search at h
      dsimp only at h
      split at h <;> simp_all

/-- A crossing of a parabola is one of its two zeros, up to the tolerance. -/
theorem parabola_crosses {est d t x y y' : ℝ} (hd : 0 < d) (hy : |y - x| ≤ t) (h1 : |y - est| ≤ d) (hy' : |y' - x| ≤ t) (h2 : d ≤ |y' - est|) : |x - (est - d)| ≤ t ∨ |x - (est + d)| ≤ t := by
  rw [abs_le] at hy hy' h1
  rcases le_abs.mp h2 with h2 | h2
  · rcases le_total x (est + d) with h3 | h3
    · exact .inr (abs_le.mpr ⟨by linarith, by linarith⟩)
    · exact .inr (abs_le.mpr ⟨by linarith, by linarith⟩)
  · rcases le_total x (est - d) with h3 | h3
    · exact .inl (abs_le.mpr ⟨by linarith, by linarith⟩)
    · exact .inl (abs_le.mpr ⟨by linarith, by linarith⟩)

end Verif.Interval
