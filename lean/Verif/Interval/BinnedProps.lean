import Verif.Interval.Binned
import Verif.Interval.Props

/-!
# Property C186: upper limits from `chi2_test` of bins
-/

namespace Verif.Interval
open Verif.Py F Verif.Hypotest Verif.Chi2 Verif.Chain Verif.Uncorrelated
open Verif.Interface (World Size Plain Solver perfect)
open Verif.Backend (Ext Vec)
open Verif.Stats (Expect Calc)
open Verif.UpperLimit (Sound Succeeds)

section
variable {S : Solver} (hS : Exact S) (hT : Finds S) (hC : Interface.Constrained S) {E : Ext} (draw : Vec × List Vec → ℕ → List Vec) {bins : List Bin} {m : Backend.Model} {N : ℕ}
  (h : Describes bins m N) (hv : Valid bins) (e : Expect) (hglob : ∃ b, 0 ≤ b ∧ b ≤ 10 ∧ ∀ v, 0 ≤ v → Uncorrelated.profile E.gammaln (seen e bins) v ≤ Uncorrelated.profile E.gammaln (seen e bins) b)
  (inv : List (List ℝ) → Except Interface.Err (List (List ℝ))) (g : Bool) (ntoys : Size) (available : Calc → Bool) (percentile : List F → F → F)
  {CL z : ℝ} (hz : Central CL z) {isf : ℝ → F} (hisf : ChiSquared isf) {tol : ℝ → ℝ} (h0 : ∀ x, 0 ≤ tol x) {toms brent : UpperLimit.Solver} (ht : Sound tol toms)
include hS hT hC h hv hglob hz hisf h0 ht

omit hS hT hC h hv hz hisf h0 ht in
theorem best_global {b : ℝ} (hb : IsBest (Uncorrelated.profile E.gammaln (seen e bins)) b) (v : ℝ) (hv0 : 0 ≤ v) :
    Uncorrelated.profile E.gammaln (seen e bins) v ≤ Uncorrelated.profile E.gammaln (seen e bins) b := by
  obtain ⟨b', k0, k10, k⟩ := hglob
  exact (k v hv0).trans (hb.2.2 b' k0 k10)

/-- C186. Whatever `chi2_test` for the right side returns for the binned models, with any numbers of points and starts of the scan: nan, `1e5`, or a strength, and such a strength, if it is (by the
tolerance of the root finder) above the fitted one, separates the strengths: the statistic of all smaller ones is at most the quantile, and that of all larger ones at least. The fitted strength is not
limited by the upper bound of the strength. -/
theorem C186_value (hbr : Sound tol brent) {minimize : Minimizer} (hm : Honest minimize) (fuel nScan nMulti : ℕ) (w : World) (hw : Plain N w) (L : List F)
    (hr : (chi2Interval fuel toms brent minimize isf (modelMethods S (plugged E draw m) g none ntoys available percentile) (modelSigma S inv (plugged E draw m) g ntoys available percentile) e CL .right
      false nScan nMulti w).1 = .ok (some L)) :
    ∃ best, IsBest (Uncorrelated.profile E.gammaln (seen e bins)) best ∧ ∀ v ∈ L, v = nan ∨ v = fin 1e5 ∨ ∃ x, v = fin x ∧
      (best ≤ x - tol x → ∀ u q, 0 ≤ u → IsStat (Uncorrelated.profile E.gammaln (seen e bins)) u q → (u ≤ x - tol x → q ≤ z ^ 2) ∧ (x + tol x ≤ u → z ^ 2 ≤ q)) := by
  obtain ⟨Q, c, best, k1, k2, k3, k4⟩ := bins_fits hS hT hC (E := E) draw h hv e g ntoys available percentile
  have hsig := modelSigma_steady hS.free inv (plugged E draw m) (plugged_fixed h E draw) g ntoys available percentile N
  obtain ⟨s, w', hw', hc⟩ := interval_reads (by simp) k3 (fun w hw => (hsig e best w w hw hw).2) hw hr
  rw [← hz.2, hisf z hz.1] at hc
  refine ⟨best, k2, right_value (profile_concave _ (seen_valid e hv).1) k1 (fun v hv0 => ?_) k2 (best_global e hglob k2) h0 ht hbr hm hc⟩
  unfold nllFn
  rw [(k4 v hv0 w' hw').1]

/-- C186. With the default number of points, it returns the strength `u` whose statistic is the quantile, up to the tolerance, if `u` is in the window of the first scan, the statistic at its upper end
and twice the logarithm of the ratio at its lower end (or at zero) are on different sides of the quantile, and the tolerance is smaller than the distance to the fitted strength. If
`sigma_mu` is not available for the model, the uncertainty is taken to be 1. -/
theorem C186_found (hs : Succeeds toms) {minimize : Minimizer} (hCL : 0 ≤ CL) {s : ℝ} (hs0 : 0 < s) (sigma : Expect → ℝ → Comp World F)
    (hsig : ∀ b, IsBest (Uncorrelated.profile E.gammaln (seen e bins)) b → Ends (Plain N) (sigma e b) (.ok (fin s)) ∨ s = 1 ∧ Ends (Plain N) (sigma e b) (.error (.call .method)))
    {u δ : ℝ} (hu0 : 0 ≤ u) (hu : IsStat (Uncorrelated.profile E.gammaln (seen e bins)) u (z ^ 2)) (hδ : ∀ x, 0 ≤ x → x ≤ 1e5 → tol x ≤ δ)
    (hwin : ∀ b, IsBest (Uncorrelated.profile E.gammaln (seen e bins)) b → b + δ + 1e-12 < u ∧ u < b + max (6 * s) 3 ∧ b + max (6 * s) 3 ≤ 1e5 ∧
      2 * (Uncorrelated.profile E.gammaln (seen e bins) b - Uncorrelated.profile E.gammaln (seen e bins) (max 0 (b - max (6 * s) 3))) < z ^ 2) (nMulti : ℕ) :
    ∃ y, |y - u| ≤ tol y ∧ ∀ fuel, Ends (Plain N) (chi2Interval fuel toms brent minimize isf (modelMethods S (plugged E draw m) g none ntoys available percentile)
      sigma e CL .right false 3 nMulti) (.ok (some [fin y])) := by
  obtain ⟨Q, c, best, k1, k2, k3, k4⟩ := bins_fits hS hT hC (E := E) draw h hv e g ntoys available percentile
  obtain ⟨a1, a2, a3, a4⟩ := hwin best k2
  obtain ⟨w0, hw0⟩ : ∃ w : World, Plain N w := ⟨⟨List.replicate N 0, none, none⟩, rfl, rfl, by simp⟩
  have hM := C110_model hS.free (plugged E draw m) (plugged_fixed h E draw) g none ntoys available percentile N
  have hnll : ∀ w, Plain N w → nllFn (modelMethods S (plugged E draw m) g none ntoys available percentile) e w = nllFn (modelMethods S (plugged E draw m) g none ntoys available percentile) e w0 := by
    intro w hw
    funext v
    unfold nllFn
    rw [(hM.likelihood e none v w w0 hw hw0).1]
  have hz2 : 0 < z ^ 2 := pow_pos hz.1 2
  have hu' : 2 * (Uncorrelated.profile E.gammaln (seen e bins) best - Uncorrelated.profile E.gammaln (seen e bins) u) = z ^ 2 := by
    obtain ⟨b, b1, b2, b3⟩ := hu
    rw [best_eq k2 b1]
    rcases le_or_gt b u with hle | hlt
    · have := b2 hle
      rw [max_eq_left (by linarith [best_global e hglob b1 u hu0])] at this
      exact this.symm
    · linarith [b3 hlt]
  have d0 : 0 ≤ δ := (h0 0).trans (hδ 0 le_rfl (by norm_num))
  obtain ⟨y, y1, y2⟩ := right_found (nll := nllFn (modelMethods S (plugged E draw m) g none ntoys available percentile) e w0) (brent := brent) (minimize := minimize)
    (profile_concave _ (seen_valid e hv).1) k1 (fun v hv0 => by unfold nllFn; rw [(k4 v hv0 w0 hw0).1]) k2 (best_global e hglob k2) h0 ht hs hs0 (δ := δ) a4 hu' (by
      have : (0 : ℝ) < 1e-12 := by norm_num
      linarith) a2 a3 (fun x x0 x1 => hδ x x0 (x1.trans a3)) (by linarith) nMulti
  have hCL1 : CL ≤ 1 := by linarith [hz.2, Phi_pos (-z)]
  refine ⟨y, y1, fun fuel => interval_fits ⟨hCL, hCL1⟩ k3 (orOne_ends (hsig best k2)) fun w hw => ?_⟩
  rw [← hz.2, hisf z hz.1, hnll w hw]
  exact y2 fuel

end

theorem exPrior_falls (G : ℝ → ℝ) {v : ℝ} (hv : 0 < v) : Uncorrelated.profile G (seen .apriori exCounts) v < Uncorrelated.profile G (seen .apriori exCounts) 0 := by
  have h1 := (prior_best G (b := 50) (σ := 0) (x := v * 5) (by norm_num) le_rfl (by linarith)).2 (by linarith)
  have h2 := (prior_best G (b := 60) (σ := 0) (x := v * 2) (by norm_num) le_rfl (by linarith)).1
  simp only [Uncorrelated.profile, seen, exCounts, Bin.prior, if_true, List.map_cons, List.map_nil, List.sum_cons, List.sum_nil, zero_mul]
  linarith

theorem exPrior_best (G : ℝ → ℝ) : IsBest (Uncorrelated.profile G (seen .apriori exCounts)) 0 ∧ ∀ b, IsBest (Uncorrelated.profile G (seen .apriori exCounts)) b → b = 0 := by
  refine ⟨⟨le_rfl, by norm_num, fun v h0 _ => ?_⟩, fun b hb => ?_⟩
  · rcases h0.eq_or_lt with rfl | h0
    · exact le_rfl
    · exact (exPrior_falls G h0).le
  · by_contra hne
    have := exPrior_falls G (lt_of_le_of_ne hb.1 (Ne.symm hne))
    linarith [hb.2.2 0 le_rfl (by norm_num)]

/-- Two bins with 5 and 2 signal events on a background of 50 and 60 before the measurement: for the confidence level with which the signal would be excluded, the limit is its strength, 1. This is a
case of `C186_value`, too. -/
example (E : Ext) (draw : Vec × List Vec → ℕ → List Vec) : ∃ m CL z isf, Describes exCounts m 1 ∧ Central CL z ∧ ChiSquared isf ∧ Honest (fun _ _ _ => none) ∧ ∃ y, |y - 1| ≤ 1e-3 ∧
    ∀ fuel, Ends (Plain 1) (chi2Interval fuel (bisection 1e-3).solver (bisection 1e-3).solver (fun _ _ _ => none) isf
      (modelMethods perfect (plugged E draw m) true none (.int 100) (fun _ => true) fun _ _ => nan)
      (modelSigma perfect (fun M => .ok [[1 / (M.getD 0 []).getD 0 0]]) (plugged E draw m) true (.int 100) (fun _ => true) fun _ _ => nan) .apriori CL .right false 3 2) (.ok (some [fin y])) := by
  obtain ⟨m, hm⟩ := Backend.poisson_accepts (exCounts.map Bin.s) (exCounts.map Bin.b) (exCounts.map Bin.d) (by simp)
  obtain ⟨isf, hisf⟩ := chiSquared_exists
  obtain ⟨b1, b2⟩ := exPrior_best E.gammaln
  have hpos := exPrior_falls E.gammaln (one_pos : (0 : ℝ) < 1)
  obtain ⟨z, hz, hz2⟩ : ∃ z, 0 < z ∧ z ^ 2 = 2 * (Uncorrelated.profile E.gammaln (seen .apriori exCounts) 0 - Uncorrelated.profile E.gammaln (seen .apriori exCounts) 1) :=
    ⟨√(2 * (Uncorrelated.profile E.gammaln (seen .apriori exCounts) 0 - Uncorrelated.profile E.gammaln (seen .apriori exCounts) 1)), Real.sqrt_pos.mpr (by linarith), Real.sq_sqrt (by linarith)⟩
  obtain ⟨c1, c2⟩ := exInterval_central hz
  have hsig := C185_sigma perfect_exact perfect_finds (E := E) draw hm exCounts_valid exCounts_background .apriori ⟨⟨5, 50, 0, 50⟩, by simp [seen, exCounts, Bin.prior], by norm_num, by norm_num⟩ exInverse
    (le_refl 0) true (.int 100) (fun _ => true) (fun _ _ => nan)
  have hinfo : information (seen .apriori exCounts) 0 = 17 / 30 := by
    simp only [information, seen, exCounts, Bin.prior, if_true, List.map_cons, List.map_nil, List.sum_cons, List.sum_nil]
    norm_num
  rw [hinfo] at hsig
  have hs0 : 0 < √(1 / (17 / 30 : ℝ)) := Real.sqrt_pos.mpr (by norm_num)
  have hs1 : √(1 / (17 / 30 : ℝ)) ≤ 10 := by
    rw [Real.sqrt_le_left (by norm_num)]
    norm_num
  refine ⟨m, _, z, isf, .poisson hm exCounts_sigma, c1, hisf, by simp [Honest], ?_⟩
  obtain ⟨y, y1, y2⟩ := C186_found perfect_exact perfect_finds Interface.perfect_constrained (E := E) draw (.poisson hm exCounts_sigma) exCounts_valid .apriori
    ⟨0, le_rfl, by norm_num, fun v h0 => by
      rcases h0.eq_or_lt with rfl | h0
      · exact le_rfl
      · exact (exPrior_falls _ h0).le⟩ true (.int 100) (fun _ => true) (fun _ _ => nan) c1 hisf (tol := fun _ => 1e-3) (fun _ => by norm_num)
    (bisection_sound (by norm_num)) (brent := (bisection 1e-3).solver) (bisection_succeeds (by norm_num)) (minimize := fun _ _ _ => none) c2 hs0 _ (fun b hb => .inl (by rw [b2 b hb]; exact hsig))
    (u := 1) (δ := 1e-3) zero_le_one ⟨0, b1, fun _ => by rw [max_eq_left (by linarith), hz2], fun h => absurd h (by norm_num)⟩ (fun _ _ _ => le_rfl)
    (fun b hb => by
      rw [b2 b hb]
      have h3 : (3 : ℝ) ≤ max (6 * √(1 / (17 / 30))) 3 := le_max_right _ _
      have h4 : max (6 * √(1 / (17 / 30 : ℝ))) 3 ≤ 60 := max_le (by linarith) (by norm_num)
      refine ⟨by norm_num, by linarith, by linarith, ?_⟩
      rw [max_eq_left (by linarith), sub_self, mul_zero]
      exact pow_pos hz 2) 2
  exact ⟨y, y1, y2⟩

end Verif.Interval
