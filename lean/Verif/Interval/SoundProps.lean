import Verif.Interval.Props
import Verif.Interval.Reads

/-!
# Property C184: `chi2_test` of the Gaussian models with any scan
-/

namespace Verif.Interval
open Verif.Py F Verif.Hypotest Verif.Chi2 Verif.Chain
open Verif.Interface (World Size Plain Solver perfect)
open Verif.Backend (Ext Vec Args at')
open Verif.Stats (Expect Calc gaussianLog)
open Verif.UpperLimit (Sound)

/-- The values of the search in a Gaussian likelihood with its largest value at the fitted strength. -/
theorem gauss_values {nll : ℝ → F} {c σ est z : ℝ} (hn : ∀ v, nll v = fin (-(gaussianLog c σ est v))) (hσ : 0 < σ) (hz : 0 < z) {tol : ℝ → ℝ} (h0 : ∀ x, 0 ≤ tol x)
    {toms brent : UpperLimit.Solver} (ht : Sound tol toms) (hbr : Sound tol brent) {minimize : Minimizer} (hm : Honest minimize) {t : LimitType} {negative : Bool} {s : F} {fuel nScan nMulti : ℕ} {L : List F}
    (h : chi2Test fuel toms brent minimize nll (fin (z ^ 2)) t (poiProblem t negative est (fin (-(gaussianLog c σ est est))) s) nScan nMulti = some (.ok L)) :
    (∀ v ∈ L, v = nan ∨ v = fin (-1e5) ∨ v = fin 1e5 ∨ ∃ x, v = fin x ∧ (|x - (est - z * σ)| ≤ tol x ∨ |x - (est + z * σ)| ≤ tol x)) ∧ (t = .twoSided → 2 ≤ L.length) := by
  obtain ⟨m, ref, ha, hr⟩ := C22_crossings h0 ht hbr hm nll (fin (z ^ 2)) t _ _ 1e5 (.inl ⟨negative, est, fin (-(gaussianLog c σ est est)), s, rfl, rfl, rfl⟩) nScan nMulti fuel L h
  have hm' : m = fin (-(gaussianLog c σ est est)) ∧ ref = est := by
    rcases ha with h1 | ⟨h1, h2, -⟩
    · exact h1
    · exfalso
      rw [h1, hn ref] at h2
      have h5 : -(gaussianLog c σ est ref) < -(gaussianLog c σ est est) := h2
      simp only [gaussianLog, sub_self] at h5
      have : 0 ≤ (ref - est) ^ 2 / (2 * σ ^ 2) := by positivity
      norm_num at h5
      linarith
  obtain ⟨rfl, rfl⟩ := hm'
  have hzσ : 0 < z * σ := mul_pos hz hσ
  have val : ∀ y, chi2At nll (fin (-(gaussianLog c σ ref ref))) y = fin ((y - ref) ^ 2 / σ ^ 2) := by
    intro y
    unfold chi2At
    rw [hn y]
    simp only [sub, add, neg, scale, gaussianLog]
    congr 1
    field_simp
    ring
  have key : ∀ x, Crosses nll (fin (-(gaussianLog c σ ref ref))) (fin (z ^ 2)) (tol x) x → (|x - (ref - z * σ)| ≤ tol x ∨ |x - (ref + z * σ)| ≤ tol x) := by
    rintro x ⟨⟨y, hy, hy1⟩, ⟨y', hy', hy1'⟩⟩
    rw [val] at hy1 hy1'
    have hy1 : (y - ref) ^ 2 / σ ^ 2 ≤ z ^ 2 := hy1
    have hy1' : z ^ 2 ≤ (y' - ref) ^ 2 / σ ^ 2 := hy1'
    rw [div_le_iff₀ (by positivity), ← mul_pow] at hy1
    rw [le_div_iff₀ (by positivity), ← mul_pow] at hy1'
    exact parabola_crosses hzσ hy (abs_le_of_sq_le_sq hy1 hzσ.le) hy' (by rw [← abs_of_pos hzσ]; exact sq_le_sq.mp hy1')
  have side : ∀ (b : ℝ) v, (b = -1e5 ∨ b = 1e5) → SideValue nll (fin (-(gaussianLog c σ ref ref))) (fin (z ^ 2)) tol b v →
      v = nan ∨ v = fin (-1e5) ∨ v = fin 1e5 ∨ ∃ x, v = fin x ∧ (|x - (ref - z * σ)| ≤ tol x ∨ |x - (ref + z * σ)| ≤ tol x) := by
    rintro b v hb (h1 | h1 | ⟨x, h1, h2⟩)
    · exact .inl h1
    · rcases hb with rfl | rfl
      · exact .inr (.inl h1)
      · exact .inr (.inr (.inl h1))
    · exact .inr (.inr (.inr ⟨x, h1, key x h2⟩))
  have hlo : t ≠ .right → (if negative = false ∧ t = .right then (0 : ℝ) else -1e5) = -1e5 := fun h => if_neg fun h' => h h'.2
  rcases hr with ⟨l, hl, rfl, -, h2, -, -, -, h3⟩ | ⟨v', ⟨ht', rfl, h2⟩ | ⟨ht', rfl, h2⟩⟩ | ⟨v₁, v₂, ht', rfl, h1, h2⟩
  · refine ⟨fun v hv => ?_, fun htt => ?_⟩
    · obtain ⟨x, hx, rfl⟩ := List.mem_map.mp hv
      exact .inr (.inr (.inr ⟨x, rfl, key x (h2 x hx)⟩))
    · obtain ⟨⟨x, hx, hx1⟩, ⟨x', hx', hx1'⟩⟩ := h3 htt
      rw [List.length_map]
      match l, hl, hx, hx' with
      | [a], _, hx, hx' =>
        rw [List.mem_singleton] at hx hx'
        linarith
      | a :: b :: l, _, _, _ => simp
  · refine ⟨fun v hv => ?_, fun htt => ?_⟩
    · rw [List.mem_singleton] at hv
      rw [hlo (by rw [ht']; simp)] at h2
      exact hv ▸ side _ _ (.inl rfl) h2
    · rw [ht'] at htt
      cases htt
  · refine ⟨fun v hv => ?_, fun htt => ?_⟩
    · rw [List.mem_singleton] at hv
      exact hv ▸ side _ _ (.inr rfl) h2
    · rw [ht'] at htt
      cases htt
  · rw [hlo (by rw [ht']; simp)] at h1
    refine ⟨fun v hv => ?_, fun _ => le_rfl⟩
    simp only [List.mem_cons, List.not_mem_nil, or_false] at hv
    rcases hv with rfl | rfl
    · rcases h1 with h1 | ⟨x, rfl, -, -, -, h1⟩
      · exact side _ _ (.inl rfl) h1
      · exact .inr (.inr (.inr ⟨x, rfl, key x h1⟩))
    · rcases h2 with h2 | ⟨x, rfl, -, -, -, h2⟩
      · exact side _ _ (.inr rfl) h2
      · exact .inr (.inr (.inr ⟨x, rfl, key x h2⟩))

/-- C184. Whatever numbers of points and starts of the scan, and whatever side: everything that `chi2_test` returns for a Gaussian model whose estimate is an allowed strength up to 10 is nan, a limit
of the search, or an end of the central interval up to the tolerance of the root finder. Two-sided results have at least two values. -/
theorem C184_sound {S : Solver} (hS : Exact S) (hT : Finds S) {E : Ext} (draw : Vec × List Vec → ℕ → List Vec) {a : Args} {m : Backend.Model} {P : ℕ → ℕ → ℝ} {y : Vec} (h : Case E a m P y)
    {inv : List (List ℝ) → Except Interface.Err (List (List ℝ))} (hinv : InvertsNumbers inv) (e : Expect) {est σ CL z : ℝ}
    (hest : est = estimate a.data.length P (at' y) (at' a.background) (at' (used a e))) (hσ : σ = deviation a.data.length P (at' y)) (hz : Central CL z) {isf : ℝ → F} (hisf : ChiSquared isf)
    {tol : ℝ → ℝ} (h0 : ∀ x, 0 ≤ tol x) {toms brent : UpperLimit.Solver} (ht : Sound tol toms) (hbr : Sound tol brent) {minimize : Minimizer} (hm : Honest minimize) (g : Bool) (ntoys : Size)
    (available : Calc → Bool) (percentile : List F → F → F) (hpos : ∀ i < a.data.length, 0 < at' y i → 0 ≤ est * at' y i + at' a.background i) (h10 : est ≤ 10) (t : LimitType) (negative : Bool)
    (hnon : 0 ≤ est ∨ negative = true ∨ t ≠ .right) (fuel nScan nMulti : ℕ) (w : World) (hw : Plain 1 w) (L : List F)
    (hr : (chi2Interval fuel toms brent minimize isf (modelMethods S (plugged E draw m) g none ntoys available percentile) (modelSigma S inv (plugged E draw m) g ntoys available percentile) e CL t
      negative nScan nMulti w).1 = .ok (some L)) :
    (∀ v ∈ L, v = nan ∨ v = fin (-1e5) ∨ v = fin 1e5 ∨ ∃ x, v = fin x ∧ (|x - (est - z * σ)| ≤ tol x ∨ |x - (est + z * σ)| ≤ tol x)) ∧ (t = .twoSided → 2 ≤ L.length) := by
  obtain ⟨c, lo, k1, k2, k3, k4, k5⟩ := case_fits hS hT draw h hinv e hest hσ g ntoys available percentile
  have hσ0 : 0 < σ := hσ ▸ deviation_pos h.informative
  obtain ⟨n, hn⟩ : ∃ n, (negative || decide (t = .twoSided) || decide (t = .left)) = n := ⟨_, rfl⟩
  have hne : nearest (if n then lo else 0) est = est := by
    unfold nearest
    rw [max_eq_left, min_eq_left h10]
    split
    · exact k2 est hpos
    · rename_i hf
      rcases hnon with h | h | h
      · exact h
      · simp [h] at hn
        exact absurd hn hf
      · cases t <;> simp_all
  have hmax := k3 n
  rw [hne] at hmax
  obtain ⟨s, w', hw', hc⟩ := interval_reads hn hmax (fun w hw => (k5 est (k2 est hpos) w hw).2) hw hr
  rw [← hz.2, hisf z hz.1] at hc
  refine gauss_values (fun v => ?_) hσ0 hz.1 h0 ht hbr hm hc
  unfold nllFn
  rw [k4 v w' hw']

/-- The data 7 and 6 measure the strength `1 ± 1/√5`; such a result exists by `C184_interval_partial`. -/
example (E : Ext) (draw : Vec × List Vec → ℕ → List Vec) (g : Bool) (ntoys : Size) (percentile : List F → F → F) (w : World) (hw : Plain 1 w) : ∃ m isf L, ChiSquared isf ∧
    (chi2Interval 5 (bisection (1 / 1000)).solver (bisection (1 / 1000)).solver (fun _ _ _ => none) isf
      (modelMethods perfect (plugged E draw m) g none ntoys (fun _ => true) percentile) (modelSigma perfect exInv (plugged E draw m) g ntoys (fun _ => true) percentile) .observed (1 - 2 * Phi (-2)) .twoSided
      false 3 2 w).1 = .ok (some L) ∧ ∀ v ∈ L, v = nan ∨ v = fin (-1e5) ∨ v = fin 1e5 ∨ ∃ x, v = fin x ∧ (|x - (1 - 2 * (1 / √5))| ≤ 1 / 1000 ∨ |x - (1 + 2 * (1 / √5))| ≤ 1 / 1000) := by
  obtain ⟨m, P, h1, h2, h3⟩ := exInterval_case E 7 6
  obtain ⟨isf, hisf⟩ := chiSquared_exists
  obtain ⟨s1, s2, s3, s4⟩ := exInterval_sigma
  norm_num at h2
  obtain ⟨x₁, x₂, -, -, k⟩ := C184_interval_partial (brent := (bisection (1 / 1000)).solver) perfect_exact perfect_finds draw h1 (inv := exInv) (fun x _ => rfl) .observed (est := 1) (σ := 1 / √5) (δ := 1 / 1000) (z := 2) h2.symm h3.symm (exInterval_central two_pos).1
    (exInterval_central two_pos).2 hisf (tol := fun _ => 1 / 1000) (fun _ => by norm_num) (bisection_sound (by norm_num)) (bisection_succeeds (by norm_num)) (fun _ _ _ => none) g ntoys (fun _ => true) percentile
    (fun i hi hy => by have := h1.background i hi; positivity) (by norm_num) (by norm_num) (by rw [s4]; norm_num) (fun _ _ => le_rfl) (by
      rw [s4]
      calc (1 / 1000 : ℝ) + max 1e-10 (1e-8 * (|1| + 3)) ≤ 2 * (4 / 10) := by norm_num
        _ ≤ _ := by linarith) 2 false
  refine ⟨m, isf, _, hisf, (k 5 w hw).1, ?_⟩
  exact (C184_sound perfect_exact perfect_finds draw h1 (inv := exInv) (fun x _ => rfl) .observed (est := 1) (σ := 1 / √5) (z := 2) h2.symm h3.symm (exInterval_central two_pos).1 hisf
    (tol := fun _ => 1 / 1000) (fun _ => by norm_num) (bisection_sound (by norm_num)) (bisection_sound (by norm_num)) (minimize := fun _ _ _ => none) (by simp [Honest]) g ntoys (fun _ => true) percentile
    (fun i hi hy => by have := h1.background i hi; positivity) (by norm_num) .twoSided false (.inl (by norm_num)) 5 3 2 w hw _ (k 5 w hw).1).1

end Verif.Interval
