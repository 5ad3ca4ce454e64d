import Verif.Nuisance.Lemmas
import Verif.Interval.Props

/-!
# What `chi2_test` reads for a nuisance parameter
-/

namespace Verif.Nuisance
open Verif.Py F Verif.Hypotest Verif.Config Verif.Chi2 Verif.Interval
open Verif.Interface (World Solver Plain Constrained perfect)
open Verif.Stats (Expect gaussianLog)
open Verif.UpperLimit (Sound Succeeds)

/-- The key and the index stand for the same parameter. -/
theorem key_reads {c : ModelConfig} {key : Key} {j : ℕ} (h : resolveParameterIndex c key = .ok (j : ℤ)) : resolveKey c.names key = .ok (j : ℤ) := by
  unfold resolveParameterIndex at h
  split at h
  · cases h
  cases key with
  | name s =>
    simp only at h
    unfold resolveKey
    split at h
    · cases h
    · rename_i l hl
      split at h
      · rename_i hs
        simp only [if_pos hs]
        exact h
      · cases h
  | index i =>
    simp only at h
    split at h
    · split at h
      · cases h
      · rw [← h]
        rfl
    · cases h

theorem estimates_reads {c : ModelConfig} {key : Key} {j : ℕ} (h : resolveKey c.names key = .ok (j : ℤ)) {x : List ℝ} {y : ℝ} (hy : x[j]? = some y) : Interface.estimates c x (some [key]) = .ok (.many [(key, y)]) := by
  obtain ⟨hj, rfl⟩ := List.getElem?_eq_some_iff.mp hy
  simp [Interface.estimates, Interface.readKeys, Interface.readKey, h, Interface.item, slot_nat j hj, Except.map, dictSet, List.getD_eq_getElem?_getD, hy]

/-- A point with the parameter fixed to an allowed value is one without. -/
theorem Admissible.weaken {N j : ℕ} {bounds : List Bound} {cs : List Optimizer.Constraint} {v : ℝ} {fix : List (ℕ × ℝ)} {x : List ℝ} {b : Bound} (hb : bounds[j]? = some b) (hv : Interface.Allowed b v)
    (h : Admissible N bounds cs ((j, v) :: fix) x) : Admissible N bounds cs fix x := by
  refine ⟨h.length, fun q hq => h.fixed q (by simp [hq]), fun i b' y hi hb' hy => ?_, h.constraints⟩
  by_cases hij : i = j
  · subst hij
    have h5 := h.fixed (i, v) (by simp)
    rw [hy, Option.some.injEq] at h5
    rw [hb, Option.some.injEq] at hb'
    rw [← hb', h5]
    exact hv
  · exact h.inside i b' y (fun q hq => by
      rcases List.mem_cons.mp hq with rfl | hq
      · exact fun h => hij h.symm
      · exact hi q hq) hb' hy

theorem Admissible.strengthen {N j : ℕ} {bounds : List Bound} {cs : List Optimizer.Constraint} {v : ℝ} {fix : List (ℕ × ℝ)} {x : List ℝ} (h : Admissible N bounds cs fix x) (hx : x[j]? = some v) :
    Admissible N bounds cs ((j, v) :: fix) x := by
  refine ⟨h.length, fun q hq => ?_, fun i b y hi hb hy => h.inside i b y (fun q hq => hi q (by simp [hq])) hb hy, h.constraints⟩
  rcases List.mem_cons.mp hq with rfl | hq
  · exact hx
  · exact h.fixed q hq

/-- What `chi2_test` has computed when it returns. -/
theorem nuisance_reads {S : Solver} (hS : Exact S) (hC : Constrained S) {B : Interface.Backend} {N k j : ℕ} (hB : Usual B N k) {lo hi : Option ℝ} (hj : (B.config true).bounds[j]? = some (lo.map fin, hi.map fin)) {poiValue : Option ℝ} {g : Bool} {e : Expect} {w : World} (hw : Plain N w) {key : Key}
    (hkey : resolveParameterIndex (Interface.config B true w) key = .ok (j : ℤ)) {fuel nScan nMulti : ℕ} {toms brent : UpperLimit.Solver} {minimize : Minimizer} {isf : ℝ → F} {CL : ℝ} {t : LimitType} {L : List F}
    (h : (chi2Nuisance fuel toms brent minimize isf S B g e CL t key poiValue nScan nMulti w).1 = .ok (some L)) :
    ∃ x theta m w', Admissible N (B.config true).bounds B.constraints (poiFix k poiValue) x ∧ x[j]? = some theta ∧ m = neg (B.logpdf (expectation e) none x) ∧
      (∀ x', Admissible N (B.config true).bounds B.constraints (poiFix k poiValue) x' → neg (B.logpdf (expectation e) none x') ≠ nan → le m (neg (B.logpdf (expectation e) none x'))) ∧ Plain N w' ∧
      chi2Test fuel toms brent minimize (nllFn S B g e poiValue j w') (isf (1 - CL)) t (nuisanceProblem theta m lo hi) nScan nMulti = some (.ok L) := by
  have hlo : finite (lo.map fin) = lo := by cases lo <;> rfl
  have hhi : finite (hi.map fin) = hi := by cases hi <;> rfl
  have hjN : j < N := by
    rw [← hB.length true]
    exact (List.getElem?_eq_some_iff.mp hj).1
  unfold chi2Nuisance at h
  split at h
  case isFalse => simp at h
  rw [hkey] at h
  have hplain := (Interface.maximize_free hS.free B hB.fixed true (expectation e) true none (some [key]) (poiValue.map Interface.Poi.float) g none hw hw).2
  cases hm : Interface.maximize S B true (expectation e) true none (some [key]) (poiValue.map Interface.Poi.float) g none w with
  | mk r w' =>
  rw [hm] at hplain
  simp only [hm] at h
  cases r with
  | error err => simp at h
  | ok r =>
  obtain ⟨mh, m⟩ := r
  obtain ⟨x, w2, h1, h2, h3, h4⟩ := max_smallest hS hC hB hw (by rw [hm])
  obtain ⟨theta, ht⟩ : ∃ theta, x[j]? = some theta := ⟨_, List.getElem?_eq_getElem (by rw [h2.length]; exact hjN)⟩
  rw [estimates_reads (c := Interface.config B true w2) (key_reads (c := Interface.config B true w) hkey) ht, Except.ok.injEq] at h1
  subst h1
  simp only [dictGet, if_true, hB.length true, slot_nat j hjN, List.getD_eq_getElem?_getD, hj, Option.getD_some, hlo, hhi] at h
  refine ⟨x, theta, m, w', h2, ht, h3, h4, hplain, ?_⟩
  split at h <;> simp_all

/-- The window of the first scan for a nuisance parameter. -/
noncomputable def window (est : ℝ) : ℝ := max 10 (5 * |est|)

/-- The two-sided interval of a nuisance parameter with a Gaussian profile likelihood. -/
theorem gauss_nuisance {nll : ℝ → F} {c σ est z δ : ℝ} {tol : ℝ → ℝ} {toms brent : UpperLimit.Solver} {minimize : Minimizer} (ht : Sound tol toms) (hs : Succeeds toms)
    (hn : ∀ v, nll v = fin (-(gaussianLog c σ est v))) (hσ : 0 < σ) (hz : 0 < z) {lo hi : Option ℝ} (hlo : lo.getD (-1e5) ≤ est - window est) (hhi : est + window est ≤ hi.getD 1e5) (hwin : z * σ < window est)
    (hδ : ∀ x, |x - est| ≤ window est → tol x ≤ δ) (hd : δ + max 1e-10 (1e-8 * (|est| + window est)) ≤ z * σ) (nMulti : ℕ) :
    ∃ x y, |x - (est - z * σ)| ≤ tol x ∧ |y - (est + z * σ)| ≤ tol y ∧ ∀ fuel, chi2Test fuel toms brent minimize nll (fin (z ^ 2)) .twoSided
      (nuisanceProblem est (fin (-(gaussianLog c σ est est))) lo hi) 3 nMulti = some (.ok [fin x, fin y]) := by
  have hzσ : 0 < z * σ := mul_pos hz hσ
  obtain ⟨a1, a2⟩ := abs_le.mp (_root_.le_refl |est|)
  have s3 : 10 ≤ window est := le_max_left _ _
  have g0 : (1e-10 : ℝ) ≤ max 1e-10 (1e-8 * (|est| + window est)) := le_max_left _ _
  have g1 : (1e-12 : ℝ) < 1e-10 := by norm_num
  have e1 : (nuisanceProblem est (fin (-(gaussianLog c σ est est))) lo hi).scanLo = est - window est := by
    simp only [nuisanceProblem]
    exact max_eq_right hlo
  have e2 : (nuisanceProblem est (fin (-(gaussianLog c σ est est))) lo hi).scanHi = est + window est := by
    simp only [nuisanceProblem]
    exact min_eq_right hhi
  have hlast : ∀ x, est - window est ≤ x → x ≤ est + window est → |x| ≤ |est| + window est := fun x k1 k2 => abs_le.mpr ⟨by linarith, by linarith⟩
  have hin : ∀ x, est - window est ≤ x → x ≤ est + window est → tol x ≤ δ := fun x k1 k2 => hδ x (abs_le.mpr ⟨by linarith, by linarith⟩)
  obtain ⟨x, y, k1, k2, k3, k4, k5, k6, k7⟩ := scan_two (brent := brent) ht hs (gauss_valley hn hσ hzσ (by ring : (z * σ) ^ 2 = z ^ 2 * σ ^ 2 + (est - est) ^ 2) (est - window est) (est + window est)) (mid := est) (by ring)
    (by linarith) (by linarith) (by linarith) (by linarith) (by
    intro x y m1 m2 m3 m4 m5
    have n1 := hin x m1 (m2.trans m3)
    have n2 := hin y (m1.trans m2) m3
    have n3 := gap_le (hlast y (m1.trans m2) m3)
    rw [abs_le] at m4 m5
    linarith)
  refine ⟨x, y, k2, k3, fun fuel => search_two (m := fin (-(gaussianLog c σ est est))) (ref := est) ?_ (by rw [e1, e2]; exact k1) ?_ ?_⟩
  · rw [e1, e2]
    exact gauss_keep hn hσ fun x _ => by nlinarith [sq_nonneg (x - est)]
  · have n1 := hin x k4 (by linarith)
    rw [abs_le] at k2
    linarith
  · have n1 := hin y (by linarith) k7
    rw [abs_le] at k3
    linarith

/-- A model with the log-likelihood `-(μ-θ)²/2 - (θ-3)²/2`, with the given smallest signal strength and bounds of `θ`. -/
noncomputable def exModel (mp : F) (b : Bound) : Interface.Backend where
  config := fun n => ⟨0, mp, [0, 0], [(some (fin (if n then -5 else 0)), some (fin 10)), b], some ["mu", "theta"], none⟩
  objective := fun _ _ _ => .ok fun x => fin ((x.getD 0 0 - x.getD 1 0) ^ 2 / 2 + (x.getD 1 0 - 3) ^ 2 / 2)
  logpdf := fun _ _ x => fin (-((x.getD 0 0 - x.getD 1 0) ^ 2 / 2 + (x.getD 1 0 - 3) ^ 2 / 2))
  constraints := []
  expectedData := fun _ => .error .notImplemented
  hessian := fun _ => .error .notImplemented
  sampler := fun _ => .error .notImplemented
  negLL := fun _ _ _ _ => .error .notImplemented
  minNegLL := fun _ _ _ _ => .error .notImplemented
  asimovNegLL := fun _ _ _ => .error .notImplemented
  minAsimovNegLL := fun _ _ _ => .error .notImplemented

theorem exModel_usual (mp : F) (b : Bound) : Usual (exModel mp b) 2 0 where
  fallback := ⟨fun _ _ _ _ => rfl, fun _ _ _ _ => rfl, fun _ _ _ => rfl, fun _ _ _ => rfl⟩
  consistent := by
    intro g e d f h x
    simp only [exModel, Except.ok.injEq] at h
    rw [← h]
    simp only [exModel, neg, neg_neg]
  fixed := fun _ => rfl
  length := fun _ => rfl
  poi := fun _ => rfl
  bounds := by
    intro n b h
    simp only [exModel, List.getElem?_cons_zero, Option.some.injEq] at h
    subst h
    exact ⟨rfl, rfl⟩

/-- At the signal strength 1, `θ` is measured to be `2 ± 1/√2`. -/
theorem exModel_profile (mp : F) (b : Bound) (e : Expect) (v : ℝ) : Smallest (fun x => neg ((exModel mp b).logpdf (expectation e) none x))
    (Admissible 2 ((exModel mp b).config true).bounds (exModel mp b).constraints ((1, v) :: poiFix 0 (some 1))) (fin (-(gaussianLog (-1) (1 / √2) 2 v))) := by
  have h2 : (1 / √2 : ℝ) ^ 2 = 1 / 2 := by rw [div_pow, one_pow, Real.sq_sqrt (by norm_num)]
  have hx : ∀ x, Admissible 2 ((exModel mp b).config true).bounds (exModel mp b).constraints ((1, v) :: poiFix 0 (some 1)) x → x = [1, v] := by
    intro x hx
    have h1 := hx.fixed (1, v) (by simp)
    have h0 := hx.fixed (0, 1) (by simp [poiFix])
    obtain ⟨a, b, rfl⟩ := List.length_eq_two.mp hx.length
    simp_all
  have hval : neg ((exModel mp b).logpdf (expectation e) none [1, v]) = fin (-(gaussianLog (-1) (1 / √2) 2 v)) := by
    simp only [exModel, neg, neg_neg, gaussianLog, h2, List.getD_cons_zero, List.getD_cons_succ]
    congr 1
    ring
  refine ⟨[1, v], ⟨rfl, ?_, ?_, by intro c hc; simp [exModel] at hc⟩, hval.symm, fun x' hx' hn => ?_⟩
  · intro q hq
    simp only [poiFix, List.mem_cons, List.not_mem_nil, or_false] at hq
    rcases hq with rfl | rfl <;> rfl
  · intro i b y hi hb hy
    match i, hi, hy with
    | 0, hi, _ => exact absurd rfl (hi (0, 1) (by simp [poiFix]))
    | 1, hi, _ => exact absurd rfl (hi (1, v) (by simp))
    | i + 2, _, hy => simp at hy
  · rw [hx x' hx']
    dsimp only
    rw [hval]
    simp [F.le]

end Verif.Nuisance
