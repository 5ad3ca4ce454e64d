import Verif.Nuisance.Reads

/-!
# Property C187: confidence intervals of nuisance parameters
-/

namespace Verif.Nuisance
open Verif.Py F Verif.Hypotest Verif.Config Verif.Chi2 Verif.Interval
open Verif.Interface (World Solver Plain Constrained Allowed perfect)
open Verif.Stats (Expect gaussianLog)
open Verif.UpperLimit (Sound Succeeds)

/-- C187. With fits that find global minima: everything that `chi2_test` returns for a nuisance parameter, whether or not it has suggested bounds, is nan, a limit of the search (the bounds, or `±1e5`), or a crossing, up to the tolerance of the
root finder, of the threshold by twice the difference between the profile likelihood of this parameter (of this parameter at the given signal strength, with `poi_value`) and its smallest value.
Two-sided results have at least two values. -/
theorem C187_crossings {S : Solver} (hS : Exact S) (hC : Constrained S) {B : Interface.Backend} {N k j : ℕ} (hB : Usual B N k) {lo hi : Option ℝ} (hj : (B.config true).bounds[j]? = some (lo.map fin, hi.map fin)) (hkj : k ≠ j)
    {poiValue : Option ℝ} (g : Bool) (e : Expect) (w : World) (hw : Plain N w) (key : Key)
    (hkey : resolveParameterIndex (Interface.config B true w) key = .ok (j : ℤ)) (fuel nScan nMulti : ℕ) {tol : ℝ → ℝ} (h0 : ∀ x, 0 ≤ tol x) {toms brent : UpperLimit.Solver} (ht : Sound tol toms)
    (hbr : Sound tol brent) {minimize : Minimizer} (hm : Chi2.Honest minimize) (isf : ℝ → F) (CL : ℝ) (t : LimitType) (L : List F)
    (h : (chi2Nuisance fuel toms brent minimize isf S B g e CL t key poiValue nScan nMulti w).1 = .ok (some L)) :
    ∃ m, Smallest (fun x => neg (B.logpdf (expectation e) none x)) (Admissible N (B.config true).bounds B.constraints (poiFix k poiValue)) m ∧
      (∀ v ∈ L, v = nan ∨ v = fin (lo.getD (-1e5)) ∨ v = fin (hi.getD 1e5) ∨ ∃ x y y' l l', v = fin x ∧ |y - x| ≤ tol x ∧ |y' - x| ≤ tol x ∧
        Smallest (fun x => neg (B.logpdf (expectation e) none x)) (Admissible N (B.config true).bounds B.constraints ((j, y) :: poiFix k poiValue)) l ∧
        Smallest (fun x => neg (B.logpdf (expectation e) none x)) (Admissible N (B.config true).bounds B.constraints ((j, y') :: poiFix k poiValue)) l' ∧
        le (scale 2 (sub l m)) (isf (1 - CL)) ∧ le (isf (1 - CL)) (scale 2 (sub l' m))) ∧
      (t = .twoSided → 2 ≤ L.length) := by
  obtain ⟨x0, theta, m, w', a1, a2, a3, a4, a5, a6⟩ := nuisance_reads hS hC hB hj hw hkey h
  refine ⟨m, ⟨x0, a1, a3, a4⟩, ?_⟩
  have hjN : j < N := by
    rw [← hB.length true]
    exact (List.getElem?_eq_some_iff.mp hj).1
  obtain ⟨m', ref, ha, hr⟩ := C22_crossings h0 ht hbr hm _ (isf (1 - CL)) t _ _ _ (.inr ⟨theta, m, lo, hi, rfl, rfl, rfl⟩) nScan nMulti fuel L a6
  have hm' : m' = m := by
    rcases ha with h1 | ⟨h1, h2, h3, h4⟩
    · exact h1.1
    · exfalso
      have hn : m' ≠ nan := by rintro rfl; simp [F.lt] at h2
      obtain ⟨x, hx, hx1, -⟩ := nll_smallest hS hC hB hjN hkj a5 h1.symm hn
      dsimp only at hx1
      have hal : Allowed (lo.map fin, hi.map fin) ref := by
        have h5 : lo.getD (-1e5) ≤ ref := (le_max_left _ _).trans h3
        have h6 : ref ≤ hi.getD 1e5 := h4.trans (min_le_left _ _)
        constructor
        · cases lo <;> simp_all [F.le]
        · cases hi <;> simp_all [F.le]
      have := a4 x (hx.weaken hj hal) (by rw [← hx1]; exact hn)
      rw [← hx1] at this
      change F.lt m' m at h2
      cases m' <;> cases m <;> simp_all [F.lt, F.le]
      linarith
  subst hm'
  have key : ∀ x, Crosses (nllFn S B g e poiValue j w') m' (isf (1 - CL)) (tol x) x → ∃ y y' l l', |y - x| ≤ tol x ∧ |y' - x| ≤ tol x ∧
        Smallest (fun x => neg (B.logpdf (expectation e) none x)) (Admissible N (B.config true).bounds B.constraints ((j, y) :: poiFix k poiValue)) l ∧
        Smallest (fun x => neg (B.logpdf (expectation e) none x)) (Admissible N (B.config true).bounds B.constraints ((j, y') :: poiFix k poiValue)) l' ∧
        le (scale 2 (sub l m')) (isf (1 - CL)) ∧ le (isf (1 - CL)) (scale 2 (sub l' m')) := by
    rintro x ⟨⟨y, y1, y2⟩, ⟨y', y3, y4⟩⟩
    refine ⟨y, y', _, _, y1, y3, nll_smallest hS hC hB hjN hkj a5 rfl ?_, nll_smallest hS hC hB hjN hkj a5 rfl ?_, y2, y4⟩
    · intro hn
      simp [chi2At, hn, sub, add, scale, F.le] at y2
    · intro hn
      simp only [chi2At, hn, sub, add, scale] at y4
      cases hi : isf (1 - CL) <;> simp [hi, F.le] at y4
  have side : ∀ (b : ℝ) v, (b = lo.getD (-1e5) ∨ b = hi.getD 1e5) → SideValue (nllFn S B g e poiValue j w') m' (isf (1 - CL)) tol b v →
      v = nan ∨ v = fin (lo.getD (-1e5)) ∨ v = fin (hi.getD 1e5) ∨ ∃ x, v = fin x ∧ Crosses (nllFn S B g e poiValue j w') m' (isf (1 - CL)) (tol x) x := by
    rintro b v hb (h1 | h1 | ⟨x, h1, h2⟩)
    · exact .inl h1
    · rcases hb with rfl | rfl
      · exact .inr (.inl h1)
      · exact .inr (.inr (.inl h1))
    · exact .inr (.inr (.inr ⟨x, h1, h2⟩))
  suffices (∀ v ∈ L, v = nan ∨ v = fin (lo.getD (-1e5)) ∨ v = fin (hi.getD 1e5) ∨ ∃ x, v = fin x ∧ Crosses (nllFn S B g e poiValue j w') m' (isf (1 - CL)) (tol x) x) ∧ (t = .twoSided → 2 ≤ L.length) by
    refine ⟨fun v hv => ?_, this.2⟩
    rcases this.1 v hv with h | h | h | ⟨x, h, hx⟩
    · exact .inl h
    · exact .inr (.inl h)
    · exact .inr (.inr (.inl h))
    · obtain ⟨y, y', l, l', hy⟩ := key x hx
      exact .inr (.inr (.inr ⟨x, y, y', l, l', h, hy⟩))
  rcases hr with ⟨l, hl, rfl, -, h2, -, -, -, h3⟩ | ⟨v', ⟨ht', rfl, h2⟩ | ⟨ht', rfl, h2⟩⟩ | ⟨v₁, v₂, ht', rfl, h1, h2⟩
  · refine ⟨fun v hv => ?_, fun htt => ?_⟩
    · obtain ⟨x, hx, rfl⟩ := List.mem_map.mp hv
      exact .inr (.inr (.inr ⟨x, rfl, h2 x hx⟩))
    · obtain ⟨⟨x, hx, hx1⟩, ⟨x', hx', hx1'⟩⟩ := h3 htt
      rw [List.length_map]
      match l, hl, hx, hx' with
      | [a], _, hx, hx' =>
        rw [List.mem_singleton] at hx hx'
        linarith
      | a :: b :: l, _, _, _ => simp
  · refine ⟨fun v hv => ?_, fun htt => ?_⟩
    · rw [List.mem_singleton] at hv
      exact hv ▸ side _ _ (.inl rfl) h2
    · rw [ht'] at htt
      cases htt
  · refine ⟨fun v hv => ?_, fun htt => ?_⟩
    · rw [List.mem_singleton] at hv
      exact hv ▸ side _ _ (.inr rfl) h2
    · rw [ht'] at htt
      cases htt
  · refine ⟨fun v hv => ?_, fun _ => le_rfl⟩
    simp only [List.mem_cons, List.not_mem_nil, or_false] at hv
    rcases hv with rfl | rfl
    · rcases h1 with h1 | ⟨x, rfl, -, -, -, h1⟩
      · exact side _ _ (.inl rfl) h1
      · exact .inr (.inr (.inr ⟨x, rfl, h1⟩))
    · rcases h2 with h2 | ⟨x, rfl, -, -, -, h2⟩
      · exact side _ _ (.inr rfl) h2
      · exact .inr (.inr (.inr ⟨x, rfl, h2⟩))

/-- C187. With fits that find global minima if there are any: if the profile likelihood of the nuisance parameter is Gaussian, with estimate `est` and deviation `σ`, its central interval is inside the first
scan, and the scan is inside the suggested bounds if there are any (both bounds, and a signal strength without lower limit), `chi2_test` with its default `n_scan=3` returns the two ends `est ± zσ` of this interval, up to the tolerance of the root finder. -/
theorem C187_interval {S : Solver} (hS : Exact S) (hC : Constrained S) (hT : Chain.Finds S) {B : Interface.Backend} {N k j : ℕ} (hB : Usual B N k) {lo hi : Option ℝ} (hj : (B.config true).bounds[j]? = some (lo.map fin, hi.map fin))
    (hlh : lo = none ∧ hi = none ∨ (lo.isSome ∧ hi.isSome) ∧ (B.config true).minimumPoi = ninf) (hkj : k ≠ j)
    {poiValue : Option ℝ} (hv : ∀ v, poiValue = some v → 0 ≤ v ∨ le (B.config true).minimumPoi (fin v)) (g : Bool) (e : Expect) (hg : ∃ r, Interface.getObjective B (expectation e) none g = .ok r)
    {c σ est : ℝ} (hσ : 0 < σ) (hprof : ∀ v, Smallest (fun x => neg (B.logpdf (expectation e) none x)) (Admissible N (B.config true).bounds B.constraints ((j, v) :: poiFix k poiValue)) (fin (-(gaussianLog c σ est v))))
    {CL z : ℝ} (hz : Central CL z) (hCL : 0 ≤ CL) {isf : ℝ → F} (hisf : ChiSquared isf) {tol : ℝ → ℝ} {δ : ℝ} {toms brent : UpperLimit.Solver} (ht : Sound tol toms) (hs : Succeeds toms)
    (minimize : Minimizer) (hlo : lo.getD (-1e5) ≤ est - window est) (hhi : est + window est ≤ hi.getD 1e5) (hwin : z * σ < window est) (hδ : ∀ x, |x - est| ≤ window est → tol x ≤ δ) (hd : δ + max 1e-10 (1e-8 * (|est| + window est)) ≤ z * σ) (nMulti : ℕ) :
    ∃ x₁ x₂, |x₁ - (est - z * σ)| ≤ tol x₁ ∧ |x₂ - (est + z * σ)| ≤ tol x₂ ∧ ∀ fuel w key, Plain N w → resolveParameterIndex (Interface.config B true w) key = .ok (j : ℤ) →
      (chi2Nuisance fuel toms brent minimize isf S B g e CL .twoSided key poiValue 3 nMulti w).1 = .ok (some [fin x₁, fin x₂]) := by
  obtain ⟨x₁, x₂, j1, j2, j3⟩ := gauss_nuisance (nll := fun v => fin (-(gaussianLog c σ est v))) (brent := brent) (minimize := minimize) ht hs (fun v => rfl) hσ hz.1 hlo hhi hwin hδ hd nMulti
  refine ⟨x₁, x₂, j1, j2, fun fuel w key hw hkey => ?_⟩
  have hlo' : finite (lo.map fin) = lo := by cases lo <;> rfl
  have hhi' : finite (hi.map fin) = hi := by cases hi <;> rfl
  have hal : Allowed (lo.map fin, hi.map fin) est := by
    have s3 : 10 ≤ window est := le_max_left _ _
    constructor
    · cases lo <;> simp_all [F.le]
      linarith
    · cases hi <;> simp_all [F.le]
      linarith
  have hjN : j < N := by
    rw [← hB.length true]
    exact (List.getElem?_eq_some_iff.mp hj).1
  have coord : ∀ x, Admissible N (B.config true).bounds B.constraints (poiFix k poiValue) x → ∃ y, x[j]? = some y := fun x hx => ⟨_, List.getElem?_eq_getElem (by rw [hx.length]; exact hjN)⟩
  have hle : ∀ v, -(gaussianLog c σ est est) ≤ -(gaussianLog c σ est v) := by
    intro v
    have : 0 ≤ (v - est) ^ 2 / (2 * σ ^ 2) := by positivity
    simp only [gaussianLog, sub_self]
    norm_num
    linarith
  have hglob : Smallest (fun x => neg (B.logpdf (expectation e) none x)) (Admissible N (B.config true).bounds B.constraints (poiFix k poiValue)) (fin (-(gaussianLog c σ est est))) := by
    obtain ⟨x, hx, hx1, hx2⟩ := hprof est
    refine ⟨x, hx.weaken hj hal, hx1, fun x' hx' hn => ?_⟩
    obtain ⟨y, hy⟩ := coord x' hx'
    obtain ⟨_, _, _, h3⟩ := hprof y
    have h4 := h3 x' (hx'.strengthen hy) hn
    have h5 := hle y
    dsimp only at h4 ⊢
    generalize neg (B.logpdf (expectation e) none x') = q at h4 ⊢
    cases q with
    | fin q => exact h5.trans h4
    | nan => exact h4
    | pinf => trivial
    | ninf => exact h4
  have hplain := (Interface.maximize_free hS.free B hB.fixed true (expectation e) true none (some [key]) (poiValue.map Interface.Poi.float) g none hw hw).2
  have hmax : (Interface.maximize S B true (expectation e) true none (some [key]) (poiValue.map Interface.Poi.float) g none w).1 = .ok (.many [(key, est)], fin (-(gaussianLog c σ est est))) := by
    rcases max_runs (S := S) (g := g) hB hw (some [key]) with ⟨-, h⟩ | ⟨p, w1, hp, hH, hp2⟩
    · exact absurd hg h
    obtain ⟨⟨lp, x⟩, hrun⟩ := run_finds hT hp.init hp.length hp.free (fun x => by rw [hp.func, hp.logpdf]) hp.fixes (hH hv) ⟨_, by rw [hp.logpdf, hp.constraints]; exact hglob⟩
    rcases hp2 with ⟨err, h, -⟩ | ⟨lp', x', w2, hrun', hmax⟩
    · rw [hrun] at h; cases h
    rw [hrun, Except.ok.injEq, Prod.mk.injEq] at hrun'
    obtain ⟨rfl, rfl⟩ := hrun'
    obtain ⟨r1, r2, r3⟩ := hp.smallest hS hC hrun
    have hval : neg (B.logpdf (expectation e) none x) = fin (-(gaussianLog c σ est est)) := by
      obtain ⟨x', hx', hx1, hx2⟩ := hglob
      dsimp only at hx1 hx2
      have h3 := r3 x' hx' (by rw [← hx1]; simp)
      rw [← hx1] at h3
      refine le_antisymm' h3 (hx2 x r2 fun h0 => ?_)
      rw [h0] at h3
      simp [F.le] at h3
    obtain ⟨y, hy⟩ := coord x r2
    have hye : y = est := by
      obtain ⟨_, _, _, h3⟩ := hprof y
      have h4 := h3 x (r2.strengthen hy) (by dsimp only; rw [hval]; simp)
      dsimp only at h4
      rw [hval] at h4
      have h5 : -(gaussianLog c σ est y) ≤ -(gaussianLog c σ est est) := h4
      simp only [gaussianLog, sub_self] at h5
      have h6 : (y - est) ^ 2 / (2 * σ ^ 2) ≤ 0 := by norm_num at h5; linarith
      have h7 : (y - est) ^ 2 ≤ 0 := by
        by_contra hne
        have : 0 < (y - est) ^ 2 / (2 * σ ^ 2) := div_pos (not_le.mp hne) (by positivity)
        linarith
      have := pow_eq_zero_iff (two_ne_zero) |>.mp (_root_.le_antisymm h7 (sq_nonneg _))
      linarith
    subst hye
    rw [hmax, estimates_reads (c := Interface.config B true w2) (key_reads (c := Interface.config B true w) hkey) hy, r1, hval]
    rfl
  have hcl : CL ≤ 1 := by
    have := Phi_pos (-z)
    have := hz.2
    linarith
  cases hm : Interface.maximize S B true (expectation e) true none (some [key]) (poiValue.map Interface.Poi.float) g none w with
  | mk r w' =>
  rw [hm] at hplain hmax
  dsimp only at hmax
  subst hmax
  have hnll : nllFn S B g e poiValue j w' = fun v => fin (-(gaussianLog c σ est v)) := funext fun v => nll_value hS hC hB hkj hv hT hplain hg hj (by
    rcases hlh with ⟨rfl, rfl⟩ | ⟨h1, h2⟩
    · exact .inl rfl
    · exact .inr ⟨by simpa using h1, .inr (by rw [h2]; trivial)⟩) (hprof v) (by simp)
  unfold chi2Nuisance
  rw [if_pos ⟨hCL, hcl⟩, hkey]
  simp only [hm, dictGet, if_true, hB.length true, slot_nat j hjN, List.getD_eq_getElem?_getD, hj, Option.getD_some, hlo', hhi', hnll, ← hz.2, hisf z hz.1, j3 fuel]

/-- The parameter by its name, at the signal strength 1: the values are those of `2 ± 2/√2`, and they are crossings. -/
example (g : Bool) (e : Expect) (w : World) (hw : Plain 2 w) : ∃ isf L, ChiSquared isf ∧ (∃ x₁ x₂, L = [fin x₁, fin x₂] ∧ |x₁ - (2 - 2 * (1 / √2))| ≤ 1 / 1000 ∧ |x₂ - (2 + 2 * (1 / √2))| ≤ 1 / 1000) ∧
    (chi2Nuisance 5 (bisection (1 / 1000)).solver (bisection (1 / 1000)).solver (fun _ _ _ => none) isf perfect (exModel (fin (-5)) (none, none)) g e (1 - 2 * Phi (-2)) .twoSided (.name "theta") (some 1) 3 2 w).1 = .ok (some L) ∧
    ∃ m, Smallest (fun x => neg ((exModel (fin (-5)) (none, none)).logpdf (expectation e) none x)) (Admissible 2 ((exModel (fin (-5)) (none, none)).config true).bounds (exModel (fin (-5)) (none, none)).constraints (poiFix 0 (some 1))) m := by
  obtain ⟨isf, hisf⟩ := chiSquared_exists
  have hv : ∀ v, (some 1 : Option ℝ) = some v → 0 ≤ v ∨ le ((exModel (fin (-5)) (none, none)).config true).minimumPoi (fin v) := by
    intro v h
    rw [Option.some.injEq] at h
    exact .inl (h ▸ zero_le_one)
  have hkey : resolveParameterIndex (Interface.config (exModel (fin (-5)) (none, none)) true w) (.name "theta") = .ok ((1 : ℕ) : ℤ) := by
    have hl : ¬ (Interface.config (exModel (fin (-5)) (none, none)) true w).npar < 2 := by
      change ¬ w.start.length < 2
      rw [hw.2.2]
      norm_num
    unfold resolveParameterIndex
    rw [if_neg hl]
    simp only [Interface.config, exModel]
    rfl
  have hwin : window 2 = 10 := by
    unfold window
    norm_num
  have hs2 : (7 / 10 : ℝ) ≤ 1 / √2 ∧ 1 / √2 ≤ 1 := by
    have h1 : √2 ≤ 10 / 7 := by
      rw [Real.sqrt_le_left (by norm_num)]
      norm_num
    have h2 : 1 ≤ √2 := by
      rw [Real.one_le_sqrt]
      norm_num
    constructor
    · rw [le_div_iff₀ (by linarith)]
      linarith
    · rw [div_le_iff₀ (by linarith)]
      linarith
  obtain ⟨x₁, x₂, k1, k2, k3⟩ := C187_interval (brent := (bisection (1 / 1000)).solver) perfect_exact Interface.perfect_constrained Chain.perfect_finds (exModel_usual _ _) (j := 1) (lo := none) (hi := none) rfl (.inl ⟨rfl, rfl⟩) (by norm_num) hv g e
    (by cases g <;> exact ⟨_, rfl⟩) (by linarith : (0 : ℝ) < 1 / √2) (exModel_profile _ _ e) (exInterval_central two_pos).1 (exInterval_central two_pos).2 hisf (tol := fun _ => 1 / 1000) (δ := 1 / 1000)
    (bisection_sound (tol := 1 / 1000) (by norm_num)) (bisection_succeeds (tol := 1 / 1000) (by norm_num)) (fun _ _ _ => none) (by rw [hwin]; norm_num) (by rw [hwin]; norm_num) (by rw [hwin]; linarith) (fun _ _ => _root_.le_refl _) (by
      rw [hwin]
      calc (1 / 1000 : ℝ) + max 1e-10 (1e-8 * (|2| + 10)) ≤ 2 * (7 / 10) := by norm_num
        _ ≤ _ := by linarith) 2
  have h := k3 5 w (.name "theta") hw hkey
  refine ⟨isf, _, hisf, ⟨x₁, x₂, rfl, k1, k2⟩, h, ?_⟩
  obtain ⟨m, hm, -⟩ := C187_crossings perfect_exact Interface.perfect_constrained (exModel_usual _ _) (j := 1) (lo := none) (hi := none) rfl (by norm_num) g e w hw (.name "theta") hkey 5 3 2 (tol := fun _ => 1 / 1000) (fun _ => by norm_num)
    (bisection_sound (by norm_num)) (bisection_sound (by norm_num)) (by simp [Chi2.Honest]) isf _ _ _ h
  exact ⟨m, hm⟩

/-- The same for a parameter with bounds. -/
example (g : Bool) (e : Expect) (w : World) (hw : Plain 2 w) : ∃ isf L, ChiSquared isf ∧ (∃ x₁ x₂, L = [fin x₁, fin x₂] ∧ |x₁ - (2 - 2 * (1 / √2))| ≤ 1 / 1000 ∧ |x₂ - (2 + 2 * (1 / √2))| ≤ 1 / 1000) ∧
    (chi2Nuisance 5 (bisection (1 / 1000)).solver (bisection (1 / 1000)).solver (fun _ _ _ => none) isf perfect (exModel (ninf) (some (fin (-20)), some (fin 20))) g e (1 - 2 * Phi (-2)) .twoSided (.name "theta") (some 1) 3 2 w).1 = .ok (some L) ∧
    ∃ m, Smallest (fun x => neg ((exModel (ninf) (some (fin (-20)), some (fin 20))).logpdf (expectation e) none x)) (Admissible 2 ((exModel (ninf) (some (fin (-20)), some (fin 20))).config true).bounds (exModel (ninf) (some (fin (-20)), some (fin 20))).constraints (poiFix 0 (some 1))) m := by
  obtain ⟨isf, hisf⟩ := chiSquared_exists
  have hv : ∀ v, (some 1 : Option ℝ) = some v → 0 ≤ v ∨ le ((exModel (ninf) (some (fin (-20)), some (fin 20))).config true).minimumPoi (fin v) := by
    intro v h
    rw [Option.some.injEq] at h
    exact .inl (h ▸ zero_le_one)
  have hkey : resolveParameterIndex (Interface.config (exModel (ninf) (some (fin (-20)), some (fin 20))) true w) (.name "theta") = .ok ((1 : ℕ) : ℤ) := by
    have hl : ¬ (Interface.config (exModel (ninf) (some (fin (-20)), some (fin 20))) true w).npar < 2 := by
      change ¬ w.start.length < 2
      rw [hw.2.2]
      norm_num
    unfold resolveParameterIndex
    rw [if_neg hl]
    simp only [Interface.config, exModel]
    rfl
  have hwin : window 2 = 10 := by
    unfold window
    norm_num
  have hs2 : (7 / 10 : ℝ) ≤ 1 / √2 ∧ 1 / √2 ≤ 1 := by
    have h1 : √2 ≤ 10 / 7 := by
      rw [Real.sqrt_le_left (by norm_num)]
      norm_num
    have h2 : 1 ≤ √2 := by
      rw [Real.one_le_sqrt]
      norm_num
    constructor
    · rw [le_div_iff₀ (by linarith)]
      linarith
    · rw [div_le_iff₀ (by linarith)]
      linarith
  obtain ⟨x₁, x₂, k1, k2, k3⟩ := C187_interval (brent := (bisection (1 / 1000)).solver) perfect_exact Interface.perfect_constrained Chain.perfect_finds (exModel_usual _ _) (j := 1) (lo := some (-20)) (hi := some 20) rfl (.inr ⟨⟨rfl, rfl⟩, rfl⟩) (by norm_num) hv g e
    (by cases g <;> exact ⟨_, rfl⟩) (by linarith : (0 : ℝ) < 1 / √2) (exModel_profile _ _ e) (exInterval_central two_pos).1 (exInterval_central two_pos).2 hisf (tol := fun _ => 1 / 1000) (δ := 1 / 1000)
    (bisection_sound (tol := 1 / 1000) (by norm_num)) (bisection_succeeds (tol := 1 / 1000) (by norm_num)) (fun _ _ _ => none) (by rw [hwin, Option.getD_some]; norm_num) (by rw [hwin, Option.getD_some]; norm_num) (by rw [hwin]; linarith) (fun _ _ => _root_.le_refl _) (by
      rw [hwin]
      calc (1 / 1000 : ℝ) + max 1e-10 (1e-8 * (|2| + 10)) ≤ 2 * (7 / 10) := by norm_num
        _ ≤ _ := by linarith) 2
  have h := k3 5 w (.name "theta") hw hkey
  refine ⟨isf, _, hisf, ⟨x₁, x₂, rfl, k1, k2⟩, h, ?_⟩
  obtain ⟨m, hm, -⟩ := C187_crossings perfect_exact Interface.perfect_constrained (exModel_usual _ _) (j := 1) (lo := some (-20)) (hi := some 20) rfl (by norm_num) g e w hw (.name "theta") hkey 5 3 2 (tol := fun _ => 1 / 1000) (fun _ => by norm_num)
    (bisection_sound (by norm_num)) (bisection_sound (by norm_num)) (by simp [Chi2.Honest]) isf _ _ _ h
  exact ⟨m, hm⟩

end Verif.Nuisance
