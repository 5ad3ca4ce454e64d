import Verif.Nuisance.Poi
import Verif.Nuisance.Props
import Verif.Interval.SoundProps

/-!
# Property C188: confidence intervals of the signal strength
-/

namespace Verif.Nuisance
open Verif.Py F Verif.Hypotest Verif.Config Verif.Chi2 Verif.Interval
open Verif.Interface (World Solver Plain Constrained Size Allowed perfect)
open Verif.Stats (Expect Calc gaussianLog)
open Verif.UpperLimit (Sound Succeeds)

/-- C188. With fits that find global minima: everything that `chi2_test` returns for the signal strength of any model is nan, a limit of the search, or a crossing, up to the tolerance of the root finder, of the
threshold by twice the difference between the profile likelihood and its smallest value. The smallest value is that of the fit inside the bounds, or that of a signal strength outside the bounds of the fit which
the search has found to be smaller. Two-sided results have at least two values. -/
theorem C188_crossings {S : Solver} (hS : Exact S) (hC : Constrained S) {B : Interface.Backend} {N k : ℕ} (hB : Usual B N k) (hN : 2 ≤ N ∨ B.constraints = [])
    (inv : List (List ℝ) → Except Interface.Err (List (List ℝ))) (g : Bool) (ntoys : Size) (available : Calc → Bool) (percentile : List F → F → F) (e : Expect) (w : World) (hw : Plain N w) (fuel nScan nMulti : ℕ)
    {tol : ℝ → ℝ} (h0 : ∀ x, 0 ≤ tol x) {toms brent : UpperLimit.Solver} (ht : Sound tol toms) (hbr : Sound tol brent) {minimize : Minimizer} (hm : Chi2.Honest minimize) (isf : ℝ → F) (CL : ℝ)
    (t : LimitType) (negative n : Bool) (hn : n = true ↔ negative = true ∨ t ≠ .right) (L : List F)
    (h : (chi2Interval fuel toms brent minimize isf (modelMethods S B g none ntoys available percentile) (modelSigma S inv B g ntoys available percentile) e CL t negative nScan nMulti w).1 = .ok (some L)) :
    ∃ m0 m, Smallest (fun x => neg (B.logpdf (expectation e) none x)) (Admissible N (B.config n).bounds B.constraints []) m0 ∧
      (m = m0 ∨ F.lt m m0 ∧ ∃ v, Smallest (fun x => neg (B.logpdf (expectation e) none x)) (Admissible N (B.config true).bounds B.constraints [(k, v)]) m ∧
        (n = true → ∃ b, (B.config true).bounds[k]? = some b ∧ ¬ Allowed b v)) ∧
      (∀ v ∈ L, v = nan ∨ v = fin (-1e5) ∨ v = fin 1e5 ∨ ∃ x y y' l l', v = fin x ∧ |y - x| ≤ tol x ∧ |y' - x| ≤ tol x ∧
        Smallest (fun x => neg (B.logpdf (expectation e) none x)) (Admissible N (B.config true).bounds B.constraints [(k, y)]) l ∧
        Smallest (fun x => neg (B.logpdf (expectation e) none x)) (Admissible N (B.config true).bounds B.constraints [(k, y')]) l' ∧
        le (scale 2 (sub l m)) (isf (1 - CL)) ∧ le (isf (1 - CL)) (scale 2 (sub l' m))) ∧
      (t = .twoSided → 2 ≤ L.length) := by
  have hneg : (negative || decide (t = .twoSided) || decide (t = .left)) = n := by
    cases n <;> cases negative <;> cases t <;> simp_all
  obtain ⟨r, m0, s, w', a1, a2, a3⟩ := interval_reads' hneg ((C110_model hS.free B hB.fixed g none ntoys available percentile N).maximize e n none)
    (fun r w hw => (modelSigma_steady hS.free inv B hB.fixed g ntoys available percentile N e r w w hw hw).2) hw h
  have hmax : (Interface.maximize S B true (expectation e) n none none ((none : Option ℝ).map Interface.Poi.float) g none w).1 = .ok (.one r, m0) := by
    change (ofInterface (Interface.maximize S B true (expectation e) n none none none g none) w).1 = _ at a1
    change (Interface.maximize S B true (expectation e) n none none none g none w).1 = _
    cases hc : Interface.maximize S B true (expectation e) n none none none g none w with
    | mk q w2 =>
    cases q <;> simp_all [ofInterface, Except.mapError]
  obtain ⟨x0, w2, -, b1, b2, b3⟩ := max_smallest hS hC hB hw hmax
  change Admissible N (B.config n).bounds B.constraints [] x0 at b1
  refine ⟨m0, ?_⟩
  obtain ⟨m, ref, ha, hr⟩ := C22_crossings h0 ht hbr hm _ (isf (1 - CL)) t _ _ 1e5 (.inl ⟨negative, r, m0, s, rfl, rfl, rfl⟩) nScan nMulti fuel L a3
  refine ⟨m, ⟨x0, b1, b2, b3⟩, ?_, ?_⟩
  · rcases ha with h1 | ⟨h1, h2, -⟩
    · exact .inl h1.1
    · have hnan : m ≠ nan := by rintro rfl; simp [F.lt] at h2
      change F.lt m m0 at h2
      have hsm := poi_smallest hS hC hB hN a2 h1.symm hnan
      refine .inr ⟨h2, ref, hsm, fun hnt => ?_⟩
      subst hnt
      have hk : k < (B.config true).bounds.length := by
        rw [hB.length true]
        exact slot_lt (hB.poi true)
      refine ⟨_, List.getElem?_eq_getElem hk, fun hal => ?_⟩
      obtain ⟨x, hx, hx1, -⟩ := hsm
      dsimp only at hx1
      have hx' : Admissible N (B.config true).bounds B.constraints [] x := hx.weaken (List.getElem?_eq_getElem hk) hal
      have := b3 x hx' (by rw [← hx1]; exact hnan)
      rw [← hx1] at this
      cases m <;> cases m0 <;> simp_all [F.lt, F.le]
      linarith
  have key : ∀ x, Crosses (Interval.nllFn (modelMethods S B g none ntoys available percentile) e w') m (isf (1 - CL)) (tol x) x → ∃ y y' l l', |y - x| ≤ tol x ∧ |y' - x| ≤ tol x ∧
        Smallest (fun x => neg (B.logpdf (expectation e) none x)) (Admissible N (B.config true).bounds B.constraints [(k, y)]) l ∧
        Smallest (fun x => neg (B.logpdf (expectation e) none x)) (Admissible N (B.config true).bounds B.constraints [(k, y')]) l' ∧
        le (scale 2 (sub l m)) (isf (1 - CL)) ∧ le (isf (1 - CL)) (scale 2 (sub l' m)) := by
    rintro x ⟨⟨y, y1, y2⟩, ⟨y', y3, y4⟩⟩
    refine ⟨y, y', _, _, y1, y3, poi_smallest hS hC hB hN a2 rfl ?_, poi_smallest hS hC hB hN a2 rfl ?_, y2, y4⟩
    · intro hn
      simp [chi2At, hn, sub, add, scale, F.le] at y2
    · intro hn
      simp only [chi2At, hn, sub, add, scale] at y4
      cases hi : isf (1 - CL) <;> simp [hi, F.le] at y4
  have side : ∀ (b : ℝ) v, (b = -1e5 ∨ b = 1e5) → SideValue (Interval.nllFn (modelMethods S B g none ntoys available percentile) e w') m (isf (1 - CL)) tol b v →
      v = nan ∨ v = fin (-1e5) ∨ v = fin 1e5 ∨ ∃ x, v = fin x ∧ Crosses (Interval.nllFn (modelMethods S B g none ntoys available percentile) e w') m (isf (1 - CL)) (tol x) x := by
    rintro b v hb (h1 | h1 | ⟨x, h1, h2⟩)
    · exact .inl h1
    · rcases hb with rfl | rfl
      · exact .inr (.inl h1)
      · exact .inr (.inr (.inl h1))
    · exact .inr (.inr (.inr ⟨x, h1, h2⟩))
  suffices (∀ v ∈ L, v = nan ∨ v = fin (-1e5) ∨ v = fin 1e5 ∨ ∃ x, v = fin x ∧ Crosses (Interval.nllFn (modelMethods S B g none ntoys available percentile) e w') m (isf (1 - CL)) (tol x) x) ∧
      (t = .twoSided → 2 ≤ L.length) by
    refine ⟨fun v hv => ?_, this.2⟩
    rcases this.1 v hv with h | h | h | ⟨x, h, hx⟩
    · exact .inl h
    · exact .inr (.inl h)
    · exact .inr (.inr (.inl h))
    · obtain ⟨y, y', l, l', hy⟩ := key x hx
      exact .inr (.inr (.inr ⟨x, y, y', l, l', h, hy⟩))
  have hlo : t ≠ .right → (if negative = false ∧ t = .right then (0 : ℝ) else -1e5) = -1e5 := fun h => if_neg fun h' => h h'.2
  rcases hr with ⟨l, hl, rfl, -, h2, -, -, -, h3⟩ | ⟨v', ⟨ht', rfl, h2⟩ | ⟨ht', rfl, h2⟩⟩ | ⟨v₁, v₂, ht', rfl, h1, h2⟩
  · refine ⟨fun v hv => ?_, fun htt => ?_⟩
    · obtain ⟨x, hx, rfl⟩ := List.mem_map.mp hv
      exact .inr (.inr (.inr ⟨x, rfl, h2 x hx⟩))
    · obtain ⟨⟨x, hx, hx1⟩, ⟨x', hx', hx1'⟩⟩ := h3 htt
      rw [List.length_map]
      match l, hl, hx, hx' with
      | [a], _, hx, hx' =>
        rw [List.mem_singleton] at hx hx'
        linarith
      | a :: b :: l, _, _, _ => simp
  · refine ⟨fun v hv => ?_, fun htt => ?_⟩
    · rw [List.mem_singleton] at hv
      rw [hlo (by rw [ht']; simp)] at h2
      exact hv ▸ side _ _ (.inl rfl) h2
    · rw [ht'] at htt
      cases htt
  · refine ⟨fun v hv => ?_, fun htt => ?_⟩
    · rw [List.mem_singleton] at hv
      exact hv ▸ side _ _ (.inr rfl) h2
    · rw [ht'] at htt
      cases htt
  · rw [hlo (by rw [ht']; simp)] at h1
    refine ⟨fun v hv => ?_, fun _ => le_rfl⟩
    simp only [List.mem_cons, List.not_mem_nil, or_false] at hv
    rcases hv with rfl | rfl
    · rcases h1 with h1 | ⟨x, rfl, -, -, -, h1⟩
      · exact side _ _ (.inl rfl) h1
      · exact .inr (.inr (.inr ⟨x, rfl, h1⟩))
    · rcases h2 with h2 | ⟨x, rfl, -, -, -, h2⟩
      · exact side _ _ (.inr rfl) h2
      · exact .inr (.inr (.inr ⟨x, rfl, h2⟩))

/-- C188. With fits that find global minima if there are any, and a signal strength without lower limit (`minimum_poi = -inf`): if the profile likelihood is Gaussian, its estimate `est` is allowed in the fit, and the
inverse of the Hessian at the best point gives its deviation `σ`, then `chi2_test` with the default limit type and `n_scan=3` returns the ends `est ± zσ` of the central interval, up to the tolerance of the root finder. -/
theorem C188_interval {S : Solver} (hS : Exact S) (hC : Constrained S) (hT : Chain.Finds S) {B : Interface.Backend} {N k : ℕ} (hB : Usual B N k)
    (hmin : (B.config true).minimumPoi = ninf) (inv : List (List ℝ) → Except Interface.Err (List (List ℝ))) (g : Bool) (ntoys : Size) (available : Calc → Bool) (percentile : List F → F → F) (e : Expect)
    (hg : ∃ r, Interface.getObjective B (expectation e) none g = .ok r) {c σ est : ℝ} (hσ : 0 < σ)
    (hprof : ∀ v, Smallest (fun x => neg (B.logpdf (expectation e) none x)) (Admissible N (B.config true).bounds B.constraints [(k, v)]) (fin (-(gaussianLog c σ est v))))
    {b : Bound} (hb : (B.config true).bounds[k]? = some b) (hin : Allowed b est) {H : List ℝ → List (List ℝ)} (hH : B.hessian (expectation e) = .ok H)
    (hinv : ∀ x, Admissible N (B.config true).bounds B.constraints [(k, est)] x → neg (B.logpdf (expectation e) none x) = fin (-(gaussianLog c σ est est)) →
      ∃ M, inv ((H x).map fun row => row.map fun y => -1 * y) = .ok M ∧ Interface.entry M (B.config true).poiIndex (B.config true).poiIndex = .ok (σ ^ 2))
    {CL z : ℝ} (hz : Central CL z) (hCL : 0 ≤ CL) {isf : ℝ → F} (hisf : ChiSquared isf) {tol : ℝ → ℝ} {δ : ℝ} (h0 : ∀ x, 0 ≤ tol x) {toms brent : UpperLimit.Solver} (ht : Sound tol toms) (hs : Succeeds toms)
    (minimize : Minimizer) (hz6 : z < 6) (hr : |est| + span σ ≤ 1e5) (hδ : ∀ x, |x - est| ≤ span σ → tol x ≤ δ) (hd : δ + max 1e-10 (1e-8 * (|est| + span σ)) ≤ z * σ) (nMulti : ℕ) (negative : Bool) :
    ∃ x₁ x₂, |x₁ - (est - z * σ)| ≤ tol x₁ ∧ |x₂ - (est + z * σ)| ≤ tol x₂ ∧ ∀ fuel,
      Ends (Plain N) (chi2Interval fuel toms brent minimize isf (modelMethods S B g none ntoys available percentile) (modelSigma S inv B g ntoys available percentile) e CL .twoSided negative 3 nMulti)
        (.ok (some [fin x₁, fin x₂])) := by
  have hv : ∀ v : ℝ, 0 ≤ v ∨ le (B.config true).minimumPoi (fin v) := fun v => .inr (by rw [hmin]; trivial)
  have hzσ : 0 < z * σ := mul_pos hz.1 hσ
  have s6 := span_six σ
  have hlt : z * σ < span σ := lt_of_lt_of_le (by nlinarith) s6
  obtain ⟨x₁, x₂, j1, j2, j3⟩ := gauss_two (c := c) (z := z) (brent := brent) (minimize := minimize) (nMulti := nMulti) h0 ht hs (fun v => rfl) hσ hσ hzσ (by ring : (z * σ) ^ 2 = z ^ 2 * σ ^ 2 + (est - est) ^ 2) hr
    (by linarith) (by linarith) (fun x m1 m2 => hδ x (abs_le.mpr ⟨by linarith, by linarith⟩)) (by simpa using hd) (fun x _ => by nlinarith [sq_nonneg (x - est)]) negative
  refine ⟨x₁, x₂, j1, j2, fun fuel => interval_ends (n := true) ⟨hCL, ?_⟩ (by simp) (r := est) (m := fin (-(gaussianLog c σ est est))) (poi_max hS hC hB hT hg hσ hb hin hprof)
    (poi_sigma hS hC hB hT hg (hv est) hσ.le (hprof est) hH hinv) (L := fun v => fin (-(gaussianLog c σ est v))) (fun v w hw => ?_) ?_⟩
  · have := Phi_pos (-z)
    have := hz.2
    linarith
  · have h := poi_value hS hC hB (g := g) (ntoys := ntoys) (available := available) (percentile := percentile) hT hw hg (hv v) (hprof v) (by simp)
    unfold Interval.nllFn at h
    split at h
    · rename_i h1
      rw [h1, h]
    · cases h
  · rw [← hz.2, hisf z hz.1]
    exact j3 fuel

/-- The model of the example of C187 without a lower limit of the signal strength, and with its Hessian. -/
noncomputable def exPoi : Interface.Backend := { exModel ninf (none, none) with
  hessian := fun _ => .ok fun _ => [[-1, 1], [1, -2]] }

theorem exPoi_usual : Usual exPoi 2 0 where
  fallback := ⟨fun _ _ _ _ => rfl, fun _ _ _ _ => rfl, fun _ _ _ => rfl, fun _ _ _ => rfl⟩
  consistent := (exModel_usual ninf (none, none)).consistent
  fixed := fun _ => rfl
  length := fun _ => rfl
  poi := fun _ => rfl
  bounds := by
    intro n b h
    simp only [exPoi, exModel, List.getElem?_cons_zero, Option.some.injEq] at h
    subst h
    exact ⟨rfl, rfl⟩

/-- The signal strength is measured to be `3 ± √2`. -/
theorem exPoi_profile (e : Expect) (v : ℝ) : Smallest (fun x => neg (exPoi.logpdf (expectation e) none x))
    (Admissible 2 (exPoi.config true).bounds exPoi.constraints [(0, v)]) (fin (-(gaussianLog 0 √2 3 v))) := by
  have h2 : √2 ^ 2 = 2 := Real.sq_sqrt (by norm_num)
  refine ⟨[v, (v + 3) / 2], ⟨rfl, ?_, ?_, by intro c hc; simp [exPoi, exModel] at hc⟩, ?_, fun x' hx' hn => ?_⟩
  · intro q hq
    rw [List.mem_singleton] at hq
    subst hq
    rfl
  · intro i b y hi hb hy
    match i, hi, hb, hy with
    | 0, hi, _, _ => exact absurd rfl (hi (0, v) (by simp))
    | 1, _, hb, _ =>
      simp only [exPoi, exModel, List.getElem?_cons_succ, List.getElem?_cons_zero, Option.some.injEq] at hb
      subst hb
      exact ⟨by simp, by simp⟩
    | i + 2, _, _, hy => simp at hy
  · simp only [exPoi, exModel, neg, neg_neg, gaussianLog, h2, List.getD_cons_zero, List.getD_cons_succ]
    congr 1
    ring
  · have h := hx'.fixed (0, v) (by simp)
    obtain ⟨a, b, rfl⟩ := List.length_eq_two.mp hx'.length
    simp only [List.getElem?_cons_zero, Option.some.injEq] at h
    subst h
    simp only [exPoi, exModel, neg, neg_neg, gaussianLog, h2, List.getD_cons_zero, List.getD_cons_succ, F.le]
    nlinarith [sq_nonneg (2 * b - a - 3)]

/-- The values are those of `3 ± 2√2`, and the smallest value of the theorem about the crossings exists. -/
example (g : Bool) (e : Expect) (ntoys : Size) (available : Calc → Bool) (percentile : List F → F → F) (w : World) (hw : Plain 2 w) : ∃ isf L, ChiSquared isf ∧
    (∃ x₁ x₂, L = [fin x₁, fin x₂] ∧ |x₁ - (3 - 2 * √2)| ≤ 1 / 1000 ∧ |x₂ - (3 + 2 * √2)| ≤ 1 / 1000) ∧
    (chi2Interval 5 (bisection (1 / 1000)).solver (bisection (1 / 1000)).solver (fun _ _ _ => none) isf (modelMethods perfect exPoi g none ntoys available percentile)
      (modelSigma perfect (fun _ => .ok [[2, 1], [1, 1]]) exPoi g ntoys available percentile) e (1 - 2 * Phi (-2)) .twoSided false 3 2 w).1 = .ok (some L) ∧
    ∃ m, Smallest (fun x => neg (exPoi.logpdf (expectation e) none x)) (Admissible 2 (exPoi.config true).bounds exPoi.constraints []) m := by
  obtain ⟨isf, hisf⟩ := chiSquared_exists
  have hs : (1 : ℝ) ≤ √2 ∧ √2 ≤ 3 / 2 := by
    constructor
    · rw [Real.one_le_sqrt]
      norm_num
    · rw [Real.sqrt_le_left (by norm_num)]
      norm_num
  have hspan : span √2 ≤ 9 := max_le (by linarith) (by norm_num)
  obtain ⟨x₁, x₂, k1, k2, k3⟩ := C188_interval (brent := (bisection (1 / 1000)).solver) perfect_exact Interface.perfect_constrained Chain.perfect_finds exPoi_usual rfl (fun _ => .ok [[2, 1], [1, 1]]) g ntoys available percentile e
    (by cases g <;> exact ⟨_, rfl⟩) (by linarith : (0 : ℝ) < √2) (exPoi_profile e) rfl ⟨by simp [F.le]; norm_num, by simp [F.le]; norm_num⟩ rfl
    (fun x _ _ => ⟨_, rfl, by rw [Real.sq_sqrt (by norm_num)]; rfl⟩) (exInterval_central two_pos).1 (exInterval_central two_pos).2 hisf (tol := fun _ => 1 / 1000) (δ := 1 / 1000) (fun _ => by norm_num)
    (bisection_sound (tol := 1 / 1000) (by norm_num)) (bisection_succeeds (tol := 1 / 1000) (by norm_num)) (fun _ _ _ => none) (by norm_num) (by rw [abs_of_pos (by norm_num)]; linarith) (fun _ _ => _root_.le_refl _) (by
      have : max 1e-10 (1e-8 * (|(3 : ℝ)| + span √2)) ≤ 1 := max_le (by norm_num) (by rw [abs_of_pos (by norm_num)]; linarith)
      linarith) 2 false
  have h := (k3 5 w hw).1
  refine ⟨isf, _, hisf, ⟨x₁, x₂, rfl, k1, k2⟩, h, ?_⟩
  obtain ⟨m, -, hm, -⟩ := C188_crossings perfect_exact Interface.perfect_constrained exPoi_usual (.inl le_rfl) _ g ntoys available percentile e w hw 5 3 2 (tol := fun _ => 1 / 1000) (fun _ => by norm_num)
    (bisection_sound (by norm_num)) (bisection_sound (by norm_num)) (by simp [Chi2.Honest]) isf _ .twoSided false true (by simp) _ h
  exact ⟨m, hm⟩

end Verif.Nuisance
