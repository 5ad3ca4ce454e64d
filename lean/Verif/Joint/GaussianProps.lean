import Verif.Joint.Gaussian
import Verif.Joint.Props
import Verif.Chain.LimitProps

/-!
# C123 and C124: combinations of Gaussian models

The tests and the upper limit of a combination of Gaussian models are those of one measurement, the weighted mean of the individual estimates.
-/

namespace Verif.Joint
open Verif.Py F Verif.Hypotest Verif.Chain
open Verif.Interface (MuHat Data World Size Plain Solver perfect)
open Verif.Stats (Expect Calc gaussianLog gaussianLevel)
open Verif.Backend (Ext Vec Args Fits at')
open Verif.UpperLimit (Expected Band Limit Entries Sound Succeeds Inputs)

/-- Two measurements with unit uncertainties: `1 ± 1/√5` and, with other data, `3 ± 1/√5`; together `2 ± 1/√10`. -/
theorem exTwo (E : Ext) : ∃ (a : ℕ → Args) (m : ℕ → Backend.Model) (Q : ℕ → ℕ → ℕ → ℝ) (y : ℕ → Vec) (est dev : ℕ → ℝ), (∀ i < 2, Case E (a i) (m i) (Q i) (y i)) ∧
    (∀ i < 2, est i = estimate (a i).data.length (Q i) (at' (y i)) (at' (a i).background) (at' (a i).data)) ∧
    (∀ i < 2, dev i = deviation (a i).data.length (Q i) (at' (y i))) ∧ pooled 2 est dev = 2 ∧ pooledDeviation 2 dev = 1 / √10 ∧ ∀ i < 2, Backend.isAlive (a i).signal = true := by
  obtain ⟨m0, Q0, h0, e0, d0⟩ := exGauss_normal E
  have : ∃ m, Backend.gaussian { exGaussArgs with data := [11, 8] } [1, 1] = .ok m := by
    unfold Backend.gaussian Backend.simpleConfig
    simp only [exGaussArgs, Backend.minimumPoi, exGauss_alive, if_true, Backend.ok_bind, Backend.sigBounds]
    exact ⟨_, rfl⟩
  obtain ⟨m1, hm⟩ := this
  have hform : ∀ x y, form 2 (independent (at' [1, 1])) x y = x 0 * y 0 + x 1 * y 1 := by
    intro x y
    rw [form_independent]
    simp [Finset.sum_range_succ, at']
  have h1 : Case E { exGaussArgs with data := [11, 8] } m1 (independent (at' [1, 1])) [2, 1] := by
    refine ⟨.normal [1, 1] hm rfl fun i hi => ?_, ⟨rfl, rfl⟩, rfl, rfl, rfl, ?_, ⟨0, by simp, by simp [at']⟩, fun i hi => ?_⟩
    · have hi : i < 2 := hi
      interval_cases i <;> simp [at']
    · change 0 < form 2 _ _ _
      rw [hform]
      norm_num [at']
    · have hi : i < 2 := hi
      interval_cases i <;> simp [exGaussArgs, at']
  have e1 : estimate 2 (independent (at' [1, 1])) (at' [2, 1]) (at' [5, 5]) (at' [11, 8]) = 3 := by
    unfold estimate
    rw [hform, hform]
    norm_num [at']
  have d1 : deviation 2 (independent (at' [1, 1])) (at' [2, 1]) = 1 / √5 := by
    unfold deviation
    rw [hform]
    norm_num [at']
  have hsq : √5 ^ 2 = 5 := Real.sq_sqrt (by norm_num)
  refine ⟨fun i => if i = 0 then exGaussArgs else { exGaussArgs with data := [11, 8] }, fun i => if i = 0 then m0 else m1,
    fun i => if i = 0 then Q0 else independent (at' [1, 1]), fun _ => [2, 1], fun i => if i = 0 then 1 else 3, fun _ => 1 / √5, fun i hi => ?_, fun i hi => ?_, fun i hi => ?_, ?_, ?_, fun i hi => ?_⟩
  · interval_cases i
    · exact h0
    · exact h1
  · interval_cases i
    · exact e0.symm
    · exact e1.symm
  · interval_cases i
    · exact d0.symm
    · exact d1.symm
  · unfold pooled
    simp only [Finset.sum_range_succ, Finset.sum_range_zero, one_div, inv_pow, hsq]
    norm_num
  · unfold pooledDeviation
    simp only [Finset.sum_range_succ, Finset.sum_range_zero, one_div, inv_pow, hsq]
    norm_num
  · interval_cases i <;> exact exGauss_alive

theorem exNames : Distinct 2 fun i => if i = 0 then "a" else "b" := by
  intro i hi j hj hij
  interval_cases i <;> interval_cases j <;> simp_all

/-- The inverse of matrices with one entry. -/
noncomputable def exInverse : List (List ℝ) → Except Interface.Err (List (List ℝ)) := fun M => .ok [[1 / (M.getD 0 []).getD 0 0]]

section
variable {fit : Minimizer (ℕ → World)} (hfit : Reliable fit) {S : Solver} (hS : Exact S) (hT : Finds S) {E : Ext} (draw) {n : ℕ} (hn : 0 < n)
  {a : ℕ → Args} {m : ℕ → Backend.Model} {Q : ℕ → ℕ → ℕ → ℝ} {y : ℕ → Vec} (h : ∀ i < n, Case E (a i) (m i) (Q i) (y i)) {name : ℕ → String}
  (hname : Distinct n name) {inv : List (List ℝ) → Except Interface.Err (List (List ℝ))} (hinv : InvertsNumbers inv) (g : Bool) (ntoys : Size)
  (available : ℕ → Calc → Bool)
include hfit hS hT hn h hname hinv

/-- C123. `exclusion_confidence_level` of a combination of Gaussian models of spey, when the minimisers are exact, is that of a single measurement of the signal
strength, `x ± σ`: the weighted mean of the least squares estimates of the models, and its standard deviation. Conditions: the mean is at most 10 and at most the
tested strength, no expected yield is negative at the mean if negative signals are allowed, and the models have different names. -/
theorem C123_levels (hav : ∀ i < n, available i .asymptotic = true) (percentile percentile' : List F → F → F) (e : Expect) {est dev : ℕ → ℝ}
    (hest : ∀ i < n, est i = estimate (a i).data.length (Q i) (at' (y i)) (at' (a i).background) (at' (used (a i) e)))
    (hdev : ∀ i < n, dev i = deviation (a i).data.length (Q i) (at' (y i))) {x σ : ℝ} (hx : x = pooled n est dev) (hσ : σ = pooledDeviation n dev)
    (negative : Bool) (hneg : negative = true → ∀ i < n, ∀ j < (a i).data.length, 0 < at' (y i) j → 0 ≤ x * at' (y i) j + at' (a i).background j) (h10 : x ≤ 10)
    {mu : Mu} {v : ℝ} (hmu : mu.Is v) (hv : 0 < v) :
    (e = .observed → x ≤ v → Ends (All n fun _ => 1) (exclusion (combined fit (members n name S inv E draw m g ntoys available percentile') percentile) mu e negative .asymptotic)
      (.ok (.one [fin (gaussianLevel σ x v)]))) ∧
    (e = .apriori ∨ e = .aposteriori → Ends (All n fun _ => 1) (exclusion (combined fit (members n name S inv E draw m g ntoys available percentile') percentile) mu e negative .asymptotic)
      (.ok (.one ([-2, -1, 0, 1, 2].map fun k => fin (gaussianLevel σ (k * σ) v))))) := by
  obtain ⟨low, c, c', hl0, hlow, hc⟩ := gaussian_calls hfit hS hT draw hn h hname.nodup hinv g ntoys available percentile' e hest hdev
  rw [← hx, ← hσ] at hc
  have hpos : 0 < σ := hσ ▸ pooledDeviation_pos hn fun i hi => hdev i hi ▸ deviation_pos (h i hi).informative
  have hm : Interface.mayBeNegative (if negative then "q" else "qtilde") = negative := by cases negative <;> simp [Interface.mayBeNegative]
  have hst : strength (if negative then "q" else "qtilde") = 0 := by cases negative <;> simp [strength]
  obtain ⟨w, hw⟩ := plain_exists 1
  have hA := hc.bestA (if negative then "q" else "qtilde")
  have hAl := fun u => hc.asimov (if negative then "q" else "qtilde") u
  rw [hm, hst] at hA
  simp only [hst] at hAl
  have hL := C107_levels (I := All n fun _ => 1) (combined fit (members n name S inv E draw m g ntoys available percentile') percentile) ⟨fun _ => w, fun _ _ => hw⟩ mu v hmu e
    negative .asymptotic _ _ _ _ ⟨hc.best negative, hc.likelihood v, hc.likelihood 0⟩ _ _ _ _ (fun _ => ⟨hA, hAl v, hAl 0⟩) [] [] [] [] (by simp) (by simp) (by simp)
    (by simp) (by simp)
  have hav' := members_available (name := name) (S := S) (inv := inv) (E := E) (draw := draw) (m := m) (g := g) (ntoys := ntoys) (percentile := percentile) (fit := fit)
    (percentile' := percentile') hav
  obtain ⟨g1, g2⟩ := gaussian_formula (c := c) (c' := c' (if negative then "q" else "qtilde")) hpos hl0 (negative := negative) (a := x) (fun hne => hlow x (hneg hne)) h10 hv e hav' percentile rfl
  refine ⟨fun h1 h2 => ?_, fun h1 => ?_⟩
  · rw [← g1 h1 h2]
    exact hL
  · rw [← g2 h1]
    exact hL

end

/-- The combination excludes strength 4 at the level of the measurement `2 ± 1/√10`. -/
example (E : Ext) (draw) : ∃ m, Ends (All 2 fun _ => 1) (exclusion (combined ideal (members 2 (fun i => if i = 0 then "a" else "b") perfect exInverse E draw m true (.int 100) (fun _ _ => true) fun _ _ => nan) fun _ _ => nan) (.float 4) .observed false .asymptotic) (.ok (.one [fin (gaussianLevel (1 / √10) 2 4)])) := by
  obtain ⟨a, m, Q, y, est, dev, h, h1, h2, h3, h4, -⟩ := exTwo E
  exact ⟨m, (C123_levels ideal_reliable perfect_exact perfect_finds draw (by norm_num) h exNames (inv := exInverse) (fun _ _ => rfl) true (.int 100) (fun _ _ => true) (fun _ _ => rfl)
    (fun _ _ => nan) (fun _ _ => nan) .observed h1 h2 h3.symm h4.symm false (by simp) (by norm_num) (mu := .float 4) rfl (by norm_num)).1 rfl (by norm_num)⟩

section
variable {fit : Minimizer (ℕ → World)} (hfit : Reliable fit) {S : Solver} (hS : Exact S) (hT : Finds S) {E : Ext} (draw) {n : ℕ} (hn : 0 < n)
  {a : ℕ → Args} {m : ℕ → Backend.Model} {Q : ℕ → ℕ → ℕ → ℝ} {y : ℕ → Vec} (h : ∀ i < n, Case E (a i) (m i) (Q i) (y i)) {name : ℕ → String}
  (hname : Distinct n name) {inv : List (List ℝ) → Except Interface.Err (List (List ℝ))} (hinv : InvertsNumbers inv) (g : Bool) (ntoys : Size)
  (available : ℕ → Calc → Bool)
include hfit hS hT hn h hname hinv

/-- C123. `significance` of a combination of Gaussian models: the weighted mean divided by its standard deviation, and for the Asimov data one divided by it. -/
theorem C123_significance (percentile percentile' : List F → F → F) (e : Expect) {est dev : ℕ → ℝ}
    (hest : ∀ i < n, est i = estimate (a i).data.length (Q i) (at' (y i)) (at' (a i).background) (at' (used (a i) e)))
    (hdev : ∀ i < n, dev i = deviation (a i).data.length (Q i) (at' (y i))) {x σ : ℝ} (hx : x = pooled n est dev) (hσ : σ = pooledDeviation n dev) (h10 : x ≤ 10) :
    Ends (All n fun _ => 1) (significance (combined fit (members n name S inv E draw m g ntoys available percentile') percentile) e)
      (.ok (Stats.discovery (1 / σ) (max x 0 / σ))) := by
  obtain ⟨low, c, c', hl0, hlow, hc⟩ := gaussian_calls hfit hS hT draw hn h hname.nodup hinv g ntoys available percentile' e hest hdev
  rw [← hx, ← hσ] at hc
  have hpos : 0 < σ := hσ ▸ pooledDeviation_pos hn fun i hi => hdev i hi ▸ deviation_pos (h i hi).informative
  have hm : Interface.mayBeNegative "q0" = false := by simp [Interface.mayBeNegative]
  have hst : strength "q0" = 1 := by simp [strength]
  obtain ⟨w, hw⟩ := plain_exists 1
  have hA := hc.bestA "q0"
  have hAl := fun u => hc.asimov "q0" u
  have hB := hc.best false
  rw [hm, hst] at hA
  simp only [hst] at hAl
  simp only [Bool.false_eq_true, if_false] at hA hB
  have k1 := nearest_is_best (c := c) (x := x) hpos (by norm_num : (0 : ℝ) ≤ 10)
  have k2 := nearest_is_best (c := c' "q0") (x := 1) hpos (by norm_num : (0 : ℝ) ≤ 10)
  have hp := significance_fits (l0 := gaussianLog c σ x 0) (l0A := gaussianLog (c' "q0") σ 1 0) k1.1 k2.1 ((k1.2.2 0 le_rfl (by norm_num)).1) ((k2.2.2 0 le_rfl (by norm_num)).1)
  have hsig := C107_significance (I := All n fun _ => 1) (combined fit (members n name S inv E draw m g ntoys available percentile') percentile) ⟨fun _ => w, fun _ _ => hw⟩ e _ _ _
    ⟨hB, hc.likelihood 0, hc.likelihood 0⟩ _ _ _ ⟨hA, hAl 0, hAl 0⟩
  rw [hp] at hsig
  have e1 := gaussian_roots (c := c' "q0") (a := 1) hpos (by norm_num)
  rw [max_eq_left zero_le_one] at e1
  rw [e1, gaussian_roots hpos h10] at hsig
  exact hsig

end

example (E : Ext) (draw) : ∃ m, Ends (All 2 fun _ => 1) (significance (combined ideal (members 2 (fun i => if i = 0 then "a" else "b") perfect exInverse E draw m true (.int 100) (fun _ _ => true) fun _ _ => nan) fun _ _ => nan) .observed) (.ok (Stats.discovery (1 / (1 / √10)) (max 2 0 / (1 / √10)))) := by
  obtain ⟨a, m, Q, y, est, dev, h, h1, h2, h3, h4, -⟩ := exTwo E
  exact ⟨m, C123_significance ideal_reliable perfect_exact perfect_finds draw (by norm_num) h exNames (inv := exInverse) (fun _ _ => rfl) true (.int 100) (fun _ _ => true)
    (fun _ _ => nan) (fun _ _ => nan) .observed h1 h2 h3.symm h4.symm (by norm_num)⟩

section
variable {fit : Minimizer (ℕ → World)} (hfit : Reliable fit) {S : Solver} (hS : Exact S) (hT : Finds S) {E : Ext} (draw) {n : ℕ} (hn : 0 < n)
  {a : ℕ → Args} {m : ℕ → Backend.Model} {Q : ℕ → ℕ → ℕ → ℝ} {y : ℕ → Vec} (h : ∀ i < n, Case E (a i) (m i) (Q i) (y i)) {name : ℕ → String}
  (hname : Distinct n name) {inv : List (List ℝ) → Except Interface.Err (List (List ℝ))} (hinv : InvertsNumbers inv) (g : Bool) (ntoys : Size)
  (available : ℕ → Calc → Bool)
include hfit hS hT hn h hname hinv

/-- C124. `sigma_mu` of a combination has no Hessian and takes the likelihood of the Asimov data: for Gaussian models and every positive strength it is the standard deviation
of the weighted mean. -/
theorem C124_sigma (percentile percentile' : List F → F → F) (e : Expect) {dev : ℕ → ℝ}
    (hdev : ∀ i < n, dev i = deviation (a i).data.length (Q i) (at' (y i))) {v : ℝ} (hv : 0 < v) :
    Ends (All n fun _ => 1) (sigmaMu (combined fit (members n name S inv E draw m g ntoys available percentile') percentile) none (.float v) e "qtilde")
      (.ok (fin (pooledDeviation n dev))) := by
  obtain ⟨low, c, c', hl0, hlow, hc⟩ := gaussian_calls hfit hS hT draw hn h hname.nodup hinv g ntoys available percentile' e (fun _ _ => rfl) hdev
  obtain ⟨σ, hσ⟩ : ∃ σ, σ = pooledDeviation n dev := ⟨_, rfl⟩
  rw [← hσ] at hc ⊢
  have hpos : 0 < σ := hσ ▸ pooledDeviation_pos hn fun i hi => hdev i hi ▸ deviation_pos (h i hi).informative
  have hm : Interface.mayBeNegative "qtilde" = false := by simp [Interface.mayBeNegative]
  have hst : strength "qtilde" = 0 := by simp [strength]
  have hA := hc.bestA "qtilde"
  have hAl := fun u => hc.asimov "qtilde" u
  rw [hm, hst] at hA
  simp only [hst] at hAl
  have hn0 : nearest 0 0 = 0 := by norm_num [nearest]
  simp only [Bool.false_eq_true, if_false, hn0] at hA
  obtain ⟨w, hw⟩ := plain_exists 1
  obtain ⟨t, ht, hE⟩ := C115_types_partial (I := All n fun _ => 1) ⟨fun _ => w, fun _ _ => hw⟩ (combined fit (members n name S inv E draw m g ntoys available percentile') percentile) none
    (.float v) v rfl (by simp) e (by simp) "qtilde" (by simp) _ _ _ _ ⟨hA, hAl v, hAl 0⟩
  have hq : (fitOf v 0 (fin (-(gaussianLog (c' "qtilde") σ 0 0))) (fin (-(gaussianLog (c' "qtilde") σ 0 v))) (fin (-(gaussianLog (c' "qtilde") σ 0 0)))).stat t (fin v) =
      fin ((v / σ) ^ 2) := by
    rw [show t = Stats.qmuTilde from (Except.ok.inj ht).symm]
    simp only [Stats.Fit.stat, fitOf, Stats.qmuTilde, lt, le, not_lt.mpr hv.le, le_refl, if_true, if_false, neg, sub, add, scale, clip0]
    refine Stats.clip_eq ?_ (by positivity)
    unfold gaussianLog
    field_simp
    ring
  rw [hq] at hE
  have hp2 : 0 < (v / σ) ^ 2 := by positivity
  rw [if_neg (show ¬ le (fin ((v / σ) ^ 2)) (fin 0) from not_le.mpr hp2), Stats.sqrt_fin hp2.le, Real.sqrt_sq (by positivity)] at hE
  rw [show σ = v / (v / σ) by field_simp]
  have : div (fin v) (fin (v / σ)) = fin (v / (v / σ)) := by
    simp only [div, if_neg (show v / σ ≠ 0 by positivity)]
  rw [← this]
  exact hE

end

example (E : Ext) (draw) : ∃ m, Ends (All 2 fun _ => 1) (sigmaMu (combined ideal (members 2 (fun i => if i = 0 then "a" else "b") perfect exInverse E draw m true (.int 100) (fun _ _ => true) fun _ _ => nan) fun _ _ => nan) none (.float 3) .observed "qtilde") (.ok (fin (1 / √10))) := by
  obtain ⟨a, m, Q, y, est, dev, h, -, h2, -, h4, -⟩ := exTwo E
  exact ⟨m, h4 ▸ C124_sigma ideal_reliable perfect_exact perfect_finds draw (by norm_num) h exNames (inv := exInverse) (fun _ _ => rfl) true (.int 100) (fun _ _ => true)
    (fun _ _ => nan) (fun _ _ => nan) .observed h2 (by norm_num)⟩

section
variable {fit : Minimizer (ℕ → World)} (hfit : Reliable fit) {S : Solver} (hS : Exact S) (hT : Finds S) {E : Ext} (draw) {n : ℕ} (hn : 0 < n)
  {a : ℕ → Args} {m : ℕ → Backend.Model} {Q : ℕ → ℕ → ℕ → ℝ} {y : ℕ → Vec} (h : ∀ i < n, Case E (a i) (m i) (Q i) (y i)) {name : ℕ → String}
  (hname : Distinct n name) {inv : List (List ℝ) → Except Interface.Err (List (List ℝ))} (hinv : InvertsNumbers inv) (g : Bool) (ntoys : Size)
  (available : ℕ → Calc → Bool)
include hfit hS hT hn h hname hinv

/-- C124. `poi_upper_limit` of a combination of Gaussian models of spey, when the minimisers are exact, gives the exact CLs limits of a measurement of the signal strength itself,
with the weighted mean of the estimates and its standard deviation, up to the tolerance of the root finder. Conditions: the mean is at most 10, the limits are between
`1e-10` and `1e5`, and the starting points are not both the limit itself. -/
theorem C124_limit (hav : ∀ i < n, available i .asymptotic = true) (percentile percentile' : List F → F → F) (e : Expected) {est dev : ℕ → ℝ}
    (hest : ∀ i < n, est i = estimate (a i).data.length (Q i) (at' (y i)) (at' (a i).background) (at' (used (a i) e.toExpect)))
    (hdev : ∀ i < n, dev i = deviation (a i).data.length (Q i) (at' (y i))) {x σ CL : ℝ} (hx : x = pooled n est dev) (hσ : σ = pooledDeviation n dev) (h10 : x ≤ 10)
    (hCL : 1 / 2 < CL) (hCL' : CL ≤ 1) (T : Finder) (tol : ℝ → ℝ) (hs : Sound tol T.solver) (hok : Succeeds T.solver) (band : Band) (hb : band ≠ .unknown)
    (low hig : Option ℝ) (z : ℕ → ℝ) (hz : ∀ i ∈ Entries e band, ExactLimit e σ x CL i (z i) ∧ 1e-10 ≤ z i ∧ z i ≤ 1e5 ∧ Reasonable (z i) low hig)
    {M : Methods (ℕ → World)} (hM : M = combined fit (members n name S inv E draw m g ntoys available percentile') percentile) {alive : Bool}
    (halive : alive = (List.range n).any fun i => Backend.isAlive (a i).signal) :
    ∃ L : Limit, L.Shaped (Entries e band).length ∧ List.Forall₂ (fun i x => ∃ mu, x = fin mu ∧ |mu - z i| ≤ tol mu) (Entries e band) L.values ∧
      ∃ N, ∀ k ≥ N, Ends (All n fun _ => 1) (poiUpperLimit k T M (fun e v => sigmaMu M none (.float v) e "qtilde") alive e CL low hig band) (.ok (some L)) := by
  subst hM
  have hal : alive = true := by
    rw [halive, List.any_eq_true]
    refine ⟨0, List.mem_range.mpr hn, ?_⟩
    rw [(h 0 hn).signal, Backend.isAlive_array]
    obtain ⟨j, hj, hp⟩ := (h 0 hn).positive
    refine ⟨j, ?_, hp⟩
    by_contra hlt
    simp [at', not_lt.mp hlt] at hp
  subst hal
  have hpos : 0 < σ := hσ ▸ pooledDeviation_pos hn fun i hi => hdev i hi ▸ deviation_pos (h i hi).informative
  have hsig : ∀ v, 1e-8 < v → Ends (All n fun _ => 1) (sigmaMu (combined fit (members n name S inv E draw m g ntoys available percentile') percentile) none (.float v) e.toExpect "qtilde")
      (.ok (fin σ)) := fun v hv => hσ ▸ C124_sigma hfit hS hT draw hn h hname hinv g ntoys available percentile percentile' e.toExpect hdev (lt_trans (by norm_num) hv)
  obtain ⟨least, c, c', hl0, -, hc⟩ := gaussian_calls hfit hS hT draw hn h hname.nodup hinv g ntoys available percentile' e.toExpect hest hdev
  rw [← hx, ← hσ] at hc
  have hm : Interface.mayBeNegative "qtilde" = false := by simp [Interface.mayBeNegative]
  have hst : strength "qtilde" = 0 := by simp [strength]
  have hA := hc.bestA "qtilde"
  have hAl := fun u => hc.asimov "qtilde" u
  have hB := hc.best false
  rw [hm, hst] at hA
  simp only [hst] at hAl
  have hn' : nearest 0 x = max x 0 := by unfold nearest; exact min_eq_left (max_le h10 (by norm_num))
  have hn0 : nearest 0 0 = 0 := by norm_num [nearest]
  simp only [Bool.false_eq_true, if_false, hn0, hn'] at hA hB
  have hf : AllFits (All n fun _ => 1) (combined fit (members n name S inv E draw m g ntoys available percentile') percentile) e.toExpect _ _ _ _ _ _ := ⟨hB, hc.likelihood, hA, hAl⟩
  have hag := fun k => C113_agrees hf (fun e v => sigmaMu (combined fit (members n name S inv E draw m g ntoys available percentile') percentile) none (.float v) e "qtilde") σ low hig
    (fun _ hm => hsig _ hm) k T true CL band
  have hav' := members_available (name := name) (S := S) (inv := inv) (E := E) (draw := draw) (m := m) (g := g) (ntoys := ntoys) (percentile := percentile) (fit := fit)
    (percentile' := percentile') hav
  obtain ⟨av, hav''⟩ : ∃ av, av = (combined fit (members n name S inv E draw m g ntoys available percentile') percentile).available := ⟨_, rfl⟩
  rw [← hav''] at hav' hag
  obtain ⟨J, hJ⟩ : ∃ J : Inputs, J = ⟨true, fitted (max x 0) (fin (-(gaussianLog c σ x (max x 0)))) (fun v => fin (-(gaussianLog c σ x v))) 0
    (fin (-(gaussianLog (c' "qtilde") σ 0 0))) (fun v => fin (-(gaussianLog (c' "qtilde") σ 0 v))) av, max x 0, fun _ => σ⟩ := ⟨_, rfl⟩
  have hstart := reasonable_starts J (by rw [hJ]) hpos hb fun i hi => (hz i hi).2.2.2
  have hDA := fitted_gaussian' (c := c) (c' := c' "qtilde") (σ := σ) (a := x) rfl av
  obtain ⟨L, ⟨N, hN⟩, h1, h2⟩ := gaussian_limit (J := J) (c := c) (c' := c' "qtilde") (by rw [hJ]) hpos (by rw [hJ]; exact hav') (by rw [hJ]; exact hDA.1)
    (by rw [hJ]; exact hDA.2) hCL hCL' hs hok hb (low := low) (hig := hig) z
    (fun i hi => ⟨(hz i hi).1, (hz i hi).2.1, (hz i hi).2.2.1, hstart.2.2 i hi⟩) hstart.1 hstart.2.1
  refine ⟨L, h1, h2, N, fun k hk => ?_⟩
  have h := hag k
  have hN := hN k hk
  dsimp only at hN
  rw [hJ] at hN
  change Ends (All n fun _ => 1) _ (outcome (UpperLimit.poiUpperLimit k T.solver ⟨true, fitted _ _ _ _ _ _ av, _, _⟩ _ _ _ _ _)) at h
  rw [hN] at h
  exact h

end

/-- `2 ± 1/√10` excludes 20 at 95%. -/
theorem exTwo_exact : ∃ z, 2 ≤ z ∧ z ≤ 20 ∧ gaussianLevel (1 / √10) 2 z = 0.95 := by
  have h5 : 0 < √10 := Real.sqrt_pos.mpr (by norm_num)
  have hσ : 0 < 1 / √10 := by positivity
  obtain ⟨z, h1, -, h2⟩ := exact_exists (σ := 1 / √10) (m := 2) (CL := 0.95) hσ (by norm_num) (by norm_num)
  refine ⟨z, (le_max_left _ _).trans h1, ?_, h2⟩
  by_contra h
  have h3 := level_mono (m := 2) hσ (not_le.mp h)
  have hsq : √10 * √10 = 10 := Real.mul_self_sqrt (by norm_num)
  have h4 : 0.95 < gaussianLevel (1 / √10) 2 20 := by
    unfold gaussianLevel
    have k5 := Phi_ratio_exp (a := 20 * √10) (by positivity) (2 * √10)
    have k6 := exp_small (x := 20 * √10 * (2 * √10) - (20 * √10) ^ 2 / 2) (by nlinarith)
    have k7 := Phi_pos (2 * √10)
    have k8 : Phi (2 * √10 - 20 * √10) / Phi (2 * √10) ≤ Real.exp (20 * √10 * (2 * √10) - (20 * √10) ^ 2 / 2) := by rwa [div_le_iff₀ k7]
    have e1 : (2 - 20) / (1 / √10) = 2 * √10 - 20 * √10 := by field_simp
    have e2 : 2 / (1 / √10) = 2 * √10 := by field_simp
    rw [e1, e2]
    linarith
  linarith

/-- The upper limit of this combination at 95%, between 2 and 20, found by bisection from the estimated starting points. -/
example (E : Ext) (draw) : ∃ m z L N, gaussianLevel (1 / √10) 2 z = 0.95 ∧ 2 ≤ z ∧ z ≤ 20 ∧ |L - z| ≤ 0.001 ∧ ∀ k ≥ N, Ends (All 2 fun _ => 1)
    (poiUpperLimit k (bisection 0.001) (combined ideal (members 2 (fun i => if i = 0 then "a" else "b") perfect exInverse E draw m true (.int 100) (fun _ _ => true) fun _ _ => nan) fun _ _ => nan) (fun e v => sigmaMu (combined ideal (members 2 (fun i => if i = 0 then "a" else "b") perfect exInverse E draw m true (.int 100) (fun _ _ => true) fun _ _ => nan) fun _ _ => nan) none (.float v) e "qtilde") true .observed 0.95 none none .nominal) (.ok (some (.one (fin L)))) := by
  obtain ⟨a, m, Q, y, est, dev, h, h1, h2, h3, h4, h5⟩ := exTwo E
  obtain ⟨z, k1, k2, k3⟩ := exTwo_exact
  obtain ⟨L, g1, g2, N, g3⟩ := C124_limit ideal_reliable perfect_exact perfect_finds draw (by norm_num) h exNames (inv := exInverse) (fun _ _ => rfl) true (.int 100) (fun _ _ => true)
    (fun _ _ => rfl) (fun _ _ => nan) (fun _ _ => nan) .observed h1 h2 h3.symm h4.symm (CL := 0.95) (by norm_num) (by norm_num) (by norm_num) (bisection 0.001) (fun _ => 0.001)
    (bisection_sound (by norm_num)) (bisection_succeeds (by norm_num)) .nominal (by simp) none none (fun _ => z) (fun i _ =>
      ⟨by simpa [ExactLimit, centre] using k3, by linarith, by linarith, trivial⟩) rfl (alive := true) (by simp [List.range_succ, h5])
  cases L with
  | one x =>
    simp only [Entries, Limit.values, List.forall₂_cons, List.forall₂_nil_left_iff, and_true] at g2
    obtain ⟨mu, rfl, g4⟩ := g2
    exact ⟨m, z, mu, N, k3, k1, k2, g4, g3⟩
  | many l => exact absurd rfl g1.1

end Verif.Joint
