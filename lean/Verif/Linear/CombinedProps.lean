import Verif.Linear.Combined

/-!
# C159: levels and upper limits of combinations
-/

namespace Verif.Linear
open Verif.Py F Verif.Config Verif.Optimizer Verif.Hypotest Verif.Chain Verif.Joint
open Verif.Interface (Data World Size Plain Solver StartFree perfect)
open Verif.Backend (Ext Vec Args Built at')
open Verif.Stats (Expect Calc Levels levelsOf NotAbove)
open Verif.UpperLimit (Expected Band Limit Entries Sound Succeeds Reaches)
open Verif.Uncorrelated (Concave IsBest IsStat stat_nonneg stat_strength entries_lt forall_mem Agree entry entry_zero)

section
variable {fit : Minimizer (ℕ → World)} (hfit : Reliable fit) {S : Solver} (hS : Exact S) (hT : Finds S) (hC : Interface.Constrained S) {E : Ext} (draw : Vec × List Vec → ℕ → List Vec)
    {n : ℕ} (hn : 0 < n) {m : ℕ → Backend.Model} {Q : ℕ → Part} {lo : ℕ → ℝ} {N : ℕ → ℕ}
    {name : ℕ → String} (hname : Distinct n name) (inv : List (List ℝ) → Except Interface.Err (List (List ℝ))) (g : Bool) (ntoys : Size) (available : ℕ → Calc → Bool)
    (hav : ∀ i < n, available i .asymptotic = true) (percentile percentile' : List F → F → F) {M : Methods (ℕ → World)}
    (hM : M = combined fit (members n name S inv E draw m g ntoys available percentile') percentile) {s : ℕ → World} (hs : All n N s) {start : ℝ}

include hfit hS hT hC hn hname hM hs hav in
/-- The level is a function of the profile likelihoods. -/
theorem joint_levels {e : Expect} (h : ∀ i < n, Described E e (m i) (Q i) (lo i) (N i)) (hstart : (guess (members n name S inv E draw m g ntoys available percentile') e s).1 = .ok (fin start))
    {P PA : ℝ → ℝ} (hc : Curves (jointOk n Q) (jointLog n Q fun i => (Q i).data) (fun θ => jointLog n Q fun i => (Q i).expected 0 (θ i)) P PA) {mu : Mu} {v : ℝ} (hmu : mu.Is v) (hv : 0 ≤ v) :
    ∃ q qA, IsStat P v q ∧ IsStat PA v qA ∧ Ends (All n N) (exclusion M mu e false .asymptotic) (.ok (levelsOf e false q qA)) := by
  subst hM
  have hb : ∃ b, IsGreatest {x | ∃ i < n, x = lo i} b := by
    obtain ⟨b, -, -, k1, i, hi, k2⟩ := minimum_ends hn fun i hi => (h i hi).piece hS hT hC draw hi rfl (name i) inv g ntoys (available i) percentile'
    refine ⟨b, ⟨i, hi, k2⟩, ?_⟩
    rintro x ⟨j, hj, rfl⟩
    exact k1 j hj
  obtain ⟨b, hb⟩ := hb
  obtain ⟨best, l, lv, l0, θ, A, bestA, lA, lvA, l0A, k1, ⟨θv, k2⟩, k3, rfl, k4, ⟨θA, k5⟩, -, hE⟩ :=
    C122_levels hfit hS hT hC draw hn h hname inv g ntoys available percentile percentile' rfl hs hstart false hmu hv rfl rfl rfl hb rfl
  simp only [Bool.false_eq_true, if_false] at k1 k4
  obtain ⟨q, qA, h1, h2, h3⟩ := curve_answer hc hv (l0A := l0A) k1 k2 k3 k4 k5 e _ percentile (members_available (fit := fit) (percentile := percentile) hav)
  exact ⟨q, qA, h1, h2, by rw [← h3]; exact hE⟩

include hfit hS hT hC hn hname hM hs hav

theorem joint_follows {e : Expected} (h : ∀ i < n, Described E e.toExpect (m i) (Q i) (lo i) (N i))
    (hstart : (guess (members n name S inv E draw m g ntoys available percentile') e.toExpect s).1 = .ok (fin start))
    {P PA : ℝ → ℝ} (hc : Curves (jointOk n Q) (jointLog n Q fun i => (Q i).data) (fun θ => jointLog n Q fun i => (Q i).expected 0 (θ i)) P PA) :
    Follows e (Reported (All n N) M e) P PA :=
  follows_of ⟨s, hs⟩ hc.concave hc.concaveA fun v hv =>
    joint_levels hfit hS hT hC draw hn hname inv g ntoys available hav percentile percentile' hM hs h hstart hc (mu := .float v) rfl hv

/-- C159. A larger signal strength is excluded at least as strongly by a combination, observed and expected: `exclusion_confidence_level` of `UnCorrStatisticsCombiner` never decreases with the
strength, whatever calls were made in between, for models with (correlated or independent) backgrounds that are linear in the nuisance parameters, Gaussian models and Poisson models. -/
theorem C159_levels {e : Expect} (h : ∀ i < n, Smooth E e (m i) (Q i) (lo i) (N i)) (hstart : (guess (members n name S inv E draw m g ntoys available percentile') e s).1 = .ok (fin start))
    {mu mu' : Mu} {v v' : ℝ} (hmu : mu.Is v) (hmu' : mu'.Is v') (hv0 : 0 ≤ v) (hvv : v ≤ v') :
    ∃ L L', NotAbove L L' ∧ ∀ w w', All n N w → All n N w' → (exclusion M mu e false .asymptotic w).1 = .ok L ∧ (exclusion M mu' e false .asymptotic w').1 = .ok L' := by
  obtain ⟨P, PA, hP⟩ := choose_curves fun i hi => (h i hi).curves
  have hc := joint_curves hP
  obtain ⟨q, qA, a1, a2, a3⟩ := joint_levels hfit hS hT hC draw hn hname inv g ntoys available hav percentile percentile' hM hs (fun i hi => (h i hi).described) hstart hc hmu hv0
  obtain ⟨q', qA', b1, b2, b3⟩ := joint_levels hfit hS hT hC draw hn hname inv g ntoys available hav percentile percentile' hM hs (fun i hi => (h i hi).described) hstart hc hmu' (hv0.trans hvv)
  exact ⟨_, _, Stats.levelsOf_mono e false (stat_nonneg a1) (stat_strength hc.concave hvv a1 b1) (stat_nonneg a2) (stat_strength hc.concaveA hvv a2 b2),
    fun w w' hw hw' => ⟨(a3 w hw).1, (b3 w' hw').1⟩⟩

variable {e : Expected} (h : ∀ i < n, Smooth E e.toExpect (m i) (Q i) (lo i) (N i))
  (hstart : (guess (members n name S inv E draw m g ntoys available percentile') e.toExpect s).1 = .ok (fin start)) (CL : ℝ)
include h hstart

/-- C159. An upper limit that `poi_upper_limit` returns for such a combination separates the signal strengths: `exclusion_confidence_level` of the combination reports at least the confidence level
for all larger ones and at most the confidence level for all smaller ones (up to the tolerance of the root finder). An infinite limit means that no strength up to `1e5` is excluded, or that the
level is above the confidence level at `1e-10`. -/
theorem C159_limit (fuel : ℕ) (T : Finder) (hstay : T.Stays) (tol : ℝ → ℝ) (hsound : Sound tol T.solver) (low hig : Option ℝ)
    (hlow : low = none ∨ hig = none ∨ ∃ a b, low = some a ∧ hig = some b ∧ 1e-10 ≤ a ∧ 0 ≤ b) (band : Band) {s₀ : ℕ → World} (hs₀ : All n N s₀) (L : Limit)
    (hr : (poiUpperLimit fuel T M (fun e v => sigmaMu M none (.float v) e "qtilde") true e CL low hig band s₀).1 = .ok (some L)) :
    L.Shaped (Entries e band).length ∧ List.Forall₂ (fun i x => (∃ mu, x = fin mu ∧ Separates (Reported (All n N) M e i) CL (tol mu) mu) ∨
      (x = pinf ∧ ((∀ v, 0 ≤ v → v ≤ 1e5 → ∃ r, Reported (All n N) M e i v (fin r) ∧ r < CL) ∨ ∃ r, Reported (All n N) M e i 1e-10 (fin r) ∧ CL < r))) (Entries e band) L.values := by
  obtain ⟨P, PA, hP⟩ := choose_curves fun i hi => (h i hi).curves
  have hf := joint_follows hfit hS hT hC draw hn hname inv g ntoys available hav percentile percentile' hM hs (fun i hi => (h i hi).described) hstart (joint_curves hP)
  obtain ⟨h1, h2⟩ := C156_limit hfit hS hT hC draw hn (fun i hi => (h i hi).described) hname inv g ntoys available hav percentile percentile' hM hs hstart fuel T hstay tol hsound CL low hig hlow band
    hs₀ L hr
  refine ⟨h1, forall_mem h2 fun i hi x hx => ?_⟩
  rcases hx with ⟨mu, rfl, hx⟩ | ⟨rfl, hx⟩
  · exact .inl ⟨mu, rfl, separates_of hf (entries_lt hi) hx⟩
  · refine .inr ⟨rfl, hx.imp (fun ⟨b, r, b1, b2, b3⟩ v hv0 hle => ?_) fun h => h⟩
    obtain ⟨s, hs⟩ := follows_some hf (entries_lt hi) hv0
    exact ⟨s, hs, lt_of_le_of_lt (follows_mono hf hf (entries_lt hi) hv0 (hle.trans b1) hs b2) b3⟩

/-- C159. It returns one, and a finite one, if for each of the requested entries the level of some strength from `1e-10` is at most, and that of some strength up to `1e5` at least, the confidence
level, for given starting points between these values, which are different or not on the limit, and a root finder that stays in its interval. -/
theorem C159_exists (T : Finder) (hstay : T.Stays) (tol : ℝ → ℝ) (hsound : Sound tol T.solver) (hok : Succeeds T.solver) (h0 : 0 ≤ CL) (h1 : CL ≤ 1) (low hig : ℝ) (h2 : 1e-10 ≤ low)
    (h3 : low ≤ hig) (h4 : hig ≤ 1e5) (band : Band) (hb : band ≠ .unknown)
    (hne : low < hig ∨ ∀ i ∈ Entries e band, ∀ r, Reported (All n N) M e i low (fin r) → r ≠ CL)
    (hcross : ∀ i ∈ Entries e band, ∃ u u' r r', 1e-10 ≤ u ∧ 0 ≤ u' ∧ u' ≤ 1e5 ∧ r ≤ CL ∧ CL ≤ r' ∧ Reported (All n N) M e i u (fin r) ∧ Reported (All n N) M e i u' (fin r')) :
    ∃ L : Limit, L.Shaped (Entries e band).length ∧ List.Forall₂ (fun i x => ∃ mu, x = fin mu ∧ Separates (Reported (All n N) M e i) CL (tol mu) mu) (Entries e band) L.values ∧
      ∃ N₀, ∀ k ≥ N₀, Ends (All n N) (poiUpperLimit k T M (fun e v => sigmaMu M none (.float v) e "qtilde") true e CL (some low) (some hig) band) (.ok (some L)) := by
  obtain ⟨P, PA, hP⟩ := choose_curves fun i hi => (h i hi).curves
  have hf := joint_follows hfit hS hT hC draw hn hname inv g ntoys available hav percentile percentile' hM hs (fun i hi => (h i hi).described) hstart (joint_curves hP)
  obtain ⟨L, k1, k2, k3⟩ := C156_exists hfit hS hT hC draw hn (fun i hi => (h i hi).described) hname inv g ntoys available hav percentile percentile' hM hs hstart T hstay tol hsound hok CL h0 h1 low hig
    h2 h3 h4 band hb hne
    (fun i hi r hr => by
      obtain ⟨u, u', s, s', k1, -, -, k4, -, k6, -⟩ := hcross i hi
      exact (follows_mono hf hf (entries_lt hi) (by norm_num) k1 hr k6).trans k4)
    (fun i hi r hr => by
      obtain ⟨u, u', s, s', -, k2, k3, -, k5, -, k7⟩ := hcross i hi
      exact k5.trans (follows_mono hf hf (entries_lt hi) k2 k3 k7 hr))
  exact ⟨L, k1, forall_mem k2 fun i hi x hx => by
    obtain ⟨mu, rfl, hx⟩ := hx
    exact ⟨mu, rfl, separates_of hf (entries_lt hi) hx⟩, k3⟩

variable (fuel : ℕ) (T : Finder) (hstay : T.Stays) (tol : ℝ → ℝ) (hsound : Sound tol T.solver) (low hig : Option ℝ)
    (hlow : low = none ∨ hig = none ∨ ∃ a b, low = some a ∧ hig = some b ∧ 1e-10 ≤ a ∧ 0 ≤ b) (band : Band) {s₀ : ℕ → World} (hs₀ : All n N s₀) (L : Limit)
    (hr : (poiUpperLimit fuel T M (fun e v => sigmaMu M none (.float v) e "qtilde") true e CL low hig band s₀).1 = .ok (some L))
  {fit' : Minimizer (ℕ → World)} (hfit' : Reliable fit') {S' : Solver} (hS' : Exact S') (hT' : Finds S') (hC' : Interface.Constrained S') (draw' : Vec × List Vec → ℕ → List Vec)
    {name' : ℕ → String} (hname' : Distinct n name') (inv' : List (List ℝ) → Except Interface.Err (List (List ℝ))) (g' : Bool) (ntoys' : Size) (available' : ℕ → Calc → Bool)
    (hav' : ∀ i < n, available' i .asymptotic = true) (percentile₁ percentile₁' : List F → F → F) {M' : Methods (ℕ → World)}
    (hM' : M' = combined fit' (members n name' S' inv' E draw' m g' ntoys' available' percentile₁') percentile₁) {s' : ℕ → World} (hs' : All n N s') {start' : ℝ}
    (hstart' : (guess (members n name' S' inv' E draw' m g' ntoys' available' percentile₁') e.toExpect s').1 = .ok (fin start'))
    (fuel' : ℕ) (T' : Finder) (hstay' : T'.Stays) (tol' : ℝ → ℝ) (hsound' : Sound tol' T'.solver) (low' hig' : Option ℝ)
    (hlow' : low' = none ∨ hig' = none ∨ ∃ a b, low' = some a ∧ hig' = some b ∧ 1e-10 ≤ a ∧ 0 ≤ b) {s₀' : ℕ → World} (hs₀' : All n N s₀') (L' : Limit)
    (hr' : (poiUpperLimit fuel' T' M' (fun e v => sigmaMu M' none (.float v) e "qtilde") true e CL low' hig' band s₀').1 = .ok (some L')) (h0 : 0 < CL)
include hstay hsound hlow hs₀ hr hfit' hS' hT' hC' hname' hav' hM' hs' hstart' hstay' hsound' hlow' hs₀' hr' h0

/-- C159. The upper limit is a property of the combined models: two calls of `poi_upper_limit` return limits that agree up to the tolerances of the root finders, whatever the names, the starting
points, the minimisers, the root finders, the history and the other settings (each entry that is finite in both). -/
theorem C159_unique : Agree tol tol' L.values L'.values := by
  obtain ⟨P, PA, hP⟩ := choose_curves fun i hi => (h i hi).curves
  have hf := joint_follows hfit hS hT hC draw hn hname inv g ntoys available hav percentile percentile' hM hs (fun i hi => (h i hi).described) hstart (joint_curves hP)
  have hf' := joint_follows hfit' hS' hT' hC' draw' hn hname' inv' g' ntoys' available' hav' percentile₁ percentile₁' hM' hs' (fun i hi => (h i hi).described) hstart' (joint_curves hP)
  have k := (C159_limit hfit hS hT hC draw hn hname inv g ntoys available hav percentile percentile' hM hs h hstart CL fuel T hstay tol hsound low hig hlow band hs₀ L hr).2
  have k' := (C159_limit hfit' hS' hT' hC' draw' hn hname' inv' g' ntoys' available' hav' percentile₁ percentile₁' hM' hs' h hstart' CL fuel' T' hstay' tol' hsound' low' hig' hlow' band hs₀' L' hr').2
  refine separates_all hf hf' h0 (fun i hi => entries_lt hi) (k.imp fun i x hx mu hmu => ?_) (k'.imp fun i x hx mu hmu => ?_) <;>
  · subst hmu
    rcases hx with ⟨mu', hm, hx⟩ | ⟨hm, -⟩
    · obtain rfl : mu = mu' := by simpa using hm
      exact hx
    · simp at hm

end

theorem gaussian_falls {n : ℕ} {P : ℕ → ℕ → ℝ} {y : ℕ → ℝ} (hp : 0 < form n P y y) (K : ℝ) (b : ℕ → ℝ) {mu : ℝ} (hmu : 0 < mu) :
    K - form n P (fun i => (0 * y i + b i) - (mu * y i + b i)) (fun i => (0 * y i + b i) - (mu * y i + b i)) / 2 <
      K - form n P (fun i => (0 * y i + b i) - (0 * y i + b i)) (fun i => (0 * y i + b i) - (0 * y i + b i)) / 2 := by
  have h0 : form n P (fun i => (0 * y i + b i) - (0 * y i + b i)) (fun i => (0 * y i + b i) - (0 * y i + b i)) = 0 :=
    Finset.sum_eq_zero fun i _ => Finset.sum_eq_zero fun j _ => by dsimp only; rw [sub_self, zero_mul, zero_mul]
  have h1 : form n P (fun i => (0 * y i + b i) - (mu * y i + b i)) (fun i => (0 * y i + b i) - (mu * y i + b i)) = mu ^ 2 * form n P y y := by
    unfold form
    simp only [Finset.mul_sum]
    exact Finset.sum_congr rfl fun i _ => Finset.sum_congr rfl fun j _ => by ring
  rw [h0, h1]
  have := mul_pos (pow_pos hmu 2) hp
  linarith

/-- A Gaussian model and two bins with correlated uncertainties. -/
theorem exMixed (draw : Vec × List Vec → ℕ → List Vec) : ∃ (m : ℕ → Backend.Model) (Q : ℕ → Part) (lo : ℕ → ℝ) (N : ℕ → ℕ), Backend.correlated exSimple exCov = .ok (m 1) ∧ N 0 = 1 ∧ N 1 = 3 ∧
    (∀ i < 2, Smooth exExt .apriori (m i) (Q i) (lo i) (N i)) ∧
    (∃ P PA, Curves (jointOk 2 Q) (jointLog 2 Q fun i => (Q i).data) (fun θ => jointLog 2 Q fun i => (Q i).expected 0 (θ i)) P PA ∧ ∀ mu, 0 < mu → PA mu < PA 0) ∧
    ∀ (name : ℕ → String) (g : Bool) (ntoys : Size) (available : ℕ → Calc → Bool) (percentile : List F → F → F) (s : ℕ → World), All 2 N s →
      (guess (members 2 name perfect noInverse exExt draw m g ntoys available percentile) .apriori s).1 = .ok (fin 0) := by
  obtain ⟨m0, R, h0, -⟩ := exGauss_normal exExt
  obtain ⟨m1, lo1, pen, hm, h1⟩ := exCorrelated
  obtain ⟨y1, -, -, y3⟩ := exSimple_yields
  obtain ⟨K, hK⟩ := measurement_form h0.model h0.fits h0.parameters h0.signal
  obtain ⟨lo0, k1, -⟩ := h0.single draw
  have hlo : m0.config.minimumPoi = fin lo0 := by
    have := k1.minimum true
    simpa only [plugged, Backend.configOf, and_self, if_true] using this
  obtain ⟨Q0, d0, P0, A0, c0, f0⟩ : ∃ Q, Smooth exExt .apriori m0 Q lo0 1 ∧ ∃ P PA, PartCurves Q P PA ∧ ∀ mu, 0 < mu → PA mu < PA 0 := by
    have d := Smooth.gaussian (e := .apriori) h0 hlo fun D hD u => hK _ D hD u
    obtain ⟨P, PA, hc⟩ := d.curves
    refine ⟨_, d, P, PA, hc, fun mu hmu => ?_⟩
    have hp := hc.asimov _ (fun _ => 0) ⟨trivial, rfl, fun _ _ => le_rfl⟩
    rw [← profile_value hp hmu.le (θ := fun _ => 0) ⟨trivial, rfl, fun _ _ => le_rfl⟩, ← profile_value hp le_rfl (θ := fun _ => 0) ⟨trivial, rfl, fun _ _ => le_rfl⟩]
    exact gaussian_falls h0.informative K _ hmu
  obtain ⟨Q1, d1, P1, A1, c1, f1⟩ : ∃ Q, Smooth exExt .apriori m1 Q lo1 3 ∧ ∃ P PA, PartCurves Q P PA ∧ ∀ mu, 0 < mu → PA mu < PA 0 := by
    have hr := regular_prior h1 y1 y3
    obtain ⟨P, PA, hc⟩ := regular_curves hr
    exact ⟨_, .regular hr, P, PA, hc, fun mu hmu => prior_falls h1 y1 y3 hc hmu⟩
  refine ⟨fun i => if i = 0 then m0 else m1, fun i => if i = 0 then Q0 else Q1, fun i => if i = 0 then lo0 else lo1, fun i => if i = 0 then 1 else 3, hm, rfl, rfl, fun i hi => ?_, ?_,
    fun name g ntoys available percentile s hs => ?_⟩
  · interval_cases i
    · exact d0
    · exact d1
  · have hc : ∀ i < 2, PartCurves ((fun i => if i = 0 then Q0 else Q1) i) ((fun i => if i = 0 then P0 else P1) i) ((fun i => if i = 0 then A0 else A1) i) := by
      intro i hi
      interval_cases i
      · exact c0
      · exact c1
    refine ⟨_, _, joint_curves hc, fun mu hmu => ?_⟩
    have := f0 mu hmu
    have := f1 mu hmu
    simp [Finset.sum_range_succ]
    linarith
  · exact start_zero perfect_exact perfect_finds draw h0 (by norm_num) rfl _ g ntoys _ percentile _ .apriori hs

theorem exLabels : Distinct 2 fun i => if i = 0 then "a" else "b" := by
  intro i hi j hj hij
  interval_cases i <;> interval_cases j <;> simp_all

/-- The levels of the combination for the strengths 1 and 2. -/
example (draw : Vec × List Vec → ℕ → List Vec) : ∃ (m : ℕ → Backend.Model) (N : ℕ → ℕ) (M : Methods (ℕ → World)) (L L' : Levels), Backend.correlated exSimple exCov = .ok (m 1) ∧
    M = combined ideal (members 2 (fun i => if i = 0 then "a" else "b") perfect noInverse exExt draw m true (.int 100) (fun _ _ => true) fun _ _ => nan) (fun _ _ => nan) ∧ NotAbove L L' ∧
    ∀ w w', All 2 N w → All 2 N w' → (exclusion M (.float 1) .apriori false .asymptotic w).1 = .ok L ∧ (exclusion M (.float 2) .apriori false .asymptotic w').1 = .ok L' := by
  obtain ⟨m, Q, lo, N, hm, -, -, h, -, hg⟩ := exMixed draw
  have hs : All 2 N fun i => ⟨List.replicate (N i) 0, none, none⟩ := fun i _ => ⟨rfl, rfl, by simp⟩
  obtain ⟨L, L', k1, k2⟩ := C159_levels (e := .apriori) ideal_reliable perfect_exact perfect_finds Interface.perfect_constrained draw (by norm_num) exLabels noInverse true (.int 100) (fun _ _ => true)
    (fun _ _ => rfl) (fun _ _ => nan) (fun _ _ => nan) rfl hs h (hg _ true (.int 100) (fun _ _ => true) (fun _ _ => nan) _ hs) (mu := .float 1) (mu' := .float 2) rfl rfl zero_le_one one_le_two
  exact ⟨m, N, _, L, L', hm, rfl, k1, k2⟩

/-- The combination has a level for the strength 1, and for it finite limits, from different starting points and root finders. -/
example (draw : Vec × List Vec → ℕ → List Vec) : ∃ (m : ℕ → Backend.Model) (N : ℕ → ℕ) (M : Methods (ℕ → World)) (CL mu mu' : ℝ) (k : ℕ), Backend.correlated exSimple exCov = .ok (m 1) ∧ N 0 = 1 ∧ N 1 = 3 ∧
    M = combined ideal (members 2 (fun i => if i = 0 then "a" else "b") perfect noInverse exExt draw m true (.int 100) (fun _ _ => true) fun _ _ => nan) (fun _ _ => nan) ∧ 0 < CL ∧
    Ends (All 2 N) (poiUpperLimit k (bisection 1e-3) M (fun e v => sigmaMu M none (.float v) e "qtilde") true .apriori CL (some 1) (some 2) .nominal) (.ok (some (.one (fin mu)))) ∧
    Ends (All 2 N) (poiUpperLimit k (bisection 1e-4) M (fun e v => sigmaMu M none (.float v) e "qtilde") true .apriori CL (some 3) (some 7) .nominal) (.ok (some (.one (fin mu')))) ∧
    |mu - mu'| ≤ 1e-3 + 1e-4 := by
  obtain ⟨m, Q, lo, N, hm, n0, n1, h, ⟨P, PA, hc, hlt⟩, hg⟩ := exMixed draw
  obtain ⟨M, hM⟩ : ∃ M, M = combined ideal (members 2 (fun i => if i = 0 then "a" else "b") perfect noInverse exExt draw m true (.int 100) (fun _ _ => true) fun _ _ => nan) (fun _ _ => nan) := ⟨_, rfl⟩
  have hs : All 2 N fun i => ⟨List.replicate (N i) 0, none, none⟩ := fun i _ => ⟨rfl, rfl, by simp⟩
  have hstart := hg (fun i => if i = 0 then "a" else "b") true (.int 100) (fun _ _ => true) (fun _ _ => nan) _ hs
  have hf := joint_follows (e := .apriori) ideal_reliable perfect_exact perfect_finds Interface.perfect_constrained draw (by norm_num) exLabels noInverse true (.int 100) (fun _ _ => true)
    (fun _ _ => rfl) _ _ hM hs (fun i hi => (h i hi).described) hstart hc
  obtain ⟨q, qA, -, k2, k3⟩ := hf.level 1 zero_le_one
  obtain ⟨c1, c2⟩ := level_range (q := q) (falls_stat hlt one_pos k2)
  have hr := (k3 2 (by simp) _).mpr rfl
  generalize entry .apriori q qA 2 = CL at c1 c2 hr
  have run : ∀ t low hig : ℝ, 0 < t → 1e-10 ≤ low → low < hig → hig ≤ 1e5 → ∃ mu n0, ∀ k ≥ n0,
      Ends (All 2 N) (poiUpperLimit k (bisection t) M (fun e v => sigmaMu M none (.float v) e "qtilde") true .apriori CL (some low) (some hig) .nominal) (.ok (some (.one (fin mu)))) := by
    intro t low hig h1 h2 h3 h4
    obtain ⟨L, hL, hf, n0, hE⟩ := C159_exists (e := .apriori) ideal_reliable perfect_exact perfect_finds Interface.perfect_constrained draw (by norm_num) exLabels noInverse true (.int 100)
      (fun _ _ => true) (fun _ _ => rfl) _ _ hM hs h hstart CL (bisection t) (bisection_stays _) _ (bisection_sound h1.le) (bisection_succeeds h1) c1.le c2 low hig h2 h3.le h4 .nominal (by simp) (.inl h3)
      (fun i hi => by
        simp only [Entries, List.mem_singleton] at hi
        subst hi
        exact ⟨1, 1, _, _, by norm_num, by norm_num, by norm_num, le_rfl, le_rfl, hr, hr⟩)
    cases L with
    | many l => exact absurd hL (by simp [Limit.Shaped, Entries])
    | one x =>
      cases hf with
      | cons a _ =>
        obtain ⟨mu, rfl, -⟩ := a
        exact ⟨mu, n0, hE⟩
  obtain ⟨mu, n, a⟩ := run 1e-3 1 2 (by norm_num) (by norm_num) (by norm_num) (by norm_num)
  obtain ⟨mu', n', b⟩ := run 1e-4 3 7 (by norm_num) (by norm_num) (by norm_num) (by norm_num)
  have ha := a (max n n') (le_max_left _ _)
  have hb := b (max n n') (le_max_right _ _)
  have sa : Sound (fun _ => 1e-3) (bisection 1e-3).solver := bisection_sound (by norm_num)
  have sb : Sound (fun _ => 1e-4) (bisection 1e-4).solver := bisection_sound (by norm_num)
  refine ⟨m, N, M, CL, mu, mu', _, hm, n0, n1, hM, c1, ha, hb, ?_⟩
  have agree := C159_unique (e := .apriori) ideal_reliable perfect_exact perfect_finds Interface.perfect_constrained draw (by norm_num) exLabels noInverse true (.int 100)
      (fun _ _ => true) (fun _ _ => rfl) _ _ hM hs h hstart CL _ (bisection 1e-3) (bisection_stays _) _ sa (some 1) (some 2) (.inr (.inr ⟨1, 2, rfl, rfl, by norm_num, by norm_num⟩)) .nominal hs
      (.one (fin mu)) (ha _ hs).1 ideal_reliable perfect_exact perfect_finds Interface.perfect_constrained draw exLabels noInverse true (.int 100)
      (fun _ _ => true) (fun _ _ => rfl) _ _ hM hs hstart _ (bisection 1e-4) (bisection_stays _) _ sb (some 3) (some 7) (.inr (.inr ⟨3, 7, rfl, rfl, by norm_num, by norm_num⟩)) hs
      (.one (fin mu')) (hb _ hs).1 c1
  cases agree with
  | cons k _ => exact k mu mu' rfl rfl

end Verif.Linear
