import Verif.Linear.Levels

/-!
# C157: levels of models with correlated backgrounds
-/

namespace Verif.Linear
open Verif.Py F Verif.Config Verif.Optimizer Verif.Hypotest Verif.Chain
open Verif.Interface (Data World Size Plain Solver StartFree perfect)
open Verif.Backend (Ext Vec Args Built Fits WithMatrix at' stdLog)
open Verif.Stats (Expect Calc Levels levelsOf NotAbove)
open Verif.UpperLimit (Expected Band Limit Entries Sound Reaches)
open Verif.Uncorrelated (Concave IsBest IsStat stat_nonneg stat_strength)

/-- A simplified likelihood of spey whose backgrounds are linear in the nuisance parameters (`default.correlated_background` and `default.uncorrelated_background`), without negative yields and without
bins with a number of events (measured, or expected after the fit) that is tiny but not negligible. -/
structure Regular (E : Ext) (a : Args) (m : Backend.Model) (y : Vec) (σ : ℕ → ℝ) (pen : (ℕ → ℝ) → ℝ) (lo : ℝ) (e : Expect) : Prop where
  model : Simple E a m y (linear (at' a.background) σ) pen lo
  signal : ∀ i < a.data.length, 0 ≤ at' y i
  data : ∀ i < a.data.length, 0 ≤ at' (used a e) i
  clear : Clear a.data.length (at' a.background) (at' (used a e))
  asimov : ∀ l θ, ProfileMax (Admissible a.data.length (linear (at' a.background) σ))
    (logLikelihood E.gammaln a.data.length (at' y) (linear (at' a.background) σ) pen (at' (used a e))) 0 l θ →
      Clear a.data.length (at' a.background) (expectedIn (at' y) (linear (at' a.background) σ) 0 θ)

/-- The likelihood, and that of the Asimov data. -/
noncomputable def likelihoodOf (E : Ext) (a : Args) (y : Vec) (σ : ℕ → ℝ) (pen : (ℕ → ℝ) → ℝ) (e : Expect) : ℝ → (ℕ → ℝ) → ℝ :=
  logLikelihood E.gammaln a.data.length (at' y) (linear (at' a.background) σ) pen (at' (used a e))

noncomputable def asimovOf (E : Ext) (a : Args) (y : Vec) (σ : ℕ → ℝ) (pen : (ℕ → ℝ) → ℝ) (θ : ℕ → ℝ) : ℝ → (ℕ → ℝ) → ℝ :=
  logLikelihood E.gammaln a.data.length (at' y) (linear (at' a.background) σ) pen (expectedIn (at' y) (linear (at' a.background) σ) 0 θ)

section
variable {E : Ext} {a : Args} {m : Backend.Model} {y : Vec} {σ : ℕ → ℝ} {pen : (ℕ → ℝ) → ℝ} {lo : ℝ} {e : Expect}

/-- The profile likelihoods of the model are concave. -/
theorem regular_curves (h : Regular E a m y σ pen lo e) :
    ∃ P PA, Curves (Admissible a.data.length (linear (at' a.background) σ)) (likelihoodOf E a y σ pen e) (asimovOf E a y σ pen) P PA := by
  have ht := h.model.model.tame h.model.feasible
  have hpen := bowl_nuisance h.model.model
  have hY : Yields a.data.length (at' y) (at' a.background) (at' (used a e)) := ⟨h.signal, h.model.background, h.data⟩
  have hex := fun (D : ℕ → ℝ) mu => profile_exists ht E.gammaln (at' y) D mu
  choose P hP using hex (at' (used a e))
  obtain ⟨θ0, h0⟩ := hP 0
  choose PA hPA using hex (expectedIn (at' y) (linear (at' a.background) σ) 0 θ0)
  have hYA : Yields a.data.length (at' y) (at' a.background) (expectedIn (at' y) (linear (at' a.background) σ) 0 θ0) :=
    ⟨h.signal, h.model.background, fun i _ => (expectedIn_pos _ _ _ _ i).le⟩
  refine ⟨P, PA, fun mu _ => hP mu, fun l θ hθ mu _ => ?_, profile_concave hY h.clear hpen fun mu _ => hP mu, profile_concave hYA (h.asimov _ _ h0) hpen fun mu _ => hPA mu⟩
  have hu := best_unique hY h.clear hpen le_rfl hθ h0
  have : asimovOf E a y σ pen θ = asimovOf E a y σ pen θ0 := logLikelihood_data fun i hi => by
    unfold expectedIn
    rw [hu i hi]
  rw [this]
  exact hPA mu

/-- It is enough that there are no bins with tiny backgrounds, for the levels that are expected before the measurement. -/
theorem regular_prior (h : Simple E a m y (linear (at' a.background) σ) pen lo) (hs : ∀ i < a.data.length, 0 ≤ at' y i)
    (hb : ∀ i < a.data.length, 1 / 10 ^ 8 * (1 + total a.data.length (at' a.background) (at' a.background)) ≤ at' a.background i) : Regular E a m y σ pen lo .apriori := by
  have h0 : 0 ≤ total a.data.length (at' a.background) (at' a.background) := total_nonneg (s := at' y) ⟨hs, h.background, h.background⟩
  have hc : Clear a.data.length (at' a.background) (at' a.background) := fun i hi => .inr (by have := hb i hi; nlinarith)
  exact ⟨h, hs, h.background, hc, fun l θ hθ => clear_prior hs (fun i hi => by linarith [hb i hi]) hc (bowl_nuisance h.model) hθ⟩

/-- For the others it is enough that in addition no bin is empty. -/
theorem regular_counts (h : Simple E a m y (linear (at' a.background) σ) pen lo) (hs : ∀ i < a.data.length, 0 ≤ at' y i) (he : e ≠ .apriori) (hD : ∀ i < a.data.length, 1 ≤ at' a.data i)
    (hb : ∀ i < a.data.length, 1 / 10 ^ 8 * (1 + total a.data.length (at' a.background) (at' a.data)) ≤ at' a.background i) : Regular E a m y σ pen lo e := by
  have hu : used a e = a.data := by cases e <;> first | rfl | exact absurd rfl he
  have key : Clear a.data.length (at' a.background) (at' a.data) ∧ ∀ l θ, ProfileMax (Admissible a.data.length (linear (at' a.background) σ))
    (logLikelihood E.gammaln a.data.length (at' y) (linear (at' a.background) σ) pen (at' a.data)) 0 l θ →
      Clear a.data.length (at' a.background) (expectedIn (at' y) (linear (at' a.background) σ) 0 θ) :=
    ⟨clear_counts hs hD hb h.background, fun l θ hθ => clear_asimov hs hD hb h.background (bowl_nuisance h.model) hθ⟩
  exact ⟨h, hs, fun i hi => by rw [hu]; linarith [hD i hi], by rw [hu]; exact key.1, by rw [hu]; exact key.2⟩

/-- Before the measurement the profile likelihood of the Asimov data is largest without signal. -/
theorem prior_falls (h : Simple E a m y (linear (at' a.background) σ) pen lo) (hs : ∀ i < a.data.length, 0 ≤ at' y i)
    (hb : ∀ i < a.data.length, 1 / 10 ^ 8 * (1 + total a.data.length (at' a.background) (at' a.background)) ≤ at' a.background i) {P PA : ℝ → ℝ}
    (hc : Curves (Admissible a.data.length (linear (at' a.background) σ)) (likelihoodOf E a y σ pen .apriori) (asimovOf E a y σ pen) P PA) {mu : ℝ} (hmu : 0 < mu) : PA mu < PA 0 := by
  have h0 : 0 ≤ total a.data.length (at' a.background) (at' a.background) := total_nonneg (s := at' y) ⟨hs, h.background, h.background⟩
  have hb' : ∀ i < a.data.length, 1 / 10 ^ 20 ≤ at' a.background i := fun i hi => by linarith [hb i hi]
  have hpen := bowl_nuisance h.model
  have hp := hc.asimov _ _ (prior_best E.gammaln (at' y) σ hb' hpen)
  have e : asimovOf E a y σ pen (fun _ => 0) = likelihoodOf E a y σ pen .apriori := logLikelihood_data fun i hi => by
    unfold expectedIn linear
    rw [zero_mul, _root_.zero_add, mul_zero, _root_.add_zero, max_eq_left (hb' i hi)]
    rfl
  rw [e] at hp
  have e0 : likelihoodOf E a y σ pen .apriori 0 (fun _ => 0) = PA 0 := profile_value hp le_rfl (prior_best E.gammaln (at' y) σ hb' hpen)
  obtain ⟨θ, -, k, -⟩ := hp mu hmu.le
  rw [k, ← e0]
  exact prior_strict E.gammaln σ hb' h.positive hpen hmu θ

theorem falls_stat {PA : ℝ → ℝ} (hlt : ∀ mu, 0 < mu → PA mu < PA 0) {v qA : ℝ} (hv : 0 < v) (hq : IsStat PA v qA) : 0 < qA := by
  obtain ⟨best, ⟨b1, b2, b3⟩, b4, -⟩ := hq
  have hbest : best = 0 := by
    by_contra hne
    exact absurd (b3 0 le_rfl (by norm_num)) (not_le.mpr (hlt best (lt_of_le_of_ne b1 (Ne.symm hne))))
  rw [hbest] at b4
  rw [b4 hv.le]
  exact lt_max_of_lt_left (by linarith [hlt v hv])

/-- C157. Before the measurement every positive signal strength can be tested: its statistic for the Asimov data is positive. -/
theorem C157_sensitive (h : Simple E a m y (linear (at' a.background) σ) pen lo) (hs : ∀ i < a.data.length, 0 ≤ at' y i)
    (hb : ∀ i < a.data.length, 1 / 10 ^ 8 * (1 + total a.data.length (at' a.background) (at' a.background)) ≤ at' a.background i) {P PA : ℝ → ℝ}
    (hc : Curves (Admissible a.data.length (linear (at' a.background) σ)) (likelihoodOf E a y σ pen .apriori) (asimovOf E a y σ pen) P PA) {v qA : ℝ} (hv : 0 < v) (hq : IsStat PA v qA) :
    0 < qA :=
  falls_stat (PA := PA) (fun _ hmu => prior_falls h hs hb hc hmu) hv hq

variable {S : Solver} (hS : Exact S) (hT : Finds S) (hC : Interface.Constrained S) (draw : Vec × List Vec → ℕ → List Vec)
  (g : Bool) (ntoys : Size) (available : Calc → Bool) (hav : available .asymptotic = true) (percentile : List F → F → F)
include hS hT hC hav

/-- The level is a function of the profile likelihoods. -/
theorem regular_levels {P PA : ℝ → ℝ} (hm : Simple E a m y (linear (at' a.background) σ) pen lo)
    (h : Curves (Admissible a.data.length (linear (at' a.background) σ)) (likelihoodOf E a y σ pen e) (asimovOf E a y σ pen) P PA) {mu : Mu} {v : ℝ} (hmu : mu.Is v) (hv : 0 ≤ v) :
    ∃ q qA, IsStat P v q ∧ IsStat PA v qA ∧
      Ends (Plain (a.data.length + 1)) (exclusion (modelMethods S (plugged E draw m) g none ntoys available percentile) mu e false .asymptotic) (.ok (levelsOf e false q qA)) := by
  obtain ⟨best, l, lv, l0, θ, A, bestA, lA, lvA, l0A, k1, ⟨θv, k2⟩, k3, rfl, k4, ⟨θA, k5⟩, -, hE⟩ :=
    C117_levels hS hT hC draw hm e false hmu hv g ntoys available percentile rfl rfl rfl
  simp only [Bool.false_eq_true, if_false] at k1 k4
  obtain ⟨q, qA, h1, h2, h3⟩ := curve_answer h hv (l0A := l0A) k1 k2 k3 k4 k5 e available percentile hav
  exact ⟨q, qA, h1, h2, by rw [← h3]; exact hE⟩

variable {S' : Solver} (hS' : Exact S') (hT' : Finds S') (hC' : Interface.Constrained S') (draw' : Vec × List Vec → ℕ → List Vec)
  (g' : Bool) (ntoys' : Size) (available' : Calc → Bool) (hav' : available' .asymptotic = true) (percentile' : List F → F → F)
include hS' hT' hC' hav'

/-- C157. With correlated uncertainties of the background, too, a larger signal strength is excluded at least as strongly, observed and expected: `exclusion_confidence_level` never decreases with the
strength, for any two exact minimisers and whatever calls were made before. -/
theorem C157_levels (h : Regular E a m y σ pen lo e) {mu mu' : Mu} {v v' : ℝ} (hmu : mu.Is v) (hmu' : mu'.Is v') (hv0 : 0 ≤ v) (hvv : v ≤ v') :
    ∃ L L', NotAbove L L' ∧ ∀ w w', Plain (a.data.length + 1) w → Plain (a.data.length + 1) w' →
      (exclusion (modelMethods S (plugged E draw m) g none ntoys available percentile) mu e false .asymptotic w).1 = .ok L ∧
      (exclusion (modelMethods S' (plugged E draw' m) g' none ntoys' available' percentile') mu' e false .asymptotic w').1 = .ok L' := by
  obtain ⟨P, PA, hc⟩ := regular_curves h
  obtain ⟨q, qA, a1, a2, a3⟩ := regular_levels hS hT hC draw g ntoys available hav percentile h.model hc hmu hv0
  obtain ⟨q', qA', b1, b2, b3⟩ := regular_levels hS' hT' hC' draw' g' ntoys' available' hav' percentile' h.model hc hmu' (hv0.trans hvv)
  exact ⟨_, _, Stats.levelsOf_mono e false (stat_nonneg a1) (stat_strength hc.concave hvv a1 b1) (stat_nonneg a2) (stat_strength hc.concaveA hvv a2 b2),
    fun w w' hw hw' => ⟨(a3 w hw).1, (b3 w' hw').1⟩⟩

/-- C157 in terms of the inputs: for a model with at least one event in each bin whose backgrounds are not smaller than `1e-8` of everything. -/
theorem C157_counts (h : Simple E a m y (linear (at' a.background) σ) pen lo) (hs : ∀ i < a.data.length, 0 ≤ at' y i) (he : e ≠ .apriori) (hD : ∀ i < a.data.length, 1 ≤ at' a.data i)
    (hb : ∀ i < a.data.length, 1 / 10 ^ 8 * (1 + total a.data.length (at' a.background) (at' a.data)) ≤ at' a.background i)
    {mu mu' : Mu} {v v' : ℝ} (hmu : mu.Is v) (hmu' : mu'.Is v') (hv0 : 0 ≤ v) (hvv : v ≤ v') :
    ∃ L L', NotAbove L L' ∧ ∀ w w', Plain (a.data.length + 1) w → Plain (a.data.length + 1) w' →
      (exclusion (modelMethods S (plugged E draw m) g none ntoys available percentile) mu e false .asymptotic w).1 = .ok L ∧
      (exclusion (modelMethods S' (plugged E draw' m) g' none ntoys' available' percentile') mu' e false .asymptotic w').1 = .ok L' :=
  C157_levels hS hT hC draw g ntoys available hav percentile hS' hT' hC' draw' g' ntoys' available' hav' percentile' (regular_counts h hs he hD hb) hmu hmu' hv0 hvv

/-- C157 in terms of the inputs: what is expected before the measurement, whatever was measured. -/
theorem C157_prior (h : Simple E a m y (linear (at' a.background) σ) pen lo) (hs : ∀ i < a.data.length, 0 ≤ at' y i)
    (hb : ∀ i < a.data.length, 1 / 10 ^ 8 * (1 + total a.data.length (at' a.background) (at' a.background)) ≤ at' a.background i)
    {mu mu' : Mu} {v v' : ℝ} (hmu : mu.Is v) (hmu' : mu'.Is v') (hv0 : 0 ≤ v) (hvv : v ≤ v') :
    ∃ L L', NotAbove L L' ∧ ∀ w w', Plain (a.data.length + 1) w → Plain (a.data.length + 1) w' →
      (exclusion (modelMethods S (plugged E draw m) g none ntoys available percentile) mu .apriori false .asymptotic w).1 = .ok L ∧
      (exclusion (modelMethods S' (plugged E draw' m) g' none ntoys' available' percentile') mu' .apriori false .asymptotic w').1 = .ok L' :=
  C157_levels (e := .apriori) hS hT hC draw g ntoys available hav percentile hS' hT' hC' draw' g' ntoys' available' hav' percentile' (regular_prior h hs hb) hmu hmu' hv0 hvv

end

/-- The covariance matrix of the example: uncertainties 3 and 4 with correlation 1/2. -/
def exCov : List Vec := [[9, 6], [6, 16]]

/-- Its inverse correlation matrix. -/
noncomputable def exExt : Ext := ⟨fun _ => 0, fun _ => [[4 / 3, -2 / 3], [-2 / 3, 4 / 3]], fun _ => 0⟩

noncomputable def exSigma (i : ℕ) : ℝ := √(at' (exCov.getD i []) i)

theorem exCorrelated : ∃ m lo pen, Backend.correlated exSimple exCov = .ok m ∧ Simple exExt exSimple m [5, 2] (linear (at' exSimple.background) exSigma) pen lo := by
  obtain ⟨m, hm⟩ := Backend.simplified_accepts exSimple ⟨rfl, rfl⟩ [] exSimple_sources rfl 2 (Backend.linear [50, 60] (Backend.stdevs exCov))
    (.mvn (List.replicate 2 0) (Backend.correlations exCov) (.slice 1 2))
  have hm' : Backend.correlated exSimple exCov = .ok m := hm
  have h : Nuisance exExt exSimple m (linear (at' exSimple.background) exSigma) _ := .matrix _ _
    (.correlated exCov hm' rfl (by
      intro r hr
      simp only [exCov, List.mem_cons, List.not_mem_nil, or_false] at hr
      rcases hr with rfl | rfl <;> rfl)) rfl
    (by
      intro r hr
      simp only [exExt, List.mem_cons, List.not_mem_nil, or_false] at hr
      rcases hr with rfl | rfl <;> rfl)
    (by
      rintro x ⟨i, hi, hx⟩
      have hi : i < 2 := hi
      simp only [exExt, exSimple, List.length_cons, List.length_nil, Finset.sum_range_succ, Finset.sum_range_zero, at', List.getD_cons_zero, List.getD_cons_succ]
      have : 0 < x 0 ^ 2 + x 1 ^ 2 := by
        interval_cases i
        · have := sq_pos_of_ne_zero hx
          positivity
        · have := sq_pos_of_ne_zero hx
          positivity
      nlinarith [sq_nonneg (x 0 - x 1)])
  obtain ⟨lo, h⟩ := exSimple_case h fun i hi => by
    interval_cases i <;> simp [at', linear, exSimple]
  exact ⟨m, lo, _, hm', h⟩

theorem exSimple_yields : (∀ i < exSimple.data.length, 0 ≤ at' [5, 2] i) ∧ (∀ i < exSimple.data.length, 1 ≤ at' exSimple.data i) ∧
    (∀ i < exSimple.data.length, 1 / 10 ^ 8 * (1 + total exSimple.data.length (at' exSimple.background) (at' exSimple.data)) ≤ at' exSimple.background i) ∧
    ∀ i < exSimple.data.length, 1 / 10 ^ 8 * (1 + total exSimple.data.length (at' exSimple.background) (at' exSimple.background)) ≤ at' exSimple.background i := by
  refine ⟨fun i hi => ?_, fun i hi => ?_, fun i hi => ?_, fun i hi => ?_⟩ <;>
  · have hi : i < 2 := hi
    interval_cases i <;> norm_num [exSimple, at', total, Finset.sum_range_succ]

/-- The level of the strength 2 is at least that of the strength 1, observed, for two bins with correlated uncertainties. -/
example (draw) : ∃ m, Backend.correlated exSimple exCov = .ok m ∧ ∃ L L', NotAbove L L' ∧
    (exclusion (modelMethods perfect (plugged exExt draw m) true none (.int 100) (fun _ => true) fun _ _ => nan) (.float 1) .observed false .asymptotic
      (⟨[1, 0, 0], none, none⟩ : World)).1 = .ok L ∧
    (exclusion (modelMethods perfect (plugged exExt draw m) true none (.int 100) (fun _ => true) fun _ _ => nan) (.float 2) .observed false .asymptotic
      (⟨[1, 0, 0], none, none⟩ : World)).1 = .ok L' := by
  obtain ⟨m, lo, pen, hm, h⟩ := exCorrelated
  obtain ⟨h1, h2, h3, -⟩ := exSimple_yields
  obtain ⟨L, L', k1, k2⟩ := C157_counts (e := .observed) perfect_exact perfect_finds Interface.perfect_constrained draw true (.int 100) (fun _ => true) rfl (fun _ _ => nan)
    perfect_exact perfect_finds Interface.perfect_constrained draw true (.int 100) (fun _ => true) rfl (fun _ _ => nan) h h1 (by simp) h2 h3 (mu := .float 1) (mu' := .float 2)
    (v := 1) (v' := 2) rfl rfl zero_le_one one_le_two
  exact ⟨m, hm, L, L', k1, k2 _ _ ⟨rfl, rfl, rfl⟩ ⟨rfl, rfl, rfl⟩⟩

/-- The same before the measurement. -/
example (draw) : ∃ m, Backend.correlated exSimple exCov = .ok m ∧ ∃ L L', NotAbove L L' ∧
    (exclusion (modelMethods perfect (plugged exExt draw m) true none (.int 100) (fun _ => true) fun _ _ => nan) (.float 1) .apriori false .asymptotic
      (⟨[1, 0, 0], none, none⟩ : World)).1 = .ok L ∧
    (exclusion (modelMethods perfect (plugged exExt draw m) true none (.int 100) (fun _ => true) fun _ _ => nan) (.float 2) .apriori false .asymptotic
      (⟨[1, 0, 0], none, none⟩ : World)).1 = .ok L' := by
  obtain ⟨m, lo, pen, hm, h⟩ := exCorrelated
  obtain ⟨h1, -, -, h3⟩ := exSimple_yields
  obtain ⟨L, L', k1, k2⟩ := C157_prior perfect_exact perfect_finds Interface.perfect_constrained draw true (.int 100) (fun _ => true) rfl (fun _ _ => nan)
    perfect_exact perfect_finds Interface.perfect_constrained draw true (.int 100) (fun _ => true) rfl (fun _ _ => nan) h h1 h3 (mu := .float 1) (mu' := .float 2)
    (v := 1) (v' := 2) rfl rfl zero_le_one one_le_two
  exact ⟨m, hm, L, L', k1, k2 _ _ ⟨rfl, rfl, rfl⟩ ⟨rfl, rfl, rfl⟩⟩

end Verif.Linear
