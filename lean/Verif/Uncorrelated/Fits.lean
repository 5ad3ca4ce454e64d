import Verif.Uncorrelated.Lemmas
import Verif.Chain.ProfileProps

/-!
# Lemmas: the fits of the tests for bins with independent uncertainties
-/

namespace Verif.Uncorrelated
open Verif.Py F Verif.Config Verif.Optimizer Verif.Hypotest Verif.Chain
open Verif.Interface (World Size Plain Solver)
open Verif.Backend (Ext Vec Args Fits at' poissonLog stdLog)
open Verif.Stats (Expect Calc Levels)

/-- The arguments of `spey.backends.default_pdf` models for these bins (`data`, `background_yields`, `signal_yields`; the uncertainties are given apart). -/
def argsOf (bins : List Bin) : Args := ⟨.array (bins.map Bin.s), bins.map Bin.b, bins.map Bin.d, none, 0, none⟩

/-- The bins with the data that a fit uses: the background for the expectation before the measurement. -/
def seen (e : Expect) (bins : List Bin) : List Bin := if e = .apriori then bins.map Bin.prior else bins

/-- Bin `i`. -/
def bin (bins : List Bin) (i : ℕ) : Bin := bins.getD i ⟨0, 0, 0, 0⟩

theorem getD_get {α : Type} {l : List α} {z : α} {i : ℕ} (hi : i < l.length) : l.getD i z = l[i] := by simp [List.getD, hi]

theorem bin_mem {bins : List Bin} {i : ℕ} (hi : i < bins.length) : bin bins i ∈ bins := by
  unfold bin
  rw [getD_get hi]
  exact List.getElem_mem hi

theorem at_map {bins : List Bin} (f : Bin → ℝ) {i : ℕ} (hi : i < bins.length) : at' (bins.map f) i = f (bin bins i) := by
  unfold at' bin
  rw [getD_get (by simpa using hi), getD_get hi, List.getElem_map]

theorem bin_map {bins : List Bin} (f : Bin → Bin) {i : ℕ} (hi : i < bins.length) : bin (bins.map f) i = f (bin bins i) := by
  unfold bin
  rw [getD_get (by simpa using hi), getD_get hi, List.getElem_map]

theorem sum_bins (bins : List Bin) (f : Bin → ℝ) : ∑ i ∈ Finset.range bins.length, f (bin bins i) = (bins.map f).sum := by
  induction bins with
  | nil => simp
  | cons x l ih =>
    rw [List.length_cons, Finset.sum_range_succ', List.map_cons, List.sum_cons, ← ih]
    exact _root_.add_comm _ _

theorem seen_length (e : Expect) (bins : List Bin) : (seen e bins).length = bins.length := by
  unfold seen; split <;> simp

theorem seen_proper (e : Expect) {bins : List Bin} (h : ∀ x ∈ bins, x.Proper) : ∀ x ∈ seen e bins, x.Proper := by
  unfold seen
  split
  · intro x hx
    obtain ⟨y, hy, rfl⟩ := List.mem_map.mp hx
    obtain ⟨h1, h2, h3, -⟩ := h y hy
    exact ⟨h1, h2, h3, le_trans (by norm_num) h2⟩
  · exact h

theorem asimov_proper (mu : ℝ) {bins : List Bin} (h : ∀ x ∈ bins, x.Proper) : ∀ x ∈ bins.map (Bin.asimov mu), x.Proper := by
  intro x hx
  obtain ⟨y, hy, rfl⟩ := List.mem_map.mp hx
  obtain ⟨h1, h2, h3, -⟩ := h y hy
  exact ⟨h1, h2, h3, (fitted_pos _ _ _ _).le⟩

/-- The expected background. -/
def level (bins : List Bin) (i : ℕ) (t : ℝ) : ℝ := at' (bins.map Bin.b) i + at' (bins.map Bin.σ) i * t

/-- The constraint term. -/
noncomputable def constraint (bins : List Bin) (θ : ℕ → ℝ) : ℝ := ∑ i ∈ Finset.range bins.length, stdLog (θ i)

section
variable {G : ℝ → ℝ} {bins : List Bin} (h : ∀ x ∈ bins, x.Proper) {D : ℕ → ℝ} (hD : ∀ i < bins.length, 0 ≤ D i)

/-- The pulls which fit best. -/
noncomputable def pull (bins : List Bin) (D : ℕ → ℝ) (mu : ℝ) (i : ℕ) : ℝ :=
  (fitted (D i) (bin bins i).b (bin bins i).σ (mu * (bin bins i).s) - mu * (bin bins i).s - (bin bins i).b) / (bin bins i).σ

/-- The profile likelihood for other data. -/
noncomputable def profileOf (G : ℝ → ℝ) (bins : List Bin) (D : ℕ → ℝ) (mu : ℝ) : ℝ :=
  ∑ i ∈ Finset.range bins.length, binLog G (D i) (bin bins i).b (bin bins i).σ (mu * (bin bins i).s)

/-- The log-likelihood is a sum over bins. -/
theorem log_sum (mu : ℝ) (θ : ℕ → ℝ) : logLikelihood G bins.length (at' (bins.map Bin.s)) (level bins) (constraint bins) D mu θ =
    ∑ i ∈ Finset.range bins.length, withPull G (D i) (bin bins i).b (bin bins i).σ (mu * (bin bins i).s) (θ i) := by
  unfold logLikelihood constraint
  rw [← Finset.sum_add_distrib]
  refine Finset.sum_congr rfl fun i hi => ?_
  have hi := Finset.mem_range.mp hi
  unfold expectedIn level withPull
  rw [at_map _ hi, at_map _ hi, at_map _ hi]

include h hD in
theorem log_best {mu : ℝ} (hmu : 0 ≤ mu) {θ : ℕ → ℝ} (hθ : Admissible bins.length (level bins) θ) :
    logLikelihood G bins.length (at' (bins.map Bin.s)) (level bins) (constraint bins) D mu θ ≤ profileOf G bins D mu ∧
    (logLikelihood G bins.length (at' (bins.map Bin.s)) (level bins) (constraint bins) D mu θ = profileOf G bins D mu → ∀ i < bins.length, θ i = pull bins D mu i) := by
  have key : ∀ i ∈ Finset.range bins.length, withPull G (D i) (bin bins i).b (bin bins i).σ (mu * (bin bins i).s) (θ i) ≤
      binLog G (D i) (bin bins i).b (bin bins i).σ (mu * (bin bins i).s) ∧
      (withPull G (D i) (bin bins i).b (bin bins i).σ (mu * (bin bins i).s) (θ i) = binLog G (D i) (bin bins i).b (bin bins i).σ (mu * (bin bins i).s) →
        θ i = pull bins D mu i) := by
    intro i hi
    have hi := Finset.mem_range.mp hi
    obtain ⟨h1, h2, h3, -⟩ := h _ (bin_mem hi)
    have := hθ i hi
    unfold level at this
    rw [at_map _ hi, at_map _ hi] at this
    exact bin_best G (hD i hi) h2 h3 (mul_nonneg hmu h1) this
  rw [log_sum]
  refine ⟨Finset.sum_le_sum fun i hi => (key i hi).1, fun he i hi => ?_⟩
  have := (Finset.sum_eq_sum_iff_of_le fun i hi => (key i hi).1).mp he i (Finset.mem_range.mpr hi)
  exact (key i (Finset.mem_range.mpr hi)).2 this

include h in
theorem log_attained {mu : ℝ} (hmu : 0 ≤ mu) : Admissible bins.length (level bins) (pull bins D mu) ∧
    logLikelihood G bins.length (at' (bins.map Bin.s)) (level bins) (constraint bins) D mu (pull bins D mu) = profileOf G bins D mu ∧
    ∀ i < bins.length, expectedIn (at' (bins.map Bin.s)) (level bins) mu (pull bins D mu) i = fitted (D i) (bin bins i).b (bin bins i).σ (mu * (bin bins i).s) := by
  have key : ∀ i < bins.length, level bins i (pull bins D mu i) = fitted (D i) (bin bins i).b (bin bins i).σ (mu * (bin bins i).s) - mu * (bin bins i).s ∧
      withPull G (D i) (bin bins i).b (bin bins i).σ (mu * (bin bins i).s) (pull bins D mu i) = binLog G (D i) (bin bins i).b (bin bins i).σ (mu * (bin bins i).s) := by
    intro i hi
    obtain ⟨h1, h2, h3, -⟩ := h _ (bin_mem hi)
    unfold level
    rw [at_map _ hi, at_map _ hi]
    exact best_pull G h2 h3 (mul_nonneg hmu h1)
  refine ⟨fun i hi => ?_, ?_, fun i hi => ?_⟩
  · rw [(key i hi).1]
    linarith [(fitted_low (D i) (bin bins i).b (bin bins i).σ (mu * (bin bins i).s)).1]
  · rw [log_sum]
    exact Finset.sum_congr rfl fun i hi => (key i (Finset.mem_range.mp hi)).2
  · unfold expectedIn
    rw [(key i hi).1, at_map _ hi, add_sub_cancel, max_eq_left (fitted_low _ _ _ _).2]

include h hD in
theorem max_at {mu l : ℝ} (hmu : 0 ≤ mu) {θ : ℕ → ℝ} (hl : ProfileMax (Admissible bins.length (level bins))
    (logLikelihood G bins.length (at' (bins.map Bin.s)) (level bins) (constraint bins) D) mu l θ) :
    l = profileOf G bins D mu ∧ ∀ i < bins.length, expectedIn (at' (bins.map Bin.s)) (level bins) mu θ i = fitted (D i) (bin bins i).b (bin bins i).σ (mu * (bin bins i).s) := by
  obtain ⟨a1, a2, a3⟩ := log_attained (G := G) (D := D) h hmu
  obtain ⟨b1, b2⟩ := log_best (G := G) h hD hmu hl.1
  have h1 : l = profileOf G bins D mu := le_antisymm (by rw [hl.2.1]; exact b1) (by rw [← a2]; exact hl.2.2 _ a1)
  refine ⟨h1, fun i hi => ?_⟩
  rw [← a3 i hi]
  unfold expectedIn
  rw [b2 (by rw [← hl.2.1, h1]) i hi]

include h hD in
theorem max_all {best l : ℝ} (hl : GlobalMax (Admissible bins.length (level bins))
    (logLikelihood G bins.length (at' (bins.map Bin.s)) (level bins) (constraint bins) D) 0 10 best l) :
    l = profileOf G bins D best ∧ IsBest (profileOf G bins D) best := by
  obtain ⟨h0, h10, ⟨θ, h1, h2⟩, h3⟩ := hl
  have key : ∀ mu, 0 ≤ mu → mu ≤ 10 → profileOf G bins D mu ≤ l := by
    intro mu k0 k10
    obtain ⟨a1, a2, -⟩ := log_attained (G := G) (D := D) h k0
    rw [← a2]
    exact h3 mu _ k0 k10 a1
  have : l = profileOf G bins D best := le_antisymm (by rw [h2]; exact (log_best h hD h0 h1).1) (key best h0 h10)
  exact ⟨this, h0, h10, fun mu k0 k10 => this ▸ key mu k0 k10⟩

end

theorem profileOf_eq (G : ℝ → ℝ) (bins bins' : List Bin) (D : ℕ → ℝ) (hl : bins'.length = bins.length)
    (h : ∀ i < bins.length, bin bins' i = { bin bins i with d := D i }) : profileOf G bins D = profile G bins' := by
  funext mu
  unfold profileOf profile
  rw [← sum_bins bins' fun x => binLog G x.d x.b x.σ (mu * x.s), hl]
  exact Finset.sum_congr rfl fun i hi => by rw [h i (Finset.mem_range.mp hi)]

/-- The data of a fit. -/
theorem used_data (e : Expect) (bins : List Bin) {i : ℕ} (hi : i < bins.length) : bin (seen e bins) i = { bin bins i with d := at' (used (argsOf bins) e) i } := by
  unfold seen
  cases e <;> simp only [used, argsOf, reduceCtorEq, if_true, if_false, at_map _ hi]
  rw [bin_map _ hi]
  rfl

/-! ## Levels and statistics -/

/-- The values of a fit with the statistic `q`. -/
noncomputable def statFit (q : ℝ) : Stats.Fit := ⟨fin 0, fin 0, fun _ => fin (-q / 2)⟩

open Classical in
theorem statFit_stat {q v : ℝ} (hq : 0 ≤ q) (hv : 0 ≤ v) : (statFit q).stat Stats.qmuTilde (fin v) = fin q := by
  simp only [Stats.Fit.stat, Stats.qmuTilde, statFit, lt, le, not_lt.mpr hv, le_refl, if_false, if_true, neg, sub, add, scale, clip0]
  exact Stats.clip_eq (by ring) hq

/-- The result of `exclusion_confidence_level` for the values `q` and `qA` of the statistic. -/
noncomputable def answer (available : Bool) (e : Expect) (q qA : ℝ) : Except Hypotest.Err Levels :=
  (Stats.exclusionConfidenceLevel ⟨statFit q, statFit qA, [], [], fun _ _ => nan, fun _ => available⟩ (fin 0) e false .asymptotic).mapError .stats

/-- It depends on nothing else. -/
theorem level_stats (B B' : Stats.Backend) (mu mu' : F) (e : Expect) (hav : B.available .asymptotic = B'.available .asymptotic)
    (h : B.data.stat Stats.qmuTilde mu = B'.data.stat Stats.qmuTilde mu') (hA : B.asimov.stat Stats.qmuTilde mu = B'.asimov.stat Stats.qmuTilde mu') :
    Stats.exclusionConfidenceLevel B mu e false .asymptotic = Stats.exclusionConfidenceLevel B' mu' e false .asymptotic := by
  unfold Stats.exclusionConfidenceLevel
  simp only [hav, Stats.calculatorPvalues, Stats.asymptoticPvalues, Bool.false_eq_true, if_false, Stats.compute_eq Stats.get_qtilde, h, hA]

open Classical in
theorem fit_stat {P : ℝ → ℝ} {best v : ℝ} {l0 : F} (hb : IsBest P best) : ∃ q, IsStat P v q ∧
    (fitOf v best (fin (-(P best))) (fin (-(P v))) l0).stat Stats.qmuTilde (fin v) = fin q := by
  rcases le_or_gt best v with h | h
  · refine ⟨max (2 * (P best - P v)) 0, ⟨best, hb, fun _ => rfl, fun h' => absurd h (not_le.mpr h')⟩, ?_⟩
    simp only [Stats.Fit.stat, Stats.qmuTilde, fitOf, lt, le, not_lt.mpr h, hb.1, if_false, if_true, neg, sub, add, scale, clip0]
    congr 2
    ring
  · refine ⟨0, ⟨best, hb, fun h' => absurd h (not_lt.mpr h'), fun _ => rfl⟩, ?_⟩
    simp [Stats.Fit.stat, Stats.qmuTilde, fitOf, lt, h]

theorem answer_eq {available : Calc → Bool} {percentile : List F → F → F} {D A : Stats.Fit} {v q qA : ℝ} (hq : 0 ≤ q) (hA : 0 ≤ qA)
    (h1 : D.stat Stats.qmuTilde (fin v) = fin q) (h2 : A.stat Stats.qmuTilde (fin v) = fin qA) (e : Expect) :
    (Stats.exclusionConfidenceLevel ⟨D, A, [], [], percentile, available⟩ (fin v) e false .asymptotic).mapError .stats = answer (available .asymptotic) e q qA := by
  unfold answer
  rw [level_stats ⟨D, A, [], [], percentile, available⟩ ⟨statFit q, statFit qA, [], [], fun _ _ => nan, fun _ => available .asymptotic⟩ (fin v) (fin 0) e rfl
    (by rw [h1, statFit_stat hq le_rfl]) (by rw [h2, statFit_stat hA le_rfl])]

end Verif.Uncorrelated
