import Verif.Uncorrelated.Fits
import Verif.Chain.CountingProps

/-!
# Lemmas: the tests of models that are described by bins
-/

namespace Verif.Uncorrelated
open Verif.Py F Verif.Config Verif.Optimizer Verif.Hypotest Verif.Chain
open Verif.Interface (Data World Size Plain Solver)
open Verif.Backend (Ext Vec Args Built Fits at' poissonLog stdLog)
open Verif.Stats (Expect Calc Levels eq66)

/-- The model `m` of spey, with `N` parameters, is made from these bins: `default.uncorrelated_background`, or `default.poisson` for bins without uncertainties. -/
inductive Describes (bins : List Bin) (m : Backend.Model) : ℕ → Prop
  | uncorrelated (h : Backend.uncorrelated (argsOf bins) (bins.map Bin.σ) = .ok m) : Describes bins m (bins.length + 1)
  | poisson (h : Backend.poisson (bins.map Bin.s) (bins.map Bin.b) (bins.map Bin.d) none = .ok m) (hσ : ∀ x ∈ bins, x.σ = 0) : Describes bins m 1

/-- Nothing is negative, there is some background in each bin, and signal in one of them. -/
def Valid (bins : List Bin) : Prop := (∀ x ∈ bins, x.Proper) ∧ ∃ x ∈ bins, 0 < x.s

theorem argsOf_fits (bins : List Bin) : Fits (argsOf bins) := by simp [Backend.Fits, argsOf]

theorem argsOf_length (bins : List Bin) : (argsOf bins).data.length = bins.length := by simp [argsOf]

theorem signal_index {bins : List Bin} (h : Valid bins) : ∃ i < (argsOf bins).data.length, 0 < at' (bins.map Bin.s) i := by
  obtain ⟨x, hx, h0⟩ := h.2
  obtain ⟨i, hi, rfl⟩ := List.mem_iff_getElem.mp hx
  refine ⟨i, by rw [argsOf_length]; exact hi, ?_⟩
  rw [at_map _ hi]
  unfold bin
  rw [getD_get hi]
  exact h0

theorem simple {E : Ext} {bins : List Bin} {m : Backend.Model} (h : Backend.uncorrelated (argsOf bins) (bins.map Bin.σ) = .ok m) (hv : Valid bins) :
    ∃ lo, Simple E (argsOf bins) m (bins.map Bin.s) (level bins) (constraint bins) lo := by
  have hl := argsOf_length bins
  have hn : Nuisance E (argsOf bins) m (level bins) (constraint bins) := by
    have := Nuisance.uncorrelated (E := E) (bins.map Bin.σ) h (by simp [argsOf])
    rw [hl] at this
    exact this
  obtain ⟨-, -, h3⟩ := Backend.C52_minimum (argsOf bins) m (.simplified _ (hn.simplified (argsOf_fits bins))) (argsOf_fits bins) (bins.map Bin.s) rfl
  obtain ⟨lo, hlo, -⟩ := h3 (signal_index hv)
  refine ⟨lo, hn, argsOf_fits bins, rfl, rfl, rfl, signal_index hv, fun i hi => ?_, ⟨fun _ => 0, fun i hi => ?_⟩, hlo⟩
  · rw [hl] at hi
    show 0 ≤ at' (bins.map Bin.b) i
    rw [at_map _ hi]
    exact le_trans (by norm_num) (hv.1 _ (bin_mem hi)).2.1
  · rw [hl] at hi
    unfold level
    rw [at_map _ hi, at_map _ hi, mul_zero, _root_.add_zero]
    exact le_trans (by norm_num) (hv.1 _ (bin_mem hi)).2.1

theorem seen_data {E : Ext} {bins : List Bin} (hv : Valid bins) (e : Expect) : (∀ i < bins.length, 0 ≤ at' (used (argsOf bins) e) i) ∧
    profileOf E.gammaln bins (at' (used (argsOf bins) e)) = profile E.gammaln (seen e bins) := by
  refine ⟨fun i hi => ?_, profileOf_eq _ _ _ _ (seen_length e bins) fun i hi => used_data e bins hi⟩
  have := (seen_proper e hv.1 _ (bin_mem (by rw [seen_length]; exact hi : i < (seen e bins).length))).2.2.2
  rwa [used_data e bins hi] at this

theorem asimov_data {E : Ext} {bins : List Bin} (e : Expect) (mu : ℝ) {A : ℕ → ℝ} (hA : ∀ i < bins.length, A i =
    fitted (at' (used (argsOf bins) e) i) (bin bins i).b (bin bins i).σ (mu * (bin bins i).s)) :
    (∀ i < bins.length, 0 ≤ A i) ∧ profileOf E.gammaln bins A = profile E.gammaln ((seen e bins).map (Bin.asimov mu)) := by
  refine ⟨fun i hi => by rw [hA i hi]; exact (fitted_pos _ _ _ _).le, profileOf_eq _ _ _ _ (by simp [seen_length]) fun i hi => ?_⟩
  rw [bin_map _ (by rw [seen_length]; exact hi), used_data e bins hi, Bin.asimov, hA i hi]

section
variable {S : Solver} (hS : Exact S) (hT : Finds S) (hC : Interface.Constrained S) {E : Ext} (draw : Vec × List Vec → ℕ → List Vec) {bins : List Bin} {m : Backend.Model}
  (g : Bool) (ntoys : Size) (available : Calc → Bool) (percentile : List F → F → F)

section
variable (h : Backend.uncorrelated (argsOf bins) (bins.map Bin.σ) = .ok m) (hv : Valid bins)
include hS hT hC h hv

theorem uncorrelated_levels (e : Expect) {mu : Mu} {v : ℝ} (hmu : mu.Is v) (hv0 : 0 ≤ v) :
    ∃ q qA, IsStat (profile E.gammaln (seen e bins)) v q ∧ IsStat (profile E.gammaln ((seen e bins).map (Bin.asimov 0))) v qA ∧ ∀ w, Plain (bins.length + 1) w →
      (exclusion (modelMethods S (plugged E draw m) g none ntoys available percentile) mu e false .asymptotic w).1 = answer (available .asymptotic) e q qA := by
  obtain ⟨lo, hsim⟩ := simple (E := E) h hv
  obtain ⟨best, l, lv, l0, θ, A, bestA, lA, lvA, l0A, k1, ⟨_, k2⟩, k3, hA, k4, ⟨_, k5⟩, -, hE⟩ :=
    C117_levels hS hT hC draw hsim e false hmu hv0 g ntoys available percentile rfl rfl rfl
  rw [argsOf_length] at k1 k2 k3 k4 k5 hE
  simp only [Bool.false_eq_true, if_false] at k1 k4
  obtain ⟨d0, d1⟩ := seen_data (E := E) hv e
  obtain ⟨a1, a2⟩ := max_all hv.1 d0 k1
  have a3 := (max_at hv.1 d0 hv0 k2).1
  have hA' : ∀ i < bins.length, A i = fitted (at' (used (argsOf bins) e) i) (bin bins i).b (bin bins i).σ (0 * (bin bins i).s) := by
    intro i hi
    rw [hA, (max_at hv.1 d0 le_rfl k3).2 i hi]
  obtain ⟨e0, e1⟩ := asimov_data (E := E) e 0 hA'
  obtain ⟨b1, b2⟩ := max_all hv.1 e0 k4
  have b3 := (max_at hv.1 e0 hv0 k5).1
  rw [d1] at a1 a2 a3
  rw [e1] at b1 b2 b3
  subst a1 a3 b1 b3
  obtain ⟨q, hq, s1⟩ := fit_stat (v := v) (l0 := fin (-l0)) a2
  obtain ⟨qA, hqA, s2⟩ := fit_stat (v := v) (l0 := fin (-l0A)) b2
  refine ⟨q, qA, hq, hqA, fun w hw => ?_⟩
  rw [(hE w hw).1]
  exact answer_eq (stat_nonneg hq) (stat_nonneg hqA) s1 s2 e

theorem uncorrelated_significance (e : Expect) :
    ∃ q qA, IsDiscovery (profile E.gammaln (seen e bins)) q ∧ IsDiscovery (profile E.gammaln ((seen e bins).map (Bin.asimov 1))) qA ∧ ∀ w, Plain (bins.length + 1) w →
      (significance (modelMethods S (plugged E draw m) g none ntoys available percentile) e w).1 = .ok (Stats.discovery (√qA) (√q)) := by
  obtain ⟨lo, hsim⟩ := simple (E := E) h hv
  obtain ⟨best, l, l0, l1, θ, A, bestA, lA, l0A, k1, ⟨_, k2⟩, k3, hA, k4, ⟨_, k5⟩, hE⟩ :=
    C117_significance hS hT hC draw hsim e g ntoys available percentile rfl rfl
  rw [argsOf_length] at k1 k2 k3 k4 k5 hE
  obtain ⟨d0, d1⟩ := seen_data (E := E) hv e
  obtain ⟨a1, a2⟩ := max_all hv.1 d0 k1
  have a3 := (max_at hv.1 d0 le_rfl k2).1
  have hA' : ∀ i < bins.length, A i = fitted (at' (used (argsOf bins) e) i) (bin bins i).b (bin bins i).σ (1 * (bin bins i).s) := by
    intro i hi
    rw [hA, (max_at hv.1 d0 zero_le_one k3).2 i hi]
  obtain ⟨e0, e1⟩ := asimov_data (E := E) e 1 hA'
  obtain ⟨b1, b2⟩ := max_all hv.1 e0 k4
  have b3 := (max_at hv.1 e0 le_rfl k5).1
  rw [d1] at a1 a2 a3
  rw [e1] at b1 b2 b3
  subst a1 a3 b1 b3
  exact ⟨_, _, ⟨best, a2, rfl⟩, ⟨bestA, b2, rfl⟩, hE⟩

end

/-! ## Bins without uncertainties -/

/-- The log-likelihood of counts. -/
noncomputable def counts (G : ℝ → ℝ) (bins : List Bin) (mu : ℝ) : ℝ := (bins.map fun x => poissonLog G x.d (max (mu * x.s + x.b) (1 / 10 ^ 20))).sum

theorem counts_profile (G : ℝ → ℝ) {bins : List Bin} (h : ∀ x ∈ bins, x.Proper) (hσ : ∀ x ∈ bins, x.σ = 0) {mu : ℝ} (hmu : 0 ≤ mu) :
    profile G bins mu = counts G bins mu + bins.length * stdLog 0 := by
  unfold profile counts
  induction bins with
  | nil => simp
  | cons x l ih =>
    obtain ⟨h1, h2, -, -⟩ := h x (by simp)
    have hx : (0 : ℝ) ≤ mu * x.s := mul_nonneg hmu h1
    simp only [List.map_cons, List.sum_cons, List.length_cons]
    rw [ih (fun y hy => h y (by simp [hy])) fun y hy => hσ y (by simp [hy])]
    unfold binLog
    rw [hσ x (by simp), fitted_none h2 hx, div_zero, max_eq_left (by linarith)]
    push_cast
    ring

theorem counts_continuous (G : ℝ → ℝ) (bins : List Bin) : Continuous (counts G bins) := by
  unfold counts
  induction bins with
  | nil => simpa using continuous_const
  | cons x l ih =>
    simp only [List.map_cons, List.sum_cons]
    refine Continuous.add ?_ ih
    unfold poissonLog
    have h0 : Continuous fun mu : ℝ => max (mu * x.s + x.b) (1 / 10 ^ 20) := by fun_prop
    have h1 : ∀ mu : ℝ, max (mu * x.s + x.b) (1 / 10 ^ 20) ≠ 0 := fun mu => (lt_of_lt_of_le (by norm_num) (le_max_right _ _)).ne'
    have := h0.log h1
    fun_prop

/-- Halfway between two strengths. -/
theorem counts_middle (G : ℝ → ℝ) {bins : List Bin} (h : ∀ x ∈ bins, x.Proper) {y y' : ℝ} (hy : 0 ≤ y) (hy' : y < y') :
    counts G bins y + counts G bins y' ≤ 2 * counts G bins ((y + y') / 2) ∧
    ((∃ x ∈ bins, 0 < x.s ∧ 0 < x.d) → counts G bins y + counts G bins y' < 2 * counts G bins ((y + y') / 2)) := by
  unfold counts
  induction bins with
  | nil => simp
  | cons x l ih =>
    obtain ⟨h1, h2, -, h4⟩ := h x (by simp)
    obtain ⟨i1, i2⟩ := ih fun z hz => h z (by simp [hz])
    have hb : (0 : ℝ) < x.b := lt_of_lt_of_le (by norm_num) h2
    have hr : 0 < y * x.s + x.b := by nlinarith
    have hr' : 0 < y' * x.s + x.b := by nlinarith
    have hm : (y + y') / 2 * x.s + x.b = 1 / 2 * (y * x.s + x.b) + 1 / 2 * (y' * x.s + x.b) := by ring
    have e1 : ∀ z, 0 ≤ z → max (z * x.s + x.b) (1 / 10 ^ 20) = z * x.s + x.b := fun z hz => max_eq_left (by nlinarith)
    have hlog := log_concave hr hr' (by norm_num : (0 : ℝ) ≤ 1 / 2) (by norm_num : (0 : ℝ) ≤ 1 / 2) (by norm_num)
    have hc : poissonLog G x.d (y * x.s + x.b) + poissonLog G x.d (y' * x.s + x.b) ≤ 2 * poissonLog G x.d ((y + y') / 2 * x.s + x.b) := by
      unfold poissonLog
      rw [hm]
      nlinarith
    simp only [List.map_cons, List.sum_cons]
    rw [e1 y hy, e1 y' (by linarith), e1 _ (by linarith)]
    refine ⟨by linarith, ?_⟩
    rintro ⟨z, hz, hz1, hz2⟩
    rcases List.mem_cons.mp hz with rfl | hz
    · have hne : y * z.s + z.b ≠ y' * z.s + z.b := by
        intro he
        have : y * z.s = y' * z.s := by linarith
        exact hy'.ne (mul_right_cancel₀ hz1.ne' this)
      have hstrict := strictConcaveOn_log_Ioi.2 (Set.mem_Ioi.mpr hr) (Set.mem_Ioi.mpr hr') hne (by norm_num : (0 : ℝ) < 1 / 2) (by norm_num : (0 : ℝ) < 1 / 2) (by norm_num)
      simp only [smul_eq_mul] at hstrict
      have : poissonLog G z.d (y * z.s + z.b) + poissonLog G z.d (y' * z.s + z.b) < 2 * poissonLog G z.d ((y + y') / 2 * z.s + z.b) := by
        unfold poissonLog
        rw [hm]
        nlinarith
      linarith
    · linarith [i2 ⟨z, hz, hz1, hz2⟩]

/-- Without events in the bins with signal. -/
theorem counts_falling (G : ℝ → ℝ) {bins : List Bin} (h : ∀ x ∈ bins, x.Proper) (h0 : ∀ x ∈ bins, 0 < x.s → x.d = 0) {y y' : ℝ} (hy : 0 ≤ y) (hy' : y < y') :
    counts G bins y' ≤ counts G bins y ∧ ((∃ x ∈ bins, 0 < x.s) → counts G bins y' < counts G bins y) := by
  unfold counts
  induction bins with
  | nil => simp
  | cons x l ih =>
    obtain ⟨h1, h2, -, h4⟩ := h x (by simp)
    obtain ⟨i1, i2⟩ := ih (fun z hz => h z (by simp [hz])) fun z hz => h0 z (by simp [hz])
    have e1 : ∀ z, 0 ≤ z → max (z * x.s + x.b) (1 / 10 ^ 20) = z * x.s + x.b := fun z hz => max_eq_left (by nlinarith)
    simp only [List.map_cons, List.sum_cons]
    rw [e1 y hy, e1 y' (by linarith)]
    have key : poissonLog G x.d (y' * x.s + x.b) ≤ poissonLog G x.d (y * x.s + x.b) ∧
        (0 < x.s → poissonLog G x.d (y' * x.s + x.b) < poissonLog G x.d (y * x.s + x.b)) := by
      rcases h1.eq_or_lt with h1 | h1
      · rw [← h1]
        simp
      · have : poissonLog G x.d (y' * x.s + x.b) < poissonLog G x.d (y * x.s + x.b) := by
          rw [h0 x (by simp) h1]
          unfold poissonLog
          nlinarith
        exact ⟨this.le, fun _ => this⟩
    refine ⟨by linarith [key.1], ?_⟩
    rintro ⟨z, hz, hz1⟩
    rcases List.mem_cons.mp hz with rfl | hz
    · linarith [key.2 hz1]
    · linarith [key.1, i2 ⟨z, hz, hz1⟩]

theorem counts_best (G : ℝ → ℝ) {bins : List Bin} (hv : Valid bins) : ∃ x, Best (counts G bins) 0 x := by
  obtain ⟨x, ⟨h0, h10⟩, hx⟩ := isCompact_Icc.exists_isMaxOn (⟨0, by norm_num⟩ : (Set.Icc (0 : ℝ) 10).Nonempty) (counts_continuous G bins).continuousOn
  have hx : ∀ y, 0 ≤ y → y ≤ 10 → counts G bins y ≤ counts G bins x := fun y k0 k10 => hx ⟨k0, k10⟩
  refine ⟨x, h0, h10, fun y k0 k10 => ⟨hx y k0 k10, fun he => ?_⟩⟩
  have key : ∀ y y', 0 ≤ y → y' ≤ 10 → y < y' → counts G bins y = counts G bins x → counts G bins y' = counts G bins x → False := by
    intro y y' k0 k10 hlt e e'
    by_cases hd : ∃ z ∈ bins, 0 < z.s ∧ 0 < z.d
    · have := (counts_middle G hv.1 k0 hlt).2 hd
      have := hx ((y + y') / 2) (by linarith) (by linarith)
      linarith
    · have := (counts_falling G hv.1 (fun z hz hs => le_antisymm (not_lt.mp fun h' => hd ⟨z, hz, hs, h'⟩) (hv.1 z hz).2.2.2) k0 hlt).2 hv.2
      linarith
  rcases lt_trichotomy y x with hlt | heq | hlt
  · exact (key y x k0 h10 hlt he rfl).elim
  · exact heq
  · exact (key x y h0 k10 hlt rfl he).elim

section
variable (E) (h : Backend.poisson (bins.map Bin.s) (bins.map Bin.b) (bins.map Bin.d) none = .ok m) (hv : Valid bins)
include h

theorem counts_log (e : Expect) (bins' : List Bin) (hl : bins'.length = bins.length) (hb : ∀ i < bins.length, bin bins' i = { bin bins i with d := (bin bins' i).d }) (y : ℝ) :
    (plugged E draw m).logpdf (expectation e) (some (bins'.map Bin.d)) [y] = fin (counts E.gammaln bins' y) := by
  have hf := argsOf_fits bins
  obtain ⟨h1, h2, h3⟩ := (Backend.C51_simple_rate _ hf).2.2.1 _ m rfl h
  obtain ⟨c, hc, -, -, -, h6⟩ := Backend.poisson_ok h
  rcases h6 with ⟨-, h6, -, -⟩ | ⟨s', h7, -⟩
  swap
  · simp at h7
  simp only [plugged]
  rw [Backend.poisson_loglik E m _ h6 h2 bins.length _ [y] (bins'.map Bin.d) (by rw [h3 [y] (by rw [h1]; rfl), argsOf_length]) (by simp [hl])]
  simp only [value]
  congr 1
  unfold counts
  rw [← sum_bins, hl]
  refine Finset.sum_congr rfl fun i hi => ?_
  have hi := Finset.mem_range.mp hi
  rw [at_map _ (by rw [hl]; exact hi), at_map _ hi]
  show poissonLog _ _ (max (at' [y] 0 * _ + at' (bins.map Bin.b) i) _) = _
  rw [at_map _ hi, hb i hi]
  rfl

theorem counts_none (e : Expect) (y : ℝ) : (plugged E draw m).logpdf (expectation e) none [y] = fin (counts E.gammaln (seen e bins) y) := by
  have hB : Built (argsOf bins) m := .poisson _ none ⟨rfl, rfl, rfl, rfl⟩ h
  have hu : used (argsOf bins) e = (seen e bins).map Bin.d := by
    unfold seen
    cases e <;> simp [used, argsOf, Bin.prior, Function.comp_def]
  rw [plugged_none E draw hB (argsOf_fits bins), hu]
  exact counts_log E draw h e _ (seen_length e bins) (fun i hi => by rw [used_data e bins hi]) y

include hv

theorem counts_single : ∃ lo, Single (plugged E draw m) lo := by
  have hf := argsOf_fits bins
  have hB : Built (argsOf bins) m := .poisson _ none ⟨rfl, rfl, rfl, rfl⟩ h
  obtain ⟨-, -, h3⟩ := Backend.C52_minimum _ m hB hf _ rfl
  obtain ⟨lo, h4, -, h5⟩ := h3 (signal_index hv)
  obtain ⟨c, hc, -, -, -, h6⟩ := Backend.poisson_ok h
  refine ⟨lo, plugged_single E draw hB hf ((Backend.C51_simple_rate _ hf).2.2.1 _ m rfl h).1 ?_ h4⟩
  rcases h6 with ⟨-, -, -, h6⟩ | ⟨s', h7, -⟩
  · exact h6
  · simp at h7

theorem counts_asimov (e : Expect) (hσ : ∀ x ∈ bins, x.σ = 0) {z : ℝ} (hz : 0 ≤ z) :
    (plugged E draw m).expectedData [z] = .ok (((seen e bins).map (Bin.asimov z)).map Bin.d) := by
  have hf := argsOf_fits bins
  obtain ⟨h1, h2, h3⟩ := (Backend.C51_simple_rate _ hf).2.2.1 _ m rfl h
  simp only [plugged]
  rw [(Backend.C53_expected_simple _ hf true).2.2.1 _ m rfl h [z] (by rw [h1]; rfl), argsOf_length]
  simp only [Except.mapError, Except.ok.injEq]
  apply List.ext_getElem
  · simp [seen_length]
  · intro i hi hi'
    simp only [List.length_map, List.length_range] at hi
    have e1 : (((seen e bins).map (Bin.asimov z)).map Bin.d)[i] = fitted (bin (seen e bins) i).d (bin bins i).b (bin bins i).σ (z * (bin bins i).s) := by
      rw [List.getElem_map, List.getElem_map]
      have : (seen e bins)[i]'(by rw [seen_length]; exact hi) = bin (seen e bins) i := (getD_get (by rw [seen_length]; exact hi)).symm
      rw [this, used_data e bins hi]
      rfl
    obtain ⟨p1, p2, -, -⟩ := hv.1 _ (bin_mem hi)
    have hx : (0 : ℝ) ≤ z * (bin bins i).s := mul_nonneg hz p1
    rw [e1, hσ _ (bin_mem hi), fitted_none p2 hx]
    simp only [List.getElem_map, List.getElem_range]
    show max (at' [z] 0 * at' (bins.map Bin.s) i + at' (bins.map Bin.b) i) _ = _
    rw [at_map _ hi, at_map _ hi, show at' [z] 0 = z from rfl, max_eq_left (by linarith)]

end

theorem seen_valid (e : Expect) {bins : List Bin} (h : Valid bins) : Valid (seen e bins) := by
  refine ⟨seen_proper e h.1, ?_⟩
  obtain ⟨x, hx, h0⟩ := h.2
  unfold seen
  split
  · exact ⟨x.prior, List.mem_map_of_mem hx, h0⟩
  · exact ⟨x, hx, h0⟩

theorem asimov_valid (mu : ℝ) {bins : List Bin} (h : Valid bins) : Valid (bins.map (Bin.asimov mu)) := by
  refine ⟨asimov_proper mu h.1, ?_⟩
  obtain ⟨x, hx, h0⟩ := h.2
  exact ⟨x.asimov mu, List.mem_map_of_mem hx, h0⟩

theorem seen_sigma (e : Expect) {bins : List Bin} (h : ∀ x ∈ bins, x.σ = 0) : ∀ x ∈ seen e bins, x.σ = 0 := by
  unfold seen
  split
  · intro x hx
    obtain ⟨y, hy, rfl⟩ := List.mem_map.mp hx
    exact h y hy
  · exact h

theorem asimov_sigma (mu : ℝ) {bins : List Bin} (h : ∀ x ∈ bins, x.σ = 0) : ∀ x ∈ bins.map (Bin.asimov mu), x.σ = 0 := by
  intro x hx
  obtain ⟨y, hy, rfl⟩ := List.mem_map.mp hx
  exact h y hy

theorem asimov_bin (e : Expect) (mu : ℝ) {bins : List Bin} {i : ℕ} (hi : i < bins.length) :
    bin ((seen e bins).map (Bin.asimov mu)) i = { bin bins i with d := (bin ((seen e bins).map (Bin.asimov mu)) i).d } := by
  rw [bin_map _ (by rw [seen_length]; exact hi), used_data e bins hi]
  rfl

section
variable (h : Backend.poisson (bins.map Bin.s) (bins.map Bin.b) (bins.map Bin.d) none = .ok m) (hσ : ∀ x ∈ bins, x.σ = 0) (hv : Valid bins)
include hS hT h hσ hv

theorem poisson_levels (e : Expect) {mu : Mu} {v : ℝ} (hmu : mu.Is v) (hv0 : 0 ≤ v) :
    ∃ q qA, IsStat (profile E.gammaln (seen e bins)) v q ∧ IsStat (profile E.gammaln ((seen e bins).map (Bin.asimov 0))) v qA ∧ ∀ w, Plain 1 w →
      (exclusion (modelMethods S (plugged E draw m) g none ntoys available percentile) mu e false .asymptotic w).1 = answer (available .asymptotic) e q qA := by
  obtain ⟨lo, hB⟩ := counts_single E draw h hv
  obtain ⟨x, hx⟩ := counts_best E.gammaln (seen_valid e hv)
  obtain ⟨xA, hxA⟩ := counts_best E.gammaln (asimov_valid 0 (seen_valid e hv))
  have hb : IsBest (counts E.gammaln (seen e bins)) x := ⟨hx.1, hx.2.1, fun y k0 k10 => (hx.2.2 y k0 k10).1⟩
  have hbA : IsBest (counts E.gammaln ((seen e bins).map (Bin.asimov 0))) xA := ⟨hxA.1, hxA.2.1, fun y k0 k10 => (hxA.2.2 y k0 k10).1⟩
  obtain ⟨q, hq, s1⟩ := fit_stat (v := v) (l0 := fin (-(counts E.gammaln (seen e bins) 0))) hb
  obtain ⟨qA, hqA, s2⟩ := fit_stat (v := v) (l0 := fin (-(counts E.gammaln ((seen e bins).map (Bin.asimov 0)) 0))) hbA
  refine ⟨q, qA, stat_shift hv0 (fun y hy => counts_profile _ (seen_valid e hv).1 (seen_sigma e hσ) hy) hq,
    stat_shift hv0 (fun y hy => counts_profile _ (asimov_valid 0 (seen_valid e hv)).1 (asimov_sigma 0 (seen_sigma e hσ)) hy) hqA, fun w hw => ?_⟩
  rw [single_levels hS hT hB (counts_none E draw h e) (counts_log E draw h e _ (by simp [seen_length]) fun i hi => asimov_bin e 0 hi)
    (counts_asimov E draw h hv e hσ le_rfl) (negative := false) (by simpa using hx) (by simpa using hxA) hmu hv0 g ntoys available percentile w hw]
  exact answer_eq (stat_nonneg hq) (stat_nonneg hqA) s1 s2 e

theorem poisson_significance (e : Expect) :
    ∃ q qA, IsDiscovery (profile E.gammaln (seen e bins)) q ∧ IsDiscovery (profile E.gammaln ((seen e bins).map (Bin.asimov 1))) qA ∧ ∀ w, Plain 1 w →
      (significance (modelMethods S (plugged E draw m) g none ntoys available percentile) e w).1 = .ok (Stats.discovery (√qA) (√q)) := by
  obtain ⟨lo, hB⟩ := counts_single E draw h hv
  obtain ⟨x, hx⟩ := counts_best E.gammaln (seen_valid e hv)
  obtain ⟨xA, hxA⟩ := counts_best E.gammaln (asimov_valid 1 (seen_valid e hv))
  have hb : IsBest (counts E.gammaln (seen e bins)) x := ⟨hx.1, hx.2.1, fun y k0 k10 => (hx.2.2 y k0 k10).1⟩
  have hbA : IsBest (counts E.gammaln ((seen e bins).map (Bin.asimov 1))) xA := ⟨hxA.1, hxA.2.1, fun y k0 k10 => (hxA.2.2 y k0 k10).1⟩
  refine ⟨_, _, discovery_shift (fun y hy => counts_profile _ (seen_valid e hv).1 (seen_sigma e hσ) hy) ⟨x, hb, rfl⟩,
    discovery_shift (fun y hy => counts_profile _ (asimov_valid 1 (seen_valid e hv)).1 (asimov_sigma 1 (seen_sigma e hσ)) hy) ⟨xA, hbA, rfl⟩, fun w hw => ?_⟩
  exact single_significance hS hT hB (counts_none E draw h e) (counts_log E draw h e _ (by simp [seen_length]) fun i hi => asimov_bin e 1 hi)
    (counts_asimov E draw h hv e hσ zero_le_one) hx hxA g ntoys available percentile w hw

end

variable {N : ℕ} (h : Describes bins m N) (hv : Valid bins)
include hS hT hC h hv

theorem levels (e : Expect) {mu : Mu} {v : ℝ} (hmu : mu.Is v) (hv0 : 0 ≤ v) :
    ∃ q qA, IsStat (profile E.gammaln (seen e bins)) v q ∧ IsStat (profile E.gammaln ((seen e bins).map (Bin.asimov 0))) v qA ∧ ∀ w, Plain N w →
      (exclusion (modelMethods S (plugged E draw m) g none ntoys available percentile) mu e false .asymptotic w).1 = answer (available .asymptotic) e q qA := by
  cases h with
  | uncorrelated h => exact uncorrelated_levels hS hT hC draw g ntoys available percentile h hv e hmu hv0
  | poisson h hσ => exact poisson_levels hS hT draw g ntoys available percentile h hσ hv e hmu hv0

theorem discoveries (e : Expect) :
    ∃ q qA, IsDiscovery (profile E.gammaln (seen e bins)) q ∧ IsDiscovery (profile E.gammaln ((seen e bins).map (Bin.asimov 1))) qA ∧ ∀ w, Plain N w →
      (significance (modelMethods S (plugged E draw m) g none ntoys available percentile) e w).1 = .ok (Stats.discovery (√qA) (√q)) := by
  cases h with
  | uncorrelated h => exact uncorrelated_significance hS hT hC draw g ntoys available percentile h hv e
  | poisson h hσ => exact poisson_significance hS hT draw g ntoys available percentile h hσ hv e

end

end Verif.Uncorrelated
