import Verif.Reach.Reported
import Verif.Joint.LimitProps

/-!
# Lemmas: bounds on the reported levels of combinations
-/

namespace Verif.Reach
open Verif.Py F Verif.Chain Verif.Hypotest Verif.Joint
open Verif.Interface (Data World Size Plain Solver)
open Verif.Backend (Ext Vec Args at' poissonLog)
open Verif.Stats (Expect Calc Levels levelsOf)
open Verif.UpperLimit (Expected Band Entries)
open Verif.Uncorrelated (answer_eq answer_levels entry entry_mono level_list entries_lt)

/-- The likelihood of a measurement is that of `k` bins with signal yields `s`, in which the background is `bin`, a function of the nuisance parameters; these are constrained by `pen`. -/
structure Counts (γ : ℝ → ℝ) (P : Part) (k : ℕ) (s : ℕ → ℝ) (bin : ℕ → ℝ → ℝ) (pen : (ℕ → ℝ) → ℝ) : Prop where
  ok : ∀ θ, P.ok θ ↔ Admissible k bin θ
  log : P.log = logLikelihood γ k s bin pen
  expected : P.expected = expectedIn s bin
  data : ∀ j < k, 0 ≤ P.data j
  price : ∀ θ, pen θ ≤ pen fun _ => 0

/-- Simplified likelihoods. -/
theorem simple_counts {E : Ext} {a : Args} {m : Backend.Model} {y : Vec} {bin : ℕ → ℝ → ℝ} {pen : (ℕ → ℝ) → ℝ} {lo : ℝ} (h : Simple E a m y bin pen lo)
    (hd : ∀ i < a.data.length, 0 ≤ at' a.data i) (e : Expect) :
    Counts E.gammaln ⟨Admissible a.data.length bin, logLikelihood E.gammaln a.data.length (at' y) bin pen, at' (used a e), expectedIn (at' y) bin⟩ a.data.length (at' y) bin pen :=
  ⟨fun _ => Iff.rfl, rfl, rfl, used_nonneg h.background hd e, pen_le h.model⟩

/-- Poisson models without uncertainties. -/
theorem counting_counts {E : Ext} {a : Args} {y : Vec} (hb : ∀ i < a.data.length, 0 ≤ at' a.background i) (hd : ∀ i < a.data.length, 0 ≤ at' a.data i) (e : Expect) :
    Counts E.gammaln ⟨fun _ => True, fun D mu _ => ∑ i ∈ Finset.range a.data.length, poissonLog E.gammaln (D i) (max (mu * at' y i + at' a.background i) (1 / 10 ^ 20)),
        at' (used a e), fun mu _ i => max (mu * at' y i + at' a.background i) (1 / 10 ^ 20)⟩ a.data.length (at' y) (fun i _ => at' a.background i) fun _ => 0 :=
  ⟨fun _ => iff_of_true trivial hb, by funext D mu θ; simp [logLikelihood, expectedIn], rfl, used_nonneg hb hd e, fun _ => le_rfl⟩

section
variable {γ : ℝ → ℝ} {n : ℕ} {P : ℕ → Part} {k : ℕ → ℕ} {s : ℕ → ℕ → ℝ} {bin : ℕ → ℕ → ℝ → ℝ} {pen : ℕ → (ℕ → ℝ) → ℝ} (hc : ∀ i < n, Counts γ (P i) (k i) (s i) (bin i) (pen i))
include hc

/-- Less signal is not much more likely. -/
theorem joint_less (hs : ∀ i < n, ∀ j < k i, 0 ≤ s i j) {D : ℕ → ℕ → ℝ} (hD : ∀ i < n, ∀ j < k i, 0 ≤ D i j) {u v : ℝ} (huv : u ≤ v) (θ : ℕ → ℕ → ℝ) :
    jointLog n P D u θ - jointLog n P D v θ ≤ (v - u) * ∑ i ∈ Finset.range n, ∑ j ∈ Finset.range (k i), s i j := by
  unfold jointLog
  rw [← Finset.sum_sub_distrib, Finset.mul_sum]
  refine Finset.sum_le_sum fun i hi => ?_
  have hi := Finset.mem_range.mp hi
  rw [(hc i hi).log]
  exact less_signal (hD i hi) (hs i hi) huv (θ i)

/-- Without signal the likelihood is the saturated one, up to the misfits. -/
theorem joint_zero (D : ℕ → ℕ → ℝ) (θ : ℕ → ℕ → ℝ) :
    jointLog n P D 0 θ = ∑ i ∈ Finset.range n, saturated γ (k i) (pen i) (D i) - ∑ i ∈ Finset.range n, misfit (k i) (bin i) (pen i) (D i) (θ i) := by
  unfold jointLog
  rw [← Finset.sum_sub_distrib]
  refine Finset.sum_congr rfl fun i hi => ?_
  rw [(hc i (Finset.mem_range.mp hi)).log, likelihood_zero]

theorem joint_misfit_nonneg {D : ℕ → ℕ → ℝ} (hD : ∀ i < n, ∀ j < k i, 0 ≤ D i j) (θ : ℕ → ℕ → ℝ) {i : ℕ} (hi : i < n) :
    misfit (k i) (bin i) (pen i) (D i) (θ i) ≤ ∑ i ∈ Finset.range n, misfit (k i) (bin i) (pen i) (D i) (θ i) :=
  Finset.single_le_sum (f := fun i => misfit (k i) (bin i) (pen i) (D i) (θ i))
    (fun i hi => misfit_nonneg (hc i (Finset.mem_range.mp hi)).price (hD i (Finset.mem_range.mp hi)) (θ i)) (Finset.mem_range.mpr hi)

/-- Much signal is unlikely. -/
theorem joint_much {D : ℕ → ℕ → ℝ} (hD : ∀ i < n, ∀ j < k i, 0 ≤ D i j) {v : ℝ} {θ : ℕ → ℕ → ℝ} (hok : jointOk n P θ) {i j : ℕ} (hi : i < n) (hj : j < k i) :
    jointLog n P D v θ ≤ ∑ i ∈ Finset.range n, saturated γ (k i) (pen i) (D i) - (v * s i j / 2 - D i j * Real.log 2) := by
  unfold jointLog
  rw [← Finset.add_sum_erase _ _ (Finset.mem_range.mpr hi), ← Finset.add_sum_erase (a := i) _ (fun i => saturated γ (k i) (pen i) (D i)) (Finset.mem_range.mpr hi)]
  have h1 : (P i).log (D i) v (θ i) ≤ saturated γ (k i) (pen i) (D i) - (v * s i j / 2 - D i j * Real.log 2) := by
    rw [(hc i hi).log]
    exact much_signal (hc i hi).price (hD i hi) (((hc i hi).ok _).mp (hok i hi)) hj
  have h2 : ∑ x ∈ (Finset.range n).erase i, (P x).log (D x) v (θ x) ≤ ∑ x ∈ (Finset.range n).erase i, saturated γ (k x) (pen x) (D x) := by
    refine Finset.sum_le_sum fun x hx => ?_
    have hx := Finset.mem_range.mp (Finset.mem_of_mem_erase hx)
    rw [(hc x hx).log, likelihood_eq]
    have := Finset.sum_nonneg (s := Finset.range (k x)) fun y hy => deviance_nonneg (hD x hx y (Finset.mem_range.mp hy)) (expectedIn_pos (s := s x) (bin := bin x) v (θ x) y)
    linarith [(hc x hx).price (θ x)]
  linarith

end

section
variable {fit : Minimizer (ℕ → World)} (hfit : Reliable fit) {S : Solver} (hS : Exact S) (hT : Finds S) (hC : Interface.Constrained S) {E : Ext} (draw : Vec × List Vec → ℕ → List Vec)
    {n : ℕ} (hn : 0 < n) {m : ℕ → Backend.Model} {P : ℕ → Part} {lo : ℕ → ℝ} {N : ℕ → ℕ} {e : Expected} (h : ∀ i < n, Described E e.toExpect (m i) (P i) (lo i) (N i))
    {k : ℕ → ℕ} {y : ℕ → ℕ → ℝ} {bin : ℕ → ℕ → ℝ → ℝ} {pen : ℕ → (ℕ → ℝ) → ℝ} (hc : ∀ i < n, Counts E.gammaln (P i) (k i) (y i) (bin i) (pen i))
    {name : ℕ → String} (hname : Distinct n name) (inv : List (List ℝ) → Except Interface.Err (List (List ℝ))) (g : Bool) (ntoys : Size) (available : ℕ → Calc → Bool)
    (hav : ∀ i < n, available i .asymptotic = true) (percentile percentile' : List F → F → F) {M : Methods (ℕ → World)}
    (hM : M = combined fit (members n name S inv E draw m g ntoys available percentile') percentile)
    {s : ℕ → World} (hs : All n N s) {start : ℝ} (hstart : (guess (members n name S inv E draw m g ntoys available percentile') e.toExpect s).1 = .ok (fin start))
include hfit hS hT hC hn h hc hname hM hs hstart hav

/-- The level of one entry, and the bounds on its two statistics. -/
theorem joint_entry {v : ℝ} (hv : 0 ≤ v) : ∃ q qA, 0 ≤ q ∧ 0 ≤ qA ∧
    ((∀ i < n, ∀ j < k i, 0 ≤ y i j) → q ≤ 2 * (v * ∑ i ∈ Finset.range n, ∑ j ∈ Finset.range (k i), y i j) ∧ qA ≤ 2 * (v * ∑ i ∈ Finset.range n, ∑ j ∈ Finset.range (k i), y i j)) ∧
    (10 ≤ v → ∀ θ : ℕ → ℕ → ℝ, (∀ i < n, Admissible (k i) (bin i) (θ i)) → ∀ i < n, ∀ j < k i,
      v * y i j - 2 * (P i).data j - 5 * ∑ i ∈ Finset.range n, misfit (k i) (bin i) (pen i) (P i).data (θ i) ≤ min q qA) ∧
    ∀ i < (if e = .observed then 1 else 5), ∀ x, Reported (All n N) M e i v x ↔ x = fin (entry e q qA i) := by
  subst hM
  have hb : ∃ b, IsGreatest {x | ∃ i < n, x = lo i} b := by
    obtain ⟨b, -, -, k1, i, hi, k2⟩ := minimum_ends hn fun i hi => (h i hi).piece hS hT hC draw hi rfl (name i) inv g ntoys (available i) percentile'
    refine ⟨b, ⟨i, hi, k2⟩, ?_⟩
    rintro x ⟨j, hj, rfl⟩
    exact k1 j hj
  obtain ⟨b, hb⟩ := hb
  obtain ⟨best, l, lv, l0, θ0, A, bestA, lA, lvA, l0A, h1, ⟨θ1, h2⟩, h3, rfl, h5, ⟨θ2, h6⟩, -, hE⟩ :=
    C122_levels hfit hS hT hC draw hn h hname inv g ntoys available percentile percentile' rfl hs hstart false (mu := .float v) rfl hv rfl rfl rfl hb rfl
  simp only [Bool.false_eq_true, if_false] at h1 h5
  have hD : ∀ i < n, ∀ j < k i, 0 ≤ (P i).data j := fun i hi => (hc i hi).data
  have hA : ∀ i < n, ∀ j < k i, 0 ≤ (P i).expected 0 (θ0 i) j := fun i hi j _ => by
    rw [(hc i hi).expected]
    exact (expectedIn_pos 0 (θ0 i) j).le
  obtain ⟨q, k1, k2⟩ := stat_exists (v := v) (l := l) (lv := lv) h1.1 (fin (-l0))
  obtain ⟨qA, k3, k4⟩ := stat_exists (v := v) (l := lA) (lv := lvA) h5.1 (fin (-l0A))
  refine ⟨q, qA, k1.nonneg, k3.nonneg, fun hs => ?_, fun h10 θ hok i hi j hj => ?_, ?_⟩
  · have hsum : 0 ≤ ∑ i ∈ Finset.range n, ∑ j ∈ Finset.range (k i), y i j :=
      Finset.sum_nonneg fun i hi => Finset.sum_nonneg fun j hj => hs i (Finset.mem_range.mp hi) j (Finset.mem_range.mp hj)
    have step : ∀ u, 0 ≤ u → (v - u) * ∑ i ∈ Finset.range n, ∑ j ∈ Finset.range (k i), y i j ≤ v * ∑ i ∈ Finset.range n, ∑ j ∈ Finset.range (k i), y i j :=
      fun u hu => mul_le_mul_of_nonneg_right (by linarith) hsum
    exact ⟨stat_small k1 h1 h2 (mul_nonneg hv hsum) fun u θ hu huv _ => (joint_less hc hs hD huv θ).trans (step u hu),
      stat_small k3 h5 h6 (mul_nonneg hv hsum) fun u θ hu huv _ => (joint_less hc hs hA huv θ).trans (step u hu)⟩
  · have hok' : jointOk n P θ := fun i hi => ((hc i hi).ok _).mpr (hok i hi)
    have hmis : ∑ i ∈ Finset.range n, misfit (k i) (bin i) (pen i) (P i).data (θ0 i) ≤ ∑ i ∈ Finset.range n, misfit (k i) (bin i) (pen i) (P i).data (θ i) := by
      have := h3.2.2 θ hok'
      rw [h3.2.1, joint_zero hc, joint_zero hc] at this
      linarith
    have h0 := (misfit_nonneg (bin := bin i) (hc i hi).price (hD i hi) (θ0 i)).trans (joint_misfit_nonneg hc hD θ0 hi)
    have hDj := hD i hi j hj
    obtain ⟨hl1, hl0⟩ := log_two
    have b1 := stat_large h10 k1 h1 h2 hok' (joint_zero hc _ θ).ge fun θ' hθ' => joint_much hc hD hθ' hi hj
    have b2 := stat_large h10 k3 h5 h6 h3.1 (joint_zero hc _ θ0).ge fun θ' hθ' => joint_much hc hA hθ' hi hj
    have hp : ∑ i ∈ Finset.range n, misfit (k i) (bin i) (pen i) ((P i).expected 0 (θ0 i)) (θ0 i) ≤ ∑ i ∈ Finset.range n, misfit (k i) (bin i) (pen i) (P i).data (θ0 i) := by
      refine Finset.sum_le_sum fun i hi => ?_
      have hi := Finset.mem_range.mp hi
      rw [(hc i hi).expected, misfit_asimov]
      exact misfit_price (hc i hi).price (hD i hi) (θ0 i)
    have b3 := expected_le (s := y i) (bin := bin i) (hc i hi).price (hD i hi) (θ0 i) hj
    have b4 := joint_misfit_nonneg hc hD θ0 hi
    rw [(hc i hi).expected] at b2
    have b5 : (P i).data j * Real.log 2 ≤ (P i).data j * 0.6931471808 := mul_le_mul_of_nonneg_left hl1 hDj
    have b6 : expectedIn (y i) (bin i) 0 (θ0 i) j * Real.log 2 ≤ expectedIn (y i) (bin i) 0 (θ0 i) j * 0.6931471808 := mul_le_mul_of_nonneg_left hl1 (expectedIn_pos 0 (θ0 i) j).le
    exact le_min (by linarith) (by linarith)
  · have hE' : Ends (All n N) (exclusion (combined fit (members n name S inv E draw m g ntoys available percentile') percentile) (.float v) e.toExpect false .asymptotic)
        (.ok (levelsOf e.toExpect false q qA)) := by
      rw [answer_eq k1.nonneg k3.nonneg k2 k4 e.toExpect, members_available hav, answer_levels _ k1.nonneg k3.nonneg] at hE
      exact hE
    obtain ⟨l, hl, hi⟩ := level_list e q qA
    refine fun i hlt x => ⟨?_, ?_⟩
    · rintro ⟨l', hE2, hx⟩
      have := (hE2 _ hs).1
      rw [(hE' _ hs).1, hl] at this
      simp only [Except.ok.injEq, Levels.one.injEq] at this
      subst this
      rw [hi i hlt] at hx
      exact (Option.some.inj hx).symm
    · rintro rfl
      exact ⟨l, by rw [← hl]; exact hE', hi i hlt⟩

end

end Verif.Reach
