import Verif.Uncorrelated.Props
import Verif.Joint.Props

/-!
# Lemmas: combinations of models with independent uncertainties
-/

namespace Verif.Uncorrelated
open Verif.Py F Verif.Config Verif.Optimizer Verif.Hypotest Verif.Chain Verif.Joint
open Verif.Interface (World Size Plain Solver)
open Verif.Backend (Ext Vec Args at' poissonLog stdLog)
open Verif.Stats (Expect Calc Levels)

/-- The nuisance parameters of a measurement can be eliminated: its largest likelihood is the profile likelihood of the bins, up to a constant. -/
structure Eliminated (G : ℝ → ℝ) (P : Part) (bins : List Bin) (c : ℝ) : Prop where
  best : ∀ (D : ℕ → ℝ) (mu : ℝ) (θ : ℕ → ℝ), (∀ i < bins.length, 0 ≤ D i) → 0 ≤ mu → P.ok θ → P.log D mu θ ≤ profileOf G bins D mu - c ∧
    (P.log D mu θ = profileOf G bins D mu - c → ∀ i < bins.length, P.expected mu θ i = fitted (D i) (bin bins i).b (bin bins i).σ (mu * (bin bins i).s))
  attained : ∀ (D : ℕ → ℝ) (mu : ℝ), (∀ i < bins.length, 0 ≤ D i) → 0 ≤ mu → ∃ θ, P.ok θ ∧ P.log D mu θ = profileOf G bins D mu - c

theorem binLog_none (G : ℝ → ℝ) {d b σ x : ℝ} (hσ : σ = 0) (hb : 1 / 10 ^ 20 ≤ b) (hx : 0 ≤ x) :
    binLog G d b σ x = poissonLog G d (max (x + b) (1 / 10 ^ 20)) + stdLog 0 := by
  subst hσ
  unfold binLog
  rw [fitted_none hb hx, div_zero, max_eq_left (by linarith)]

theorem Describes.part {E : Ext} {bins : List Bin} {m : Backend.Model} {N : ℕ} (h : Describes bins m N) (hv : Valid bins) (e : Expect) :
    ∃ (P : Part) (lo c : ℝ), Described E e m P lo N ∧ Eliminated E.gammaln P bins c ∧ P.data = at' (used (argsOf bins) e) := by
  cases h with
  | uncorrelated h =>
    obtain ⟨lo, hsim⟩ := simple (E := E) h hv
    have hd := Described.simple (e := e) hsim
    rw [argsOf_length] at hd
    refine ⟨_, lo, 0, hd, ⟨fun D mu θ hD hmu hθ => ?_, fun D mu hD hmu => ?_⟩, rfl⟩
    · obtain ⟨h1, h2⟩ := log_best (G := E.gammaln) hv.1 hD hmu hθ
      obtain ⟨-, -, a3⟩ := log_attained (G := E.gammaln) (D := D) hv.1 hmu
      rw [sub_zero]
      refine ⟨h1, fun he i hi => ?_⟩
      rw [← a3 i hi]
      dsimp only
      unfold expectedIn
      rw [h2 he i hi]
    · obtain ⟨a1, a2, -⟩ := log_attained (G := E.gammaln) (D := D) hv.1 hmu
      exact ⟨_, a1, by rw [sub_zero]; exact a2⟩
  | poisson h hσ =>
    have hf := argsOf_fits bins
    have hB : Backend.Built (argsOf bins) m := .poisson _ none ⟨rfl, rfl, rfl, rfl⟩ h
    obtain ⟨-, -, h3⟩ := Backend.C52_minimum _ m hB hf _ rfl
    obtain ⟨lo, h4, -, h5⟩ := h3 (signal_index hv)
    have hc : Counting (argsOf bins) m (bins.map Bin.s) := by
      refine ⟨h, hf, rfl, rfl, rfl, rfl, signal_index hv, fun i hi => ?_⟩
      rw [argsOf_length] at hi
      show 0 ≤ at' (bins.map Bin.b) i
      rw [at_map _ hi]
      exact le_trans (by norm_num) (hv.1 _ (bin_mem hi)).2.1
    have key : ∀ (D : ℕ → ℝ) (mu : ℝ), 0 ≤ mu → ∑ i ∈ Finset.range (argsOf bins).data.length, poissonLog E.gammaln (D i)
        (max (mu * at' (bins.map Bin.s) i + at' (argsOf bins).background i) (1 / 10 ^ 20)) = profileOf E.gammaln bins D mu - bins.length * stdLog 0 := by
      intro D mu hmu
      rw [argsOf_length, eq_sub_iff_add_eq, ← nsmul_eq_mul, ← Finset.card_range bins.length, ← Finset.sum_const, Finset.card_range, ← Finset.sum_add_distrib]
      refine Finset.sum_congr rfl fun i hi => ?_
      have hi := Finset.mem_range.mp hi
      obtain ⟨p1, p2, -, -⟩ := hv.1 _ (bin_mem hi)
      rw [binLog_none _ (hσ _ (bin_mem hi)) p2 (mul_nonneg hmu p1), at_map _ hi]
      show _ = poissonLog _ _ (max (_ + (bin bins i).b) _) + _
      rw [← at_map Bin.b hi]
      rfl
    refine ⟨_, lo, bins.length * stdLog 0, .counting hc h4, ⟨fun D mu θ hD hmu hθ => ?_, fun D mu hD hmu => ?_⟩, rfl⟩
    · refine ⟨(key D mu hmu).le, fun _ i hi => ?_⟩
      obtain ⟨p1, p2, -, -⟩ := hv.1 _ (bin_mem hi)
      rw [hσ _ (bin_mem hi), fitted_none p2 (mul_nonneg hmu p1)]
      show max (mu * at' (bins.map Bin.s) i + at' (bins.map Bin.b) i) _ = _
      rw [at_map _ hi, at_map _ hi, max_eq_left]
      linarith [mul_nonneg hmu p1]
    · exact ⟨fun _ => 0, trivial, key D mu hmu⟩

/-! ## The joint likelihood -/

section
variable {G : ℝ → ℝ} {n : ℕ} {P : ℕ → Part} {bins : ℕ → List Bin} {c : ℕ → ℝ} (h : ∀ i < n, Eliminated G (P i) (bins i) (c i)) {D : ℕ → ℕ → ℝ}
  (hD : ∀ i < n, ∀ j < (bins i).length, 0 ≤ D i j)
include h hD

theorem joint_best {mu : ℝ} (hmu : 0 ≤ mu) {θ : ℕ → ℕ → ℝ} (hθ : jointOk n P θ) :
    jointLog n P D mu θ ≤ ∑ i ∈ Finset.range n, (profileOf G (bins i) (D i) mu - c i) ∧
    (jointLog n P D mu θ = ∑ i ∈ Finset.range n, (profileOf G (bins i) (D i) mu - c i) → ∀ i < n, ∀ j < (bins i).length,
      (P i).expected mu (θ i) j = fitted (D i j) (bin (bins i) j).b (bin (bins i) j).σ (mu * (bin (bins i) j).s)) := by
  have key : ∀ i ∈ Finset.range n, (P i).log (D i) mu (θ i) ≤ profileOf G (bins i) (D i) mu - c i := fun i hi =>
    ((h i (Finset.mem_range.mp hi)).best (D i) mu (θ i) (hD i (Finset.mem_range.mp hi)) hmu (hθ i (Finset.mem_range.mp hi))).1
  refine ⟨Finset.sum_le_sum key, fun he i hi => ?_⟩
  exact ((h i hi).best (D i) mu (θ i) (hD i hi) hmu (hθ i hi)).2 ((Finset.sum_eq_sum_iff_of_le key).mp he i (Finset.mem_range.mpr hi))

theorem joint_attained {mu : ℝ} (hmu : 0 ≤ mu) : ∃ θ, jointOk n P θ ∧ jointLog n P D mu θ = ∑ i ∈ Finset.range n, (profileOf G (bins i) (D i) mu - c i) := by
  have : ∀ i, ∃ θ : ℕ → ℝ, i < n → (P i).ok θ ∧ (P i).log (D i) mu θ = profileOf G (bins i) (D i) mu - c i := by
    intro i
    by_cases hi : i < n
    · obtain ⟨θ, h1, h2⟩ := (h i hi).attained (D i) mu (hD i hi) hmu
      exact ⟨θ, fun _ => ⟨h1, h2⟩⟩
    · exact ⟨fun _ => 0, fun h => absurd h hi⟩
  choose θ hθ using this
  exact ⟨θ, fun i hi => (hθ i hi).1, Finset.sum_congr rfl fun i hi => (hθ i (Finset.mem_range.mp hi)).2⟩

theorem joint_at {mu l : ℝ} (hmu : 0 ≤ mu) {θ : ℕ → ℕ → ℝ} (hl : ProfileMax (jointOk n P) (jointLog n P D) mu l θ) :
    l = ∑ i ∈ Finset.range n, (profileOf G (bins i) (D i) mu - c i) ∧ ∀ i < n, ∀ j < (bins i).length,
      (P i).expected mu (θ i) j = fitted (D i j) (bin (bins i) j).b (bin (bins i) j).σ (mu * (bin (bins i) j).s) := by
  obtain ⟨θ', a1, a2⟩ := joint_attained h hD hmu
  obtain ⟨b1, b2⟩ := joint_best h hD hmu hl.1
  have h1 : l = ∑ i ∈ Finset.range n, (profileOf G (bins i) (D i) mu - c i) := le_antisymm (by rw [hl.2.1]; exact b1) (by rw [← a2]; exact hl.2.2 _ a1)
  exact ⟨h1, b2 (by rw [← hl.2.1, h1])⟩

theorem joint_all {best l : ℝ} (hl : GlobalMax (jointOk n P) (jointLog n P D) 0 10 best l) :
    l = ∑ i ∈ Finset.range n, (profileOf G (bins i) (D i) best - c i) ∧ IsBest (fun mu => ∑ i ∈ Finset.range n, (profileOf G (bins i) (D i) mu - c i)) best := by
  obtain ⟨h0, h10, ⟨θ, h1, h2⟩, h3⟩ := hl
  have key : ∀ mu, 0 ≤ mu → mu ≤ 10 → ∑ i ∈ Finset.range n, (profileOf G (bins i) (D i) mu - c i) ≤ l := by
    intro mu k0 k10
    obtain ⟨θ', a1, a2⟩ := joint_attained h hD k0
    rw [← a2]
    exact h3 mu _ k0 k10 a1
  have : l = ∑ i ∈ Finset.range n, (profileOf G (bins i) (D i) best - c i) := le_antisymm (by rw [h2]; exact (joint_best h hD h0 h1).1) (key best h0 h10)
  exact ⟨this, h0, h10, fun mu k0 k10 => (key mu k0 k10).trans this.le⟩

end

/-- The bins of all models. -/
def together (n : ℕ) (bins : ℕ → List Bin) : List Bin := (List.range n).flatMap bins

theorem together_succ (n : ℕ) (bins : ℕ → List Bin) : together (n + 1) bins = together n bins ++ bins n := by
  simp [together, List.range_succ]

theorem together_map (f : Bin → Bin) (n : ℕ) (bins : ℕ → List Bin) : (together n bins).map f = together n fun i => (bins i).map f := by
  simp [together, List.map_flatMap]

theorem together_seen (e : Expect) (n : ℕ) (bins : ℕ → List Bin) : seen e (together n bins) = together n fun i => seen e (bins i) := by
  unfold seen
  split
  · exact together_map _ _ _
  · rfl

theorem together_valid {n : ℕ} (hn : 0 < n) {bins : ℕ → List Bin} (h : ∀ i < n, Valid (bins i)) : Valid (together n bins) := by
  refine ⟨fun x hx => ?_, ?_⟩
  · obtain ⟨i, hi, hx⟩ := List.mem_flatMap.mp hx
    exact (h i (List.mem_range.mp hi)).1 x hx
  · obtain ⟨x, hx, h0⟩ := (h 0 hn).2
    exact ⟨x, List.mem_flatMap.mpr ⟨0, List.mem_range.mpr hn, hx⟩, h0⟩

theorem together_profile (G : ℝ → ℝ) (n : ℕ) (bins : ℕ → List Bin) (mu : ℝ) : profile G (together n bins) mu = ∑ i ∈ Finset.range n, profile G (bins i) mu := by
  induction n with
  | zero => simp [together, profile]
  | succ n ih =>
    rw [together_succ, Finset.sum_range_succ, ← ih]
    simp [profile]

section
variable {S : Solver} (hS : Exact S) (hT : Finds S) (hC : Interface.Constrained S) {fit : Minimizer (ℕ → World)} (hfit : Reliable fit) {E : Ext} (draw) {n : ℕ} (hn : 0 < n)
  {bins : ℕ → List Bin} {m : ℕ → Backend.Model} {N : ℕ → ℕ} (h : ∀ i < n, Describes (bins i) (m i) (N i)) (hv : ∀ i < n, Valid (bins i))
  {name : ℕ → String} (hname : Distinct n name) (inv : List (List ℝ) → Except Interface.Err (List (List ℝ))) (g : Bool) (ntoys : Size) {available : ℕ → Calc → Bool}
  (percentile percentile' : List F → F → F) {ms : List (Member (ℕ → World))} (hms : ms = members n name S inv E draw m g ntoys available percentile')
  {e : Expect} {s : ℕ → World} (hs : All n N s) {start : ℝ} (hstart : (guess ms e s).1 = .ok (fin start))

theorem parts {E : Ext} {n : ℕ} {bins : ℕ → List Bin} {m : ℕ → Backend.Model} {N : ℕ → ℕ} (h : ∀ i < n, Describes (bins i) (m i) (N i)) (hv : ∀ i < n, Valid (bins i)) (e : Expect) :
    ∃ (P : ℕ → Part) (lo c : ℕ → ℝ), (∀ i < n, Described E e (m i) (P i) (lo i) (N i)) ∧ (∀ i < n, Eliminated E.gammaln (P i) (bins i) (c i)) ∧
      ∀ i < n, (P i).data = at' (used (argsOf (bins i)) e) := by
  have : ∀ i, ∃ (P : Part) (lo c : ℝ), i < n → Described E e (m i) P lo (N i) ∧ Eliminated E.gammaln P (bins i) c ∧ P.data = at' (used (argsOf (bins i)) e) := by
    intro i
    by_cases hi : i < n
    · obtain ⟨P, lo, c, h1⟩ := (h i hi).part (E := E) (hv i hi) e
      exact ⟨P, lo, c, fun _ => h1⟩
    · exact ⟨⟨fun _ => True, fun _ _ _ => 0, fun _ => 0, fun _ _ _ => 0⟩, 0, 0, fun h => absurd h hi⟩
  choose P lo c hP using this
  exact ⟨P, lo, c, fun i hi => (hP i hi).1, fun i hi => (hP i hi).2.1, fun i hi => (hP i hi).2.2⟩

/-- The eliminated likelihoods in terms of the bins. -/
theorem joint_profile {G : ℝ → ℝ} {n : ℕ} {bins bins' : ℕ → List Bin} {D : ℕ → ℕ → ℝ} {c : ℕ → ℝ} (h : ∀ i < n, profileOf G (bins i) (D i) = profile G (bins' i)) (mu : ℝ) :
    profile G (together n bins') mu = ∑ i ∈ Finset.range n, (profileOf G (bins i) (D i) mu - c i) + ∑ i ∈ Finset.range n, c i := by
  rw [together_profile, ← Finset.sum_add_distrib]
  refine Finset.sum_congr rfl fun i hi => ?_
  rw [h i (Finset.mem_range.mp hi)]
  ring

include hS hT hC hfit hn h hv hname hms hs hstart in
theorem combined_levels {mu : Mu} {v : ℝ} (hmu : mu.Is v) (hv0 : 0 ≤ v) : ∃ q qA, IsStat (profile E.gammaln (seen e (together n bins))) v q ∧
    IsStat (profile E.gammaln ((seen e (together n bins)).map (Bin.asimov 0))) v qA ∧
    Ends (All n N) (exclusion (combined fit ms percentile) mu e false .asymptotic) (answer ((combined fit ms percentile).available .asymptotic) e q qA) := by
  obtain ⟨P, lo, c, hP, hc, hd⟩ := parts (E := E) h hv e
  have hb : ∃ b, IsGreatest {x | ∃ i < n, x = lo i} b := by
    obtain ⟨b, -, -, k1, i, hi, k2⟩ := minimum_ends hn fun i hi => (hP i hi).piece hS hT hC draw hi rfl (name i) inv g ntoys (available i) percentile'
    refine ⟨b, ⟨i, hi, k2⟩, ?_⟩
    rintro x ⟨j, hj, rfl⟩
    exact k1 j hj
  obtain ⟨b, hb⟩ := hb
  obtain ⟨best, l, lv, l0, θ, A, bestA, lA, lvA, l0A, k1, ⟨_, k2⟩, k3, hA, k4, ⟨_, k5⟩, -, hE⟩ :=
    C122_levels hfit hS hT hC draw hn hP hname inv g ntoys available percentile percentile' hms hs hstart false hmu hv0 rfl rfl rfl hb rfl
  simp only [Bool.false_eq_true, if_false] at k1 k4
  have d0 : ∀ i < n, ∀ j < (bins i).length, 0 ≤ (P i).data j := fun i hi => by rw [hd i hi]; exact (seen_data (E := E) (hv i hi) e).1
  have d1 : ∀ i < n, profileOf E.gammaln (bins i) (P i).data = profile E.gammaln (seen e (bins i)) := fun i hi => by rw [hd i hi]; exact (seen_data (E := E) (hv i hi) e).2
  obtain ⟨a1, a2⟩ := joint_all hc d0 k1
  have a3 := (joint_at hc d0 hv0 k2).1
  have hA' : ∀ i < n, ∀ j < (bins i).length, A i j = fitted (at' (used (argsOf (bins i)) e) j) (bin (bins i) j).b (bin (bins i) j).σ (0 * (bin (bins i) j).s) := by
    intro i hi j hj
    subst hA
    exact ((joint_at hc d0 le_rfl k3).2 i hi j hj).trans (by rw [hd i hi])
  have e0 : ∀ i < n, ∀ j < (bins i).length, 0 ≤ A i j := fun i hi => (asimov_data (E := E) e 0 (hA' i hi)).1
  have e1 : ∀ i < n, profileOf E.gammaln (bins i) (A i) = profile E.gammaln ((seen e (bins i)).map (Bin.asimov 0)) := fun i hi => (asimov_data (E := E) e 0 (hA' i hi)).2
  obtain ⟨b1, b2⟩ := joint_all hc e0 k4
  have b3 := (joint_at hc e0 hv0 k5).1
  subst a1 a3 b1 b3
  obtain ⟨q, hq, s1⟩ := fit_stat (v := v) (l0 := fin (-l0)) a2
  obtain ⟨qA, hqA, s2⟩ := fit_stat (v := v) (l0 := fin (-l0A)) b2
  refine ⟨q, qA, ?_, ?_, ?_⟩
  · rw [together_seen]
    exact stat_shift hv0 (fun mu _ => joint_profile d1 mu) hq
  · rw [together_seen, together_map]
    exact stat_shift hv0 (fun mu _ => joint_profile e1 mu) hqA
  · rw [← answer_eq (percentile := percentile) (stat_nonneg hq) (stat_nonneg hqA) s1 s2 e]
    exact hE

include hS hT hC hfit hn h hv hname hms hs hstart in
theorem combined_significance : ∃ q qA, IsDiscovery (profile E.gammaln (seen e (together n bins))) q ∧
    IsDiscovery (profile E.gammaln ((seen e (together n bins)).map (Bin.asimov 1))) qA ∧
    Ends (All n N) (significance (combined fit ms percentile) e) (.ok (Stats.discovery (√qA) (√q))) := by
  obtain ⟨P, lo, c, hP, hc, hd⟩ := parts (E := E) h hv e
  obtain ⟨best, l, l0, l1, θ, A, bestA, lA, l0A, k1, ⟨_, k2⟩, k3, hA, k4, ⟨_, k5⟩, hE⟩ :=
    C122_significance hfit hS hT hC draw hn hP hname inv g ntoys available percentile percentile' hms hs hstart rfl rfl rfl
  have d0 : ∀ i < n, ∀ j < (bins i).length, 0 ≤ (P i).data j := fun i hi => by rw [hd i hi]; exact (seen_data (E := E) (hv i hi) e).1
  have d1 : ∀ i < n, profileOf E.gammaln (bins i) (P i).data = profile E.gammaln (seen e (bins i)) := fun i hi => by rw [hd i hi]; exact (seen_data (E := E) (hv i hi) e).2
  obtain ⟨a1, a2⟩ := joint_all hc d0 k1
  have a3 := (joint_at hc d0 le_rfl k2).1
  have hA' : ∀ i < n, ∀ j < (bins i).length, A i j = fitted (at' (used (argsOf (bins i)) e) j) (bin (bins i) j).b (bin (bins i) j).σ (1 * (bin (bins i) j).s) := by
    intro i hi j hj
    subst hA
    exact ((joint_at hc d0 zero_le_one k3).2 i hi j hj).trans (by rw [hd i hi])
  have e0 : ∀ i < n, ∀ j < (bins i).length, 0 ≤ A i j := fun i hi => (asimov_data (E := E) e 1 (hA' i hi)).1
  have e1 : ∀ i < n, profileOf E.gammaln (bins i) (A i) = profile E.gammaln ((seen e (bins i)).map (Bin.asimov 1)) := fun i hi => (asimov_data (E := E) e 1 (hA' i hi)).2
  obtain ⟨b1, b2⟩ := joint_all hc e0 k4
  have b3 := (joint_at hc e0 le_rfl k5).1
  subst a1 a3 b1 b3
  refine ⟨_, _, ?_, ?_, hE⟩
  · rw [together_seen]
    exact discovery_shift (fun mu _ => joint_profile d1 mu) ⟨best, a2, rfl⟩
  · rw [together_seen, together_map]
    exact discovery_shift (fun mu _ => joint_profile e1 mu) ⟨bestA, b2, rfl⟩

end

end Verif.Uncorrelated
