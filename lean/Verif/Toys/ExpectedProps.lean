import Verif.Toys.Props
import Verif.Toys.Quantile

/-!
# Property C178: expected levels from toys
-/

namespace Verif.Toys
open Verif.Py F Verif.Config Verif.Optimizer Verif.Hypotest Verif.Chain
open Verif.Interface (MuHat Data Toys World Size Plain Solver perfect)
open Verif.Backend (Ext Vec Args Built at' poissonLog stdLog)
open Verif.Stats (Expect Calc Levels)
open Verif.Uncorrelated (Bin profile IsBest IsStat Describes Valid profile_concave stat_unique uncorrelated_exists poisson_exists fitted seen)

section
variable {S : Solver} (hS : Exact S) (hT : Finds S) (hC : Interface.Constrained S) {E : Ext} {draw : Vec × List Vec → ℕ → List Vec} (hd : Samples draw)
  {mu : Mu} {v : ℝ} (hmu : mu.Is v) (hv : 0 ≤ v) (g : Bool) {n : ℕ} (hn : 0 < n) {available : Calc → Bool} (hav : available .toy = true) {percentile : List F → F → F} (hM : Linear percentile)
include hS hT hC hd hmu hv hn hav hM

/-- C178: the levels with toys of a simplified likelihood for any expectation. The data `used a e` of that expectation fix the nuisance parameters at which the toys are drawn, and the quantiles of
the statistics of the toys without signal take the place of the statistic of the data. -/
theorem C178_profile (e : Expect) {a : Args} {m : Backend.Model} {y : Vec} {bin : ℕ → ℝ → ℝ} {pen : (ℕ → ℝ) → ℝ} {lo : ℝ} (h : Simple E a m y bin pen lo)
    {ok : (ℕ → ℝ) → Prop} (hok : ok = Admissible a.data.length bin) {L : (ℕ → ℝ) → ℝ → (ℕ → ℝ) → ℝ} (hL : L = logLikelihood E.gammaln a.data.length (at' y) bin pen)
    {P : Vec → ℝ → ℝ} (hP : ∀ D u, 0 ≤ u → ∃ θ, ProfileMax ok (L (at' D)) u (P D u) θ) :
    ∃ l l0 θ θ0 s s0 q qs qb, ProfileMax ok (L (at' (used a e))) v l θ ∧ ProfileMax ok (L (at' (used a e))) 0 l0 θ0 ∧ IsStat (P (used a e)) v q ∧
      List.Forall₂ (fun D q => IsStat (P D) v q) (draw ((List.range a.data.length).map (expectedIn (at' y) bin v θ), s) n) qs ∧
      List.Forall₂ (fun D q => IsStat (P D) v q) (draw ((List.range a.data.length).map (expectedIn (at' y) bin 0 θ0), s0) n) qb ∧
      Ends (Plain (a.data.length + 1)) (exclusion (modelMethods S (plugged E draw m) g none (.int n) available percentile) mu e false .toy) (.ok (toyLevels e q qs qb)) :=
  simple_toys hS hT hC hd e h hmu hv g hn hav (fun _ => hM) hok hL fun D u _ _ hu => hP D u hu

variable {bins : List Bin} {m : Backend.Model} {N : ℕ} (h : Describes bins m N) (hvd : Valid bins)
include h hvd

/-- C178: for bins with independent uncertainties, or none, the likelihoods and the rates are explicit. -/
theorem C178_levels (e : Expect) : ∃ s s0 q qs qb, IsStat (profile E.gammaln (seen e bins)) v q ∧
    List.Forall₂ (fun D q => IsStat (profile E.gammaln (measured bins D)) v q) (draw (rates (seen e bins) v, s) n) qs ∧
    List.Forall₂ (fun D q => IsStat (profile E.gammaln (measured bins D)) v q) (draw (rates (seen e bins) 0, s0) n) qb ∧
    Ends (Plain N) (exclusion (modelMethods S (plugged E draw m) g none (.int n) available percentile) mu e false .toy) (.ok (toyLevels e q qs qb)) := by
  cases h with
  | uncorrelated h => exact uncorrelated_toys hS hT hC hd e h hvd hmu hv g hn hav (fun _ => hM)
  | poisson h hσ => exact poisson_toys hS hT hC h hσ hvd hd e hmu hv g hn hav (fun _ => hM)

/-- C178: what the five levels compare. At `k` standard deviations, `x k` is reached by more than the fraction `1 - Φ(k)` of all but one of the toys without signal, and not exceeded by more than the
fraction `Φ(k)`; it grows with `k`, and the level compares the toys that reach it, of which there is always one without signal. -/
theorem C178_expected (e : Expect) (he : e = .apriori ∨ e = .aposteriori) : ∃ s s0 qs qb, ∃ x : ℝ → ℝ,
    List.Forall₂ (fun D q => IsStat (profile E.gammaln (measured bins D)) v q) (draw (rates (seen e bins) v, s) n) qs ∧
    List.Forall₂ (fun D q => IsStat (profile E.gammaln (measured bins D)) v q) (draw (rates (seen e bins) 0, s0) n) qb ∧
    Monotone x ∧
    (∀ k, (1 - Phi k) * ((n : ℝ) - 1) < (qb.countP fun q => decide (x k ≤ q) : ℕ) ∧ Phi k * ((n : ℝ) - 1) < (qb.countP fun q => decide (q ≤ x k) : ℕ)) ∧
    Ends (Plain N) (exclusion (modelMethods S (plugged E draw m) g none (.int n) available percentile) mu e false .toy)
      (.ok (.one ([(2 : ℝ), 1, 0, -1, -2].map fun k => fin (1 - min ((qs.countP fun q => decide (x k ≤ q) : ℕ) / (qb.countP fun q => decide (x k ≤ q) : ℕ) : ℝ) 1)))) := by
  obtain ⟨s, s0, q, qs, qb, -, h2, h3, h4⟩ := C178_levels hS hT hC hd hmu hv g hn hav hM h hvd e
  have hl : qb.length = n := by rw [← h3.length_eq, (hd _ _ _).1]
  have hne : qb ≠ [] := by
    rintro rfl
    simp at hl
    omega
  have hn1 : ((n - 1 : ℕ) : ℝ) = (n : ℝ) - 1 := by
    rw [Nat.cast_sub hn]
    simp
  have hc : ∀ k, (1 - Phi k) * ((n : ℝ) - 1) < (qb.countP fun q => decide (quantile qb (Phi k) ≤ q) : ℕ) ∧ Phi k * ((n : ℝ) - 1) < (qb.countP fun q => decide (q ≤ quantile qb (Phi k)) : ℕ) := by
    intro k
    have := quantile_counts hne (Phi_nonneg k) (Phi_le_one k)
    rwa [hl, hn1] at this
  refine ⟨s, s0, qs, qb, fun k => quantile qb (Phi k), h2, h3, fun a b hab => quantile_mono hne (Phi_nonneg a) (Phi_mono hab) (Phi_le_one b), hc, ?_⟩
  have hr : ∀ k, ratio (quantile qb (Phi k)) qs qb =
      1 - min ((qs.countP fun q => decide (quantile qb (Phi k) ≤ q) : ℕ) / (qb.countP fun q => decide (quantile qb (Phi k) ≤ q) : ℕ) : ℝ) 1 := by
    intro k
    unfold ratio
    have h0 : 0 ≤ (1 - Phi k) * ((n : ℝ) - 1) := mul_nonneg (by linarith [Phi_le_one k]) (by rw [← hn1]; positivity)
    have : (qb.countP fun q => decide (quantile qb (Phi k) ≤ q)) ≠ 0 := by
      intro hz
      have := (hc k).1
      rw [hz] at this
      simp at this
      linarith
    simp [this]
  have ht : toyLevels e q qs qb = .one ([(2 : ℝ), 1, 0, -1, -2].map fun k => fin (1 - min ((qs.countP fun q => decide (quantile qb (Phi k) ≤ q) : ℕ) / (qb.countP fun q => decide (quantile qb (Phi k) ≤ q) : ℕ) : ℝ) 1)) := by
    simp only [← hr]
    rcases he with rfl | rfl <;> rfl
  rwa [ht] at h4

end

/-- A percentile as it is assumed. -/
noncomputable def exPercentile (l : List F) (k : F) : F :=
  match k with
  | fin k => fin (quantile (l.map fun x => match x with
    | fin x => x
    | _ => 0) (Phi k))
  | _ => nan

theorem exPercentile_linear : Linear exPercentile := by
  intro l k _
  simp [exPercentile, List.map_map, Function.comp_def]

/-- The hypotheses of `C178_levels` and `C178_expected` hold. -/
example (E : Ext) (g : Bool) : ∃ m, Describes [⟨2, 3, 1, 1⟩, ⟨1, 4, 2, 6⟩] m 3 ∧ ∃ f : ℝ → ℝ,
    Ends (Plain 3) (exclusion (modelMethods perfect (plugged E exDraw m) g none (.int 5) (fun _ => true) exPercentile) (.float 1) .aposteriori false .toy)
      (.ok (.one ([(2 : ℝ), 1, 0, -1, -2].map fun k => fin (f k)))) := by
  obtain ⟨m, h⟩ := uncorrelated_exists [⟨2, 3, 1, 1⟩, ⟨1, 4, 2, 6⟩]
  obtain ⟨_, _, qs, qb, x, -, -, -, -, hE⟩ := C178_expected Hypotest.perfect_exact perfect_finds Interface.perfect_constrained (E := E) exDraw_samples (mu := .float 1) (v := 1) rfl zero_le_one g
    (n := 5) (by norm_num) (available := fun _ => true) rfl exPercentile_linear h (by
      refine ⟨fun x hx => ?_, ⟨2, 3, 1, 1⟩, by simp, by norm_num⟩
      simp only [List.mem_cons, List.not_mem_nil, or_false] at hx
      rcases hx with rfl | rfl <;> norm_num [Bin.Proper]) .aposteriori (Or.inr rfl)
  exact ⟨m, h, fun k => 1 - min ((qs.countP fun q => decide (x k ≤ q) : ℕ) / (qb.countP fun q => decide (x k ≤ q) : ℕ) : ℝ) 1, hE⟩

/-- The hypotheses of `C178_profile` hold. -/
example (E : Ext) : ∃ (m : Backend.Model) (bin : ℕ → ℝ → ℝ) (pen : (ℕ → ℝ) → ℝ) (lo : ℝ) (P : Vec → ℝ → ℝ), Simple E exSimple m [5, 2] bin pen lo ∧ Samples exDraw ∧ Linear exPercentile ∧
    ∀ D u, 0 ≤ u → ∃ θ, ProfileMax (Admissible exSimple.data.length bin) (logLikelihood E.gammaln exSimple.data.length (at' [5, 2]) bin pen (at' D)) u (P D u) θ := by
  obtain ⟨m, lo, h⟩ := exModel E
  have key : ∀ (D : Vec) (u : ℝ), ∃ l θ, ProfileMax (Admissible exSimple.data.length _) (logLikelihood E.gammaln exSimple.data.length (at' [5, 2]) _ _ (at' D)) u l θ :=
    fun D u => profile_exists (h.model.tame h.feasible) E.gammaln (at' [5, 2]) (at' D) u
  choose P hP using key
  exact ⟨m, _, _, lo, P, h, exDraw_samples, exPercentile_linear, fun D u _ => hP D u⟩

/-- Random numbers that may come: where more than 4 events are expected, 6, 6 and 0 events; where fewer are, 4, 2 and 1. -/
noncomputable def unlucky (r : Vec × List Vec) (n : ℕ) : List Vec := (List.range n).map fun i =>
  r.1.map (fun x => (((if 4 < x then (if i < 2 then 6 else 0) else if i = 0 then 4 else if i = 1 then 2 else 1) : ℕ) : ℝ)) ++ r.2.map fun _ => 0

theorem unlucky_samples : Samples unlucky := by
  intro r s n
  refine ⟨by simp [unlucky], fun D hD => ?_⟩
  obtain ⟨j, -, rfl⟩ := List.mem_map.mp hD
  refine ⟨by simp, fun h => by simp [h], fun i hi => ⟨if 4 < r[i] then (if j < 2 then 6 else 0) else if j = 0 then 4 else if j = 1 then 2 else 1, ?_⟩⟩
  simp [at', List.getD, List.getElem?_append_left, hi]

theorem four_best (G : ℝ → ℝ) : IsBest (profile G (one 2 3 0 4)) (1 / 2) ∧ profile G (one 2 3 0 4) 1 < profile G (one 2 3 0 4) (1 / 2) := by
  have e : ∀ mu : ℝ, 0 ≤ mu → profile G (one 2 3 0 4) mu = 4 * Real.log (mu * 2 + 3) - (mu * 2 + 3) - G 5 + stdLog 0 := by
    intro mu hmu
    simp only [profile, one, List.map_cons, List.map_nil, List.sum_cons, List.sum_nil, _root_.add_zero, Uncorrelated.binLog]
    rw [Uncorrelated.fitted_none (by norm_num) (by positivity)]
    simp only [div_zero, poissonLog]
    norm_num
  refine ⟨⟨by norm_num, by norm_num, fun mu h0 _ => ?_⟩, ?_⟩
  · rw [e mu h0, e (1 / 2) (by norm_num)]
    have : Real.log (mu * 2 + 3) - Real.log 4 ≤ (mu * 2 + 3) / 4 - 1 := by
      rw [← Real.log_div (by positivity) (by norm_num)]
      exact Real.log_le_sub_one_of_pos (by positivity)
    norm_num at this ⊢
    linarith
  · rw [e 1 zero_le_one, e (1 / 2) (by norm_num)]
    have : Real.log 5 - Real.log 4 < 5 / 4 - 1 := by
      rw [← Real.log_div (by positivity) (by norm_num)]
      exact Real.log_lt_sub_one_of_pos (by norm_num) (by norm_num)
    norm_num at this ⊢
    linarith

/-- C178: the levels need not fall from two standard deviations up to two down. Where 3 events are expected without signal and 5 with it, the toys may be such that signal is expected to be
excluded at the level 1/2 without fluctuation, but not at all one or two standard deviations up. -/
theorem C178_order_fails (E : Ext) (g : Bool) : ∃ m, Describes (one 2 3 0 1) m 1 ∧ Samples unlucky ∧ Linear exPercentile ∧ ∀ e, (e = .apriori ∨ e = .aposteriori) → ∃ x y,
    Ends (Plain 1) (exclusion (modelMethods perfect (plugged E unlucky m) g none (.int 3) (fun _ => true) exPercentile) (.float 1) e false .toy)
      (.ok (.one [fin 0, fin 0, fin (1 / 2), fin x, fin y])) := by
  obtain ⟨m, h⟩ := poisson_exists (one 2 3 0 1) (by simp [one])
  refine ⟨m, h, unlucky_samples, exPercentile_linear, fun e he => ?_⟩
  obtain ⟨t, t0, q, qs, qb, -, h2, h3, h4⟩ := C178_levels Hypotest.perfect_exact perfect_finds Interface.perfect_constrained (E := E) unlucky_samples (mu := .float 1) (v := 1) rfl zero_le_one g
    (n := 3) (by norm_num) (available := fun _ => true) rfl exPercentile_linear h (by
      refine ⟨fun x hx => ?_, ⟨2, 3, 0, 1⟩, by simp [one], by norm_num⟩
      simp only [one, List.mem_singleton] at hx
      subst hx
      norm_num [Bin.Proper]) e
  have hr : ∀ u : ℝ, 0 ≤ u → rates (seen e (one 2 3 0 1)) u = [u * 2 + 3] := by
    intro u hu
    rcases he with rfl | rfl <;>
      simp only [rates, seen, one, Bin.prior, List.map_cons, List.map_nil, if_true, reduceCtorEq, if_false] <;> rw [Uncorrelated.fitted_none (by norm_num) (by linarith)]
  rw [hr 1 zero_le_one] at h2
  rw [hr 0 le_rfl] at h3
  have u2 : unlucky ([1 * 2 + 3], t) 3 = [6, 6, 0].map fun d => d :: t.map fun _ => (0 : ℝ) := by
    norm_num [unlucky, List.range_succ]
  have u3 : unlucky ([0 * 2 + 3], t0) 3 = [4, 2, 1].map fun d => d :: t0.map fun _ => (0 : ℝ) := by
    norm_num [unlucky, List.range_succ]
  rw [u2] at h2
  rw [u3] at h3
  simp only [List.map_cons, List.map_nil, one_measured] at h2 h3
  cases h2 with | @cons _ q6 _ _ a1 h2 =>
  cases h2 with | @cons _ q6' _ _ a2 h2 =>
  cases h2 with | @cons _ q0 _ _ a3 h2 =>
  cases h2
  cases h3 with | @cons _ q4 _ _ b1 h3 =>
  cases h3 with | @cons _ q2 _ _ b2 h3 =>
  cases h3 with | @cons _ q1 _ _ b3 h3 =>
  cases h3
  simp only [at', List.getD_cons_zero] at a1 a2 a3 b1 b2 b3
  have hq4 : 0 < q4 := by
    obtain ⟨k1, k2⟩ := four_best E.gammaln
    have hp : ∀ z ∈ one 2 3 0 4, z.Proper := by
      intro z hz
      simp only [one, List.mem_singleton] at hz
      subst hz
      norm_num [Bin.Proper]
    rw [stat_unique (profile_concave _ hp) b1 ⟨1 / 2, k1, fun _ => rfl, fun hlt => absurd hlt (by norm_num)⟩]
    exact lt_of_lt_of_le (by linarith) (le_max_left _ _)
  have st : ∀ {d q : ℝ}, 0 ≤ d → IsStat (profile E.gammaln (one 2 3 0 d)) 1 q → 0 < q → ∀ {k : ℕ} {q'}, IsStat (profile E.gammaln (one 2 3 0 k)) 1 q' → (q ≤ q' ↔ (k : ℝ) ≤ d) :=
    fun h0 hq hp k q' hq' => one_stat E.gammaln (by norm_num) (by norm_num) le_rfl h0 ⟨k, rfl⟩ hq hq' hp
  have c0 : IsStat (profile E.gammaln (one 2 3 0 (0 : ℕ))) 1 q0 := by simpa using a3
  have c1 : IsStat (profile E.gammaln (one 2 3 0 (1 : ℕ))) 1 q1 := by simpa using b3
  have c2 : IsStat (profile E.gammaln (one 2 3 0 (2 : ℕ))) 1 q2 := by simpa using b2
  have c4 : IsStat (profile E.gammaln (one 2 3 0 (4 : ℕ))) 1 q4 := by simpa using b1
  have c6 : IsStat (profile E.gammaln (one 2 3 0 (6 : ℕ))) 1 q6 := by simpa using a1
  have c6' : IsStat (profile E.gammaln (one 2 3 0 (6 : ℕ))) 1 q6' := by simpa using a2
  have hq2 : 0 < q2 := hq4.trans_le ((st (by norm_num) b1 hq4 c2).mpr (by norm_num))
  have hq1 : 0 < q1 := hq4.trans_le ((st (by norm_num) b1 hq4 c1).mpr (by norm_num))
  have l42 : q4 < q2 := not_le.mp fun hle => absurd ((st (by norm_num) b2 hq2 c4).mp hle) (by norm_num)
  have l21 : q2 < q1 := not_le.mp fun hle => absurd ((st (by norm_num) b3 hq1 c2).mp hle) (by norm_num)
  have l62 : q6 < q2 := not_le.mp fun hle => absurd ((st (by norm_num) b2 hq2 c6).mp hle) (by norm_num)
  have l62' : q6' < q2 := not_le.mp fun hle => absurd ((st (by norm_num) b2 hq2 c6').mp hle) (by norm_num)
  have l10 : q1 ≤ q0 := (st (by norm_num) b3 hq1 c0).mpr (by norm_num)
  have hsort : [q4, q2, q1].insertionSort (· ≤ ·) = [q4, q2, q1] := by
    apply List.Pairwise.insertionSort_eq
    simp [l42.le, l21.le, (l42.trans l21).le]
  have mid : quantile [q4, q2, q1] (Phi 0) = q2 := by
    unfold quantile
    simp only [hsort, Phi_zero]
    norm_num
  have up : ∀ k : ℝ, 0 < k → q2 < quantile [q4, q2, q1] (Phi k) ∧ quantile [q4, q2, q1] (Phi k) ≤ q1 := by
    intro k hk
    have p1 := Phi_strictMono hk
    rw [Phi_zero] at p1
    have p2 := Phi_lt_one k
    have hf : ⌊Phi k * ((2 : ℕ) : ℝ)⌋₊ = 1 := by
      rw [Nat.floor_eq_iff (by push_cast; linarith)]
      push_cast
      constructor <;> linarith
    unfold quantile
    simp only [hsort, List.length_cons, List.length_nil]
    norm_num at hf ⊢
    rw [hf]
    norm_num
    constructor <;> nlinarith
  have rmid : ratio (quantile [q4, q2, q1] (Phi 0)) [q6, q6', q0] [q4, q2, q1] = 1 / 2 := by
    rw [mid]
    simp [ratio, List.countP_cons, not_le.mpr l42, l21.le, not_le.mpr l62, not_le.mpr l62', (l21.le.trans l10)]
    norm_num
  have rup : ∀ k : ℝ, 0 < k → ratio (quantile [q4, q2, q1] (Phi k)) [q6, q6', q0] [q4, q2, q1] = 0 := by
    intro k hk
    obtain ⟨w1, w2⟩ := up k hk
    simp [ratio, List.countP_cons, not_le.mpr (l42.trans w1), not_le.mpr w1, w2, not_le.mpr (l62.trans w1), not_le.mpr (l62'.trans w1), w2.trans l10]
  have ht : toyLevels e q [q6, q6', q0] [q4, q2, q1] = .one [fin 0, fin 0, fin (1 / 2), fin (ratio (quantile [q4, q2, q1] (Phi (-1))) [q6, q6', q0] [q4, q2, q1]),
      fin (ratio (quantile [q4, q2, q1] (Phi (-2))) [q6, q6', q0] [q4, q2, q1])] := by
    rw [← rmid]
    rcases he with rfl | rfl <;> simp only [toyLevels, List.map_cons, List.map_nil, rup 2 (by norm_num), rup 1 (by norm_num)]
  rw [ht] at h4
  exact ⟨_, _, h4⟩

end Verif.Toys
