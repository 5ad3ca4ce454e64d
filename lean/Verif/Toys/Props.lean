import Verif.Toys.Models
import Verif.Toys.Strict
import Verif.Uncorrelated.Props

/-!
# Property C168: levels from toys of the models of spey
-/

namespace Verif.Toys
open Verif.Py F Verif.Config Verif.Optimizer Verif.Hypotest Verif.Chain
open Verif.Interface (MuHat Data Toys World Size Plain Solver perfect)
open Verif.Backend (Ext Vec Args Built at' poissonLog stdLog)
open Verif.Stats (Expect Calc Levels)
open Verif.Uncorrelated (Bin profile IsBest IsStat Describes Valid profile_concave profile_rises stat_falls stat_nonneg stat_unique uncorrelated_exists poisson_exists More fitted)

theorem all_counted {v : ℝ} {P : Vec → ℝ → ℝ} {ds : List Vec} {qs : List ℝ} (h : List.Forall₂ (fun D q => IsStat (P D) v q) ds qs) : qs.countP (fun x => decide (0 ≤ x)) = ds.length := by
  rw [h.length_eq, List.countP_eq_length]
  intro q hq
  obtain ⟨i, hi, rfl⟩ := List.mem_iff_getElem.mp hq
  have := List.Forall₂.get h (by rw [h.length_eq]; exact hi) hi
  simpa using stat_nonneg this

/-- C168: the toys of a simplified likelihood are drawn with the auxiliary measurements: `x` are the parameters the toys are drawn at, and one constraint of the nuisance parameters is sampled with the
expected events. -/
theorem C168_auxiliary {E : Ext} (draw : Vec × List Vec → ℕ → List Vec) {a : Args} {m : Backend.Model} {y : Vec} {bin : ℕ → ℝ → ℝ} {pen : (ℕ → ℝ) → ℝ} {lo : ℝ} (h : Simple E a m y bin pen lo)
    {x : Vec} (hx : x.length = a.data.length + 1) :
    ∃ aux, (plugged E draw m).sampler x = .ok (draw ((List.range a.data.length).map (expectedIn (at' y) bin (at' x 0) fun i => at' x (1 + i)), [aux])) := by
  obtain ⟨s, hs, h1⟩ := simple_sampler draw h hx
  obtain ⟨t, rfl⟩ := List.length_eq_one_iff.mp h1
  exact ⟨t, hs⟩

/-- The hypotheses are met by two bins with uncertainties. -/
example (E : Ext) : ∃ m aux, (plugged E (fun p n => List.replicate n (p.1 ++ p.2.flatten)) m).sampler [1, 0, 0] = .ok fun n => List.replicate n (([2 + 3, 1 + 4] : Vec) ++ aux) := by
  obtain ⟨m, h⟩ := Uncorrelated.uncorrelated_model [⟨2, 3, 1, 1⟩, ⟨1, 4, 2, 6⟩]
  obtain ⟨lo, hl⟩ := Uncorrelated.simple (E := E) h (by
      refine ⟨fun x hx => ?_, ⟨2, 3, 1, 1⟩, by simp, by norm_num⟩
      simp only [List.mem_cons, List.not_mem_nil, or_false] at hx
      rcases hx with rfl | rfl <;> norm_num [Bin.Proper])
  obtain ⟨aux, ha⟩ := C168_auxiliary (fun p n => List.replicate n (p.1 ++ p.2.flatten)) hl (x := [1, 0, 0]) rfl
  refine ⟨m, aux, ha.trans ?_⟩
  norm_num [Uncorrelated.argsOf, List.range_succ, expectedIn, at', Uncorrelated.level]

section
variable {S : Solver} (hS : Exact S) (hT : Finds S) (hC : Interface.Constrained S) {E : Ext} {draw : Vec × List Vec → ℕ → List Vec} (hd : Samples draw)
  {mu : Mu} {v : ℝ} (hmu : mu.Is v) (hv : 0 ≤ v) (g : Bool) {n : ℕ} (hn : 0 < n) {available : Calc → Bool} (hav : available .toy = true) (percentile : List F → F → F)
include hS hT hC hd hmu hv hn hav

/-- C168: the observed level with toys of a simplified likelihood. The toys are drawn at the expected events for the tested strength and without signal, each with the nuisance parameters that fit the data
best; `P D` is the profile likelihood of the data `D`, and the statistics are those of this likelihood. -/
theorem C168_profile {a : Args} {m : Backend.Model} {y : Vec} {bin : ℕ → ℝ → ℝ} {pen : (ℕ → ℝ) → ℝ} {lo : ℝ} (h : Simple E a m y bin pen lo)
    {ok : (ℕ → ℝ) → Prop} (hok : ok = Admissible a.data.length bin) {L : (ℕ → ℝ) → ℝ → (ℕ → ℝ) → ℝ} (hL : L = logLikelihood E.gammaln a.data.length (at' y) bin pen)
    {P : Vec → ℝ → ℝ} (hP : ∀ D u, 0 ≤ u → ∃ θ, ProfileMax ok (L (at' D)) u (P D u) θ) :
    ∃ l l0 θ θ0 s s0 q qs qb, ProfileMax ok (L (at' a.data)) v l θ ∧ ProfileMax ok (L (at' a.data)) 0 l0 θ0 ∧ IsStat (P a.data) v q ∧
      List.Forall₂ (fun D q => IsStat (P D) v q) (draw ((List.range a.data.length).map (expectedIn (at' y) bin v θ), s) n) qs ∧
      List.Forall₂ (fun D q => IsStat (P D) v q) (draw ((List.range a.data.length).map (expectedIn (at' y) bin 0 θ0), s0) n) qb ∧
      Ends (Plain (a.data.length + 1)) (exclusion (modelMethods S (plugged E draw m) g none (.int n) available percentile) mu .observed false .toy)
        (.ok (.one [fin (ratio q qs qb)])) :=
  simple_toys hS hT hC hd .observed h hmu hv g hn hav (fun h => absurd rfl h) hok hL fun D u _ _ hu => hP D u hu

variable {bins : List Bin} {m : Backend.Model} {N : ℕ} (h : Describes bins m N) (hvd : Valid bins)
include h hvd

/-- C168: for bins with independent uncertainties, or none, both likelihoods are explicit. -/
theorem C168_levels : ∃ s s0 q qs qb, IsStat (profile E.gammaln bins) v q ∧
    List.Forall₂ (fun D q => IsStat (profile E.gammaln (measured bins D)) v q) (draw (rates bins v, s) n) qs ∧
    List.Forall₂ (fun D q => IsStat (profile E.gammaln (measured bins D)) v q) (draw (rates bins 0, s0) n) qb ∧
    Ends (Plain N) (exclusion (modelMethods S (plugged E draw m) g none (.int n) available percentile) mu .observed false .toy) (.ok (.one [fin (ratio q qs qb)])) := by
  cases h with
  | uncorrelated h => exact uncorrelated_toys hS hT hC hd .observed h hvd hmu hv g hn hav (fun h => absurd rfl h)
  | poisson h hσ => exact poisson_toys hS hT hC h hσ hvd hd .observed hmu hv g hn hav (fun h => absurd rfl h)

/-- C168: a strength below one that fits the data best is not excluded at all, whatever the toys are. -/
theorem C168_zero {best : ℝ} (hb : IsBest (profile E.gammaln bins) best) (hbv : v ≤ best) :
    Ends (Plain N) (exclusion (modelMethods S (plugged E draw m) g none (.int n) available percentile) mu .observed false .toy) (.ok (.one [fin 0])) := by
  obtain ⟨s, s0, q, qs, qb, h1, h2, h3, h4⟩ := C168_levels hS hT hC hd hmu hv g hn hav percentile h hvd
  have hq : q = 0 := stat_unique (profile_concave _ hvd.1) h1 ⟨best, hb, fun hle => by rw [le_antisymm hbv hle]; simp, fun _ => rfl⟩
  have : ratio q qs qb = 0 := by
    subst hq
    unfold ratio
    simp only [all_counted h2, all_counted h3, (hd _ _ _).1]
    have : (n : ℝ) ≠ 0 := by positivity
    simp [hn.ne', this]
  rwa [this] at h4

end

/-- A count: its expected events with signal of strength one and without, the uncertainty of the latter, and the events. -/
def one (s b σ d : ℝ) : List Bin := [⟨s, b, σ, d⟩]

theorem one_measured (s b σ d : ℝ) (D : Vec) : measured (one s b σ d) D = one s b σ (at' D 0) := rfl

/-- The toys with at least the statistic of the data are those with at most its number of events. -/
theorem one_stat (G : ℝ → ℝ) {s b σ d d' v q q' : ℝ} (hs : 0 < s) (hb : 1 / 10 ^ 20 ≤ b) (hσ : 0 ≤ σ) (hd : 0 ≤ d) (hd' : ∃ k : ℕ, d' = k)
    (hq : IsStat (profile G (one s b σ d)) v q) (hq' : IsStat (profile G (one s b σ d')) v q') (h0 : 0 < q) : q ≤ q' ↔ d' ≤ d := by
  have proper : ∀ x, 0 ≤ x → ∀ z ∈ one s b σ x, z.Proper := by
    intro x hx z hz
    simp only [one, List.mem_singleton] at hz
    subst hz
    exact ⟨hs.le, hb, hσ, hx⟩
  obtain ⟨k, rfl⟩ := hd'
  constructor
  · intro h
    by_contra hlt
    rw [not_le] at hlt
    have hk : (1 : ℝ) ≤ k := by
      have : 0 < k := by
        have : (0 : ℝ) < k := lt_of_le_of_lt hd hlt
        exact_mod_cast this
      exact_mod_cast this
    refine absurd h (not_le.mpr (stat_below (fun x y hx hxy => ?_) hq hq' h0))
    have := bin_more G hd hlt (lt_of_lt_of_le (by norm_num) hk) hb hσ (mul_nonneg hx hs.le) (mul_lt_mul_of_pos_right hxy hs)
    simpa [profile, one] using this
  · intro h
    have hr : List.Forall₂ More (one s b σ k) (one s b σ d) := .cons ⟨rfl, rfl, rfl, h⟩ .nil
    exact stat_falls (profile_concave G (proper _ (by positivity))) (profile_rises G (proper _ (by positivity)) hr) hq' hq

/-- What the CLs criterion says of counts: one minus the fraction of the number of toys with at most `d` events with signal and without, if it is at most one. -/
noncomputable def countRatio (d : ℝ) (sig bkg : List Vec) : ℝ :=
  let a := sig.countP fun D => decide (at' D 0 ≤ d)
  let b := bkg.countP fun D => decide (at' D 0 ≤ d)
  if b = 0 then 1 else 1 - min ((a : ℝ) / b) 1

theorem one_counted (G : ℝ → ℝ) {s b σ d v q : ℝ} (hs : 0 < s) (hb : 1 / 10 ^ 20 ≤ b) (hσ : 0 ≤ σ) (hd : 0 ≤ d) (hq : IsStat (profile G (one s b σ d)) v q) (h0 : 0 < q)
    {ds : List Vec} {qs : List ℝ} (h : List.Forall₂ (fun D q => IsStat (profile G (measured (one s b σ d) D)) v q) ds qs) (hk : ∀ D ∈ ds, ∃ k : ℕ, at' D 0 = k) :
    qs.countP (fun x => decide (q ≤ x)) = ds.countP fun D => decide (at' D 0 ≤ d) := by
  induction h with
  | nil => rfl
  | @cons D x ds qs h1 _ ih =>
    rw [List.countP_cons, List.countP_cons, ih fun D hD => hk D (by simp [hD])]
    have := one_stat G hs hb hσ hd (hk D (by simp)) hq h1 h0
    simp only [this]

section
variable {S : Solver} (hS : Exact S) (hT : Finds S) (hC : Interface.Constrained S) {E : Ext} {draw : Vec × List Vec → ℕ → List Vec} (hd : Samples draw)
  {mu : Mu} {v : ℝ} (hmu : mu.Is v) (hv : 0 ≤ v) (g : Bool) {n : ℕ} (hn : 0 < n) {available : Calc → Bool} (hav : available .toy = true) (percentile : List F → F → F)
  {s b σ d : ℝ} (hs : 0 < s) (hb : 1 / 10 ^ 20 ≤ b) (hσ : 0 ≤ σ) (hd0 : 0 ≤ d) {m : Backend.Model} {N : ℕ} (h : Describes (one s b σ d) m N)
include hS hT hC hd hmu hv hn hav hs hb hσ hd0 h

/-- C168: for a single count, the level of a strength beyond the one that fits best compares the numbers of toys with at most as many events as were seen. The toys are drawn
at the yields that fit the data best for the tested strength and without signal. -/
theorem C168_count {best : ℝ} (hbest : IsBest (profile E.gammaln (one s b σ d)) best) (hbv : best < v) (hlt : profile E.gammaln (one s b σ d) v < profile E.gammaln (one s b σ d) best) :
    ∃ t t0, Ends (Plain N) (exclusion (modelMethods S (plugged E draw m) g none (.int n) available percentile) mu .observed false .toy)
      (.ok (.one [fin (countRatio d (draw ([fitted d b σ (v * s)], t) n) (draw ([fitted d b σ (0 * s)], t0) n))])) := by
  have hvd : Valid (one s b σ d) := ⟨fun x hx => by
    simp only [one, List.mem_singleton] at hx
    subst hx
    exact ⟨hs.le, hb, hσ, hd0⟩, ⟨s, b, σ, d⟩, by simp [one], hs⟩
  obtain ⟨t, t0, q, qs, qb, h1, h2, h3, h4⟩ := C168_levels hS hT hC hd hmu hv g hn hav percentile h hvd
  have hq : 0 < q := by
    rw [stat_unique (profile_concave _ hvd.1) h1 ⟨best, hbest, fun _ => rfl, fun hlt => absurd hlt (not_lt.mpr hbv.le)⟩]
    exact lt_of_lt_of_le (by linarith) (le_max_left _ _)
  have hk : ∀ r t, ∀ D ∈ draw ([r], t) n, ∃ k : ℕ, at' D 0 = k := fun r t D hD => ((hd [r] t n).2 D hD).2.2 0 (by simp)
  have c1 := one_counted E.gammaln hs hb hσ hd0 h1 hq h2 (hk _ t)
  have c2 := one_counted E.gammaln hs hb hσ hd0 h1 hq h3 (hk _ t0)
  refine ⟨t, t0, ?_⟩
  have : ratio q qs qb = countRatio d (draw ([fitted d b σ (v * s)], t) n) (draw ([fitted d b σ (0 * s)], t0) n) := by
    unfold ratio countRatio
    rw [c1, c2]
    rfl
  rwa [this] at h4

end

/-- Random numbers as they are assumed: the rates rounded down, then always one less, and zeros for auxiliary data. -/
noncomputable def exDraw (r : Vec × List Vec) (n : ℕ) : List Vec := (List.range n).map fun i => r.1.map (fun x => ((⌊x⌋₊ - i : ℕ) : ℝ)) ++ r.2.map fun _ => 0

theorem exDraw_samples : Samples exDraw := by
  intro r s n
  refine ⟨by simp [exDraw], fun D hD => ?_⟩
  obtain ⟨j, -, rfl⟩ := List.mem_map.mp hD
  refine ⟨by simp, fun h => by simp [h], fun i hi => ⟨⌊r[i]⌋₊ - j, ?_⟩⟩
  simp [at', List.getD, List.getElem?_append_left, hi]

theorem ex_best (G : ℝ → ℝ) : IsBest (profile G (one 2 3 0 1)) 0 ∧ profile G (one 2 3 0 1) 1 < profile G (one 2 3 0 1) 0 := by
  have e : ∀ mu : ℝ, 0 ≤ mu → profile G (one 2 3 0 1) mu = Real.log (mu * 2 + 3) - (mu * 2 + 3) - G 2 + stdLog 0 := by
    intro mu hmu
    simp only [profile, one, List.map_cons, List.map_nil, List.sum_cons, List.sum_nil, _root_.add_zero, Uncorrelated.binLog]
    rw [Uncorrelated.fitted_none (by norm_num) (by positivity)]
    simp only [div_zero, poissonLog]
    norm_num
  have hlog : ∀ mu : ℝ, 0 ≤ mu → Real.log (mu * 2 + 3) - Real.log 3 ≤ mu * 2 / 3 := by
    intro mu hmu
    rw [← Real.log_div (by positivity) (by norm_num)]
    have := Real.log_le_sub_one_of_pos (by positivity : 0 < (mu * 2 + 3) / 3)
    linarith
  refine ⟨⟨le_rfl, by norm_num, fun mu h0 _ => ?_⟩, ?_⟩
  · rw [e mu h0, e 0 le_rfl]
    have := hlog mu h0
    norm_num at this ⊢
    linarith
  · rw [e 1 zero_le_one, e 0 le_rfl]
    have := hlog 1 zero_le_one
    norm_num at this ⊢
    linarith

/-- One event was seen, 3 are expected without signal and 5 with it. Of the five toys with signal, which have 5, 4, 3, 2 and 1 events, one has at most one event; of those without, which have
3, 2, 1, 0 and 0 events, three have: the level is 2/3. The hypotheses of `C168_count` hold. -/
example (E : Ext) (g : Bool) (percentile : List F → F → F) : ∃ m, Describes (one 2 3 0 1) m 1 ∧
    Ends (Plain 1) (exclusion (modelMethods perfect (plugged E exDraw m) g none (.int 5) (fun _ => true) percentile) (.float 1) .observed false .toy) (.ok (.one [fin (2 / 3)])) := by
  obtain ⟨m, h⟩ := poisson_exists (one 2 3 0 1) (by simp [one])
  obtain ⟨k1, k2⟩ := ex_best E.gammaln
  obtain ⟨t, t0, hE⟩ := C168_count Hypotest.perfect_exact perfect_finds Interface.perfect_constrained (E := E) exDraw_samples (mu := .float 1) (v := 1) rfl zero_le_one g
    (n := 5) (by norm_num) (available := fun _ => true) rfl percentile (by norm_num : (0 : ℝ) < 2) (by norm_num) le_rfl zero_le_one h k1 zero_lt_one k2
  refine ⟨m, h, ?_⟩
  rw [Uncorrelated.fitted_none (by norm_num) (by norm_num), Uncorrelated.fitted_none (by norm_num) (by norm_num)] at hE
  have e5 : ⌊(1 : ℝ) * 2 + 3⌋₊ = 5 := by rw [show (1 : ℝ) * 2 + 3 = (5 : ℕ) by norm_num, Nat.floor_natCast]
  have e3 : ⌊(0 : ℝ) * 2 + 3⌋₊ = 3 := by rw [show (0 : ℝ) * 2 + 3 = (3 : ℕ) by norm_num, Nat.floor_natCast]
  have : countRatio 1 (exDraw ([1 * 2 + 3], t) 5) (exDraw ([0 * 2 + 3], t0) 5) = 2 / 3 := by
    simp only [countRatio, exDraw, List.map_cons, List.map_nil, e5, e3, List.range_succ, List.range_zero, List.nil_append, List.map_append, List.countP_append, List.countP_cons,
      List.countP_nil, at', List.cons_append, List.getD_cons_zero]
    norm_num
  rwa [this] at hE

/-- With an uncertainty, or with several bins, too. -/
example (E : Ext) (g : Bool) (percentile : List F → F → F) : ∃ m, Describes [⟨2, 3, 1, 1⟩, ⟨1, 4, 2, 6⟩] m 3 ∧ ∃ r : ℝ,
    Ends (Plain 3) (exclusion (modelMethods perfect (plugged E exDraw m) g none (.int 5) (fun _ => true) percentile) (.float 1) .observed false .toy) (.ok (.one [fin r])) := by
  obtain ⟨m, h⟩ := uncorrelated_exists [⟨2, 3, 1, 1⟩, ⟨1, 4, 2, 6⟩]
  obtain ⟨_, _, _, _, _, -, -, -, hE⟩ := C168_levels Hypotest.perfect_exact perfect_finds Interface.perfect_constrained (E := E) exDraw_samples (mu := .float 1) (v := 1) rfl zero_le_one g
    (n := 5) (by norm_num) (available := fun _ => true) rfl percentile h (by
      refine ⟨fun x hx => ?_, ⟨2, 3, 1, 1⟩, by simp, by norm_num⟩
      simp only [List.mem_cons, List.not_mem_nil, or_false] at hx
      rcases hx with rfl | rfl <;> norm_num [Bin.Proper])
  exact ⟨m, h, _, hE⟩

/-- The hypotheses of `C168_zero` hold: 5 events where 3 are expected fit best with half of a signal of 4 events. -/
example (G : ℝ → ℝ) : IsBest (profile G (one 4 3 0 5)) (1 / 2) ∧ Samples exDraw := by
  have e : ∀ mu : ℝ, 0 ≤ mu → profile G (one 4 3 0 5) mu = 5 * Real.log (mu * 4 + 3) - (mu * 4 + 3) - G 6 + stdLog 0 := by
    intro mu hmu
    simp only [profile, one, List.map_cons, List.map_nil, List.sum_cons, List.sum_nil, _root_.add_zero, Uncorrelated.binLog]
    rw [Uncorrelated.fitted_none (by norm_num) (by positivity)]
    simp only [div_zero, poissonLog]
    norm_num
  refine ⟨⟨by norm_num, by norm_num, fun mu h0 _ => ?_⟩, exDraw_samples⟩
  rw [e mu h0, e (1 / 2) (by norm_num)]
  have : Real.log (mu * 4 + 3) - Real.log 5 ≤ (mu * 4 + 3) / 5 - 1 := by
    rw [← Real.log_div (by positivity) (by norm_num)]
    exact Real.log_le_sub_one_of_pos (by positivity)
  norm_num at this ⊢
  linarith

/-- `C168_profile` asks of the likelihood only what `C117` does, and the profile likelihood exists. -/
example (E : Ext) : ∃ (m : Backend.Model) (bin : ℕ → ℝ → ℝ) (pen : (ℕ → ℝ) → ℝ) (lo : ℝ) (P : Vec → ℝ → ℝ), Simple E exSimple m [5, 2] bin pen lo ∧ Samples exDraw ∧
    ∀ D u, 0 ≤ u → ∃ θ, ProfileMax (Admissible exSimple.data.length bin) (logLikelihood E.gammaln exSimple.data.length (at' [5, 2]) bin pen (at' D)) u (P D u) θ := by
  obtain ⟨m, lo, h⟩ := exModel E
  have key : ∀ (D : Vec) (u : ℝ), ∃ l θ, ProfileMax (Admissible exSimple.data.length _) (logLikelihood E.gammaln exSimple.data.length (at' [5, 2]) _ _ (at' D)) u l θ :=
    fun D u => profile_exists (h.model.tame h.feasible) E.gammaln (at' [5, 2]) (at' D) u
  choose P hP using key
  exact ⟨m, _, _, lo, P, h, exDraw_samples, fun D u _ => hP D u⟩

end Verif.Toys
