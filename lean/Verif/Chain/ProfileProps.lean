import Verif.Chain.Profile

/-!
# C117: hypothesis tests of the simplified models

The four simplified likelihoods of spey inside `StatisticalModel`: all fits of the tests end with the best points of the likelihood.
-/

namespace Verif.Chain
open Verif.Py F Verif.Config Verif.Optimizer Verif.Hypotest
open Verif.Interface (MuHat Data Toys World Size Plain Solver Candidate Allowed InBounds Satisfies perfect)
open Verif.Backend (Ext Vec Args Built Fits Simplified WithMatrix at' signalAt factorAt poissonLog stdLog mvnLog)
open Verif.Stats (Expect Calc Levels)

/-- The simplified likelihoods of spey, the expected background of bin `i` as a function of its nuisance parameter, and the constraint term: independent
standard normal terms, or a multivariate normal term with a correlation matrix (whose inverse is positive). -/
inductive Nuisance (E : Ext) (a : Args) (m : Backend.Model) : (ℕ → ℝ → ℝ) → ((ℕ → ℝ) → ℝ) → Prop
  | uncorrelated (sigma : Vec) (h : Backend.uncorrelated a sigma = .ok m) (hl : sigma.length = a.data.length) :
      Nuisance E a m (fun i t => at' a.background i + at' sigma i * t) fun θ => ∑ i ∈ Finset.range a.data.length, stdLog (θ i)
  | matrix (bin : ℕ → ℝ → ℝ) (corr : List Vec) (h : WithMatrix a m bin corr) (hi1 : (E.inv corr).length = a.data.length)
      (hi2 : ∀ r ∈ E.inv corr, r.length = a.data.length) (hP : Positive a.data.length fun i j => at' ((E.inv corr).getD i []) j) :
      Nuisance E a m bin (mvnLog a.data.length (fun i j => at' ((E.inv corr).getD i []) j) (E.logdet corr))

/-- Everything that C117 asks of the model: a simplified likelihood with a signal that has neither parameters nor uncertainties, yields of the right
lengths, non-negative backgrounds (also for some values of the nuisance parameters) and at least one positive signal yield. -/
structure Simple (E : Ext) (a : Args) (m : Backend.Model) (y : Vec) (bin : ℕ → ℝ → ℝ) (pen : (ℕ → ℝ) → ℝ) (lo : ℝ) : Prop where
  model : Nuisance E a m bin pen
  fits : Fits a
  modifiers : a.modifiers = none
  parameters : a.nsp = 0
  signal : a.signal = .array y
  positive : ∃ i < a.data.length, 0 < at' y i
  background : ∀ i < a.data.length, 0 ≤ at' a.background i
  feasible : ∃ θ, Admissible a.data.length bin θ
  lowest : m.config.minimumPoi = fin lo

theorem Nuisance.simplified {E : Ext} {a : Args} {m : Backend.Model} {bin pen} (h : Nuisance E a m bin pen) (hf : Fits a) : Simplified a m bin := by
  cases h with
  | uncorrelated sigma h hl => exact .uncorrelated sigma h hl
  | matrix _ corr h hi1 hi2 hP => exact (h.shape hf).1

theorem Nuisance.tame {E : Ext} {a : Args} {m : Backend.Model} {bin pen} (h : Nuisance E a m bin pen) (hn : ∃ θ, Admissible a.data.length bin θ) :
    Tame a.data.length bin pen := by
  cases h with
  | uncorrelated sigma h hl => exact independent_tame (fun i _ => by fun_prop) hn
  | matrix _ corr h hi1 hi2 hP => exact matrix_tame (fun i _ => matrix_continuous h i) hn hP _

theorem Nuisance.log {E : Ext} {a : Args} {m : Backend.Model} {bin pen} (h : Nuisance E a m bin pen) (hf : Fits a) (hm : a.modifiers = none) (hn : a.nsp = 0)
    {y : Vec} (hy : a.signal = .array y) (e) (D x : Vec) (hD : a.data.length ≤ D.length) (hx : x.length = m.config.npar) :
    Backend.logpdf E m e (some D) x =
      .ok (logLikelihood E.gammaln a.data.length (at' y) bin pen (at' D) (at' x 0) fun i => at' x (1 + i)) := by
  have hs : Backend.Sources a [] := .inl ⟨hm, rfl⟩
  have h1 : ∀ i, signalAt a x i = at' y i := fun i => by simp [signalAt, hy]
  have h2 : ∀ i, factorAt a [] x i = 1 := fun i => by simp [factorAt, hy, Synth.product]
  cases h with
  | uncorrelated sigma h hl =>
    rw [Backend.C53_loglik_uncorrelated E a sigma m h hl hf [] hs x D hx hD e]
    simp [logLikelihood, expectedIn, h1, h2, hn, Backend.sourceCount]
  | matrix _ corr h hi1 hi2 hP =>
    rw [Backend.C53_loglik_matrix E a m bin corr h hf [] hs hi1 hi2 x D hx hD e]
    simp [logLikelihood, expectedIn, h1, h2, hn, Backend.sourceCount]

theorem minimum_nonneg : ∀ {v : Vec}, 0 ≤ Backend.minimum v ↔ ∀ x ∈ v, 0 ≤ x
  | [] => by simp [Backend.minimum]
  | [x] => by simp [Backend.minimum]
  | x :: y :: l => by
    have := minimum_nonneg (v := y :: l)
    rw [Backend.minimum, le_min_iff, this]
    · simp
    · simp

theorem Simple.binned {E : Ext} (draw) {a : Args} {m : Backend.Model} {y : Vec} {bin pen} {lo : ℝ} (h : Simple E a m y bin pen lo) :
    Binned (plugged E draw m) a.data.length E.gammaln (at' y) bin pen lo (used a) := by
  have hs := h.model.simplified h.fits
  have hb : Built a m := .simplified bin hs
  have hsrc : Backend.Sources a [] := .inl ⟨h.modifiers, rfl⟩
  have hn : m.config.npar = a.data.length + 1 := by
    rw [(Backend.C51_partition a m bin hs h.fits [] hsrc).1, h.parameters]
    simp [Backend.sourceCount]
    omega
  refine ⟨hn ▸ plugged_usual E draw hb h.fits, fun g e d => ?_, fun negative => by
      simp only [plugged, Backend.configOf]
      split <;> exact h.lowest, fun negative => ?_, ?_, ?_, ?_, plugged_none E draw hb h.fits, fun e => (used_length h.fits e).ge,
    ?_, h.model.tame h.feasible, ?_⟩
  · obtain ⟨f, g', hf⟩ : ∃ f g', Interface.getObjective (plugged E draw m) e d g = .ok (f, g') := ⟨_, _, rfl⟩
    refine ⟨f, g', hf, ?_⟩
    simp only [Interface.getObjective, plugged, Except.ok.injEq, Prod.mk.injEq] at hf
    have hc := plugged_consistent E draw m g e d
    exact fun x => hc f (by simp only [plugged, Except.ok.injEq]; exact hf.1) x
  · obtain ⟨h1, -, h2⟩ := Backend.C87_poi_bounds_partial a m hb h.fits 10
    cases negative
    · exact h1
    · simp only [plugged, h2, h.lowest, if_true]
  · intro negative j hj b hbj
    have hd := ((Backend.C51_sizes a m hb h.fits).2.2.2.2 negative 10).2.2.2.2
    simp only [plugged] at hbj
    have h1 : ∀ l : List Bound, l[j]? = (l.drop 1)[j - 1]? := fun l => by rw [List.getElem?_drop]; congr 1; omega
    rw [h1, hd] at hbj
    obtain ⟨n, g, pdf, hm, -⟩ := hs.shape h.fits
    obtain ⟨unc, c, hu, hc, -, -, -, hcfg, -⟩ := Backend.simplified_ok hm
    rw [hcfg] at hbj
    unfold Backend.baseConfig at hc
    obtain ⟨m0, -, hc⟩ := Backend.bind_ok.mp hc
    obtain ⟨b0, hb0, hc⟩ := Backend.bind_ok.mp hc
    cases hc
    have hb1 := Backend.sigBounds_length hb0
    rw [h.parameters, List.length_eq_zero_iff] at hb1
    subst hb1
    have := List.mem_of_getElem? hbj
    simp only [List.append_nil, List.cons_append, List.nil_append, List.drop_succ_cons, List.drop_zero, List.mem_append, List.mem_replicate] at this
    rcases this with ⟨-, rfl⟩ | ⟨-, rfl⟩ <;> rfl
  · intro x hx
    obtain ⟨f, h1, h2⟩ := Backend.background_eq hs h.fits x (by rw [hx, h.parameters]; omega)
    simp only [Satisfies, plugged, h1, List.map_cons, List.map_nil, List.mem_singleton, forall_eq, constraint, h2, Except.map, value]
    simp only [Bool.false_eq_true, false_implies, true_and, true_implies, le, minimum_nonneg, Admissible, h.parameters]
    simp
  · intro e D hD x hx
    simp only [plugged, h.model.log h.fits h.modifiers h.parameters h.signal e D x hD (by rw [hx, hn]), value]
  · intro x hx
    obtain ⟨v, v1, v2, v3, v4, -⟩ := Backend.C53_expected_data E a m bin hs h.fits [] hsrc x (by rw [hx, hn])
    refine ⟨v ++ List.replicate (a.data.length + Backend.sourceCount a.data.length []) 0, ?_, by rw [List.length_append, v2]; omega, fun i hi => ?_⟩
    · simp only [plugged, v4, Except.mapError]
    · have : at' (v ++ List.replicate (a.data.length + Backend.sourceCount a.data.length []) 0) i = at' v i := by
        simp [at', List.getD, List.getElem?_append_left (by rw [v2]; exact hi : i < v.length)]
      rw [this, v3 i hi]
      simp [expectedIn, signalAt, factorAt, h.signal, Synth.product, h.parameters]
  · obtain ⟨-, -, h3⟩ := Backend.C52_minimum a m hb h.fits y h.signal
    obtain ⟨m0, h4, -, h5⟩ := h3 h.positive
    rw [h.lowest, fin.injEq] at h4
    subst h4
    by_contra hlt
    obtain ⟨i, hi, -, h7⟩ := h5 0 (not_le.mp hlt)
    have := h.background i hi
    linarith

theorem logLikelihood_data {γ : ℝ → ℝ} {n : ℕ} {s : ℕ → ℝ} {bin : ℕ → ℝ → ℝ} {pen : (ℕ → ℝ) → ℝ} {D D' : ℕ → ℝ} (h : ∀ i < n, D i = D' i) :
    logLikelihood γ n s bin pen D = logLikelihood γ n s bin pen D' := by
  funext mu θ
  unfold logLikelihood
  congr 1
  exact Finset.sum_congr rfl fun i hi => by rw [h i (Finset.mem_range.mp hi)]

/-! ## C117 -/

/-- Two bins with backgrounds `50 ± 3` and `60 ± 4`. -/
def exSimple : Args := ⟨.array [5, 2], [50, 60], [55, 58], none, 0, none⟩

theorem exSimple_sources : Backend.Sources exSimple [] := .inl ⟨rfl, rfl⟩

theorem exSimple_case {E : Ext} {m : Backend.Model} {bin pen} (h : Nuisance E exSimple m bin pen) (hz : ∀ i < 2, 0 ≤ bin i 0) :
    ∃ lo, Simple E exSimple m [5, 2] bin pen lo := by
  have hf : Fits exSimple := ⟨rfl, rfl⟩
  obtain ⟨-, -, h3⟩ := Backend.C52_minimum exSimple m (.simplified bin (h.simplified hf)) hf [5, 2] rfl
  have hp : ∃ i < exSimple.data.length, 0 < at' [5, 2] i := ⟨0, by simp [exSimple], by simp [at']⟩
  obtain ⟨lo, hlo, -⟩ := h3 hp
  refine ⟨lo, h, hf, rfl, rfl, rfl, hp, fun i hi => ?_, ⟨fun _ => 0, hz⟩, hlo⟩
  have hi : i < 2 := hi
  interval_cases i <;> simp [exSimple, at']

/-- The uncertainties are independent. -/
theorem exModel (E : Ext) : ∃ m lo, Simple E exSimple m [5, 2] (fun i t => at' [50, 60] i + at' [3, 4] i * t) (fun θ => ∑ i ∈ Finset.range 2, stdLog (θ i)) lo := by
  obtain ⟨m, hm⟩ := Backend.simplified_accepts exSimple ⟨rfl, rfl⟩ [] exSimple_sources rfl 2 (Backend.linear [50, 60] [3, 4])
    (.normal (List.replicate 2 0) (List.replicate 2 1) (.slice 1 2))
  have h : Nuisance E exSimple m _ _ := .uncorrelated [3, 4] hm rfl
  obtain ⟨lo, h⟩ := exSimple_case h fun i hi => by
    interval_cases i <;> simp [exSimple, at']
  exact ⟨m, lo, h⟩

/-- The uncertainties are correlated and not Gaussian (third moments). -/
theorem exMatrix : ∃ m lo pen, Simple ⟨fun _ => 0, fun _ => [[2, -1], [-1, 2]], fun _ => 0⟩ exSimple m [5, 2]
    (fun i t => at' [50, 60] i + at' [3, 4] i * t + at' [1, 2] i * t ^ 2) pen lo := by
  obtain ⟨m, hm⟩ := Backend.simplified_accepts exSimple ⟨rfl, rfl⟩ [] exSimple_sources rfl 2 (Backend.quadratic [50, 60] [3, 4] [1, 2])
    (.mvn (List.replicate 2 0) [[1, 1 / 2], [1 / 2, 1]] (.slice 1 2))
  have h : Nuisance ⟨fun _ => 0, fun _ => [[2, -1], [-1, 2]], fun _ => 0⟩ exSimple m _ _ := .matrix _ [[1, 1 / 2], [1 / 2, 1]]
    (.thirdMoment [50, 60] [3, 4] [1, 2] [[1, 1 / 2], [1 / 2, 1]] hm rfl rfl rfl rfl) rfl
    (by
      intro r hr
      simp only [List.mem_cons, List.not_mem_nil, or_false] at hr
      rcases hr with rfl | rfl <;> rfl)
    (by
      rintro x ⟨i, hi, hx⟩
      have hi : i < 2 := hi
      simp only [exSimple, List.length_cons, List.length_nil, Finset.sum_range_succ, Finset.sum_range_zero, at', List.getD_cons_zero, List.getD_cons_succ]
      have : 0 < x 0 ^ 2 + x 1 ^ 2 := by
        interval_cases i
        · have := sq_pos_of_ne_zero hx
          positivity
        · have := sq_pos_of_ne_zero hx
          positivity
      nlinarith [sq_nonneg (x 0 - x 1)])
  obtain ⟨lo, h⟩ := exSimple_case h fun i hi => by
    interval_cases i <;> simp [at']
  exact ⟨m, lo, _, h⟩

/-- C117. `exclusion_confidence_level` of a simplified likelihood of spey, when the minimiser is exact. All its fits exist, and the level is that of the
asymptotic formulae (`Verif.Stats`) for: the best signal strength `best` from zero (or the smallest one allowed) to 10, and its log-likelihood `l`; the largest
log-likelihoods `lv` and `l0` at the tested strength and without signal; and the same for the Asimov data, the expected events without signal at the nuisance
parameters `θ` which are best without signal. In all of them only nuisance parameters are allowed for which no background is negative. -/
theorem C117_levels {S : Solver} (hS : Exact S) (hT : Finds S) (hC : Interface.Constrained S) {E : Ext} (draw) {a : Args} {m : Backend.Model} {y : Vec}
    {bin : ℕ → ℝ → ℝ} {pen : (ℕ → ℝ) → ℝ} {lo : ℝ} (h : Simple E a m y bin pen lo) (e : Expect) (negative : Bool) {mu : Mu} {v : ℝ} (hmu : mu.Is v) (hv : 0 ≤ v)
    (g : Bool) (ntoys : Size) (available : Calc → Bool) (percentile : List F → F → F)
    {L : (ℕ → ℝ) → ℝ → (ℕ → ℝ) → ℝ} (hL : L = logLikelihood E.gammaln a.data.length (at' y) bin pen)
    {ok : (ℕ → ℝ) → Prop} (hok : ok = Admissible a.data.length bin) {low : ℝ} (hlow : low = if negative then lo else 0) :
    ∃ best l lv l0 θ A bestA lA lvA l0A, GlobalMax ok (L (at' (used a e))) low 10 best l ∧ (∃ θ', ProfileMax ok (L (at' (used a e))) v lv θ') ∧
      ProfileMax ok (L (at' (used a e))) 0 l0 θ ∧ A = expectedIn (at' y) bin 0 θ ∧ GlobalMax ok (L A) low 10 bestA lA ∧
      (∃ θ', ProfileMax ok (L A) v lvA θ') ∧ (∃ θ', ProfileMax ok (L A) 0 l0A θ') ∧
      Ends (Plain (a.data.length + 1)) (exclusion (modelMethods S (plugged E draw m) g none ntoys available percentile) mu e negative .asymptotic)
        ((Stats.exclusionConfidenceLevel ⟨fitOf v best (fin (-l)) (fin (-lv)) (fin (-l0)), fitOf v bestA (fin (-lA)) (fin (-lvA)) (fin (-l0A)), [], [],
          percentile, available⟩ (fin v) e negative .asymptotic).mapError .stats) := by
  have hB := h.binned draw
  obtain ⟨w, hw⟩ : ∃ w : World, Plain (a.data.length + 1) w := ⟨⟨List.replicate (a.data.length + 1) 0, none, none⟩, rfl, rfl, by simp⟩
  have hts : ∀ b : Bool, (if (if b then "q" else "qtilde") = "q0" then (1 : ℝ) else 0) = 0 := fun b => by cases b <;> simp
  obtain ⟨best, l, k1, f1⟩ := hB.fit_default hS hT hC negative e g hw
  obtain ⟨lv, k2, f2⟩ := hB.at_default hS hT hC e (hB.low.trans hv) g hw
  obtain ⟨l0, ⟨θ0, k3⟩, f3⟩ := hB.at_default hS hT hC e hB.low g hw
  obtain ⟨l0', θ, D, k4, hD, hA, f4⟩ := hB.asimov hS hT hC e (if negative then "q" else "qtilde") g hw
  rw [hts] at k4 hA
  have hl0 : l0' = l0 := le_antisymm (by rw [k4.2.1]; exact k3.2.2 _ k4.1) (by rw [k3.2.1]; exact k4.2.2 _ k3.1)
  subst hl0
  obtain ⟨bestA, lA, k5, f5⟩ := hB.fit hS hT hC negative e hD g hw
  obtain ⟨lvA, k6, f6⟩ := hB.at hS hT hC e hD (hB.low.trans hv) g hw
  obtain ⟨l0A, k7, f7⟩ := hB.at hS hT hC e hD hB.low g hw
  obtain ⟨m1, l1, mA1, lA1, e1, e2, -, -, -, -, -, -, -, hE⟩ := C107_profile hS (plugged E draw m) (a.data.length + 1) 0 hB.usual g ntoys available percentile mu v
    hmu hv e negative w hw _ _ _ _ _ _ D f1 f2 f3 f4 f5 f6 f7
  simp only [Prod.mk.injEq, MuHat.one.injEq] at e1 e2
  obtain ⟨rfl, rfl⟩ := e1
  obtain ⟨rfl, rfl⟩ := e2
  rw [logLikelihood_data hA] at k5 k6 k7
  subst hL hok hlow
  exact ⟨best, l, lv, l0', θ, _, bestA, lA, lvA, l0A, k1, k2, k4, rfl, k5, k6, k7, hE⟩

/-- The hypotheses hold for both examples. -/
example (E : Ext) : Exact perfect ∧ Finds perfect ∧ Interface.Constrained perfect ∧
    (∃ m bin pen lo, Simple E exSimple m [5, 2] bin pen lo ∧ bin 0 1 = 53) ∧ ∃ E m bin pen lo, Simple E exSimple m [5, 2] bin pen lo ∧ bin 0 1 = 54 := by
  obtain ⟨m, lo, h⟩ := exModel E
  obtain ⟨m', lo', pen, h'⟩ := exMatrix
  exact ⟨perfect_exact, perfect_finds, Interface.perfect_constrained, ⟨m, _, _, lo, h, by norm_num [at']⟩, _, m', _, pen, lo', h', by norm_num [at']⟩

/-- C117. So every such call gives an answer, with the documented shape and levels between zero and one. -/
theorem C117_answers {S : Solver} (hS : Exact S) (hT : Finds S) (hC : Interface.Constrained S) {E : Ext} (draw) {a : Args} {m : Backend.Model} {y : Vec}
    {bin : ℕ → ℝ → ℝ} {pen : (ℕ → ℝ) → ℝ} {lo : ℝ} (h : Simple E a m y bin pen lo) (e : Expect) (negative : Bool) {mu : Mu} {v : ℝ} (hmu : mu.Is v) (hv : 0 ≤ v)
    (g : Bool) (ntoys : Size) (available : Calc → Bool) (hA : available .asymptotic = true) (percentile : List F → F → F) (w : World)
    (hw : Plain (a.data.length + 1) w) :
    ∃ r, (exclusion (modelMethods S (plugged E draw m) g none ntoys available percentile) mu e negative .asymptotic w).1 = .ok r ∧ Stats.WellShaped e r := by
  obtain ⟨best, l, lv, l0, θ, A, bestA, lA, lvA, l0A, -, -, -, -, -, -, -, hE⟩ := C117_levels hS hT hC draw h e negative hmu hv g ntoys available percentile rfl rfl rfl
  rw [(hE w hw).1]
  by_cases he : e = .all
  · subst he
    obtain ⟨r, hr, hs⟩ := Stats.C13_all_partial ⟨fitOf v best (fin (-l)) (fin (-lv)) (fin (-l0)), fitOf v bestA (fin (-lA)) (fin (-lvA)) (fin (-l0A)), [], [],
      percentile, available⟩ (fin v) negative .asymptotic (by
        have : ∀ b x y z, Stats.Finite ((fitOf v b x (fin y) (fin z)).logpdf (fin v)) ∧ Stats.Finite ((fitOf v b x (fin y) (fin z)).logpdf (fin 0)) := by
          intro b x y z
          refine ⟨⟨-y, by simp [fitOf, neg]⟩, ?_⟩
          by_cases hv0 : v = 0
          · exact ⟨-y, by simp [fitOf, neg, hv0]⟩
          · exact ⟨-z, by simp [fitOf, neg, Ne.symm hv0]⟩
        exact ⟨⟨-l, rfl⟩, (this _ _ _ _).1, (this _ _ _ _).2, ⟨-lA, rfl⟩, (this _ _ _ _).1, (this _ _ _ _).2⟩) hA
    exact ⟨r, by rw [hr]; rfl, hs⟩
  · obtain ⟨r, hr, hs⟩ := Stats.C13_range_and_shape ⟨fitOf v best (fin (-l)) (fin (-lv)) (fin (-l0)), fitOf v bestA (fin (-lA)) (fin (-lvA)) (fin (-l0A)), [], [],
      percentile, available⟩ (fin v) e negative .asymptotic he hA
    exact ⟨r, by rw [hr]; rfl, hs⟩

example (E : Ext) (draw) : ∃ m r, (exclusion (modelMethods perfect (plugged E draw m) true none (.int 100) (fun _ => true) fun _ _ => nan) (.float 1) .aposteriori true
    .asymptotic (⟨[1, 0, 0], none, none⟩ : World)).1 = .ok r ∧ Stats.WellShaped .aposteriori r := by
  obtain ⟨m, lo, h⟩ := exModel E
  obtain ⟨r, hr⟩ := C117_answers perfect_exact perfect_finds Interface.perfect_constrained draw h .aposteriori true (mu := .float 1) (v := 1) rfl zero_le_one true
    (.int 100) (fun _ => true) rfl (fun _ _ => nan) ⟨[1, 0, 0], none, none⟩ ⟨rfl, rfl, rfl⟩
  exact ⟨m, r, hr⟩

example (draw) : ∃ E m r, (exclusion (modelMethods perfect (plugged E draw m) false none (.int 100) (fun _ => true) fun _ _ => nan) (.float 2) .observed false
    .asymptotic (⟨[1, 1, 1], none, none⟩ : World)).1 = .ok r ∧ Stats.WellShaped .observed r := by
  obtain ⟨m, lo, pen, h⟩ := exMatrix
  obtain ⟨r, hr⟩ := C117_answers perfect_exact perfect_finds Interface.perfect_constrained draw h .observed false (mu := .float 2) (v := 2) rfl zero_le_two false
    (.int 100) (fun _ => true) rfl (fun _ _ => nan) ⟨[1, 1, 1], none, none⟩ ⟨rfl, rfl, rfl⟩
  exact ⟨_, m, r, hr⟩

/-- C117. `significance` of the same models: the square root of twice the difference between the largest log-likelihood and the largest one without signal, for
the data and for the Asimov data, the expected events with signal strength one at the nuisance parameters `θ` which are best for this strength. -/
theorem C117_significance {S : Solver} (hS : Exact S) (hT : Finds S) (hC : Interface.Constrained S) {E : Ext} (draw) {a : Args} {m : Backend.Model} {y : Vec}
    {bin : ℕ → ℝ → ℝ} {pen : (ℕ → ℝ) → ℝ} {lo : ℝ} (h : Simple E a m y bin pen lo) (e : Expect)
    (g : Bool) (ntoys : Size) (available : Calc → Bool) (percentile : List F → F → F)
    {L : (ℕ → ℝ) → ℝ → (ℕ → ℝ) → ℝ} (hL : L = logLikelihood E.gammaln a.data.length (at' y) bin pen)
    {ok : (ℕ → ℝ) → Prop} (hok : ok = Admissible a.data.length bin) :
    ∃ best l l0 l1 θ A bestA lA l0A, GlobalMax ok (L (at' (used a e))) 0 10 best l ∧ (∃ θ', ProfileMax ok (L (at' (used a e))) 0 l0 θ') ∧
      ProfileMax ok (L (at' (used a e))) 1 l1 θ ∧ A = expectedIn (at' y) bin 1 θ ∧ GlobalMax ok (L A) 0 10 bestA lA ∧ (∃ θ', ProfileMax ok (L A) 0 l0A θ') ∧
      ∀ w, Plain (a.data.length + 1) w →
        (significance (modelMethods S (plugged E draw m) g none ntoys available percentile) e w).1 =
          .ok (Stats.discovery (√(2 * (lA - l0A))) (√(2 * (l - l0)))) := by
  have hB := h.binned draw
  obtain ⟨w, hw⟩ : ∃ w : World, Plain (a.data.length + 1) w := ⟨⟨List.replicate (a.data.length + 1) 0, none, none⟩, rfl, rfl, by simp⟩
  obtain ⟨best, l, k1, f1⟩ := hB.fit_default hS hT hC false e g hw
  obtain ⟨l0, ⟨θ0, k3⟩, f3⟩ := hB.at_default hS hT hC e hB.low g hw
  obtain ⟨l1, θ, D, k4, hD, hA, f4⟩ := hB.asimov hS hT hC e "q0" g hw
  obtain ⟨bestA, lA, k5, f5⟩ := hB.fit hS hT hC false e hD g hw
  obtain ⟨l0A, ⟨θA, k7⟩, f7⟩ := hB.at hS hT hC e hD hB.low g hw
  rw [logLikelihood_data hA] at k5 k7
  simp only [Bool.false_eq_true, if_false, if_true] at k1 k4 k5 k7
  have h1 : l0 ≤ l := by rw [k3.2.1]; exact k1.2.2.2 0 _ le_rfl (by norm_num) k3.1
  have h2 : l0A ≤ lA := by rw [k7.2.1]; exact k5.2.2.2 0 _ le_rfl (by norm_num) k7.1
  obtain ⟨hlik, hmax, hasi⟩ := model_ends hS hB.usual g ntoys available percentile e w hw
  obtain ⟨hlikA, hmaxA⟩ := hasi "q0" _ f4
  have hneg : Interface.mayBeNegative "q0" = false := by simp [Interface.mayBeNegative]
  have hb := hmax none false _ f1
  have hl0 := hlik none 0 _ f3
  have hbA := hmaxA _ (by rw [hneg]; exact f5)
  have hlA0 := hlikA 0 _ f7
  have hsig := C107_significance _ ⟨w, hw⟩ e _ _ _ ⟨hb, hl0, hl0⟩ _ _ _ ⟨hbA, hlA0, hlA0⟩
  have key : ∀ b x y : ℝ, 0 ≤ b → y ≤ x → (fitOf 0 b (fin (-x)) (fin (-y)) (fin (-y))).stat Stats.q0 (fin 0) = fin (2 * (x - y)) := by
    intro b x y hb hxy
    simp only [Stats.Fit.stat, Stats.q0, fitOf, lt, not_lt.mpr hb, if_false, if_true, neg, sub, add, scale, clip0]
    exact Stats.clip_eq (by ring) (by linarith)
  subst hL hok
  refine ⟨best, l, l0, l1, θ, _, bestA, lA, l0A, k1, ⟨_, k3⟩, k4, rfl, k5, ⟨_, k7⟩, ?_⟩
  have hp : Stats.significance (fitOf 0 best (fin (-l)) (fin (-l0)) (fin (-l0))) (fitOf 0 bestA (fin (-lA)) (fin (-l0A)) (fin (-l0A))) =
      .ok (Stats.discovery (√(2 * (lA - l0A))) (√(2 * (l - l0)))) :=
    Stats.C11_significance _ _ _ _ (by linarith) (by linarith) (key _ _ _ k1.1 h1) (key _ _ _ k5.1 h2)
  intro w hw
  rw [(hsig w hw).1, hp]
  rfl

example (E : Ext) (draw) : ∃ m best l l0, ∃ ZA : ℝ, GlobalMax (Admissible 2 fun i t => at' [50, 60] i + at' [3, 4] i * t) (logLikelihood E.gammaln 2 (at' [5, 2])
      (fun i t => at' [50, 60] i + at' [3, 4] i * t) (fun θ => ∑ i ∈ Finset.range 2, stdLog (θ i)) (at' [55, 58])) 0 10 best l ∧
    (significance (modelMethods perfect (plugged E draw m) true none (.int 100) (fun _ => true) fun _ _ => nan) .observed (⟨[1, 0, 0], none, none⟩ : World)).1 =
      .ok (Stats.discovery ZA (√(2 * (l - l0)))) := by
  obtain ⟨m, lo, h⟩ := exModel E
  obtain ⟨best, l, l0, l1, θ, A, bestA, lA, l0A, h1, -, -, -, -, -, h2⟩ := C117_significance perfect_exact perfect_finds Interface.perfect_constrained draw h
    .observed true (.int 100) (fun _ => true) (fun _ _ => nan) rfl rfl
  exact ⟨m, best, l, l0, _, h1, h2 _ ⟨rfl, rfl, rfl⟩⟩

end Verif.Chain
