import Verif.Uncertain.Models
import Verif.Chain.BinnedLimitProps

/-!
# C169: hypothesis tests of models whose signal is uncertain or has parameters

The four simplified likelihoods of spey inside `StatisticalModel`, with `signal_uncertainty_configuration`, or with a function for `signal_yields`.
-/

namespace Verif.Uncertain
open Verif.Py F Verif.Config Verif.Optimizer Verif.Hypotest Verif.Chain
open Verif.Interface (MuHat Data Toys World Size Plain Solver Allowed InBounds Satisfies perfect)
open Verif.Backend (Ext Vec Args Built Fits Simplified WithMatrix at' signalAt factorAt poissonLog stdLog mvnLog sourceCount)
open Verif.Stats (Expect Calc Levels)
open Verif.UpperLimit (Expected Band Limit Entries Sound Succeeds Reaches)

/-! ### Examples -/

/-- Two bins with a normalisation uncertainty of 20 % and uncertainties of the shape, which are not symmetric. -/
def exSources : List Synth.Source := [⟨false, fun i => if i = 0 then 1 else 2, fun i => if i = 0 then 1 else 2⟩, ⟨true, fun i => if i = 0 then 2 else 1, fun i => if i = 0 then 1 else 3⟩]

def exUncertain : Args := ⟨.array [5, 10], [50, 60], [55, 58], some [⟨some "normalization", some (.sym [fin 1, fin 2]), some "lumi"⟩, ⟨some "shape", some (.asym [(fin 2, fin 1), (fin 1, fin 3)]), none⟩], 0, none⟩

theorem exUncertain_sources : Backend.Sources exUncertain exSources := by
  refine .inr ⟨_, _, rfl, rfl, ?_, ?_, trivial⟩
  · exact .sym rfl (by simp [exSources, List.range_succ]) fun i hi => rfl
  · exact .asym rfl (by simp [exSources, List.range_succ])

theorem exUncertain_model (E : Ext) : ∃ m lo, Setting E exUncertain m exSources (fun i t => at' [50, 60] i + at' [3, 4] i * t) (fun θ => ∑ i ∈ Finset.range 2, stdLog (θ i)) (fun _ => 0) (fun _ => 0) lo := by
  have hf : Fits exUncertain := ⟨rfl, rfl⟩
  obtain ⟨m, hm⟩ := Backend.simplified_accepts exUncertain hf exSources exUncertain_sources rfl 2 (Backend.linear [50, 60] [3, 4]) (.normal (List.replicate 2 0) (List.replicate 2 1) (.slice 1 2))
  have h : Nuisance E exUncertain m _ _ := .uncorrelated [3, 4] hm rfl
  refine ⟨m, _, h, hf, exUncertain_sources, .inl rfl, fun j hj => absurd hj (Nat.not_lt_zero j), fun f hf => by simp [exUncertain] at hf, fun i hi => ?_, ⟨fun _ => 0, fun i hi => ?_⟩, rfl⟩
  · have hi : i < 2 := hi
    interval_cases i <;> simp [exUncertain, at']
  · have hi : i < 2 := hi
    interval_cases i <;> simp [exUncertain, at']

/-- A signal whose yields in two bins are functions of a parameter between 0 and 3. -/
noncomputable def exFunction : Args := ⟨.function fun v => [5 * Real.exp (-at' v 0), at' v 0 ^ 2], [50, 60], [55, 58], none, 1, some [some (some (fin 0), some (fin 3))]⟩

theorem exFunction_model (E : Ext) : ∃ m, Setting E exFunction m [] (fun i t => at' [50, 60] i + at' [3, 4] i * t) (fun θ => ∑ i ∈ Finset.range 2, stdLog (θ i)) (fun _ => 0) (fun _ => 3) ninf := by
  have hf : Fits exFunction := ⟨rfl, fun v => rfl⟩
  obtain ⟨m, hm⟩ : ∃ m, Backend.uncorrelated exFunction [3, 4] = .ok m := by
    simp only [Backend.uncorrelated, Backend.simplified, exFunction, Backend.signalUncertainty, Backend.baseConfig, Backend.minimumPoi, Backend.sigBounds]
    exact ⟨_, rfl⟩
  have h : Nuisance E exFunction m _ _ := .uncorrelated [3, 4] hm rfl
  refine ⟨m, h, hf, .inl ⟨rfl, rfl⟩, .inr rfl, fun j _ => by norm_num, fun f hf i hi => ?_, fun i hi => ?_, ⟨fun _ => 0, fun i hi => ?_⟩, ?_⟩
  · have hi : i < 2 := hi
    cases hf
    interval_cases i
    · simp only [exFunction, at', List.range_one, List.map_cons, List.map_nil, List.getD_cons_zero]
      exact continuous_const.mul (Real.continuous_exp.comp (continuous_apply _).neg)
    · simp only [exFunction, at', List.range_one, List.map_cons, List.map_nil, List.getD_cons_zero, List.getD_cons_succ]
      exact (continuous_apply _).pow 2
  · have hi : i < 2 := hi
    interval_cases i <;> simp [exFunction, at']
  · have hi : i < 2 := hi
    interval_cases i <;> simp [exFunction, at']
  · exact Backend.C52_function exFunction m (.simplified _ (.uncorrelated [3, 4] hm rfl)) hf _ rfl

/-! ### Levels and significances -/

section
variable {S : Solver} (hS : Exact S) (hT : Finds S) (hC : Interface.Constrained S) {E : Ext} (draw : Vec × List Vec → ℕ → List Vec) {a : Args} {m : Backend.Model} {ss : List Synth.Source}
  {bin : ℕ → ℝ → ℝ} {pen : (ℕ → ℝ) → ℝ} {l u : ℕ → ℝ} {lo : F} (h : Setting E a m ss bin pen l u lo) (g : Bool) (ntoys : Size) (available : Calc → Bool) (percentile : List F → F → F)
include hS hT hC h

/-- C169. `exclusion_confidence_level` of a simplified likelihood whose signal has uncertainties, or is a function of bounded parameters, when the minimiser is exact. All its fits exist, and the level
is that of the asymptotic formulae for: the best signal strength `best` from `low`, that is zero or the smallest one allowed, to 10, and its log-likelihood `lb`; the largest log-likelihoods `lv` and `l0`
at the tested strength and without signal; and the same for the Asimov data, the expected events without signal at the parameters `θ` which are best without signal. In all of them no background is
negative, and the parameters of the signal are inside their bounds. -/
theorem C169_levels (e : Expect) (negative : Bool) {mu : Mu} {v : ℝ} (hmu : mu.Is v) (hv : 0 ≤ v)
    {L : (ℕ → ℝ) → ℝ → (ℕ → ℝ) → ℝ} (hL : L = likelihoodWith E.gammaln a.nsp a.data.length (sourceCount a.data.length ss) (signalIn a ss) bin pen)
    {ok : (ℕ → ℝ) → Prop} (hok : ok = Region a.nsp a.data.length l u bin) {low : ℝ} (hlow : (if negative then lo else fin 0) = fin low) :
    ∃ best lb lv l0 θ A bestA lA lvA l0A, GlobalMax ok (L (at' (used a e))) low 10 best lb ∧ (∃ θ', ProfileMax ok (L (at' (used a e))) v lv θ') ∧
      ProfileMax ok (L (at' (used a e))) 0 l0 θ ∧ A = expectedWith a.nsp (signalIn a ss) bin 0 θ ∧ GlobalMax ok (L A) low 10 bestA lA ∧
      (∃ θ', ProfileMax ok (L A) v lvA θ') ∧ (∃ θ', ProfileMax ok (L A) 0 l0A θ') ∧
      Ends (Plain (count a ss + 1)) (exclusion (modelMethods S (plugged E draw m) g none ntoys available percentile) mu e negative .asymptotic)
        ((Stats.exclusionConfidenceLevel ⟨fitOf v best (fin (-lb)) (fin (-lv)) (fin (-l0)), fitOf v bestA (fin (-lA)) (fin (-lvA)) (fin (-l0A)), [], [],
          percentile, available⟩ (fin v) e negative .asymptotic).mapError .stats) := by
  have hB := h.wide draw
  obtain ⟨w, hw⟩ : ∃ w : World, Plain (count a ss + 1) w := ⟨⟨List.replicate (count a ss + 1) 0, none, none⟩, rfl, rfl, by simp⟩
  have hts : ∀ b : Bool, (if (if b then "q" else "qtilde") = "q0" then (1 : ℝ) else 0) = 0 := fun b => by cases b <;> simp
  obtain ⟨best, lb, k1, f1⟩ := hB.fit_default hS hT hC hlow e g hw
  obtain ⟨lv, k2, f2⟩ := hB.at_default hS hT hC e hv g hw
  obtain ⟨l0, ⟨θ0, k3⟩, f3⟩ := hB.at_default hS hT hC e le_rfl g hw
  obtain ⟨l0', θ, D, k4, hD, hA, f4⟩ := hB.asimov hS hT hC e (if negative then "q" else "qtilde") g hw
  rw [hts] at k4 hA
  have hl0 : l0' = l0 := le_antisymm (by rw [k4.2.1]; exact k3.2.2 _ k4.1) (by rw [k3.2.1]; exact k4.2.2 _ k3.1)
  subst hl0
  obtain ⟨bestA, lA, k5, f5⟩ := hB.fit hS hT hC hlow e hD g hw
  obtain ⟨lvA, k6, f6⟩ := hB.at hS hT hC e hD hv g hw
  obtain ⟨l0A, k7, f7⟩ := hB.at hS hT hC e hD le_rfl g hw
  obtain ⟨m1, l1, mA1, lA1, e1, e2, -, -, -, -, -, -, -, hE⟩ := C107_profile hS (plugged E draw m) (count a ss + 1) 0 hB.usual g ntoys available percentile mu v
    hmu hv e negative w hw _ _ _ _ _ _ D f1 f2 f3 f4 f5 f6 f7
  simp only [Prod.mk.injEq, MuHat.one.injEq] at e1 e2
  obtain ⟨rfl, rfl⟩ := e1
  obtain ⟨rfl, rfl⟩ := e2
  rw [hB.data _ _ hA] at k5 k6 k7
  subst hL hok
  exact ⟨best, lb, lv, l0', θ, _, bestA, lA, lvA, l0A, k1, k2, k4, rfl, k5, k6, k7, hE⟩

/-- C169. So every such call gives an answer, with the documented shape and levels between zero and one. Negative strengths need a smallest one, which a model has if some signal yield is positive and
not a function. -/
theorem C169_answers (e : Expect) (negative : Bool) {mu : Mu} {v : ℝ} (hmu : mu.Is v) (hv : 0 ≤ v) (hlow : negative = true → lo ≠ ninf) (hA : available .asymptotic = true) (w : World)
    (hw : Plain (count a ss + 1) w) :
    ∃ r, (exclusion (modelMethods S (plugged E draw m) g none ntoys available percentile) mu e negative .asymptotic w).1 = .ok r ∧ Stats.WellShaped e r := by
  obtain ⟨low, hlow⟩ : ∃ low, (if negative then lo else fin 0) = fin low := by
    cases negative
    · exact ⟨0, rfl⟩
    · have := (h.wide draw).low
      have hne := hlow rfl
      cases lo <;> simp_all [le]
  obtain ⟨best, lb, lv, l0, θ, A, bestA, lA, lvA, l0A, -, -, -, -, -, -, -, hE⟩ := C169_levels hS hT hC draw h g ntoys available percentile e negative hmu hv rfl rfl hlow
  rw [(hE w hw).1]
  by_cases he : e = .all
  · subst he
    obtain ⟨r, hr, hs⟩ := Stats.C13_all_partial ⟨fitOf v best (fin (-lb)) (fin (-lv)) (fin (-l0)), fitOf v bestA (fin (-lA)) (fin (-lvA)) (fin (-l0A)), [], [],
      percentile, available⟩ (fin v) negative .asymptotic (by
        have : ∀ b x y z, Stats.Finite ((fitOf v b x (fin y) (fin z)).logpdf (fin v)) ∧ Stats.Finite ((fitOf v b x (fin y) (fin z)).logpdf (fin 0)) := by
          intro b x y z
          refine ⟨⟨-y, by simp [fitOf, neg]⟩, ?_⟩
          by_cases hv0 : v = 0
          · exact ⟨-y, by simp [fitOf, neg, hv0]⟩
          · exact ⟨-z, by simp [fitOf, neg, Ne.symm hv0]⟩
        exact ⟨⟨-lb, rfl⟩, (this _ _ _ _).1, (this _ _ _ _).2, ⟨-lA, rfl⟩, (this _ _ _ _).1, (this _ _ _ _).2⟩) hA
    exact ⟨r, by rw [hr]; rfl, hs⟩
  · obtain ⟨r, hr, hs⟩ := Stats.C13_range_and_shape ⟨fitOf v best (fin (-lb)) (fin (-lv)) (fin (-l0)), fitOf v bestA (fin (-lA)) (fin (-lvA)) (fin (-l0A)), [], [],
      percentile, available⟩ (fin v) e negative .asymptotic he hA
    exact ⟨r, by rw [hr]; rfl, hs⟩

/-- C169. `significance` of the same models: the square root of twice the difference between the largest log-likelihood and the largest one without signal, for
the data and for the Asimov data, the expected events with signal strength one at the parameters `θ` which are best for this strength. -/
theorem C169_significance (e : Expect) {L : (ℕ → ℝ) → ℝ → (ℕ → ℝ) → ℝ}
    (hL : L = likelihoodWith E.gammaln a.nsp a.data.length (sourceCount a.data.length ss) (signalIn a ss) bin pen) {ok : (ℕ → ℝ) → Prop} (hok : ok = Region a.nsp a.data.length l u bin) :
    ∃ best lb l0 l1 θ A bestA lA l0A, GlobalMax ok (L (at' (used a e))) 0 10 best lb ∧ (∃ θ', ProfileMax ok (L (at' (used a e))) 0 l0 θ') ∧
      ProfileMax ok (L (at' (used a e))) 1 l1 θ ∧ A = expectedWith a.nsp (signalIn a ss) bin 1 θ ∧ GlobalMax ok (L A) 0 10 bestA lA ∧ (∃ θ', ProfileMax ok (L A) 0 l0A θ') ∧
      ∀ w, Plain (count a ss + 1) w →
        (significance (modelMethods S (plugged E draw m) g none ntoys available percentile) e w).1 =
          .ok (Stats.discovery (√(2 * (lA - l0A))) (√(2 * (lb - l0)))) := by
  have hB := h.wide draw
  obtain ⟨w, hw⟩ : ∃ w : World, Plain (count a ss + 1) w := ⟨⟨List.replicate (count a ss + 1) 0, none, none⟩, rfl, rfl, by simp⟩
  obtain ⟨best, lb, k1, f1⟩ := hB.fit_default hS hT hC (negative := false) rfl e g hw
  obtain ⟨l0, ⟨θ0, k3⟩, f3⟩ := hB.at_default hS hT hC e le_rfl g hw
  obtain ⟨l1, θ, D, k4, hD, hA, f4⟩ := hB.asimov hS hT hC e "q0" g hw
  obtain ⟨bestA, lA, k5, f5⟩ := hB.fit hS hT hC (negative := false) rfl e hD g hw
  obtain ⟨l0A, ⟨θA, k7⟩, f7⟩ := hB.at hS hT hC e hD le_rfl g hw
  rw [hB.data _ _ hA] at k5 k7
  simp only [if_true] at k4 k5 k7
  have h1 : l0 ≤ lb := by rw [k3.2.1]; exact k1.2.2.2 0 _ le_rfl (by norm_num) k3.1
  have h2 : l0A ≤ lA := by rw [k7.2.1]; exact k5.2.2.2 0 _ le_rfl (by norm_num) k7.1
  obtain ⟨hlik, hmax, hasi⟩ := model_ends hS hB.usual g ntoys available percentile e w hw
  obtain ⟨hlikA, hmaxA⟩ := hasi "q0" _ f4
  have hneg : Interface.mayBeNegative "q0" = false := by simp [Interface.mayBeNegative]
  have hb := hmax none false _ f1
  have hl0 := hlik none 0 _ f3
  have hbA := hmaxA _ (by rw [hneg]; exact f5)
  have hlA0 := hlikA 0 _ f7
  have hsig := C107_significance _ ⟨w, hw⟩ e _ _ _ ⟨hb, hl0, hl0⟩ _ _ _ ⟨hbA, hlA0, hlA0⟩
  have key : ∀ b x y : ℝ, 0 ≤ b → y ≤ x → (fitOf 0 b (fin (-x)) (fin (-y)) (fin (-y))).stat Stats.q0 (fin 0) = fin (2 * (x - y)) := by
    intro b x y hb hxy
    simp only [Stats.Fit.stat, Stats.q0, fitOf, lt, not_lt.mpr hb, if_false, if_true, neg, sub, add, scale, clip0]
    exact Stats.clip_eq (by ring) (by linarith)
  subst hL hok
  refine ⟨best, lb, l0, l1, θ, _, bestA, lA, l0A, k1, ⟨_, k3⟩, k4, rfl, k5, ⟨_, k7⟩, ?_⟩
  have hp : Stats.significance (fitOf 0 best (fin (-lb)) (fin (-l0)) (fin (-l0))) (fitOf 0 bestA (fin (-lA)) (fin (-l0A)) (fin (-l0A))) =
      .ok (Stats.discovery (√(2 * (lA - l0A))) (√(2 * (lb - l0)))) :=
    Stats.C11_significance _ _ _ _ (by linarith) (by linarith) (key _ _ _ k1.1 h1) (key _ _ _ k5.1 h2)
  intro w hw
  rw [(hsig w hw).1, hp]
  rfl

end

/-- A signal with uncertainties, and negative strengths allowed. -/
example (E : Ext) (draw) : ∃ m r, (exclusion (modelMethods perfect (plugged E draw m) true none (.int 100) (fun _ => true) fun _ _ => nan) (.float 1) .aposteriori true
    .asymptotic (⟨[1, 0, 0, 0, 0, 0], none, none⟩ : World)).1 = .ok r ∧ Stats.WellShaped .aposteriori r := by
  obtain ⟨m, lo, h⟩ := exUncertain_model E
  obtain ⟨r, hr⟩ := C169_answers perfect_exact perfect_finds Interface.perfect_constrained draw h true (.int 100) (fun _ => true) (fun _ _ => nan) .aposteriori true (mu := .float 1) (v := 1) rfl
    zero_le_one (fun _ => by
      obtain ⟨m0, h0, -⟩ := (Backend.C52_minimum exUncertain m (.simplified _ (h.model.simplified h.fits)) h.fits [5, 10] rfl).2.2 ⟨0, by simp [exUncertain], by simp [at']⟩
      rw [← h.lowest, h0]
      simp) rfl ⟨[1, 0, 0, 0, 0, 0], none, none⟩ ⟨rfl, rfl, rfl⟩
  exact ⟨m, r, hr⟩

/-- A signal with a parameter. -/
example (E : Ext) (draw) : ∃ m r, (exclusion (modelMethods perfect (plugged E draw m) true none (.int 100) (fun _ => true) fun _ _ => nan) (.float 2) .observed false
    .asymptotic (⟨[1, 1, 0, 0], none, none⟩ : World)).1 = .ok r ∧ Stats.WellShaped .observed r := by
  obtain ⟨m, h⟩ := exFunction_model E
  obtain ⟨r, hr⟩ := C169_answers perfect_exact perfect_finds Interface.perfect_constrained draw h true (.int 100) (fun _ => true) (fun _ _ => nan) .observed false (mu := .float 2) (v := 2) rfl
    zero_le_two (by simp) rfl ⟨[1, 1, 0, 0], none, none⟩ ⟨rfl, rfl, rfl⟩
  exact ⟨m, r, hr⟩

example (E : Ext) (draw) : ∃ m best lb l0, ∃ ZA : ℝ, GlobalMax (Region 1 2 (fun _ => 0) (fun _ => 3) fun i t => at' [50, 60] i + at' [3, 4] i * t)
      (likelihoodWith E.gammaln 1 2 0 (signalIn exFunction []) (fun i t => at' [50, 60] i + at' [3, 4] i * t) (fun θ => ∑ i ∈ Finset.range 2, stdLog (θ i)) (at' [55, 58])) 0 10 best lb ∧
    (significance (modelMethods perfect (plugged E draw m) true none (.int 100) (fun _ => true) fun _ _ => nan) .observed (⟨[1, 1, 0, 0], none, none⟩ : World)).1 =
      .ok (Stats.discovery ZA (√(2 * (lb - l0)))) := by
  obtain ⟨m, h⟩ := exFunction_model E
  obtain ⟨best, lb, l0, l1, θ, A, bestA, lA, l0A, h1, -, -, -, -, -, h2⟩ := C169_significance perfect_exact perfect_finds Interface.perfect_constrained draw h true (.int 100) (fun _ => true)
    (fun _ _ => nan) .observed rfl rfl
  exact ⟨m, best, lb, l0, _, h1, h2 _ ⟨rfl, rfl, rfl⟩⟩

/-! ### Upper limits -/

section
variable {E : Ext} {a : Args} {m : Backend.Model} {ss : List Synth.Source} {bin : ℕ → ℝ → ℝ} {pen : (ℕ → ℝ) → ℝ} {l u : ℕ → ℝ} {lo : F} (h : Setting E a m ss bin pen l u lo)
  {S : Solver} (hS : Exact S) (hT : Finds S) (hC : Interface.Constrained S) (draw : Vec × List Vec → ℕ → List Vec)
  (g : Bool) (ntoys : Size) (available : Calc → Bool) (hav : available .asymptotic = true) (percentile : List F → F → F)
  (inv : List (List ℝ) → Except Interface.Err (List (List ℝ))) (e : Expected) (CL : ℝ) (T : Finder) (hstay : T.Stays) (tol : ℝ → ℝ) (hsound : Sound tol T.solver) (band : Band)
include h hS hT hC hav hstay hsound

/-- C169. An upper limit that `poi_upper_limit` returns for these models is a strength at which the model reaches the confidence level, up to the tolerance of the root finder, with the same words as for
`C163_limit`. -/
theorem C169_limit (fuel : ℕ) (low hig : Option ℝ)
    (hlow : (∃ l u, low = some l ∧ hig = some u ∧ 1e-10 ≤ l ∧ 0 ≤ u) ∨ (low = none ∨ hig = none) ∧
      ∀ v, 1e-8 < v → ∃ s, Ends (Plain (count a ss + 1)) (modelSigma S inv (plugged E draw m) g ntoys available percentile e.toExpect v) (.ok (fin s)))
    (w : World) (hw : Plain (count a ss + 1) w) (L : Limit)
    (hr : (poiUpperLimit fuel T (modelMethods S (plugged E draw m) g none ntoys available percentile) (modelSigma S inv (plugged E draw m) g ntoys available percentile) true e CL low hig band w).1 =
      .ok (some L)) :
    L.Shaped (Entries e band).length ∧ List.Forall₂ (fun i x =>
      (∃ mu, x = fin mu ∧ Reaches (fun x y => 1e-10 ≤ x ∧ Reported (Plain (count a ss + 1)) (modelMethods S (plugged E draw m) g none ntoys available percentile) e i x y) CL (tol mu) mu) ∨
      (x = pinf ∧ ((∃ b r, 1e5 ≤ b ∧ Reported (Plain (count a ss + 1)) (modelMethods S (plugged E draw m) g none ntoys available percentile) e i b (fin r) ∧ r < CL) ∨
        ∃ r, Reported (Plain (count a ss + 1)) (modelMethods S (plugged E draw m) g none ntoys available percentile) e i 1e-10 (fin r) ∧ CL < r)))
      (Entries e band) L.values := by
  obtain ⟨mu, lb, Lf, mA, lA, LA, hf⟩ := (h.wide draw).fits_from hS hT hC e.toExpect g ntoys available percentile
  have hst : ∃ c d, 1e-10 ≤ c ∧ 0 ≤ d ∧
      Ends (Plain (count a ss + 1)) (starts (modelSigma S inv (plugged E draw m) g ntoys available percentile e.toExpect) (.one mu) low hig) (.ok (c, d)) := by
    rcases hlow with ⟨c, d, rfl, rfl, h1, h2⟩ | ⟨hn, hs⟩
    · exact ⟨c, d, h1, h2, starts_given _ _ _ _⟩
    · obtain ⟨c, d, h1, h2, h3⟩ := starts_found (I := Plain (count a ss + 1)) (sigma := modelSigma S inv (plugged E draw m) g ntoys available percentile e.toExpect) (m := mu)
        (fun hb => hs _ hb) hn
      exact ⟨c, d, h1, le_trans (by norm_num) h2, h3⟩
  obtain ⟨c, d, h1, h2, h3⟩ := hst
  exact limit_means ⟨w, hw⟩ hf hav h3 h1 h2 hstay hsound hw hr

/-- C169. It returns one, and a finite one, if the level is at most the confidence level at `1e-10` and at least the confidence level at `1e5`, for given starting points between these values. Equal ones
must not be on the limit. -/
theorem C169_exists (hok : Succeeds T.solver) (h0 : 0 ≤ CL) (h1 : CL ≤ 1) (low hig : ℝ) (h2 : 1e-10 ≤ low) (h3 : low ≤ hig) (h4 : hig ≤ 1e5) (hb : band ≠ .unknown)
    (hne : low < hig ∨ ∀ i ∈ Entries e band, ∀ r, Reported (Plain (count a ss + 1)) (modelMethods S (plugged E draw m) g none ntoys available percentile) e i low (fin r) → r ≠ CL)
    (hlow : ∀ i ∈ Entries e band, ∀ r, Reported (Plain (count a ss + 1)) (modelMethods S (plugged E draw m) g none ntoys available percentile) e i 1e-10 (fin r) → r ≤ CL)
    (hhig : ∀ i ∈ Entries e band, ∀ r, Reported (Plain (count a ss + 1)) (modelMethods S (plugged E draw m) g none ntoys available percentile) e i 1e5 (fin r) → CL ≤ r) :
    ∃ L : Limit, L.Shaped (Entries e band).length ∧
      List.Forall₂ (fun i x => ∃ mu, x = fin mu ∧
        Reaches (fun x y => 1e-10 ≤ x ∧ Reported (Plain (count a ss + 1)) (modelMethods S (plugged E draw m) g none ntoys available percentile) e i x y) CL (tol mu) mu) (Entries e band) L.values ∧
      ∃ n₀, ∀ n ≥ n₀, Ends (Plain (count a ss + 1)) (poiUpperLimit n T (modelMethods S (plugged E draw m) g none ntoys available percentile)
        (modelSigma S inv (plugged E draw m) g ntoys available percentile) true e CL (some low) (some hig) band) (.ok (some L)) := by
  obtain ⟨mu, lb, Lf, mA, lA, LA, hf⟩ := (h.wide draw).fits_from hS hT hC e.toExpect g ntoys available percentile
  exact limit_exists_start hav ⟨⟨List.replicate (count a ss + 1) 0, none, none⟩, rfl, rfl, by simp⟩ hf _ hsound hok hstay h0 h1 h2 h3 h4 band hb hne hlow hhig

end

end Verif.Uncertain
