import Verif.Hypotest.Props
import Verif.Hypotest.Free
import Verif.Hypotest.ModelSpec
import Verif.Stats.Exact

/-!
# Properties C107, C108 and C110 for the methods of `StatisticalModel`
-/

namespace Verif.Hypotest
open Verif.Py F Verif.Config
open Verif.Interface (MuHat Data Toys World Size Plain Solver StartFree Honest Optimal Inside Constrained Fallback Consistent mayBeNegative)
open Verif.Stats (Expect Calc Levels)
open Classical

/-! ## C110 -/

/-- C110: with a minimiser that does not depend on the start and no lists of the caller, no hypothesis test depends on what was asked before. -/
theorem C110_model {S : Solver} (hS : StartFree S) (B : Interface.Backend) (hfix : ∀ n, (B.config n).fixed = none) (doGrad : Bool)
    (bounds : Option (List Bound)) (ntoys : Size) (available : Calc → Bool) (percentile : List F → F → F) (N : ℕ) :
    SteadyMethods (Plain N) (modelMethods S B doGrad bounds ntoys available percentile) where
  likelihood := fun e d v => (steady_ofInterface fun _ _ h h' => Interface.likelihood_free hS B hfix _ _ _ _ _ _ _ _ h h').bind fun _ =>
    steady_lift _
  maximize := fun e n d => steady_ofInterface fun _ _ h h' => Interface.maximize_free hS B hfix _ _ _ _ _ _ _ _ h h'
  asimovLikelihood := fun e ts v => (steady_ofInterface fun _ _ h h' => Interface.asimovLikelihood_free hS B hfix _ _ _ _ _ _ h h').bind
    fun _ => steady_lift _
  maximizeAsimov := fun e ts => steady_ofInterface fun _ _ h h' => Interface.maximizeAsimov_free hS B hfix _ _ _ _ _ _ h h'
  sampler := fun e mu => steady_ofInterface fun _ _ h h' => Interface.sampler_free hS B hfix _ _ _ _ _ h h'

example : StartFree Interface.perfect ∧ ∀ n, (Interface.exB.config n).fixed = none := ⟨Interface.perfect_free, fun _ => rfl⟩

/-- C110 is false for minimisers that depend on the start (as those of scipy do): the same call gives two levels, depending on whether the likelihood was asked for before; without that
the level is zero. -/
theorem C110_history_fails : ∃ (S : Solver) (B : Interface.Backend) (w : World) (l : ℝ), Honest 0 S ∧ Fallback B ∧ Consistent B ∧ 0 < l ∧
    (exclusion (modelMethods S B true none (.int 100) (fun _ => true) fun _ _ => nan) (.float 5) .observed false .chiSquare w).1 = .ok (.one [fin 0]) ∧
    (exclusion (modelMethods S B true none (.int 100) (fun _ => true) fun _ _ => nan) (.float 5) .observed false .chiSquare
      ((modelMethods S B true none (.int 100) (fun _ => true) fun _ _ => nan).likelihood .observed none 0 w).2).1 = .ok (.one [fin l]) := by
  obtain ⟨M, hM⟩ : ∃ M, M = modelMethods Interface.stay Interface.exB true none (.int 100) (fun _ => true) fun _ _ => nan := ⟨_, rfl⟩
  have hbest : ∀ x : ℝ, M.maximize .observed false none ⟨[x, 1], none, none⟩ = (.ok (.one x, fin (x ^ 2 + 1)), ⟨[x, 1], none, none⟩) := by
    intro x
    simp [hM, modelMethods, ofInterface, expectation, Interface.maximize, Interface.exB, Interface.resolveFixed, Interface.prepareForFit,
      Interface.getObjective, Interface.config, Interface.runFit, Optimizer.fit, Optimizer.fitBounds, fixedPoiBounds, slot, Except.map,
      Optimizer.FixedPoi.pairs, Optimizer.setFixed, Optimizer.setSuggested, Interface.stay, Except.mapError, Interface.scaleOut, F.neg,
      Interface.estimates, Interface.readKey, resolveKey, Interface.item]
  have hlik : ∀ x v : ℝ, M.likelihood .observed none v ⟨[x, 1], none, none⟩ = (.ok (fin (v ^ 2 + 1)), ⟨[v, 1], none, none⟩) := by
    intro x v
    have : ofInterface (Interface.likelihood Interface.stay Interface.exB (.float v) .observed true none false true true none) ⟨[x, 1], none, none⟩ =
        (.ok (.value (fin (v ^ 2 + 1))), ⟨[v, 1], none, none⟩) := by
      simp [ofInterface, Interface.likelihood, Interface.profile, Interface.resolvePoi, Interface.exB, Interface.prepareForFit,
        Interface.getObjective, Interface.config, ModelConfig.npar, Interface.runFit, Optimizer.fit, Optimizer.fitBounds, fixedPoiBounds, slot,
        Except.map, Optimizer.FixedPoi.pairs, Optimizer.setFixed, Optimizer.setSuggested, Interface.stay, Except.mapError, Interface.scaleOut,
        F.neg]
    rw [hM]
    exact (bind_ok (k := fun o => lift (number o)) this).trans rfl
  have hlog : ∀ x v : ℝ, logpdf M .observed none (.float v) ⟨[x, 1], none, none⟩ = (.ok (fin (-(v ^ 2 + 1))), ⟨[v, 1], none, none⟩) := by
    intro x v
    unfold logpdf
    simp only [toFloat, bind_lift_ok]
    rw [bind_ok (hlik x v)]
    rfl
  have hav : M.available .chiSquare = true := by rw [hM]; rfl
  have hrun : ∀ (x : ℝ) (q : F) (y : ℝ), 0 ≤ x → qmuTilde (.float 5) (.one x) (neg (fin (x ^ 2 + 1))) (logpdf M .observed none) ⟨[x, 1], none, none⟩ =
      (.ok q, ⟨[y, 1], none, none⟩) → exclusion M (.float 5) .observed false .chiSquare ⟨[x, 1], none, none⟩ =
        (.ok (levels .observed (Stats.asymptoticLevel (sqrt q) (Stats.chiShift "qtilde" q (fin 0)) "qtilde")), ⟨[0, 1], none, none⟩) := by
    intro x q y hx hq
    have ht : getTestStatistic (σ := World) "qtilde" = .ok qmuTilde := rfl
    have hn : notNegative (.one x) = .ok true := by simp [notNegative, hx]
    have hc : clip0 (scale (-2) (sub (fin (-(0 ^ 2 + 1))) (neg (fin (x ^ 2 + 1))))) = fin 0 := by
      simp only [neg, sub, add, scale, clip0, fin.injEq]
      exact max_eq_right (by nlinarith)
    simp only [exclusion, hav, if_true, calculate, Bool.false_eq_true, if_false]
    refine (bind_ok (s' := ⟨[0, 1], none, none⟩) ?_).trans rfl
    simp only [chiSquare, ht, bind_lift_ok]
    rw [bind_ok (hbest x), bind_ok hq, bind_ok (hlog y 0)]
    simp only [hn, bind_lift_ok, true_or, if_true, hc]
    rfl
  obtain ⟨r, hr⟩ : ∃ r, r = Real.sqrt 50 := ⟨_, rfl⟩
  have hr0 : 0 < r := by rw [hr]; exact Real.sqrt_pos.mpr (by norm_num)
  have hrr : r * r = 50 := by rw [hr]; exact Real.mul_self_sqrt (by norm_num)
  refine ⟨Interface.stay, Interface.exB, ⟨[7, 1], none, none⟩, 1 - Phi (r / 2 - r) / Phi (r / 2), Interface.stay_honest,
    Interface.exB_fallback, Interface.exB_consistent, ?_, ?_, ?_⟩
  · rw [sub_pos, div_lt_one (Phi_pos _)]
    exact Phi_strictMono (by linarith)
  · rw [← hM, hrun 7 (fin 0) 7 (by norm_num)]
    · have h0 : sqrt (fin 0) = fin 0 := by simp [sqrt]
      have h1 : Stats.chiShift "qtilde" (fin 0) (fin 0) = fin 0 := by simp [Stats.chiShift, h0, le, sub, add, neg]
      rw [h0, h1, Stats.asymptoticLevel_eq _ _ (by simp), Stats.pvalues_fin]
      have := (Phi_pos 0).ne'
      simp [levels, isNan, sub, add, neg, this]
    · simp [qmuTilde, greater, lift, ret, bind_def, andThen]
      norm_num
      rfl
  · rw [← hM, hlik 7 0, hrun 0 (fin 50) 5 le_rfl]
    · have h0 : sqrt (fin 0) = fin 0 := by simp [sqrt]
      have h50 : sqrt (fin 50) = fin r := by rw [hr]; norm_num [sqrt]
      have h1 : Stats.chiShift "qtilde" (fin 50) (fin 0) = fin (-(r / 2)) := by
        have : -50 / (2 * r) = -(r / 2) := by rw [← hrr]; field_simp
        simp [Stats.chiShift, h0, h50, le, not_le.mpr hr0, sub, add, neg, scale, div, hr0.ne', this]
      rw [h50, h1, Stats.asymptoticLevel_eq _ _ (by simp), Stats.pvalues_fin]
      simp [levels, isNan, sub, add, neg, sub_eq_add_neg]
    · have hg : greater (.one 0) (.float 5) = .ok false := by norm_num [greater]
      have hn : notNegative (.one 0) = .ok true := by norm_num [notNegative]
      simp only [qmuTilde, hg, hn, bind_lift_ok, Bool.false_eq_true, if_false, if_true]
      rw [bind_ok (hlog 0 5)]
      norm_num [ret, bind_def, andThen, clip0, scale, sub, add, neg]

/-! ## C107: down to the likelihood of the model -/

/-- What is assumed about the minimiser: it finds global minima, exactly. -/
structure Exact (S : Solver) : Prop where
  honest : Honest 0 S
  optimal : Optimal S
  inside : Inside S
  free : StartFree S

/-- What is assumed about the backend: it leaves all fits to spey, its objective is its negative log-likelihood, and there are `N` parameters, the
`k`-th of which is the POI, with two bounds. -/
structure Usual (B : Interface.Backend) (N k : ℕ) : Prop where
  fallback : Fallback B
  consistent : Consistent B
  fixed : ∀ n, (B.config n).fixed = none
  length : ∀ n, (B.config n).bounds.length = N
  poi : ∀ n, slot N (B.config n).poiIndex = some k
  bounds : ∀ n b, (B.config n).bounds[k]? = some b → b.1.isSome ∧ b.2.isSome

theorem likelihood_profile {S : Solver} (hS : Exact S) {B : Interface.Backend} {N k : ℕ} (hB : Usual B N k) {e d v g w} (hw : Plain N w)
    (hv : 0 ≤ v) {l : F} (h : (Interface.likelihood S B (.float v) e true d false true g none w).1 = .ok (.value l)) :
    ∃ x, ProfileAt B N k true e d v l x := by
  have hp : ∃ x, (Interface.likelihood S B (.float v) e true d true true g none w).1 = .ok (.pair l x) := by
    unfold Interface.likelihood at h ⊢
    rw [hB.fallback.negLL] at h ⊢
    dsimp only at h ⊢
    cases hq : (Interface.profile S B (.float v) e d true g none w).1 with
    | error err => rw [hq] at h; simp [Except.map] at h
    | ok r =>
      rw [hq] at h
      simp only [Except.map, Bool.false_eq_true, if_false, Except.ok.injEq, Interface.Out.value.injEq] at h
      exact ⟨r.2, by simp [Except.map, h]⟩
  obtain ⟨x, hx⟩ := hp
  obtain ⟨h1, h2, ⟨y, h3, h4⟩, h5⟩ := Interface.C86_profile le_rfl hS.honest hS.optimal B hB.fallback hB.consistent v e d true g w (hB.fixed _)
    ((hB.length _).trans hw.2.2.symm) (fun l hl => by rw [hw.1] at hl; simp at hl) k (by rw [hw.2.2]; exact hB.poi _) (Or.inl hv)
    (fun b hb => Or.inr (hB.bounds _ b hb)) l x hx
  have hy : y = v := by simpa [sub_eq_zero] using h4
  rw [hw.2.2] at h2 h5
  refine ⟨x, h2, by rw [h3, hy], h1, fun x' a1 a2 a3 a4 a5 => h5 x' a1 a2 a3 ?_ a5⟩
  rw [hw.2.1]
  simpa using a4

theorem maximize_maximum {S : Solver} (hS : Exact S) {B : Interface.Backend} {N k : ℕ} (hB : Usual B N k) {e d n g w} (hw : Plain N w)
    {mu : MuHat} {l : F} (h : (Interface.maximize S B true e n d none none g none w).1 = .ok (mu, l)) :
    ∃ m, mu = .one m ∧ MaximumAt B N k n e d m l := by
  obtain ⟨x, k', y, h1, h2, h3, h4, h5, h6, h7⟩ := Interface.C86_maximum hS.honest hS.optimal hS.inside B hB.fallback hB.consistent e d n g w
    (hB.fixed _) (fun l hl => by rw [hw.1] at hl; simp at hl) mu l h
  rw [hw.2.2] at h2 h4 h7
  have hk : k' = k := by
    rw [hB.poi] at h4
    simpa using h4.symm
  subst hk
  refine ⟨y, h6, x, h2, h5, h3, h1, fun x' a1 a2 a3 a4 => h7 x' a1 a2 ?_ a4⟩
  rw [hw.2.1]
  simpa using a3

theorem asimov_data {S : Solver} (hS : Exact S) {B : Interface.Backend} {N k : ℕ} (hB : Usual B N k) {e ts g w} (hw : Plain N w)
    {d : Data} (h : (Interface.generateAsimov S B e ts g none w).1 = .ok d) : AsimovData B N k e ts d := by
  obtain ⟨x, h1, h2, ⟨y, h3, h4⟩, h5⟩ := Interface.C80_profiled hS.honest hS.optimal B hB.consistent e ts g w hw.1 (hB.fixed _)
    ((hB.length _).trans hw.2.2.symm) k (by rw [hw.2.2]; exact hB.poi _) (fun b hb => hB.bounds _ b hb) d h
  have hy : y = if ts = "q0" then 1 else 0 := by
    have := abs_nonpos_iff.mp h4
    linarith
  rw [hw.2.2] at h2 h5
  refine ⟨_, x, ⟨h2, by rw [h3, hy], rfl, fun x' a1 a2 a3 a4 a5 => h5 x' a1 a2 a3 ?_ a5⟩, h1⟩
  rw [hw.2.1]
  simpa using a4

/-- The methods of the model give what its calls give, with the same optimiser arguments. -/
theorem arguments_end {S : Solver} (hS : Exact S) {B : Interface.Backend} {N k : ℕ} (hB : Usual B N k) (doGrad : Bool) (bounds : Option (List Bound)) (ntoys : Size)
    (available : Calc → Bool) (percentile : List F → F → F) (e : Expect) (w : World) (hw : Plain N w) :
    (∀ d v l, (Interface.likelihood S B (.float v) (expectation e) true d false true doGrad bounds w).1 = .ok (.value l) →
      Ends (Plain N) ((modelMethods S B doGrad bounds ntoys available percentile).likelihood e d v) (.ok l)) ∧
    (∀ d n b, (Interface.maximize S B true (expectation e) n d none none doGrad bounds w).1 = .ok b →
      Ends (Plain N) ((modelMethods S B doGrad bounds ntoys available percentile).maximize e n d) (.ok b)) ∧
    ∀ ts d, (Interface.generateAsimov S B (expectation e) ts doGrad bounds w).1 = .ok d →
      (∀ v l, (Interface.likelihood S B (.float v) (expectation e) true (some d) false true doGrad bounds w).1 = .ok (.value l) →
        Ends (Plain N) ((modelMethods S B doGrad bounds ntoys available percentile).asimovLikelihood e ts v) (.ok l)) ∧
      ∀ b, (Interface.maximize S B true (expectation e) (mayBeNegative ts) (some d) none none doGrad bounds w).1 = .ok b →
        Ends (Plain N) ((modelMethods S B doGrad bounds ntoys available percentile).maximizeAsimov e ts) (.ok b) := by
  have st := C110_model hS.free B hB.fixed doGrad bounds ntoys available percentile N
  refine ⟨fun d v l h => ?_, fun d n b h => ?_, fun ts d h4 => ?_⟩
  · apply (st.likelihood e d v).ends hw
    have : ofInterface (Interface.likelihood S B (.float v) (expectation e) true d false true doGrad bounds) w =
        (.ok (.value l), (Interface.likelihood S B (.float v) (expectation e) true d false true doGrad bounds w).2) := by
      unfold ofInterface; rw [h]; rfl
    change ((ofInterface _ >>= fun o => lift (number o)) w).1 = _
    rw [bind_ok this]
    rfl
  · apply (st.maximize e n d).ends hw
    change (ofInterface _ w).1 = _
    unfold ofInterface; rw [h]; rfl
  · have hp := (Interface.generateAsimov_free hS.free B hB.fixed (expectation e) ts doGrad bounds hw hw).2
    cases hg : Interface.generateAsimov S B (expectation e) ts doGrad bounds w with
    | mk r w1 =>
    rw [hg] at h4 hp
    dsimp only at h4 hp
    subst h4
    refine ⟨fun v l h => ?_, fun b h => ?_⟩
    · apply (st.asimovLikelihood e ts v).ends hw
      have hq := ((Interface.C80_queries S B hB.fallback (.float v) (expectation e) true ts doGrad bounds none w).1 d w1 hg).1
      have h' : (Interface.asimovLikelihood S B (.float v) (expectation e) true ts doGrad bounds w).1 = .ok (.value l) := by
        rw [hq, ← h]
        exact (Interface.likelihood_free hS.free B hB.fixed _ _ _ _ _ _ _ _ hp hw).1
      have : ofInterface (Interface.asimovLikelihood S B (.float v) (expectation e) true ts doGrad bounds) w =
          (.ok (.value l), (Interface.asimovLikelihood S B (.float v) (expectation e) true ts doGrad bounds w).2) := by
        unfold ofInterface; rw [h']; rfl
      change ((ofInterface _ >>= fun o => lift (number o)) w).1 = _
      rw [bind_ok this]
      rfl
    · apply (st.maximizeAsimov e ts).ends hw
      have hneg : decide (ts = "q" ∨ ts = "qmu") = mayBeNegative ts := by simp [mayBeNegative]
      have hq := ((Interface.C80_queries S B hB.fallback (.float 0) (expectation e) true ts doGrad bounds none w).1 d w1 hg).2
      change (ofInterface _ w).1 = _
      unfold ofInterface
      rw [hq, hneg, (Interface.maximize_free hS.free B hB.fixed _ _ _ _ _ _ _ _ hp hw).1, h]
      rfl

/-- The methods of the model give what its calls give. -/
theorem model_ends {S : Solver} (hS : Exact S) {B : Interface.Backend} {N k : ℕ} (hB : Usual B N k) (doGrad : Bool) (ntoys : Size)
    (available : Calc → Bool) (percentile : List F → F → F) (e : Expect) (w : World) (hw : Plain N w) :
    (∀ d v l, (Interface.likelihood S B (.float v) (expectation e) true d false true doGrad none w).1 = .ok (.value l) →
      Ends (Plain N) ((modelMethods S B doGrad none ntoys available percentile).likelihood e d v) (.ok l)) ∧
    (∀ d n b, (Interface.maximize S B true (expectation e) n d none none doGrad none w).1 = .ok b →
      Ends (Plain N) ((modelMethods S B doGrad none ntoys available percentile).maximize e n d) (.ok b)) ∧
    ∀ ts d, (Interface.generateAsimov S B (expectation e) ts doGrad none w).1 = .ok d →
      (∀ v l, (Interface.likelihood S B (.float v) (expectation e) true (some d) false true doGrad none w).1 = .ok (.value l) →
        Ends (Plain N) ((modelMethods S B doGrad none ntoys available percentile).asimovLikelihood e ts v) (.ok l)) ∧
      ∀ b, (Interface.maximize S B true (expectation e) (mayBeNegative ts) (some d) none none doGrad none w).1 = .ok b →
        Ends (Plain N) ((modelMethods S B doGrad none ntoys available percentile).maximizeAsimov e ts) (.ok b) :=
  arguments_end hS hB doGrad none ntoys available percentile e w hw

/-- C107, from `exclusion_confidence_level` down to the likelihood of the backend: if the fits it may need succeed, the level is that of `Verif.Stats`
for the maximum of the likelihood inside the bounds, its profiles at the tested value and at zero, and the same for the expected data at the best point
with the POI at zero; and it does not depend on what was asked before. -/
theorem C107_profile {S : Solver} (hS : Exact S) (B : Interface.Backend) (N k : ℕ) (hB : Usual B N k) (doGrad : Bool) (ntoys : Size)
    (available : Calc → Bool) (percentile : List F → F → F) (mu : Mu) (v : ℝ) (hmu : mu.Is v) (hv : 0 ≤ v) (e : Expect) (negative : Bool)
    (w : World) (hw : Plain N w) (b bA : MuHat × F) (lv l0 lvA l0A : F) (d : Data)
    (h1 : (Interface.maximize S B true (expectation e) negative none none none doGrad none w).1 = .ok b)
    (h2 : (Interface.likelihood S B (.float v) (expectation e) true none false true doGrad none w).1 = .ok (.value lv))
    (h3 : (Interface.likelihood S B (.float 0) (expectation e) true none false true doGrad none w).1 = .ok (.value l0))
    (h4 : (Interface.generateAsimov S B (expectation e) (if negative then "q" else "qtilde") doGrad none w).1 = .ok d)
    (h5 : (Interface.maximize S B true (expectation e) negative (some d) none none doGrad none w).1 = .ok bA)
    (h6 : (Interface.likelihood S B (.float v) (expectation e) true (some d) false true doGrad none w).1 = .ok (.value lvA))
    (h7 : (Interface.likelihood S B (.float 0) (expectation e) true (some d) false true doGrad none w).1 = .ok (.value l0A)) :
    ∃ m l mA lA, b = (.one m, l) ∧ bA = (.one mA, lA) ∧ MaximumAt B N k negative (expectation e) none m l ∧ (∃ x, ProfileAt B N k true (expectation e) none v lv x) ∧
      (∃ x, ProfileAt B N k true (expectation e) none 0 l0 x) ∧
      AsimovData B N k (expectation e) (if negative then "q" else "qtilde") d ∧
      MaximumAt B N k negative (expectation e) (some d) mA lA ∧ (∃ x, ProfileAt B N k true (expectation e) (some d) v lvA x) ∧
      (∃ x, ProfileAt B N k true (expectation e) (some d) 0 l0A x) ∧
      Ends (Plain N) (exclusion (modelMethods S B doGrad none ntoys available percentile) mu e negative .asymptotic)
        ((Stats.exclusionConfidenceLevel ⟨fitOf v m l lv l0, fitOf v mA lA lvA l0A, [], [], percentile, available⟩ (fin v) e negative
          .asymptotic).mapError .stats) := by
  obtain ⟨mu1, l⟩ := b
  obtain ⟨muA, lA⟩ := bA
  obtain ⟨m, rfl, hm⟩ := maximize_maximum hS hB hw h1
  obtain ⟨mA, rfl, hmA⟩ := maximize_maximum hS hB hw h5
  refine ⟨m, l, mA, lA, rfl, rfl, hm, likelihood_profile hS hB hw hv h2, likelihood_profile hS hB hw le_rfl h3, asimov_data hS hB hw h4, hmA,
    likelihood_profile hS hB hw hv h6, likelihood_profile hS hB hw le_rfl h7, ?_⟩
  obtain ⟨hlik, hmax, hasi⟩ := model_ends hS hB doGrad ntoys available percentile e w hw
  obtain ⟨hlikA, hmaxA⟩ := hasi _ d h4
  have hneg : mayBeNegative (if negative then "q" else "qtilde") = negative := by cases negative <;> simp [mayBeNegative]
  exact C107_levels (I := Plain N) _ ⟨w, hw⟩ mu v hmu e negative .asymptotic m l lv l0 ⟨hmax _ _ _ h1, hlik _ _ _ h2, hlik _ _ _ h3⟩ mA lA lvA
    l0A (fun _ => ⟨hmaxA _ (by rw [hneg]; exact h5), hlikA v lvA h6, hlikA 0 l0A h7⟩) [] [] [] [] (by simp) (by simp) (by simp) (by simp) (by simp)

/-- C107: all fits of the tests are made with the optimiser arguments of the call, `do_grad` and `par_bounds`: the level is that of `Verif.Stats` for the answers that the
model gives with these arguments, for the data and for the Asimov data made with them. -/
theorem C107_arguments {S : Solver} (hS : Exact S) (B : Interface.Backend) (N k : ℕ) (hB : Usual B N k) (doGrad : Bool) (bounds : Option (List Bound)) (ntoys : Size)
    (available : Calc → Bool) (percentile : List F → F → F) (mu : Mu) (v : ℝ) (hmu : mu.Is v) (e : Expect) (negative : Bool)
    (w : World) (hw : Plain N w) (m mA : ℝ) (l lA lv l0 lvA l0A : F) (d : Data)
    (h1 : (Interface.maximize S B true (expectation e) negative none none none doGrad bounds w).1 = .ok (.one m, l))
    (h2 : (Interface.likelihood S B (.float v) (expectation e) true none false true doGrad bounds w).1 = .ok (.value lv))
    (h3 : (Interface.likelihood S B (.float 0) (expectation e) true none false true doGrad bounds w).1 = .ok (.value l0))
    (h4 : (Interface.generateAsimov S B (expectation e) (if negative then "q" else "qtilde") doGrad bounds w).1 = .ok d)
    (h5 : (Interface.maximize S B true (expectation e) negative (some d) none none doGrad bounds w).1 = .ok (.one mA, lA))
    (h6 : (Interface.likelihood S B (.float v) (expectation e) true (some d) false true doGrad bounds w).1 = .ok (.value lvA))
    (h7 : (Interface.likelihood S B (.float 0) (expectation e) true (some d) false true doGrad bounds w).1 = .ok (.value l0A)) :
    Ends (Plain N) (exclusion (modelMethods S B doGrad bounds ntoys available percentile) mu e negative .asymptotic)
      ((Stats.exclusionConfidenceLevel ⟨fitOf v m l lv l0, fitOf v mA lA lvA l0A, [], [], percentile, available⟩ (fin v) e negative .asymptotic).mapError .stats) := by
  obtain ⟨hlik, hmax, hasi⟩ := arguments_end hS hB doGrad bounds ntoys available percentile e w hw
  obtain ⟨hlikA, hmaxA⟩ := hasi _ d h4
  have hneg : mayBeNegative (if negative then "q" else "qtilde") = negative := by cases negative <;> simp [mayBeNegative]
  exact C107_levels (I := Plain N) _ ⟨w, hw⟩ mu v hmu e negative .asymptotic m l lv l0 ⟨hmax _ _ _ h1, hlik _ _ _ h2, hlik _ _ _ h3⟩ mA lA lvA
    l0A (fun _ => ⟨hmaxA _ (by rw [hneg]; exact h5), hlikA v lvA h6, hlikA 0 l0A h7⟩) [] [] [] [] (by simp) (by simp) (by simp) (by simp) (by simp)

/-- C108, down to the backend: the toys of a level that was given are draws of the backend's sampler, as many as the model was asked for, the signal toys at parameters
whose POI is the tested value, the background toys at parameters whose POI is zero, up to the tolerance with which the minimiser keeps the POI. -/
theorem C108_model {tol : ℝ} (htol : 0 ≤ tol) {S : Solver} (hS : Honest tol S) (hF : StartFree S) (B : Interface.Backend) (hfix : ∀ n, (B.config n).fixed = none) (doGrad : Bool)
    (bounds : Option (List Bound)) (n : ℕ) (available : Calc → Bool) (percentile : List F → F → F) (v : ℝ) (e : Expect) (negative : Bool) (N k : ℕ) (hk : slot N (B.config true).poiIndex = some k)
    (w w' : World) (hw : Plain N w) (L : Levels)
    (h : exclusion (modelMethods S B doGrad bounds (.int n) available percentile) (.float v) e negative .toy w = (.ok L, w')) :
    ∃ x s y x0 s0 y0 t q s3 s4, B.sampler x = .ok s ∧ x[k]? = some y ∧ |y - v| ≤ tol ∧ B.sampler x0 = .ok s0 ∧ x0[k]? = some y0 ∧ |y0| ≤ tol ∧
      getTestStatistic (if negative then "q" else "qtilde") = .ok t ∧
      toyLoop (modelMethods S B doGrad bounds (.int n) available percentile) t (.float v) e negative (s n) (s0 n) s3 = (.ok q, s4) ∧ Plain N s3 := by
  obtain ⟨b, s1, sig, s2, bkg, s3, t, q, s4, h1, h2, h3, ht, h4, -⟩ := C108_draws _ (.float v) e negative w w' L h
  have st := C110_model hF B hfix doGrad bounds (.int n) available percentile N
  have p1 : Plain N s1 := by
    have := (st.maximize e negative none w w hw hw).2
    rw [h1] at this
    exact this
  have p2 : Plain N s2 := by
    have := (st.sampler e (.float v) s1 s1 p1 p1).2
    rw [h2] at this
    exact this
  have p3 : Plain N s3 := by
    have := (st.sampler e (.float 0) s2 s2 p2 p2).2
    rw [h3] at this
    exact this
  have key : ∀ (u : ℝ) (r r' : World) (toys : List Data), Plain N r → (modelMethods S B doGrad bounds (.int n) available percentile).sampler e (.float u) r = (.ok (.data toys), r') →
      ∃ x s y, B.sampler x = .ok s ∧ toys = s n ∧ x[k]? = some y ∧ |y - u| ≤ tol := by
    intro u r r' toys hr hsam
    have hsam := congrArg Prod.fst hsam
    have hok : (Interface.fixedPoiSampler S B (.float u) (expectation e) (.int n) doGrad bounds r).1 = .ok (.data toys) := by
      change (Interface.fixedPoiSampler S B (.float u) (expectation e) (.int n) doGrad bounds r).1.mapError Err.call = _ at hsam
      cases hq : (Interface.fixedPoiSampler S B (.float u) (expectation e) (.int n) doGrad bounds r).1 with
      | error err => rw [hq] at hsam; simp [Except.mapError] at hsam
      | ok x => rw [hq] at hsam; simpa [Except.mapError] using hsam
    obtain ⟨x, s, y, a1, a2, -, a3, a4⟩ := Interface.C98_poi htol hS B u (expectation e) n doGrad bounds r (fun l hl => by rw [hr.1] at hl; simp at hl) k (by rw [hr.2.2]; exact hk) toys hok
    exact ⟨x, s, y, a1, a2, a3, a4⟩
  obtain ⟨x, s, y, a1, rfl, a3, a4⟩ := key v s1 s2 sig p1 h2
  obtain ⟨x0, s0, y0, b1, rfl, b3, b4⟩ := key 0 s2 s3 bkg p2 h3
  exact ⟨x, s, y, x0, s0, y0, t, q, s3, s4, a1, a3, a4, b1, b3, by simpa using b4, ht, h4, p3⟩

/-- C108: with a number of toys that is no `int` (an integer of numpy, for instance), no level is ever given: the sampler then returns a function, over
which the loop cannot run. -/
theorem C108_size_fails (S : Solver) (B : Interface.Backend) (doGrad : Bool) (bounds : Option (List Bound)) (available : Calc → Bool)
    (percentile : List F → F → F) (mu : Mu) (e : Expect) (negative : Bool) (w w' : World) (L : Levels) :
    exclusion (modelMethods S B doGrad bounds .other available percentile) mu e negative .toy w ≠ (.ok L, w') := by
  intro h
  obtain ⟨b, s1, sig, s2, bkg, s3, t, q, s4, -, h2, -⟩ := C108_draws _ mu e negative w w' L h
  have h2 := congrArg Prod.fst h2
  simp only [modelMethods, ofInterface, Interface.fixedPoiSampler] at h2
  revert h2
  split
  · simp [Except.mapError]
  · split <;> simp [Except.mapError]

end Verif.Hypotest
