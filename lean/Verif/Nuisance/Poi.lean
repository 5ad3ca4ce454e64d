import Verif.Nuisance.Reads
import Verif.Interval.Reads

/-!
# The fits of `chi2_test` for the parameter of interest
-/

namespace Verif.Nuisance
open Verif.Py F Verif.Hypotest Verif.Config Verif.Chi2 Verif.Optimizer
open Verif.Interface (World Solver Plain Constrained Size prepareForFit prepare_ok runFit)
open Verif.Stats (Expect Calc)

variable {S : Solver} (hS : Exact S) (hC : Constrained S) {B : Interface.Backend} {N k : ℕ} (hB : Usual B N k) (hN : 2 ≤ N ∨ B.constraints = [])

theorem likelihood_number (S : Solver) (B : Interface.Backend) (g : Bool) (ntoys : Size) (available : Calc → Bool) (percentile : List F → F → F) (e : Expect) (w : World) (v : ℝ) :
    Interval.nllFn (modelMethods S B g none ntoys available percentile) e w v =
      match (Interface.likelihood S B (.float v) (expectation e) true none false true g none w).1 with
      | .ok (.value l) => l
      | _ => nan := by
  have h : ((modelMethods S B g none ntoys available percentile).likelihood e none v w).1 =
      match (Interface.likelihood S B (.float v) (expectation e) true none false true g none w).1 with
      | .error err => .error (.call err)
      | .ok o => number o := by
    change (((ofInterface (Interface.likelihood S B (.float v) (expectation e) true none false true g none)) >>= fun o => lift (number o)) w).1 = _
    cases hc : Interface.likelihood S B (.float v) (expectation e) true none false true g none w with
    | mk r w' =>
    cases r with
    | error err => rw [bind_error (e := .call err) (s' := w') (by simp [ofInterface, hc, Except.mapError])]
    | ok o => rw [bind_ok (a := o) (s' := w') (by simp [ofInterface, hc, Except.mapError])]; rfl
  unfold Interval.nllFn
  rw [h]
  cases (Interface.likelihood S B (.float v) (expectation e) true none false true g none w).1 with
  | error err => rfl
  | ok o => cases o <;> rfl

include hB in
/-- The fits of the search: none for models with one parameter. -/
theorem poi_runs {g : Bool} {ntoys : Size} {available : Calc → Bool} {percentile : List F → F → F} {e : Expect} {w : World} (hw : Plain N w) (v : ℝ) :
    (Interval.nllFn (modelMethods S B g none ntoys available percentile) e w v = nan ∧ ¬ ∃ r, Interface.getObjective B (expectation e) none g = .ok r) ∨
      (N = 1 ∧ Interval.nllFn (modelMethods S B g none ntoys available percentile) e w v = neg (B.logpdf (expectation e) none [v])) ∨
      ∃ p w1, Ready B e true N p w1 (fixedNumber (some v)) [(k, v)] ∧ ((0 ≤ v ∨ le (B.config true).minimumPoi (fin v)) → Holds p.config (fixedNumber (some v)) [(k, v)]) ∧
        Interval.nllFn (modelMethods S B g none ntoys available percentile) e w v = nllOf (runFit S p none (fixedNumber (some v)) (some p.logpdf) w1).1 := by
  rw [likelihood_number]
  unfold Interface.likelihood
  rw [hB.fallback.negLL]
  simp only [Bool.false_eq_true, if_false]
  unfold Interface.profile
  cases hp : prepareForFit B (expectation e) none true g w with
  | mk r w1 =>
  cases r with
  | error err =>
    refine .inl ⟨by simp [Except.map], ?_⟩
    rintro ⟨⟨f, g'⟩, hr⟩
    unfold prepareForFit at hp
    rw [hr] at hp
    simp at hp
  | ok p =>
  obtain ⟨h1, h2, h3, h4, g', h5, -⟩ := prepare_ok hp
  have hpN : p.config.npar = N := by
    unfold ModelConfig.npar
    rw [h2]
    exact hw.2.2
  by_cases h1N : N = 1
  · refine .inr (.inl ⟨h1N, ?_⟩)
    simp only [hpN, h1N, Except.map, Interface.scaleOut, if_true, h3]
  refine .inr (.inr ⟨p, w1, ⟨by rw [h1]; exact hw.1, by rw [h2]; exact hw.2.2, by rw [h2]; exact hB.fixed true, fun x => hB.consistent _ _ _ _ h5 x, h3, by rw [h4, hw.2.1]; rfl,
    number_fixes (c := p.config) (n := true) (poiValue := some v) hB (by rw [h2]; rfl) (by rw [h2]; rfl) (by rw [h2]; rfl)⟩,
    fun hv => number_holds (c := p.config) (n := true) (poiValue := some v) hB (by rw [h2]; rfl) (by rw [h2]; rfl) (by rw [h2]; rfl) (by intro u hu; rw [Option.some.injEq] at hu; exact hu ▸ hv), ?_⟩)
  simp only
  split
  · rename_i hh
    split at hh
    · rename_i h9 _
      exact absurd (hpN.symm.trans h9) h1N
    · simp only [Interface.resolvePoi] at hh
      cases hr : runFit S p none (fixedNumber (some v)) (some p.logpdf) w1 with
      | mk q w2 =>
      simp only [fixedNumber] at hr
      rw [hr] at hh
      cases q with
      | error err => simp [Except.map] at hh
      | ok q =>
        simp only [Except.map, Except.ok.injEq, Interface.Out.value.injEq, Interface.scaleOut, if_true] at hh
        simp [nllOf, hh]
  · rename_i hh
    split at hh
    · rename_i h9 _
      exact absurd (hpN.symm.trans h9) h1N
    · simp only [Interface.resolvePoi] at hh
      cases hr : runFit S p none (fixedNumber (some v)) (some p.logpdf) w1 with
      | mk q w2 =>
      simp only [fixedNumber] at hr
      rw [hr] at hh
      cases q with
      | error err => rfl
      | ok q => simp [Except.map] at hh

include hB hN in
theorem single_smallest {e : Expect} {v : ℝ} (h1 : N = 1) :
    Smallest (fun x => neg (B.logpdf (expectation e) none x)) (Admissible N (B.config true).bounds B.constraints [(k, v)]) (neg (B.logpdf (expectation e) none [v])) ∨ neg (B.logpdf (expectation e) none [v]) = nan := by
  by_cases hn : neg (B.logpdf (expectation e) none [v]) = nan
  · exact .inr hn
  subst h1
  have hc : B.constraints = [] := hN.resolve_left (by norm_num)
  have hk : k = 0 := by
    have := slot_lt (hB.poi true)
    omega
  subst hk
  refine .inl ⟨[v], ⟨rfl, ?_, ?_, by rw [hc]; intro c hc; simp at hc⟩, rfl, fun x' hx' _ => ?_⟩
  · intro q hq
    rw [List.mem_singleton] at hq
    subst hq
    rfl
  · intro i b y hi _ hy
    match i, hi, hy with
    | 0, hi, _ => exact absurd rfl (hi (0, v) (by simp))
    | i + 1, _, hy => simp at hy
  · have h := hx'.fixed (0, v) (by simp)
    obtain ⟨y, rfl⟩ := List.length_eq_one_iff.mp hx'.length
    simp only [List.getElem?_cons_zero, Option.some.injEq] at h
    subst h
    exact Interface.le_self hn

include hS hC hB hN in
theorem poi_smallest {g : Bool} {ntoys : Size} {available : Calc → Bool} {percentile : List F → F → F} {e : Expect} {w : World} (hw : Plain N w) {v : ℝ} {l : F}
    (hl : Interval.nllFn (modelMethods S B g none ntoys available percentile) e w v = l) (hn : l ≠ nan) :
    Smallest (fun x => neg (B.logpdf (expectation e) none x)) (Admissible N (B.config true).bounds B.constraints [(k, v)]) l := by
  rcases poi_runs (S := S) (g := g) (ntoys := ntoys) (available := available) (percentile := percentile) (e := e) hB hw v with ⟨h, -⟩ | ⟨h1, h⟩ | ⟨p, w1, hp, -, h⟩
  · exact absurd (hl.symm.trans h) hn
  · rw [hl] at h
    rcases single_smallest (e := e) (v := v) hB hN h1 with h2 | h2
    · rw [h]
      exact h2
    · exact absurd (h.trans h2) hn
  · rw [hl] at h
    cases hr : (runFit S p none (fixedNumber (some v)) (some p.logpdf) w1).1 with
    | error err => rw [hr] at h; exact absurd h hn
    | ok q =>
      obtain ⟨lp, x⟩ := q
      obtain ⟨r1, r2, r3⟩ := hp.smallest hS hC hr
      rw [hr, nllOf, r1] at h
      exact ⟨x, r2, h, fun x' hx' hn' => h ▸ r3 x' hx' hn'⟩

include hS hC hB in
theorem poi_value (hT : Chain.Finds S) {g : Bool} {ntoys : Size} {available : Calc → Bool} {percentile : List F → F → F} {e : Expect} {w : World} (hw : Plain N w)
    (ht : ∃ r, Interface.getObjective B (expectation e) none g = .ok r) {v : ℝ} (hv : 0 ≤ v ∨ le (B.config true).minimumPoi (fin v)) {l : F}
    (hl : Smallest (fun x => neg (B.logpdf (expectation e) none x)) (Admissible N (B.config true).bounds B.constraints [(k, v)]) l) (hn : l ≠ nan) :
    Interval.nllFn (modelMethods S B g none ntoys available percentile) e w v = l := by
  rcases poi_runs (S := S) (g := g) (ntoys := ntoys) (available := available) (percentile := percentile) (e := e) hB hw v with ⟨-, h⟩ | ⟨h1, h⟩ | ⟨p, w1, hp, hH, h⟩
  · exact absurd ht h
  · obtain ⟨x, hx, rfl, -⟩ := hl
    rw [h]
    subst h1
    have hk : k = 0 := by
      have := slot_lt (hB.poi true)
      omega
    subst hk
    have h := hx.fixed (0, v) (by simp)
    obtain ⟨y, rfl⟩ := List.length_eq_one_iff.mp hx.length
    simp only [List.getElem?_cons_zero, Option.some.injEq] at h
    subst h
    rfl
  obtain ⟨⟨lp, x⟩, hr⟩ := run_finds hT hp.init hp.length hp.free (fun x => by rw [hp.func, hp.logpdf]) hp.fixes (hH hv) ⟨l, by rw [hp.logpdf, hp.constraints]; exact hl⟩
  obtain ⟨r1, r2, r3⟩ := hp.smallest hS hC hr
  rw [hr, nllOf, r1] at h
  rw [h]
  obtain ⟨x', hx', rfl, hx2⟩ := hl
  have h3 := r3 x' hx' hn
  refine le_antisymm' h3 (hx2 x r2 fun h0 => ?_)
  dsimp only at h0
  rw [h0] at h3
  simp [le] at h3

include hB in
theorem prepare_ready {g n : Bool} {e : Expect} {w w1 : World} (hw : Plain N w) {p : Interface.Prepared} (hp : prepareForFit B (expectation e) none n g w = (.ok p, w1)) (v : ℝ) :
    Ready B e n N p w1 (fixedNumber (some v)) [(k, v)] ∧ ((0 ≤ v ∨ le (B.config n).minimumPoi (fin v)) → Holds p.config (fixedNumber (some v)) [(k, v)]) := by
  obtain ⟨h1, h2, h3, h4, g', h5, -⟩ := prepare_ok hp
  exact ⟨⟨by rw [h1]; exact hw.1, by rw [h2]; exact hw.2.2, by rw [h2]; exact hB.fixed n, fun x => hB.consistent _ _ _ _ h5 x, h3, by rw [h4, hw.2.1]; rfl,
    number_fixes (c := p.config) (n := n) (poiValue := some v) hB (by rw [h2]; rfl) (by rw [h2]; rfl) (by rw [h2]; rfl)⟩,
    fun hv => number_holds (c := p.config) (n := n) (poiValue := some v) hB (by rw [h2]; rfl) (by rw [h2]; rfl) (by rw [h2]; rfl) (by intro u hu; rw [Option.some.injEq] at hu; exact hu ▸ hv)⟩

/-- The point of a fit does not depend on `logpdf`. -/
theorem run_without {S : Solver} {p : Interface.Prepared} {b : Option (List Bound)} {fixed : FixedPoi} {f : List ℝ → F} {w : World} {lp : F} {x : List ℝ} (h : (runFit S p b fixed (some f) w).1 = .ok (lp, x)) :
    ∃ v, (runFit S p b fixed none w).1 = .ok (v, x) := by
  unfold runFit fit at h ⊢
  dsimp only at h ⊢
  cases h1 : fitBounds p.config b fixed with
  | error err => rw [h1] at h; simp [Except.mapError] at h
  | ok b' =>
  rw [h1] at h
  dsimp only at h ⊢
  generalize setFixed (w.init.getD p.config.init) (List.replicate (w.init.getD p.config.init).length false) (FixedPoi.pairs p.config fixed) = s at h ⊢
  obtain ⟨s1, s2⟩ := s
  cases s2 with
  | error err => simp [Except.mapError] at h
  | ok u =>
  cases u
  dsimp only at h ⊢
  cases h3 : setSuggested 0 s1.2 (p.config.fixed.getD []) with
  | error err => rw [h3] at h; simp [Except.mapError] at h
  | ok mask =>
  rw [h3] at h
  dsimp only at h ⊢
  cases h4 : S p.func p.doGrad p.constraints p.config.poiIndex s1.1 mask b' with
  | error err => rw [h4] at h; simp [Except.mapError] at h
  | ok q =>
  rw [h4] at h
  simp only [Except.mapError, Except.ok.injEq, Prod.mk.injEq] at h ⊢
  exact ⟨_, rfl, h.2⟩

include hS hC hB in
/-- `sigma_mu` from the inverse of the Hessian at the point of the profile likelihood. -/
theorem poi_sigma (hT : Chain.Finds S) {g : Bool} {ntoys : Size} {available : Calc → Bool} {percentile : List F → F → F} {e : Expect} {inv : List (List ℝ) → Except Interface.Err (List (List ℝ))}
    (ht : ∃ r, Interface.getObjective B (expectation e) none g = .ok r) {v l σ : ℝ} (hv : 0 ≤ v ∨ le (B.config true).minimumPoi (fin v)) (hσ : 0 ≤ σ)
    (hl : Smallest (fun x => neg (B.logpdf (expectation e) none x)) (Admissible N (B.config true).bounds B.constraints [(k, v)]) (fin l)) {H : List ℝ → List (List ℝ)} (hH : B.hessian (expectation e) = .ok H)
    (hinv : ∀ x, Admissible N (B.config true).bounds B.constraints [(k, v)] x → neg (B.logpdf (expectation e) none x) = fin l →
      ∃ M, inv ((H x).map fun row => row.map fun y => -1 * y) = .ok M ∧ Interface.entry M (B.config true).poiIndex (B.config true).poiIndex = .ok (σ ^ 2)) :
    Ends (Plain N) (modelSigma S inv B g ntoys available percentile e v) (.ok (fin σ)) := by
  intro w hw
  have hfree := Interface.sigmaMuFromHessian_free hS.free inv B hB.fixed (.float v) (expectation e) g none hw hw
  have hmain : (Interface.sigmaMuFromHessian S inv B (.float v) (expectation e) g none w).1 = .ok (fin σ) := by
    unfold Interface.sigmaMuFromHessian
    rw [hH]
    dsimp only
    cases hp : prepareForFit B (expectation e) none true g w with
    | mk r w1 =>
    cases r with
    | error err =>
      obtain ⟨⟨f, g'⟩, hr⟩ := ht
      unfold prepareForFit at hp
      rw [hr] at hp
      simp at hp
    | ok p =>
    obtain ⟨hR, hh⟩ := prepare_ready hB hw hp v
    obtain ⟨⟨lp, x⟩, hr⟩ := run_finds hT hR.init hR.length hR.free (fun x => by rw [hR.func, hR.logpdf]) hR.fixes (hh hv) ⟨_, by rw [hR.logpdf, hR.constraints]; exact hl⟩
    obtain ⟨r1, r2, r3⟩ := hR.smallest hS hC hr
    have hval : neg (B.logpdf (expectation e) none x) = fin l := by
      obtain ⟨x', hx', hx1, hx2⟩ := hl
      dsimp only at hx1 hx2
      have h3 := r3 x' hx' (by rw [← hx1]; simp)
      rw [← hx1] at h3
      refine le_antisymm' h3 (hx2 x r2 fun h0 => ?_)
      rw [h0] at h3
      simp [le] at h3
    obtain ⟨M, m1, m2⟩ := hinv x r2 hval
    obtain ⟨v', hr'⟩ := run_without hr
    simp only [Interface.resolvePoi]
    cases hq : runFit S p none (fixedNumber (some v)) none w1 with
    | mk q w2 =>
    rw [hq] at hr'
    dsimp only at hr'
    subst hr'
    simp only [fixedNumber] at hq
    rw [hq]
    simp only [m1, Interface.config, m2, Except.map]
    rw [Stats.sqrt_fin (sq_nonneg σ), Real.sqrt_sq hσ]
  unfold modelSigma sigmaMu hessianOr
  simp only [Option.map_some, modelHessian, ofInterface, toPoi]
  cases hr : Interface.sigmaMuFromHessian S inv B (.float v) (expectation e) g none w with
  | mk q w' =>
  rw [hr] at hmain hfree
  dsimp only at hmain hfree
  subst hmain
  exact ⟨rfl, hfree.2⟩

include hS hC hB in
/-- The fit of a model whose profile likelihood is Gaussian. -/
theorem poi_max (hT : Chain.Finds S) {g : Bool} {ntoys : Size} {available : Calc → Bool} {percentile : List F → F → F} {e : Expect}
    (ht : ∃ r, Interface.getObjective B (expectation e) none g = .ok r) {c σ est : ℝ} (hσ : 0 < σ) {b : Bound} (hb : (B.config true).bounds[k]? = some b) (hin : Interface.Allowed b est)
    (hprof : ∀ v, Smallest (fun x => neg (B.logpdf (expectation e) none x)) (Admissible N (B.config true).bounds B.constraints [(k, v)]) (fin (-(Stats.gaussianLog c σ est v)))) :
    Ends (Plain N) ((modelMethods S B g none ntoys available percentile).maximize e true none) (.ok (.one est, fin (-(Stats.gaussianLog c σ est est)))) := by
  intro w hw
  have hplain := (Interface.maximize_free hS.free B hB.fixed true (expectation e) true none none none g none hw hw).2
  have hkN : k < N := slot_lt (hB.poi true)
  have coord : ∀ x, Admissible N (B.config true).bounds B.constraints [] x → ∃ y, x[k]? = some y := fun x hx => ⟨_, List.getElem?_eq_getElem (by rw [hx.length]; exact hkN)⟩
  have hle : ∀ v, -(Stats.gaussianLog c σ est est) ≤ -(Stats.gaussianLog c σ est v) := by
    intro v
    have : 0 ≤ (v - est) ^ 2 / (2 * σ ^ 2) := by positivity
    simp only [Stats.gaussianLog, sub_self]
    norm_num
    linarith
  have hglob : Smallest (fun x => neg (B.logpdf (expectation e) none x)) (Admissible N (B.config true).bounds B.constraints []) (fin (-(Stats.gaussianLog c σ est est))) := by
    obtain ⟨x, hx, hx1, hx2⟩ := hprof est
    refine ⟨x, hx.weaken hb hin, hx1, fun x' hx' hn => ?_⟩
    obtain ⟨y, hy⟩ := coord x' hx'
    obtain ⟨_, _, _, h3⟩ := hprof y
    have h4 := h3 x' (hx'.strengthen hy) hn
    have h5 := hle y
    dsimp only at h4 ⊢
    generalize neg (B.logpdf (expectation e) none x') = q at h4 ⊢
    cases q with
    | fin q => exact h5.trans h4
    | nan => exact h4
    | pinf => trivial
    | ninf => exact h4
  have hmax : (Interface.maximize S B true (expectation e) true none none ((none : Option ℝ).map Interface.Poi.float) g none w).1 = .ok (.one est, fin (-(Stats.gaussianLog c σ est est))) := by
    rcases max_runs (S := S) (g := g) (n := true) (e := e) (poiValue := none) hB hw none with ⟨-, h⟩ | ⟨p, w1, hp, hH, hp2⟩
    · exact absurd ht h
    obtain ⟨⟨lp, x⟩, hrun⟩ := run_finds hT hp.init hp.length hp.free (fun x => by rw [hp.func, hp.logpdf]) hp.fixes (hH (by intro v hv; cases hv)) ⟨_, by rw [hp.logpdf, hp.constraints]; exact hglob⟩
    rcases hp2 with ⟨err, h, -⟩ | ⟨lp', x', w2, hrun', hmax⟩
    · rw [hrun] at h; cases h
    rw [hrun, Except.ok.injEq, Prod.mk.injEq] at hrun'
    obtain ⟨rfl, rfl⟩ := hrun'
    obtain ⟨r1, r2, r3⟩ := hp.smallest hS hC hrun
    change Admissible N (B.config true).bounds B.constraints [] x at r2
    have hval : neg (B.logpdf (expectation e) none x) = fin (-(Stats.gaussianLog c σ est est)) := by
      obtain ⟨x', hx', hx1, hx2⟩ := hglob
      dsimp only at hx1 hx2
      have h3 := r3 x' hx' (by rw [← hx1]; simp)
      rw [← hx1] at h3
      refine le_antisymm' h3 (hx2 x r2 fun h0 => ?_)
      rw [h0] at h3
      simp [F.le] at h3
    obtain ⟨y, hy⟩ := coord x r2
    have hye : y = est := by
      obtain ⟨_, _, _, h3⟩ := hprof y
      have h4 := h3 x (r2.strengthen hy) (by dsimp only; rw [hval]; simp)
      dsimp only at h4
      rw [hval] at h4
      have h5 : -(Stats.gaussianLog c σ est y) ≤ -(Stats.gaussianLog c σ est est) := h4
      simp only [Stats.gaussianLog, sub_self] at h5
      have h6 : (y - est) ^ 2 / (2 * σ ^ 2) ≤ 0 := by norm_num at h5; linarith
      have h7 : (y - est) ^ 2 ≤ 0 := by
        by_contra hne
        have : 0 < (y - est) ^ 2 / (2 * σ ^ 2) := div_pos (not_le.mp hne) (by positivity)
        linarith
      have := pow_eq_zero_iff (two_ne_zero) |>.mp (_root_.le_antisymm h7 (sq_nonneg _))
      linarith
    subst hye
    obtain ⟨hk, hk2⟩ := List.getElem?_eq_some_iff.mp hy
    rw [hmax, r1, hval]
    have hsl : slot x.length (Interface.config B true w2).poiIndex = some k := by
      rw [r2.length]
      exact hB.poi true
    simp [Interface.estimates, Interface.readKey, resolveKey, Interface.item, hsl, Except.map, List.getD_eq_getElem?_getD, hy]
  change (ofInterface (Interface.maximize S B true (expectation e) true none none none g none) w).1 = _ ∧ Plain N (ofInterface (Interface.maximize S B true (expectation e) true none none none g none) w).2
  change (Interface.maximize S B true (expectation e) true none none none g none w).1 = _ at hmax
  unfold ofInterface
  dsimp only
  rw [hmax]
  exact ⟨rfl, hplain⟩

/-- What `chi2_test` has computed when it returns. -/
theorem interval_reads' {σ : Type} {I : σ → Prop} {M : Methods σ} {sigma : Expect → ℝ → Comp σ F} {e : Expect} {isf : ℝ → F} {fuel nScan nMulti : ℕ} {toms brent : UpperLimit.Solver} {minimize : Chi2.Minimizer} {CL : ℝ}
    {t : LimitType} {negative n : Bool} (hneg : (negative || decide (t = .twoSided) || decide (t = .left)) = n) (hm : Steady I (M.maximize e n none)) (hs : ∀ r w, I w → I (sigma e r w).2) {l : List F} {w : σ} (hw : I w)
    (h : (Interval.chi2Interval fuel toms brent minimize isf M sigma e CL t negative nScan nMulti w).1 = .ok (some l)) :
    ∃ r m s w', (M.maximize e n none w).1 = .ok (.one r, m) ∧ I w' ∧ chi2Test fuel toms brent minimize (Interval.nllFn M e w') (isf (1 - CL)) t (poiProblem t negative r m s) nScan nMulti = some (.ok l) := by
  have key : ∃ r m, (M.maximize e n none w).1 = .ok (.one r, m) := by
    unfold Interval.chi2Interval at h
    split at h
    case isFalse => simp [lift] at h
    cases hc : M.maximize e n none w with
    | mk x w' =>
    cases x with
    | error err =>
      rw [bind_error (by convert hc using 2)] at h
      simp at h
    | ok q =>
      rw [bind_ok (by convert hc using 2)] at h
      obtain ⟨q, m⟩ := q
      cases q with
      | one r => exact ⟨r, m, rfl⟩
      | many d => simp [lift] at h
  obtain ⟨r, m, hr⟩ := key
  obtain ⟨s, w', h1, h2⟩ := Interval.interval_reads (r := r) (m := m) hneg (fun w' hw' => ⟨(hm w' w hw' hw).1.trans hr, (hm w' w hw' hw).2⟩) (hs r) hw h
  exact ⟨r, m, s, w', hr, h1, h2⟩

end Verif.Nuisance
