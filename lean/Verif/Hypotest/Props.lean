import Verif.Hypotest.Lemmas

/-!
# Properties C107-C111: the hypothesis tests and the fits they are made of
-/

namespace Verif.Hypotest
open Verif.Py F Verif.Config
open Verif.Interface (MuHat Data Toys World Size)
open Verif.Stats (Expect Calc Levels)
open Classical

variable {σ α β : Type} {I : σ → Prop}

/-! ## C107 -/

/-- The data sets `ds` have the fits `fs` at the tested value `v`. -/
def AllFit (I : σ → Prop) (M : Methods σ) (e : Expect) (negative : Bool) (v : ℝ) (ds : List Data) (fs : List Stats.Fit) : Prop :=
  List.Forall₂ (fun d f => ∃ m l lv l0, Fits I M e negative (some d) v m l lv l0 ∧ f = fitOf v m l lv l0) ds fs

theorem toyLoop_ends {M : Methods σ} {e : Expect} {n : Bool} {v : ℝ} (hI : ∃ s, I s) {t : Statistic σ} {t' : Stats.TestStat}
    (ht : Computes (I := I) t t' v) {mu : Mu} (hmu : mu.Is v) : ∀ {ss bs : List Data} {fs fb : List Stats.Fit}, ss.length = bs.length →
    AllFit I M e n v ss fs → AllFit I M e n v bs fb →
      Ends I (toyLoop M t mu e n ss bs) (.ok (fs.map (·.stat t' (fin v)), fb.map (·.stat t' (fin v))))
  | [], [], fs, fb, _, h1, h2 => by
    cases h1
    cases h2
    rw [toyLoop]
    · exact ends_ret _
    · simp
  | [], _ :: _, _, _, h, _, _ => by simp at h
  | _ :: _, [], _, _, h, _, _ => by simp at h
  | s :: ss, b :: bs, fs, fb, h, h1, h2 => by
    cases h1 with
    | cons h1 h1' =>
    cases h2 with
    | cons h2 h2' =>
    obtain ⟨m, l, lv, l0, h1, rfl⟩ := h1
    obtain ⟨m', l', lv', l0', h2, rfl⟩ := h2
    rw [toyLoop]
    refine (h1.best.bind (h1.stat hI ht hmu)).bind ((h2.best.bind (h2.stat hI ht hmu)).bind
      ((toyLoop_ends hI ht hmu (by simpa using h) h1' h2').bind (ends_ret _)))

/-- C107: the level is that of `Verif.Stats` for the fits that the methods give, for the three calculators. The signal toys are those
drawn at `mu`, the background toys those drawn at zero. -/
theorem C107_levels (M : Methods σ) (hI : ∃ s, I s) (mu : Mu) (v : ℝ) (hmu : mu.Is v) (e : Expect) (negative : Bool) (kind : Calc)
    (m : ℝ) (l lv l0 : F) (hD : Fits I M e negative none v m l lv l0) (mA : ℝ) (lA lvA l0A : F)
    (hA : kind = .asymptotic → FitsAsimov I M e (if negative then "q" else "qtilde") v mA lA lvA l0A)
    (ss bs : List Data) (fs fb : List Stats.Fit) (hss : kind = .toy → Ends I (M.sampler e mu) (.ok (.data ss)))
    (hbs : kind = .toy → Ends I (M.sampler e (.float 0)) (.ok (.data bs))) (hlen : kind = .toy → ss.length = bs.length)
    (hfs : kind = .toy → AllFit I M e negative v ss fs) (hfb : kind = .toy → AllFit I M e negative v bs fb) :
    Ends I (exclusion M mu e negative kind)
      ((Stats.exclusionConfidenceLevel ⟨fitOf v m l lv l0, fitOf v mA lA lvA l0A, fs, fb, M.percentile, M.available⟩ (fin v) e negative
        kind).mapError .stats) := by
  unfold exclusion Stats.exclusionConfidenceLevel
  by_cases hav : M.available kind
  swap
  · simp only [hav, if_false, Bool.false_eq_true]
    exact ends_lift _
  simp only [hav, if_true]
  obtain ⟨ts, hts⟩ : ∃ ts, ts = if negative then "q" else "qtilde" := ⟨_, rfl⟩
  rw [← hts] at hA ⊢
  have hts' : ts = "q" ∨ ts = "qtilde" ∨ ts = "q0" := by cases negative <;> simp [hts]
  have hneg : Interface.mayBeNegative ts = negative := by cases negative <;> simp [hts, Interface.mayBeNegative]
  obtain ⟨t, t', ht, ht', htc⟩ := get_computes (I := I) (σ := σ) ts hts' v
  suffices key : ∃ p, Ends I (calculate M mu e negative ts kind) (.ok p) ∧
      Stats.calculatorPvalues ⟨fitOf v m l lv l0, fitOf v mA lA lvA l0A, fs, fb, M.percentile, M.available⟩ (fin v) ts kind = .ok p by
    obtain ⟨p, h1, h2⟩ := key
    rw [h2]
    refine h1.bind ?_
    obtain ⟨p1, p2⟩ := p
    cases e <;> exact ends_ret _
  cases kind with
  | asymptotic =>
    have hA := hA rfl
    simp only [calculate, Stats.calculatorPvalues, asymptotic, Stats.asymptoticPvalues, prepare]
    rw [Stats.compute_eq ht']
    have hc : Ends I (computeTeststatistics mu (.one m, l) (logpdf M e none) (.one mA, lA) (logpdfAsimov M e ts) ts)
        ((Stats.shiftOf ts ((fitOf v m l lv l0).stat t' (fin v)) ((fitOf v mA lA lvA l0A).stat t' (fin v))).mapError .stats) := by
      simp only [computeTeststatistics, ht, bind_lift_ok]
      exact (hD.stat hI htc hmu).bind ((hA.stat hI htc hmu).bind (ends_lift _))
    have hp : ∀ (k : Prepared σ → Comp σ (List F × List F)) r, Ends I (k ⟨(.one m, l), logpdf M e none, (.one mA, lA), logpdfAsimov M e ts⟩) r →
        Ends I ((do
          let best ← M.maximize e (Interface.mayBeNegative ts) none
          let bestA ← M.maximizeAsimov e ts
          ret (⟨best, logpdf M e none, bestA, logpdfAsimov M e ts⟩ : Prepared σ)) >>= k) r := by
      intro k r hk
      refine Ends.bind ?_ hk
      rw [hneg]
      exact hD.best.bind (hA.best.bind (ends_ret _))
    have hshift : ∀ err, Stats.shiftOf ts ((fitOf v m l lv l0).stat t' (fin v)) ((fitOf v mA lA lvA l0A).stat t' (fin v)) = .error err →
        err = .asimovTestStatZero := by
      intro err h
      unfold Stats.shiftOf at h
      dsimp only at h
      split at h
      · simp at h
      · split at h
        · simp at h
        · split at h
          · simpa using h.symm
          · simp at h
    cases hs : Stats.shiftOf ts ((fitOf v m l lv l0).stat t' (fin v)) ((fitOf v mA lA lvA l0A).stat t' (fin v)) with
    | ok r =>
      rw [hs] at hc
      refine ⟨Stats.asymptoticLevel r.2.1 r.2.2 ts, hp _ _ ?_, rfl⟩
      intro s h0
      obtain ⟨h1, h2⟩ := (Ends.bind hc (k := fun r => ret (Stats.asymptoticLevel r.2.1 r.2.2 ts)) (ends_ret _)) s h0
      dsimp only [orNotExcluded]
      revert h1 h2
      generalize (computeTeststatistics mu (.one m, l) (logpdf M e none) (.one mA, lA) (logpdfAsimov M e ts) ts >>= fun r =>
        ret (Stats.asymptoticLevel r.2.1 r.2.2 ts)) s = x
      obtain ⟨x1, x2⟩ := x
      rintro rfl h2
      exact ⟨rfl, h2⟩
    | error err =>
      have := hshift err hs
      subst this
      rw [hs] at hc
      refine ⟨_, hp _ _ ?_, rfl⟩
      intro s h0
      obtain ⟨h1, h2⟩ := (Ends.bind_error hc (k := fun r => ret (Stats.asymptoticLevel r.2.1 r.2.2 ts))) s h0
      dsimp only [orNotExcluded]
      revert h1 h2
      generalize (computeTeststatistics mu (.one m, l) (logpdf M e none) (.one mA, lA) (logpdfAsimov M e ts) ts >>= fun r =>
        ret (Stats.asymptoticLevel r.2.1 r.2.2 ts)) s = x
      obtain ⟨x1, x2⟩ := x
      rintro rfl h2
      exact ⟨rfl, h2⟩
  | toy =>
    simp only [calculate, Stats.calculatorPvalues, toy, Stats.toyPvalues, ht, ht', bind_lift_ok]
    refine ⟨_, ?_, rfl⟩
    refine hD.best.bind ((hss rfl).bind ((hbs rfl).bind ?_))
    simp only [samples, bind_lift_ok]
    exact (toyLoop_ends hI htc hmu (hlen rfl) (hfs rfl) (hfb rfl)).bind ((hD.stat hI htc hmu).bind (ends_ret _))
  | chiSquare =>
    simp only [calculate, Stats.calculatorPvalues, chiSquare, Stats.chiSquarePvalues, ht, ht', bind_lift_ok]
    refine ⟨_, ?_, rfl⟩
    refine hD.best.bind ((hD.stat hI htc hmu).bind ((hD.null.logpdf (mu := .float 0) rfl).bind ?_))
    simp only [notNegative, bind_lift_ok, Stats.chiNullStat]
    have h0 : (fitOf v m l lv l0).logpdf (fin 0) = neg l0 := by
      apply fitOf_0
      intro hv
      have h1 := hD.tested
      rw [hv] at h1
      simpa using ends_unique hI h1 hD.null
    rw [h0]
    have hm : (decide (0 ≤ m) = true ∨ ts = "q") ↔ (le (fin 0) (fitOf v m l lv l0).muhat ∨ ts = "q") := by simp [fitOf, le]
    simp only [hm]
    exact ends_ret _

/-- C107: the same for the significance. -/
theorem C107_significance (M : Methods σ) (hI : ∃ s, I s) (e : Expect) (m : ℝ) (l l0 : F)
    (hD : Fits I M e false none 0 m l l0 l0) (mA : ℝ) (lA l0A : F) (hA : FitsAsimov I M e "q0" 0 mA lA l0A l0A) :
    Ends I (significance M e) ((Stats.significance (fitOf 0 m l l0 l0) (fitOf 0 mA lA l0A l0A)).mapError .stats) := by
  obtain ⟨t, t', ht, ht', htc⟩ := get_computes (I := I) (σ := σ) "q0" (by simp) 0
  unfold significance Stats.significance
  rw [Stats.compute_eq ht', prepare_then]
  have hb : Interface.mayBeNegative "q0" = false := by simp [Interface.mayBeNegative]
  rw [hb]
  refine hD.best.bind (hA.best.bind ?_)
  have hc : Ends I (computeTeststatistics (.float 0) (.one m, l) (logpdf M e none) (.one mA, lA) (logpdfAsimov M e "q0") "q0")
      ((Stats.shiftOf "q0" ((fitOf 0 m l l0 l0).stat t' (fin 0)) ((fitOf 0 mA lA l0A l0A).stat t' (fin 0))).mapError .stats) := by
    simp only [computeTeststatistics, ht, bind_lift_ok]
    exact (hD.stat hI htc (mu := .float 0) rfl).bind ((hA.stat hI htc (mu := .float 0) rfl).bind (ends_lift _))
  cases hs : Stats.shiftOf "q0" ((fitOf 0 m l l0 l0).stat t' (fin 0)) ((fitOf 0 mA lA l0A l0A).stat t' (fin 0)) with
  | ok r => rw [hs] at hc; exact hc.bind (ends_ret _)
  | error err => rw [hs] at hc; exact hc.bind_error

/-- Methods that answer from tables, counting the calls: the data prefer `m`, with a parabola of curvature 1. -/
noncomputable def exMethods (m : ℝ) : Methods ℕ where
  likelihood := fun _ _ v n => (.ok (fin ((v - m) ^ 2 / 2)), n + 1)
  maximize := fun _ negative _ n => (.ok (.one (if negative then m else max m 0), fin (if negative then 0 else (max m 0 - m) ^ 2 / 2)), n + 1)
  asimovLikelihood := fun _ _ v n => (.ok (fin (v ^ 2 / 2)), n + 1)
  maximizeAsimov := fun _ _ n => (.ok (.one 0, fin 0), n + 1)
  sampler := fun _ _ n => (.ok (.data [[1], [2]]), n + 1)
  available := fun _ => true
  percentile := fun _ _ => fin 0

theorem ex_fits : Fits (fun _ => True) (exMethods 2) .observed false none 5 2 (fin 0) (fin (9 / 2)) (fin 2) ∧
    FitsAsimov (fun _ => True) (exMethods 2) .observed "qtilde" 5 0 (fin 0) (fin (25 / 2)) (fin 0) := by
  refine ⟨⟨fun s _ => ⟨?_, trivial⟩, fun s _ => ⟨?_, trivial⟩, fun s _ => ⟨?_, trivial⟩⟩,
    ⟨fun s _ => ⟨?_, trivial⟩, fun s _ => ⟨?_, trivial⟩, fun s _ => ⟨?_, trivial⟩⟩⟩ <;> norm_num [exMethods]

example : AllFit (fun _ => True) (exMethods 2) .observed false 5 [[1], [2]]
    [fitOf 5 2 (fin 0) (fin (9 / 2)) (fin 2), fitOf 5 2 (fin 0) (fin (9 / 2)) (fin 2)] := by
  have h : ∀ d, Fits (fun _ => True) (exMethods 2) .observed false (some d) 5 2 (fin 0) (fin (9 / 2)) (fin 2) := by
    intro d
    refine ⟨fun s _ => ⟨?_, trivial⟩, fun s _ => ⟨?_, trivial⟩, fun s _ => ⟨?_, trivial⟩⟩ <;> norm_num [exMethods]
  exact .cons ⟨_, _, _, _, h _, rfl⟩ (.cons ⟨_, _, _, _, h _, rfl⟩ .nil)

/-! ## C108 -/

/-- C108: a run with toys that returns has first fitted the data, then drawn toys at `poi_test`, then at zero, both with the number of toys of
the model and the same expectation, and then fitted exactly these toys. -/
theorem C108_draws (M : Methods σ) (mu : Mu) (e : Expect) (negative : Bool) (s s' : σ) (L : Levels)
    (h : exclusion M mu e negative .toy s = (.ok L, s')) :
    ∃ best s1 sig s2 bkg s3 t q s4, M.maximize e negative none s = (.ok best, s1) ∧ M.sampler e mu s1 = (.ok (.data sig), s2) ∧
      M.sampler e (.float 0) s2 = (.ok (.data bkg), s3) ∧ getTestStatistic (if negative then "q" else "qtilde") = .ok t ∧
      toyLoop M t mu e negative sig bkg s3 = (.ok q, s4) ∧ q.1.length = min sig.length bkg.length ∧
      q.2.length = min sig.length bkg.length := by
  unfold exclusion at h
  by_cases hav : M.available .toy
  swap
  · simp [hav, lift] at h
  simp only [hav, if_true, calculate] at h
  obtain ⟨p, sp, h, -⟩ := bind_returned h
  unfold toy at h
  obtain ⟨t, s0, ht, h⟩ := bind_returned h
  simp only [lift, Prod.mk.injEq] at ht
  obtain ⟨ht, rfl⟩ := ht
  obtain ⟨best, s1, h1, h⟩ := bind_returned h
  obtain ⟨sig, s2, h2, h⟩ := bind_returned h
  obtain ⟨bkg, s3, h3, h⟩ := bind_returned h
  obtain ⟨ss, s3', h4, h⟩ := bind_returned h
  simp only [lift, Prod.mk.injEq] at h4
  obtain ⟨h4, rfl⟩ := h4
  obtain ⟨bs, s3', h5, h⟩ := bind_returned h
  simp only [lift, Prod.mk.injEq] at h5
  obtain ⟨h5, rfl⟩ := h5
  obtain ⟨q, s4, h6, h⟩ := bind_returned h
  have e1 : sig = .data ss := by cases sig <;> simp [samples] at h4; rw [h4]
  have e2 : bkg = .data bs := by cases bkg <;> simp [samples] at h5; rw [h5]
  have hl : ∀ (ss bs : List Data) (s s' : σ) q, toyLoop M t mu e negative ss bs s = (.ok q, s') →
      q.1.length = min ss.length bs.length ∧ q.2.length = min ss.length bs.length := by
    intro ss
    induction ss with
    | nil =>
      intro bs s s' q h
      rw [toyLoop] at h
      · simp only [ret, Prod.mk.injEq, Except.ok.injEq] at h
        rw [← h.1]
        simp
      · simp
    | cons a ss ih =>
      intro bs s s' q h
      cases bs with
      | nil =>
        rw [toyLoop] at h
        · simp only [ret, Prod.mk.injEq, Except.ok.injEq] at h
          rw [← h.1]
          simp
        · simp
      | cons b bs =>
        rw [toyLoop] at h
        obtain ⟨_, _, -, h⟩ := bind_returned h
        obtain ⟨_, _, -, h⟩ := bind_returned h
        obtain ⟨r, sr, hr, h⟩ := bind_returned h
        simp only [ret, Prod.mk.injEq, Except.ok.injEq] at h
        obtain ⟨i1, i2⟩ := ih bs _ _ _ hr
        rw [← h.1]
        simp [i1, i2]
  subst e1 e2
  obtain ⟨g1, g2⟩ := hl ss bs _ _ _ h6
  exact ⟨best, s1, ss, s2, bs, s3, t, q, s4, h1, h2, h3, ht, h6, g1, g2⟩

/-- C108: the observed level is one minus the ratio of two counts: of the signal toys and of the background toys whose statistic is
at least that of the data, restricted to the unit interval; one if no background toy is. -/
theorem C108_counts (M : Methods σ) (hI : ∃ s, I s) (mu : Mu) (v : ℝ) (hmu : mu.Is v) (negative : Bool) (hav : M.available .toy = true)
    (m : ℝ) (l lv l0 : F) (hD : Fits I M .observed negative none v m l lv l0)
    (ss bs : List Data) (fs fb : List Stats.Fit) (hss : Ends I (M.sampler .observed mu) (.ok (.data ss)))
    (hbs : Ends I (M.sampler .observed (.float 0)) (.ok (.data bs))) (n : ℕ) (hn : 0 < n) (hs : ss.length = n) (hb : bs.length = n)
    (hfs : AllFit I M .observed negative v ss fs) (hfb : AllFit I M .observed negative v bs fb)
    (t : Stats.TestStat) (ht : Stats.getTestStatistic (if negative then "q" else "qtilde") = .ok t)
    (q : ℝ) (qs qb : List ℝ) (hq : (fitOf v m l lv l0).stat t (fin v) = fin q) (hqs : fs.map (·.stat t (fin v)) = qs.map fin)
    (hqb : fb.map (·.stat t (fin v)) = qb.map fin) :
    Ends I (exclusion M mu .observed negative .toy) (.ok (.one [fin (
      let a := qs.countP fun x => decide (q ≤ x)
      let b := qb.countP fun x => decide (q ≤ x)
      if b = 0 then 1 else 1 - min ((a : ℝ) / b) 1)])) := by
  have h := C107_levels M hI mu v hmu .observed negative .toy m l lv l0 hD 0 nan nan nan (by simp) ss bs fs fb (fun _ => hss)
    (fun _ => hbs) (fun _ => hs.trans hb.symm) (fun _ => hfs) (fun _ => hfb)
  convert h using 1
  have lqs : qs.length = n := by
    have := congrArg List.length hqs
    rw [List.length_map, List.length_map, ← hfs.length_eq, hs] at this
    exact this.symm
  have lqb : qb.length = n := by
    have := congrArg List.length hqb
    rw [List.length_map, List.length_map, ← hfb.length_eq, hb] at this
    exact this.symm
  have cnt : ∀ (l : List ℝ), (l.map fin).countP (fun s => decide (le (fin q) s)) = l.countP fun x => decide (q ≤ x) := by
    intro l
    rw [List.countP_map]
    rfl
  have hn' : (n : ℝ) ≠ 0 := by positivity
  have tq : (if negative then "q" else "qtilde") ≠ "q0" := by cases negative <;> simp
  simp only [Stats.exclusionConfidenceLevel, hav, if_true, Stats.calculatorPvalues, Stats.toyPvalues, ht, Stats.toyLevel, if_neg tq, hqs, hqb,
    hq, Stats.pvalues, Stats.empiricDist, Stats.tailFraction, cnt, List.length_map, lqs, lqb, div, hn', if_false, eq]
  by_cases hb0 : List.countP (fun x => decide (q ≤ x)) qb = 0
  · simp [hb0, clip01, isNan, sub, add, neg, Except.mapError]
  · have hb1 : (List.countP (fun x => decide (q ≤ x)) qb : ℝ) / n ≠ 0 := by
      have : (List.countP (fun x => decide (q ≤ x)) qb : ℝ) ≠ 0 := by exact_mod_cast hb0
      positivity
    have hr : (List.countP (fun x => decide (q ≤ x)) qs : ℝ) / n / ((List.countP (fun x => decide (q ≤ x)) qb : ℝ) / n) =
        (List.countP (fun x => decide (q ≤ x)) qs : ℝ) / (List.countP (fun x => decide (q ≤ x)) qb : ℝ) := by
      have : (List.countP (fun x => decide (q ≤ x)) qb : ℝ) ≠ 0 := by exact_mod_cast hb0
      field_simp
    have hp : max ((List.countP (fun x => decide (q ≤ x)) qs : ℝ) / (List.countP (fun x => decide (q ≤ x)) qb : ℝ)) 0 =
        (List.countP (fun x => decide (q ≤ x)) qs : ℝ) / (List.countP (fun x => decide (q ≤ x)) qb : ℝ) := max_eq_left (by positivity)
    simp only [hb0, hb1, if_false, hr, List.map_cons, List.map_nil, clip01, isNan, hp, sub, add, neg, Except.mapError, sub_eq_add_neg,
      Bool.false_eq_true]
    simp

/-! ## C109 -/

/-- C109: a `float`, an `int` and an array with one element that are the same number give the same: the same result and the same calls. (With
toys, if the sampler treats them alike, see `C81_shortcut`.) Missing: numbers of numpy that are no `float`, and dicts. -/
theorem C109_numbers_partial (M : Methods σ) (mu : Mu) (v : ℝ) (h : mu.Is v) (e : Expect) (negative : Bool) (kind : Calc)
    (hs : kind = .toy → M.sampler e mu = M.sampler e (.float v)) :
    exclusion M mu e negative kind = exclusion M (.float v) e negative kind := by
  have h1 : toFloat mu = toFloat (.float v) := by rw [is_float h]; rfl
  have h2 : ∀ b, greater b mu = greater b (.float v) := by
    intro b
    cases b with
    | one m => rw [is_greater h]; rfl
    | many d => cases mu <;> rfl
  have h3 : ∀ d, logpdf M e d mu = logpdf M e d (.float v) := by intro d; unfold logpdf; rw [h1]
  have h4 : ∀ ts, logpdfAsimov M e ts mu = logpdfAsimov M e ts (.float v) := by intro ts; unfold logpdfAsimov; rw [h1]
  have h5 : ∀ ts (t : Statistic σ), getTestStatistic ts = .ok t → ∀ b l lp, lp mu = lp (.float v) → t mu b l lp = t (.float v) b l lp := by
    intro ts t ht b l lp hlp
    unfold getTestStatistic at ht
    split at ht <;> simp at ht <;> subst ht
    · unfold qmu; rw [h2, hlp]
    · unfold qmuTilde; rw [h2, hlp]
    · rfl
  have hget : ∀ {α : Type} (ts : String) (k k' : Statistic σ → Comp σ α), (∀ t, getTestStatistic ts = .ok t → k t = k' t) →
      (lift (getTestStatistic ts) >>= k) = (lift (getTestStatistic ts) >>= k') := by
    intro α ts k k' hk
    cases ht : getTestStatistic (σ := σ) ts with
    | error err => rfl
    | ok t => exact hk t ht
  unfold exclusion
  congr 2
  cases kind with
  | asymptotic =>
    unfold calculate asymptotic
    dsimp only
    rw [prepare_then, prepare_then]
    congr 1
    funext b
    congr 1
    funext bA
    have : computeTeststatistics mu b (logpdf M e none) bA (logpdfAsimov M e (if negative then "q" else "qtilde"))
        (if negative then "q" else "qtilde") = computeTeststatistics (.float v) b (logpdf M e none) bA
        (logpdfAsimov M e (if negative then "q" else "qtilde")) (if negative then "q" else "qtilde") := by
      unfold computeTeststatistics
      apply hget
      intro t ht
      rw [h5 _ t ht _ _ _ (h3 none), h5 _ t ht _ _ _ (h4 _)]
    dsimp only
    rw [this]
  | toy =>
    unfold calculate toy
    dsimp only
    apply hget
    intro t ht
    have hl : ∀ ss bs, toyLoop M t mu e negative ss bs = toyLoop M t (.float v) e negative ss bs := by
      have ht' : ∀ d, toyStatistic M t mu e negative d = toyStatistic M t (.float v) e negative d := by
        intro d
        unfold toyStatistic
        congr 1
        funext b
        exact h5 _ t ht _ _ _ (h3 _)
      intro ss
      induction ss with
      | nil => intro bs; rw [toyLoop, toyLoop] <;> simp
      | cons s ss ih =>
        intro bs
        cases bs with
        | nil => rw [toyLoop, toyLoop] <;> simp
        | cons b bs => rw [toyLoop, toyLoop, ht', ht', ih]
    rw [hs rfl]
    congr 1
    funext b
    congr 1
    funext sig
    congr 1
    funext bkg
    congr 1
    funext ss
    congr 1
    funext bs
    rw [hl, h5 _ t ht _ _ _ (h3 none)]
  | chiSquare =>
    unfold calculate chiSquare
    dsimp only
    apply hget
    intro t ht
    congr 1
    funext b
    rw [h5 _ t ht _ _ _ (h3 none)]

example : (Mu.int 2).Is 2 ∧ (Mu.array 2).Is 2 := by norm_num [Mu.Is]

/-- C109 is false for numbers of numpy that are no `float` (for instance `np.float32(2)` or an entry of `np.arange(5)`): `IndexError` for every model
whose best fit is not above them. -/
theorem C109_scalar_fails (M : Methods σ) (e : Expect) (negative : Bool) (v m : ℝ) (l : F) (hv : m ≤ v) (kind : Calc) (hk : kind ≠ .toy)
    (hav : M.available kind = true) (hb : Ends I (M.maximize e negative none) (.ok (.one m, l))) (bA : MuHat × F)
    (hA : kind = .asymptotic → Ends I (M.maximizeAsimov e (if negative then "q" else "qtilde")) (.ok bA)) :
    Ends I (exclusion M (.scalar v) e negative kind) (.error .index) := by
  have hlp : ∀ d, logpdf M e d (.scalar v) = lift (.error .index) := by intro d; rfl
  have hst : ∀ t : Statistic σ, getTestStatistic (if negative then "q" else "qtilde") = .ok t → ∀ d l, t (.scalar v) (.one m) l (logpdf M e d) =
      lift (.error .index) := by
    intro t ht d l
    cases negative <;> simp [getTestStatistic] at ht <;> subst ht <;>
      simp [qmu, qmuTilde, greater, not_lt.mpr hv, hlp]
  have hg : ∃ t : Statistic σ, getTestStatistic (if negative then "q" else "qtilde") = .ok t := by
    cases negative
    · exact ⟨qmuTilde, rfl⟩
    · exact ⟨qmu, rfl⟩
  obtain ⟨t, ht⟩ := hg
  have hneg : Interface.mayBeNegative (if negative then "q" else "qtilde") = negative := by
    cases negative <;> simp [Interface.mayBeNegative]
  simp only [exclusion, hav, if_true]
  apply Ends.bind_error
  cases kind with
  | asymptotic =>
    simp only [calculate, asymptotic]
    rw [prepare_then, hneg]
    refine hb.bind ((hA rfl).bind ?_)
    simp only [computeTeststatistics, ht, bind_lift_ok, hst t ht, bind_lift_error]
    intro s hs
    exact ⟨rfl, hs⟩
  | toy => simp at hk
  | chiSquare =>
    simp only [calculate, chiSquare, ht, bind_lift_ok]
    refine hb.bind ?_
    simp only [hst t ht, bind_lift_error]
    exact ends_lift _

/-- C109 is false for dicts, which the annotation allows: `TypeError`, for every model. -/
theorem C109_dict_fails (M : Methods σ) (e : Expect) (negative : Bool) (d : List (Key × ℝ)) (b : MuHat × F) (kind : Calc) (hk : kind ≠ .toy)
    (hav : M.available kind = true) (hb : Ends I (M.maximize e negative none) (.ok b)) (bA : MuHat × F)
    (hA : kind = .asymptotic → Ends I (M.maximizeAsimov e (if negative then "q" else "qtilde")) (.ok bA)) :
    Ends I (exclusion M (.dict d) e negative kind) (.error .type) := by
  have hgr : greater b.1 (.dict d) = .error .type := by cases b.1 <;> rfl
  have hst : ∀ t : Statistic σ, getTestStatistic (if negative then "q" else "qtilde") = .ok t → ∀ l lp, t (.dict d) b.1 l lp =
      lift (.error .type) := by
    intro t ht l lp
    cases negative <;> simp [getTestStatistic] at ht <;> subst ht <;> simp [qmu, qmuTilde, hgr]
  have hg : ∃ t : Statistic σ, getTestStatistic (if negative then "q" else "qtilde") = .ok t := by
    cases negative
    · exact ⟨qmuTilde, rfl⟩
    · exact ⟨qmu, rfl⟩
  obtain ⟨t, ht⟩ := hg
  have hneg : Interface.mayBeNegative (if negative then "q" else "qtilde") = negative := by
    cases negative <;> simp [Interface.mayBeNegative]
  simp only [exclusion, hav, if_true]
  apply Ends.bind_error
  cases kind with
  | asymptotic =>
    simp only [calculate, asymptotic]
    rw [prepare_then, hneg]
    refine hb.bind ((hA rfl).bind ?_)
    simp only [computeTeststatistics, ht, bind_lift_ok, hst t ht, bind_lift_error]
    intro s hs
    exact ⟨rfl, hs⟩
  | toy => simp at hk
  | chiSquare =>
    simp only [calculate, chiSquare, ht, bind_lift_ok]
    refine hb.bind ?_
    simp only [hst t ht, bind_lift_error]
    exact ends_lift _

example : Ends (fun _ => True) (exclusion (exMethods 2) (.scalar 5) .observed false .asymptotic) (.error .index) :=
  C109_scalar_fails _ _ _ _ 2 (fin 0) (by norm_num) _ (by simp) rfl (fun s _ => ⟨by norm_num [exMethods], trivial⟩) (.one 0, fin 0)
    fun _ s _ => ⟨rfl, trivial⟩

/-! ## C110 -/

/-- C110: if the answers of the methods do not depend on earlier calls, neither do the tests. -/
theorem C110_steady (M : Methods σ) (h : SteadyMethods I M) (mu : Mu) (e : Expect) (negative : Bool) (kind : Calc) :
    Steady I (exclusion M mu e negative kind) ∧ Steady I (significance M e) := by
  constructor
  · refine Steady.ite _ (Steady.bind ?_ fun _ => steady_ret _) (steady_lift _)
    cases kind with
    | asymptotic =>
      unfold calculate asymptotic
      dsimp only
      rw [prepare_then]
      exact (h.maximize _ _ _).bind fun _ => (h.maximizeAsimov _ _).bind fun _ => steady_handled
        ((steady_compute (fun _ => h.logpdf _ _ _) (fun _ => h.logpdfAsimov _ _ _)).bind fun _ => steady_ret _)
    | toy =>
      exact steady_get fun t ht => (h.maximize _ _ _).bind fun _ => (h.sampler _ _).bind fun _ => (h.sampler _ _).bind fun _ =>
        (steady_lift _).bind fun _ => (steady_lift _).bind fun _ => (h.toyLoop ht _ _ _ _ _).bind fun _ =>
        (ht _ _ _ _ fun _ => h.logpdf _ _ _).bind fun _ => steady_ret _
    | chiSquare =>
      exact steady_get fun t ht => (h.maximize _ _ _).bind fun _ => (ht _ _ _ _ fun _ => h.logpdf _ _ _).bind fun _ =>
        (h.logpdf _ _ _).bind fun _ => (steady_lift _).bind fun _ => steady_ret _
  · unfold significance
    rw [prepare_then]
    exact (h.maximize _ _ _).bind fun _ => (h.maximizeAsimov _ _).bind fun _ =>
      (steady_compute (fun _ => h.logpdf _ _ _) (fun _ => h.logpdfAsimov _ _ _)).bind fun _ => steady_ret _

example : SteadyMethods (fun _ => True) (exMethods 2) where
  likelihood := fun _ _ _ _ _ _ _ => ⟨rfl, trivial⟩
  maximize := fun _ _ _ _ _ _ _ => ⟨rfl, trivial⟩
  asimovLikelihood := fun _ _ _ _ _ _ _ => ⟨rfl, trivial⟩
  maximizeAsimov := fun _ _ _ _ _ _ => ⟨rfl, trivial⟩
  sampler := fun _ _ _ _ _ _ => ⟨rfl, trivial⟩

/-! ## C111 -/

/-- C111: an exception of the fit of the data ends the call, whatever the calculator, before anything else is asked. -/
theorem C111_best_fit (M : Methods σ) (mu : Mu) (e : Expect) (negative : Bool) (kind : Calc) (hav : M.available kind = true) (s s' : σ)
    (err : Err) (h : M.maximize e negative none s = (.error err, s')) : exclusion M mu e negative kind s = (.error err, s') := by
  have hg : ∃ t : Statistic σ, getTestStatistic (if negative then "q" else "qtilde") = .ok t := by
    cases negative
    · exact ⟨qmuTilde, rfl⟩
    · exact ⟨qmu, rfl⟩
  obtain ⟨t, ht⟩ := hg
  have hneg : Interface.mayBeNegative (if negative then "q" else "qtilde") = negative := by
    cases negative <;> simp [Interface.mayBeNegative]
  simp only [exclusion, hav, if_true]
  apply bind_error
  cases kind with
  | asymptotic =>
    simp only [calculate, asymptotic]
    rw [prepare_then, hneg]
    exact bind_error h
  | toy =>
    simp only [calculate, toy, ht, bind_lift_ok]
    exact bind_error h
  | chiSquare =>
    simp only [calculate, chiSquare, ht, bind_lift_ok]
    exact bind_error h

/-- The call never raises `AsimovTestStatZero`. -/
def NoZero (c : Comp σ α) : Prop := ∀ s, (c s).1 ≠ .error (.stats .asimovTestStatZero)

theorem NoZero.bind {c : Comp σ α} {k : α → Comp σ β} (h : NoZero c) (hk : ∀ a, NoZero (k a)) : NoZero (c >>= k) := by
  intro s
  have := h s
  cases hc : c s with
  | mk r s1 =>
    rw [hc] at this
    cases r with
    | error err => rw [bind_error hc]; simpa using this
    | ok a => rw [bind_ok hc]; exact hk a s1

theorem noZero_ret (a : α) : NoZero (σ := σ) (ret a) := fun _ => by simp [ret]

theorem noZero_logpdf {c : ℝ → Comp σ F} (h : ∀ v, NoZero (c v)) (mu : Mu) :
    NoZero (lift (toFloat mu) >>= fun v => c v >>= fun l => ret (neg l)) := by
  have hf : NoZero (σ := σ) (lift (toFloat mu)) := by
    intro s
    cases mu <;> simp only [lift, toFloat] <;> try simp
    split <;> simp
  exact hf.bind fun v => (h v).bind fun _ => noZero_ret _

theorem noZero_stat {ts : String} {t : Statistic σ} (ht : getTestStatistic ts = .ok t) (mu b l) {lp : Mu → Comp σ F} (h : ∀ x, NoZero (lp x)) :
    NoZero (t mu b l lp) := by
  have hg : NoZero (σ := σ) (lift (greater b mu)) := by
    intro s
    cases b <;> cases mu <;> simp [lift, greater]
  have hn : NoZero (σ := σ) (lift (notNegative b)) := by
    intro s
    cases b <;> simp [lift, notNegative]
  have hi : ∀ {α} (p : Prop) [Decidable p] {c c' : Comp σ α}, NoZero c → NoZero c' → NoZero (if p then c else c') := by
    intro α p _ c c' h h'
    split
    · exact h
    · exact h'
  unfold getTestStatistic at ht
  split at ht <;> simp at ht <;> subst ht
  · exact hg.bind fun g => hi _ (noZero_ret _) ((h _).bind fun _ => noZero_ret _)
  · exact hg.bind fun g => hi _ (noZero_ret _) ((h _).bind fun _ => hn.bind fun _ => (hi _ (noZero_ret _) (h _)).bind fun _ => noZero_ret _)
  · exact hn.bind fun g => hi _ ((h _).bind fun _ => noZero_ret _) (noZero_ret _)

/-- C111: a level is given only if every question was answered: the fit of the data, that of the Asimov data and the two test statistics, with
the likelihoods they ask for. (`AsimovTestStatZero`, which is caught, is raised by no method of the model, see `C111_model`.) -/
theorem C111_asymptotic (M : Methods σ) (hz : ∀ e v, NoZero (M.likelihood e none v)) (hzA : ∀ e ts v, NoZero (M.asimovLikelihood e ts v))
    (mu : Mu) (e : Expect) (negative : Bool) (s s' : σ) (L : Levels) (h : exclusion M mu e negative .asymptotic s = (.ok L, s')) :
    ∃ b s1 bA s2 t q s3 qA, M.maximize e negative none s = (.ok b, s1) ∧
      M.maximizeAsimov e (if negative then "q" else "qtilde") s1 = (.ok bA, s2) ∧
      getTestStatistic (if negative then "q" else "qtilde") = .ok t ∧
      t mu b.1 (neg b.2) (logpdf M e none) s2 = (.ok q, s3) ∧
      t mu bA.1 (neg bA.2) (logpdfAsimov M e (if negative then "q" else "qtilde")) s3 = (.ok qA, s') := by
  have hg : ∃ t : Statistic σ, getTestStatistic (if negative then "q" else "qtilde") = .ok t := by
    cases negative
    · exact ⟨qmuTilde, rfl⟩
    · exact ⟨qmu, rfl⟩
  obtain ⟨t, ht⟩ := hg
  have hneg : Interface.mayBeNegative (if negative then "q" else "qtilde") = negative := by
    cases negative <;> simp [Interface.mayBeNegative]
  unfold exclusion at h
  by_cases hav : M.available .asymptotic
  swap
  · simp [hav, lift] at h
  simp only [hav, if_true, calculate, asymptotic] at h
  obtain ⟨p, sp, hc, hp⟩ := bind_returned h
  simp only [ret, Prod.mk.injEq] at hp
  obtain ⟨-, rfl⟩ := hp
  rw [prepare_then, hneg] at hc
  obtain ⟨b, s1, h1, hc⟩ := bind_returned hc
  obtain ⟨bA, s2, h2, hc⟩ := bind_returned hc
  simp only [computeTeststatistics, ht, bind_lift_ok, then_assoc, orNotExcluded] at hc
  have z1 := noZero_stat ht mu b.1 (neg b.2) (lp := logpdf M e none) (fun x => noZero_logpdf (hz e) x) s2
  cases e1 : t mu b.1 (neg b.2) (logpdf M e none) s2 with
  | mk r1 s3 =>
  rw [e1] at z1
  cases r1 with
  | error err =>
    rw [bind_error e1] at hc
    exfalso
    revert hc z1
    cases err with
    | stats x => cases x <;> simp
    | _ => simp
  | ok q =>
    rw [bind_ok e1] at hc
    have z2 := noZero_stat ht mu bA.1 (neg bA.2) (lp := logpdfAsimov M e (if negative then "q" else "qtilde"))
      (fun x => noZero_logpdf (hzA e _) x) s3
    cases e2 : t mu bA.1 (neg bA.2) (logpdfAsimov M e (if negative then "q" else "qtilde")) s3 with
    | mk r2 s4 =>
    rw [e2] at z2
    cases r2 with
    | error err =>
      rw [bind_error e2] at hc
      exfalso
      revert hc z2
      cases err with
      | stats x => cases x <;> simp
      | _ => simp
    | ok qA =>
      rw [bind_ok e2] at hc
      refine ⟨b, s1, bA, s2, t, q, s3, qA, h1, h2, ht, e1, ?_⟩
      rw [e2]
      congr 1
      revert hc
      cases Stats.shiftOf (if negative then "q" else "qtilde") q qA with
      | ok r => simp [Except.mapError, ret]
      | error err => cases err <;> simp [Except.mapError, lift]

/-- C111: the methods of `StatisticalModel` never raise `AsimovTestStatZero`. -/
theorem C111_model (S : Interface.Solver) (B : Interface.Backend) (doGrad : Bool) (bounds : Option (List Bound)) (ntoys : Size)
    (available : Calc → Bool) (percentile : List F → F → F) (e : Expect) (d : Option Data) (ts : String) (v : ℝ) :
    NoZero ((modelMethods S B doGrad bounds ntoys available percentile).likelihood e d v) ∧
      NoZero ((modelMethods S B doGrad bounds ntoys available percentile).asimovLikelihood e ts v) := by
  have hof : ∀ {α} (c : World → Except Interface.Err α × World), NoZero (ofInterface c) := by
    intro α c s
    unfold ofInterface
    cases (c s).1 <;> simp [Except.mapError]
  have hnum : ∀ o, NoZero (σ := World) (lift (number o)) := by
    intro o s
    cases o <;> simp [lift, number]
  exact ⟨(hof _).bind hnum, (hof _).bind hnum⟩

example : ∃ L s', exclusion (exMethods 2) (.float 5) .observed false .asymptotic 0 = (.ok L, s') := by
  have h := (C107_levels (exMethods 2) ⟨0, trivial⟩ (.float 5) 5 rfl .observed false .asymptotic _ _ _ _ ex_fits.1 _ _ _ _ (fun _ => ex_fits.2)
    [] [] [] [] (by simp) (by simp) (by simp) (by simp) (by simp) 0 trivial).1
  have ha : (exMethods 2).available .asymptotic = true := rfl
  simp only [Stats.exclusionConfidenceLevel, ha, if_true, Stats.calculatorPvalues, Bool.false_eq_true, if_false] at h
  have ht : Stats.getTestStatistic "qtilde" = .ok Stats.qmuTilde := rfl
  have hp : ∀ (B : Stats.Backend) mu, ∃ p, Stats.asymptoticPvalues B mu "qtilde" = .ok p := by
    intro B mu
    unfold Stats.asymptoticPvalues
    rw [Stats.compute_eq ht]
    unfold Stats.shiftOf
    dsimp only
    split
    · exact ⟨_, rfl⟩
    · exact ⟨_, rfl⟩
    · rename_i e hne he
      revert he
      split <;> (try split) <;> (try split) <;> simp <;> exact fun h => hne h.symm
  obtain ⟨p, hp⟩ := hp ⟨fitOf 5 2 (fin 0) (fin (9 / 2)) (fin 2), fitOf 5 0 (fin 0) (fin (25 / 2)) (fin 0), [], [], (exMethods 2).percentile,
    (exMethods 2).available⟩ (fin 5)
  rw [hp] at h
  exact ⟨_, _, Prod.ext h rfl⟩

example : exclusion ({ exMethods 2 with maximize := fun _ _ _ n => (.error (.call .notImplemented), n + 1) } : Methods ℕ) (.float 5) .observed
    false .chiSquare 0 = (.error (.call .notImplemented), 1) :=
  C111_best_fit _ _ _ _ _ rfl _ _ _ rfl

end Verif.Hypotest
