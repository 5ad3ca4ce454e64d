import Verif.Interface.Fits
import Mathlib.Tactic.LinearCombination

/-!
# Properties C80-C85: Asimov data, one parameter, estimates, uncertainties, combination
-/

namespace Verif.Interface
open Verif.Py F Verif.Config Verif.Optimizer
open Verif.Backend (Expectation)
open Classical

/-! ## C80: Asimov data -/

/-- C80: the Asimov data are the expected data at a point whose POI is one for the discovery test and zero otherwise (up to the
tolerance of the minimiser). -/
theorem C80_data {tol : ℝ} {S : Solver} (hS : Honest tol S) (B : Backend) (e : Expectation) (ts : String) (g : Bool)
    (b : Option (List Bound)) (w : World) (d : Data) (h : (generateAsimov S B e ts g b w).1 = .ok d) :
    ∃ x k y, B.expectedData x = .ok d ∧ x.length = (w.init.getD w.start).length ∧
      slot x.length (B.config (mayBeNegative ts)).poiIndex = some k ∧ x[k]? = some y ∧
      |y - (if ts = "q0" then 1 else 0)| ≤ tol := by
  unfold generateAsimov at h
  cases hp : prepareForFit B e none (mayBeNegative ts) g w with
  | mk r w1 =>
  rw [hp] at h
  cases r with
  | error err => simp at h
  | ok p =>
  obtain ⟨h1, h2, -⟩ := prepare_ok hp
  simp only at h
  cases hr : runFit S p b (.value (if ts = "q0" then 1 else 0)) (some p.logpdf) w1 with
  | mk r w2 =>
  rw [hr] at h
  cases r with
  | error err => simp at h
  | ok r =>
  obtain ⟨lp, x⟩ := r
  obtain ⟨-, q2, k, y, q3, q4, q5⟩ := runFit_value hS (congrArg Prod.fst hr)
  refine ⟨x, k, y, h, ?_, ?_, q4, q5⟩
  · rw [q2, h1, h2]; rfl
  · rw [h2] at q3; exact q3

/-- C80: the other parameters at that point are those that fit the data of `expected` best with that POI. -/
theorem C80_profiled {tol : ℝ} {S : Solver} (hS : Honest tol S) (hO : Optimal S) (B : Backend) (hc : Consistent B) (e : Expectation)
    (ts : String) (g : Bool) (w : World) (hw : w.init = none) (hfix : (B.config (mayBeNegative ts)).fixed = none)
    (hlen : (B.config (mayBeNegative ts)).bounds.length = w.start.length)
    (k : ℕ) (hk : slot w.start.length (B.config (mayBeNegative ts)).poiIndex = some k)
    (hb : ∀ b, (B.config (mayBeNegative ts)).bounds[k]? = some b → b.1.isSome ∧ b.2.isSome)
    (d : Data) (h : (generateAsimov S B e ts g none w).1 = .ok d) :
    ∃ x, B.expectedData x = .ok d ∧ x.length = w.start.length ∧
      (∃ y, x[k]? = some y ∧ |y - (if ts = "q0" then 1 else 0)| ≤ tol) ∧
      ∀ x' : List ℝ, x'.length = w.start.length → x'[k]? = some (if ts = "q0" then 1 else 0) →
      (∀ (j : ℕ) b y, j ≠ k → (B.config (mayBeNegative ts)).bounds[j]? = some b → x'[j]? = some y → Allowed b y) →
      Satisfies (w.constraints.getD [] ++ B.constraints) x' → B.logpdf e none x' ≠ nan →
      le (neg (B.logpdf e none x)) (neg (B.logpdf e none x')) := by
  unfold generateAsimov at h
  cases hp : prepareForFit B e none (mayBeNegative ts) g w with
  | mk r w1 =>
  rw [hp] at h
  cases r with
  | error err => simp at h
  | ok p =>
  obtain ⟨h1, h2, h3, h4, g', h5, -⟩ := prepare_ok hp
  have hcf := hc _ _ _ _ h5
  have hpi : p.config.init = w.start := by rw [h2]; rfl
  have hpo : p.config.poiIndex = (B.config (mayBeNegative ts)).poiIndex := by rw [h2]; rfl
  have hbd : p.config.bounds = (B.config (mayBeNegative ts)).bounds := by rw [h2]; rfl
  have hwi : w1.init = none := by rw [h1]; exact hw
  simp only at h
  cases hr : runFit S p none (.value (if ts = "q0" then 1 else 0)) (some p.logpdf) w1 with
  | mk r w2 =>
  rw [hr] at h
  cases r with
  | error err => simp at h
  | ok r =>
  obtain ⟨lp, x⟩ := r
  obtain ⟨b', hb', hopt⟩ := runFit_optimal hO (by simp) (congrArg Prod.fst hr)
  obtain ⟨-, q2, k', y, q3, q4, q5⟩ := runFit_value hS (congrArg Prod.fst hr)
  have hxl : x.length = w.start.length := by rw [q2, hwi, Option.getD_none, hpi]
  have hkk : k' = k := by
    rw [hxl, hpo, hk] at q3
    simpa using q3.symm
  rw [hkk] at q4
  refine ⟨x, h, hxl, ⟨y, q4, q5⟩, fun x' hl hx' hbx hcx hn => ?_⟩
  have := hopt x' (by rw [hl, hwi, Option.getD_none, hpi]) ?_ ?_ ?_ (by rw [h4]; exact hcx) (by rw [hcf]; exact neg_ne_nan hn)
  · rwa [hcf, hcf] at this
  · intro q hq' k2 hk2
    simp only [FixedPoi.pairs, List.mem_singleton] at hq'
    subst hq'
    simp only at hk2 ⊢
    rw [hl, hpo, hk] at hk2
    simp only [Option.some.injEq] at hk2
    rw [← hk2]
    exact hx'
  · intro l' k2 hf'
    rw [h2] at hf'
    simp only [config] at hf'
    rw [hfix] at hf'
    simp at hf'
  · simp only [fitBounds, fixedPoiBounds, hbd, hpo, hlen, hk, Except.map, Except.ok.injEq] at hb'
    intro j c y' hc' hy'
    rw [← hb', List.getElem?_modify] at hc'
    by_cases hj : k = j
    · subst hj
      rw [hx'] at hy'
      simp only [Option.some.injEq] at hy'
      subst hy'
      cases hbk : (B.config (mayBeNegative ts)).bounds[k]? with
      | none => rw [hbk] at hc'; simp at hc'
      | some b0 =>
        rw [hbk] at hc'
        simp only [Option.map_eq_map, Option.map_some, if_true, Option.some.injEq] at hc'
        rw [← hc']
        exact adjust_allowed (Or.inr (hb b0 hbk)) (Or.inl (by split <;> norm_num))
    · cases hbk : (B.config (mayBeNegative ts)).bounds[j]? with
      | none => rw [hbk] at hc'; simp at hc'
      | some b0 =>
        rw [hbk] at hc'
        simp only [Option.map_eq_map, Option.map_some, hj, if_false, id_eq, Option.some.injEq] at hc'
        subst hc'
        exact hbx j b0 y' (Ne.symm hj) hbk hy'

/-- C80: `asimov_likelihood` is the likelihood of the Asimov data of that test, in the state that their generation left; and
`maximize_asimov_likelihood` their maximisation, with negative POI only for `q`. -/
theorem C80_queries (S : Solver) (B : Backend) (hB : Fallback B) (poi : Poi) (e : Expectation) (rn : Bool) (ts : String) (g : Bool)
    (b : Option (List Bound)) (keys : Option (List Key)) (w : World) :
    (∀ d w', generateAsimov S B e ts g b w = (.ok d, w') →
      asimovLikelihood S B poi e rn ts g b w = likelihood S B poi e rn (some d) false true g b w' ∧
      maximizeAsimov S B rn e ts keys g b w =
        maximize S B rn e (decide (ts = "q" ∨ ts = "qmu")) (some d) keys none g b w') ∧
    (∀ err w', generateAsimov S B e ts g b w = (.error err, w') →
      asimovLikelihood S B poi e rn ts g b w = (.error err, w') ∧ maximizeAsimov S B rn e ts keys g b w = (.error err, w')) := by
  have hts : mayBeNegative ts = decide (ts = "q" ∨ ts = "qmu") := by simp [mayBeNegative]
  refine ⟨fun d w' h => ?_, fun err w' h => ?_⟩
  · unfold asimovLikelihood maximizeAsimov
    rw [hB.asimovNegLL, hB.minAsimovNegLL, h, ← hts]
    exact ⟨rfl, rfl⟩
  · unfold asimovLikelihood maximizeAsimov
    rw [hB.asimovNegLL, hB.minAsimovNegLL, h]
    exact ⟨rfl, rfl⟩

/-- C80: for `qtilde` and `q0` the best fit to the Asimov data is not negative, if the backend excludes negative POI when asked to
and the minimiser respects the bounds. -/
theorem C80_nonnegative {tol : ℝ} {S : Solver} (hS : Honest tol S) (hI : Inside S) (B : Backend) (hB : Fallback B) (e : Expectation)
    (ts : String) (hts : ts ≠ "q" ∧ ts ≠ "qmu") (g rn : Bool) (w : World)
    (hinit : ∀ l, w.init = some l → l.length = w.start.length)
    (k : ℕ) (hk : slot w.start.length (B.config true).poiIndex = some k)
    (hb : ∃ hi, (B.config false).bounds[k]? = some (some (fin 0), hi))
    (m : MuHat) (l : F) (h : (maximizeAsimov S B rn e ts none g none w).1 = .ok (m, l)) : ∃ u, m = .one u ∧ 0 ≤ u := by
  have hneg : mayBeNegative ts = false := by simp [mayBeNegative, hts]
  unfold maximizeAsimov at h
  rw [hB.minAsimovNegLL] at h
  simp only at h
  have hgen : (generateAsimov S B e ts g none w).2.start.length = w.start.length ∧
      ∀ l, (generateAsimov S B e ts g none w).2.init = some l → l.length = w.start.length := by
    unfold generateAsimov
    cases hp : prepareForFit B e none (mayBeNegative ts) g w with
    | mk r w1 =>
    cases r with
    | error err =>
      have := prepare_error hp
      subst this
      exact ⟨rfl, hinit⟩
    | ok p =>
    obtain ⟨h1, h2, -⟩ := prepare_ok hp
    have hpi : p.config.init = w.start := by rw [h2]; rfl
    have hwi : w1.init = w.init := by rw [h1]
    obtain ⟨-, c2, c3, -⟩ := runFit_world S p none (.value (if ts = "q0" then 1 else 0)) (some p.logpdf) w1
    have c5 := (C32_inputs_partial (S p.func p.doGrad p.constraints p.config.poiIndex) p.config w1.init none
      (.value (if ts = "q0" then 1 else 0)) (some p.logpdf)).2.2.2.2.1
    have c6 : ∀ l, (runFit S p none (.value (if ts = "q0" then 1 else 0)) (some p.logpdf) w1).2.init = some l →
        l.length = w.start.length := by
      intro l hl
      have : (fit (S p.func p.doGrad p.constraints p.config.poiIndex) p.config w1.init none
        (.value (if ts = "q0" then 1 else 0)) (some p.logpdf)).2.initial = some l := hl
      rw [this, Option.getD_some, hwi] at c5
      cases hi : w.init with
      | none => rw [c2 (by rw [hwi, hi])] at hl; simp at hl
      | some l0 => rw [c5, hi]; exact hinit l0 hi
    simp only
    cases hr : runFit S p none (.value (if ts = "q0" then 1 else 0)) (some p.logpdf) w1 with
    | mk r w2 =>
    rw [hr] at c3 c6
    cases r with
    | error err => exact ⟨by simp only; rw [c3, hpi], c6⟩
    | ok r => exact ⟨by simp only; rw [c3, hpi], c6⟩
  cases hg : generateAsimov S B e ts g none w with
  | mk r w1 =>
  rw [hg] at h hgen
  cases r with
  | error err => simp [andThen] at h
  | ok d =>
  simp only [andThen, hneg] at h
  simp only at hgen
  obtain ⟨hl1, hl2⟩ := hgen
  have hN : (w1.init.getD w1.start).length = w.start.length := by
    cases hi : w1.init with
    | none => exact hl1
    | some l => exact hl2 l hi
  unfold maximize at h
  rw [hB.minNegLL] at h
  simp only [resolveFixed] at h
  cases hp : prepareForFit B e (some d) false g w1 with
  | mk r w2 =>
  rw [hp] at h
  cases r with
  | error err => simp at h
  | ok p =>
  obtain ⟨h1, h2, -⟩ := prepare_ok hp
  have hpi : p.config.init = w1.start := by rw [h2]; rfl
  have hwi : w2.init = w1.init := by rw [h1]
  simp only at h
  cases hr : runFit S p none .none (some p.logpdf) w2 with
  | mk r w3 =>
  rw [hr] at h
  cases r with
  | error err => simp at h
  | ok r =>
  obtain ⟨lp, x⟩ := r
  obtain ⟨-, q2⟩ := runFit_point hS (congrArg Prod.fst hr)
  obtain ⟨b', hb', hin⟩ := runFit_inside hI (by simp) (congrArg Prod.fst hr)
  have hbd : p.config.bounds = (B.config false).bounds := by rw [h2]; rfl
  simp only [fitBounds, fixedPoiBounds, Except.map, Except.ok.injEq, hbd] at hb'
  subst hb'
  have hxl : x.length = w.start.length := by rw [q2, hwi, hpi, hN]
  simp only at h
  cases hm : estimates (config B true w3) x none with
  | error err => rw [hm] at h; simp [Except.map] at h
  | ok m' =>
  rw [hm] at h
  simp only [Except.map, Except.ok.injEq, Prod.mk.injEq] at h
  simp only [estimates, readKey, resolveKey, item, config, hxl, hk, Except.map, Except.ok.injEq] at hm
  have hkx : k < x.length := by rw [hxl]; exact slot_lt hk
  refine ⟨x.getD k 0, by rw [← h.1, ← hm], ?_⟩
  obtain ⟨hi, hb⟩ := hb
  have := (hin k _ (x.getD k 0) hb (by simp [List.getD_eq_getElem?_getD, hkx])).1 (fin 0) rfl
  simpa [le] using this

example : Honest 0 stay ∧ (generateAsimov stay exB .observed "q0" true none exW).1 = .ok [1, 1] ∧
    (generateAsimov stay exB .observed "qtilde" true none exW).1 = .ok [0, 1] := by
  refine ⟨stay_honest, ?_, ?_⟩ <;>
  simp [generateAsimov, mayBeNegative, exB, prepareForFit, getObjective, config, exW, runFit, fit, fitBounds,
      fixedPoiBounds, slot, adjust, lt, Except.map, FixedPoi.pairs, setFixed, setSuggested, stay, Except.mapError]

example : (exB.config false).bounds[0]? = some (some (fin 0), some (fin 10)) ∧ slot exW.start.length (exB.config true).poiIndex = some 0 ∧
    (exB.config (mayBeNegative "qtilde")).fixed = none := by
  simp [exB, exW, slot]

/-! ## C81: the shortcut for one parameter -/

/-- C81: for a model with one parameter, `likelihood` at a `float` skips the fit. Its result is the one of the fit (which an `int`
of the same value triggers) for every minimiser that keeps fixed parameters. -/
theorem C81_shortcut {S : Solver} (hS : Honest 0 S) (B : Backend) (hB : Fallback B) (z : ℤ) (e : Expectation) (rn : Bool)
    (d : Option Data) (rp n g : Bool) (b : Option (List Bound)) (w : World) (hone : w.start.length = 1)
    (hinit : ∀ l, w.init = some l → l.length = 1) (out : Out)
    (h : (likelihood S B (.int z) e rn d rp n g b w).1 = .ok out) :
    (likelihood S B (.float z) e rn d rp n g b w).1 = .ok out := by
  have hN : (w.init.getD w.start).length = 1 := by
    cases hi : w.init with
    | none => exact hone
    | some l => exact hinit l hi
  unfold likelihood at h ⊢
  rw [hB.negLL] at h ⊢
  simp only at h ⊢
  suffices key : ∀ r, (profile S B (.int z) e d n g b w).1 = .ok r → (profile S B (.float z) e d n g b w).1 = .ok r by
    cases hq : (profile S B (.int z) e d n g b w).1 with
    | error err => rw [hq] at h; simp [Except.map] at h
    | ok r => rw [key r hq]; rw [hq] at h; exact h
  intro r hr
  unfold profile at hr ⊢
  cases hp : prepareForFit B e d n g w with
  | mk r' w1 =>
  rw [hp] at hr
  cases r' with
  | error err => simp at hr
  | ok p =>
  obtain ⟨h1, h2, -⟩ := prepare_ok hp
  have hnp : p.config.npar = 1 := by rw [h2]; exact hone
  simp only [hnp, resolvePoi] at hr ⊢
  obtain ⟨lp, x⟩ := r
  obtain ⟨q1, q2, k, y, q3, q4, q5⟩ := runFit_value hS hr
  have hxl : x.length = 1 := by
    rw [q2, h2, h1]
    exact hN
  obtain ⟨a, rfl⟩ := List.length_eq_one_iff.mp hxl
  have hk := slot_lt q3
  have hk0 : k = 0 := by simp at hk; omega
  subst hk0
  simp only [List.getElem?_cons_zero, Option.some.injEq] at q4
  subst q4
  have : a = z := by
    have := abs_nonpos_iff.mp q5
    linarith
  subst this
  simp only [Except.ok.injEq, Prod.mk.injEq, and_true]
  rw [q1]
  rfl

/-- C81: the shortcut itself: the log-likelihood at the given value, whatever the minimiser, the bounds and the initial values
are. -/
theorem C81_value (S : Solver) (B : Backend) (hB : Fallback B) (v : ℝ) (e : Expectation) (d : Option Data) (n g : Bool)
    (b : Option (List Bound)) (w : World) (hone : w.start.length = 1) (f : List ℝ → F) (hf : B.objective g e d = .ok f) :
    (likelihood S B (.float v) e true d true n g b w).1 = .ok (.pair (neg (B.logpdf e d [v])) [v]) := by
  unfold likelihood
  rw [hB.negLL]
  have hg : getObjective B e d g = .ok (f, g) := by unfold getObjective; rw [hf]
  simp [profile, prepareForFit, hg, config, ModelConfig.npar, hone, Except.map, scaleOut]

/-- A backend with one parameter. -/
noncomputable def exB1 : Backend := { exB with
  config := fun _ => ⟨0, fin (-1), [], [(some (fin (-1)), some (fin 10))], none, none⟩ }

example : (likelihood stay exB1 (.int 2) .observed true none false true false none ⟨[1], none, none⟩).1 = .ok (.value (fin 4)) := by
  simp [likelihood, exB1, exB, profile, prepareForFit, getObjective, config, ModelConfig.npar, resolvePoi, runFit, fit, fitBounds,
      fixedPoiBounds, slot, adjust, lt, Except.map, FixedPoi.pairs, setFixed, setSuggested, stay, Except.mapError, scaleOut, F.neg]
  norm_num

/-! ## C82: the requested estimates -/

/-- C82: `poi_indices`: a dictionary with exactly the requested keys; the value of each is the fitted value of the parameter that
the key means, at the point where the reported likelihood is taken. -/
theorem C82_estimates {tol : ℝ} {S : Solver} (hS : Honest tol S) (B : Backend) (hB : Fallback B) (rn : Bool) (e : Expectation)
    (n : Bool) (data : Option Data) (ks : List Key) (fixed : Option Poi) (g : Bool) (b : Option (List Bound)) (w : World)
    (m : MuHat) (l : F) (h : (maximize S B rn e n data (some ks) fixed g b w).1 = .ok (m, l)) :
    ∃ x dd, m = .many dd ∧ l = scaleOut rn (B.logpdf e data x) ∧ x.length = (w.init.getD w.start).length ∧ HasKeys dd ks ∧
      ∀ k ∈ ks, ∃ j, Means (B.config true).names x.length k j ∧ ∃ v, dictGet k dd = some v ∧ x[j]? = some v := by
  unfold maximize at h
  rw [hB.minNegLL] at h
  simp only at h
  split at h
  · simp at h
  rename_i f hf
  cases hp : prepareForFit B e data n g w with
  | mk r w1 =>
  rw [hp] at h
  cases r with
  | error err => simp at h
  | ok p =>
  obtain ⟨h1, h2, h3, -⟩ := prepare_ok hp
  have hpi : p.config.init = w.start := by rw [h2]; rfl
  have hwi : w1.init = w.init := by rw [h1]
  simp only at h
  cases hr : runFit S p b f (some p.logpdf) w1 with
  | mk r w2 =>
  rw [hr] at h
  cases r with
  | error err => simp at h
  | ok r =>
  obtain ⟨lp, x⟩ := r
  obtain ⟨q1, q2⟩ := runFit_point hS (congrArg Prod.fst hr)
  simp only [estimates] at h
  cases hm : readKeys (config B true w2).names x [] ks with
  | error err => rw [hm] at h; simp [Except.map] at h
  | ok dd =>
  rw [hm] at h
  simp only [Except.map, Except.ok.injEq, Prod.mk.injEq] at h
  obtain ⟨rfl, rfl⟩ := h
  obtain ⟨r1, r2, r3, -⟩ := readKeys_ok ks [] dd (by simp) hm
  refine ⟨x, dd, rfl, by rw [q1, Option.getD_some, h3], by rw [q2, hwi, hpi], ⟨r1, fun k => by simpa using r2 k⟩, fun k hk => ?_⟩
  obtain ⟨v, hv, hd⟩ := r3 k hk
  obtain ⟨j, hj, hx⟩ := readKey_ok.mp hv
  exact ⟨j, hj, v, hd, hx⟩

/-- C82: asking for the POI by its index gives the same value, likelihood and effects as not asking. -/
theorem C82_poi (S : Solver) (B : Backend) (hB : Fallback B) (rn : Bool) (e : Expectation) (n : Bool) (data : Option Data)
    (fixed : Option Poi) (g : Bool) (b : Option (List Bound)) (w : World) :
    maximize S B rn e n data (some [.index (B.config true).poiIndex]) fixed g b w =
      ((maximize S B rn e n data none fixed g b w).1.map (fun r => (match r.1 with
        | .one v => .many [(.index (B.config true).poiIndex, v)]
        | .many d => .many d, r.2)), (maximize S B rn e n data none fixed g b w).2) := by
  unfold maximize
  rw [hB.minNegLL, hB.minNegLL]
  simp only
  split
  · rfl
  · split
    · rfl
    · split
      · rfl
      · rename_i l x w2 _
        simp only [estimates, readKeys, config]
        cases readKey (B.config true).names x (.index (B.config true).poiIndex) with
        | error err => rfl
        | ok v => simp [Except.map, dictSet]

/-- C82: an unknown name is an error, and so is an index that is out of range. -/
theorem C82_errors (names : Option (List String)) (x : List ℝ) (d : List (Key × ℝ)) (ks : List Key) (k : Key) (hk : k ∈ ks)
    (hn : ∀ j, ¬ Means names x.length k j) : ∃ err, readKeys names x d ks = .error err := by
  induction ks generalizing d with
  | nil => simp at hk
  | cons a ks ih =>
    rw [readKeys]
    cases hr : readKey names x a with
    | error err => exact ⟨err, rfl⟩
    | ok v =>
      simp only
      rcases List.mem_cons.mp hk with rfl | hk
      · obtain ⟨j, hj, -⟩ := readKey_ok.mp hr
        exact absurd hj (hn j)
      · exact ih _ hk

example : (maximize stay exB true .observed true none (some [.name "theta", .index (-2)]) none true none exW).1 =
    .ok (.many [(.name "theta", 1), (.index (-2), 1)], fin 2) := by
  simp [maximize, exB, resolveFixed, prepareForFit, getObjective, config, exW, runFit, fit, fitBounds,
      fixedPoiBounds, slot, Except.map, FixedPoi.pairs, setFixed, setSuggested, stay, Except.mapError, scaleOut, F.neg, estimates,
      readKeys, readKey, resolveKey, item, dictSet]
  norm_num

/-! ## C83: uncertainty from the Hessian -/

theorem map_neg_tab (M : List (List ℝ)) (i j : ℕ) : tab (M.map fun row => row.map fun y => -1 * y) i j = -tab M i j := by
  unfold tab
  simp only [List.getD_eq_getElem?_getD, List.getElem?_map]
  cases M[i]? with
  | none => simp
  | some r =>
    simp only [Option.map_some, Option.getD_some, List.getElem?_map]
    cases r[j]? <;> simp

theorem map_neg_square {n : ℕ} {M : List (List ℝ)} (h : Square n M) : Square n (M.map fun row => row.map fun y => -1 * y) := by
  refine ⟨by simp [h.1], fun r hr => ?_⟩
  obtain ⟨r', hr', rfl⟩ := List.mem_map.mp hr
  simp [h.2 r' hr']

theorem entry_ok {M : List (List ℝ)} {n : ℕ} (h : Square n M) {i : ℤ} {v : ℝ} (hv : entry M i i = .ok v) :
    ∃ k, slot n i = some k ∧ v = tab M k k := by
  unfold entry at hv
  rw [h.1] at hv
  cases hk : slot n i with
  | none => rw [hk] at hv; simp at hv
  | some k =>
    rw [hk] at hv
    simp only at hv
    have hlt : k < M.length := by rw [h.1]; exact slot_lt hk
    have hrow : (M.getD k []).length = n := by
      have : M.getD k [] = M[k] := by simp [List.getD_eq_getElem?_getD, hlt]
      rw [this]
      exact h.2 _ (List.getElem_mem hlt)
    rw [hrow, hk] at hv
    simp only [Except.ok.injEq] at hv
    exact ⟨k, rfl, hv.symm⟩

/-- Properties of an entry of the inverse of a positive semidefinite matrix. -/
theorem inverse_entry {n : ℕ} {M N : ℕ → ℕ → ℝ} (hsym : ∀ i < n, ∀ j < n, M i j = M j i)
    (hpos : ∀ z : ℕ → ℝ, 0 ≤ ∑ i ∈ Finset.range n, ∑ j ∈ Finset.range n, z i * M i j * z j)
    (hinv : ∀ i < n, ∀ j < n, ∑ k ∈ Finset.range n, M i k * N k j = if i = j then 1 else 0) {p : ℕ} (hp : p < n) :
    (∀ z : ℕ → ℝ, z p ^ 2 ≤ (∑ i ∈ Finset.range n, ∑ j ∈ Finset.range n, z i * M i j * z j) * N p p) ∧
    (∑ i ∈ Finset.range n, ∑ j ∈ Finset.range n, N i p * M i j * N j p) = N p p ∧ 0 < N p p := by
  have hMc : ∀ i < n, ∑ j ∈ Finset.range n, M i j * N j p = if i = p then 1 else 0 := fun i hi => hinv i hi p hp
  have hz : ∀ z : ℕ → ℝ, ∑ i ∈ Finset.range n, ∑ j ∈ Finset.range n, z i * M i j * N j p = z p := by
    intro z
    have : ∀ i ∈ Finset.range n, ∑ j ∈ Finset.range n, z i * M i j * N j p = if i = p then z i else 0 := by
      intro i hi
      rw [show ∑ j ∈ Finset.range n, z i * M i j * N j p = z i * ∑ j ∈ Finset.range n, M i j * N j p from by
        rw [Finset.mul_sum]; exact Finset.sum_congr rfl fun j _ => by ring]
      rw [hMc i (Finset.mem_range.mp hi)]
      split <;> simp
    rw [Finset.sum_congr rfl this, Finset.sum_ite_eq' (Finset.range n) p z]
    simp [hp]
  have hz' : ∀ z : ℕ → ℝ, ∑ i ∈ Finset.range n, ∑ j ∈ Finset.range n, N i p * M i j * z j = z p := by
    intro z
    rw [← hz z, Finset.sum_comm]
    refine Finset.sum_congr rfl fun i hi => Finset.sum_congr rfl fun j hj => ?_
    rw [hsym j (Finset.mem_range.mp hj) i (Finset.mem_range.mp hi)]
    ring
  have hcc : ∑ i ∈ Finset.range n, ∑ j ∈ Finset.range n, N i p * M i j * N j p = N p p := hz fun i => N i p
  have hcs : ∀ z : ℕ → ℝ, z p ^ 2 ≤ (∑ i ∈ Finset.range n, ∑ j ∈ Finset.range n, z i * M i j * z j) * N p p := by
    intro z
    have hq : ∀ t : ℝ, 0 ≤ N p p * (t * t) + (2 * z p) * t +
        ∑ i ∈ Finset.range n, ∑ j ∈ Finset.range n, z i * M i j * z j := by
      intro t
      have h := hpos fun i => z i + t * N i p
      have hexp : ∑ i ∈ Finset.range n, ∑ j ∈ Finset.range n, (z i + t * N i p) * M i j * (z j + t * N j p) =
          (∑ i ∈ Finset.range n, ∑ j ∈ Finset.range n, z i * M i j * z j) +
          t * (∑ i ∈ Finset.range n, ∑ j ∈ Finset.range n, z i * M i j * N j p) +
          t * (∑ i ∈ Finset.range n, ∑ j ∈ Finset.range n, N i p * M i j * z j) +
          t * t * (∑ i ∈ Finset.range n, ∑ j ∈ Finset.range n, N i p * M i j * N j p) := by
        simp only [Finset.mul_sum, ← Finset.sum_add_distrib]
        exact Finset.sum_congr rfl fun i _ => Finset.sum_congr rfl fun j _ => by ring
      rw [hexp, hz, hz', hcc] at h
      linarith
    have := discrim_le_zero hq
    unfold discrim at this
    nlinarith
  refine ⟨hcs, hcc, ?_⟩
  have h0 : 0 ≤ N p p := by rw [← hcc]; exact hpos fun i => N i p
  rcases h0.lt_or_eq with h | h
  · exact h
  · exfalso
    have h1 := hcs fun i => if i = p then 1 else 0
    rw [← h] at h1
    simp at h1
    linarith

/-- C83: when the backend has a Hessian, `sigma_mu_from_hessian` is a positive number whose square is the largest value of
`z_poi² / (zᵀ(-H)z)`: to second order, the smallest increase of the negative log-likelihood over all displacements that move the
POI by `δ` is `δ²/(2σ²)`. The Hessian is taken at a point with the requested POI. It has to be symmetric and minus it positive
semidefinite there. -/
theorem C83_sigma {tol : ℝ} {S : Solver} (hS : Honest tol S) (inv : List (List ℝ) → Except Err (List (List ℝ))) (hinv : Inverts inv)
    (B : Backend) (v : ℝ) (e : Expectation) (g : Bool) (b : Option (List Bound)) (w : World) (H : List ℝ → List (List ℝ))
    (hH : B.hessian e = .ok H) (n : ℕ)
    (hgood : ∀ x, Square n (H x) ∧ (∀ i < n, ∀ j < n, tab (H x) i j = tab (H x) j i) ∧ ∀ z, form n (H x) z ≤ 0)
    (s : F) (h : (sigmaMuFromHessian S inv B (.float v) e g b w).1 = .ok s) :
    ∃ x k y p σ, s = fin σ ∧ 0 < σ ∧
      slot x.length (B.config true).poiIndex = some k ∧ x[k]? = some y ∧ |y - v| ≤ tol ∧
      slot n (B.config true).poiIndex = some p ∧
      (∀ z, z p ^ 2 ≤ σ ^ 2 * -form n (H x) z) ∧ ∃ z, z p ≠ 0 ∧ z p ^ 2 = σ ^ 2 * -form n (H x) z := by
  unfold sigmaMuFromHessian at h
  rw [hH] at h
  simp only at h
  cases hp : prepareForFit B e none true g w with
  | mk r w1 =>
  rw [hp] at h
  cases r with
  | error err => simp at h
  | ok p =>
  obtain ⟨h1, h2, -⟩ := prepare_ok hp
  have hpo : p.config.poiIndex = (B.config true).poiIndex := by rw [h2]; rfl
  simp only [resolvePoi] at h
  cases hr : runFit S p b (.value v) none w1 with
  | mk r w2 =>
  rw [hr] at h
  cases r with
  | error err => simp at h
  | ok r =>
  obtain ⟨lp, x⟩ := r
  obtain ⟨-, -, k, y, q3, q4, q5⟩ := runFit_value hS (congrArg Prod.fst hr)
  simp only at h
  cases hi : inv ((H x).map fun row => row.map fun y => -1 * y) with
  | error err => rw [hi] at h; simp at h
  | ok N =>
  rw [hi] at h
  simp only [config] at h
  cases hv : entry N (B.config true).poiIndex (B.config true).poiIndex with
  | error err => rw [hv] at h; simp [Except.map] at h
  | ok u =>
  rw [hv] at h
  simp only [Except.map, Except.ok.injEq] at h
  obtain ⟨g1, g2, g3⟩ := hgood x
  obtain ⟨n1, n2⟩ := hinv n _ N (map_neg_square g1) hi
  obtain ⟨pp, e1, e2⟩ := entry_ok n1 hv
  have hform : ∀ z : ℕ → ℝ, ∑ i ∈ Finset.range n, ∑ j ∈ Finset.range n, z i * -tab (H x) i j * z j = -form n (H x) z := by
    intro z
    unfold form
    rw [← Finset.sum_neg_distrib]
    refine Finset.sum_congr rfl fun i _ => ?_
    rw [← Finset.sum_neg_distrib]
    exact Finset.sum_congr rfl fun j _ => by ring
  obtain ⟨c1, c2, c3⟩ := inverse_entry (n := n) (M := fun i j => -tab (H x) i j) (N := tab N)
    (fun i hi j hj => by rw [g2 i hi j hj])
    (fun z => by rw [hform]; have := g3 z; linarith)
    (fun i hi j hj => by
      rw [← n2 i hi j hj]
      exact Finset.sum_congr rfl fun l _ => by rw [map_neg_tab])
    (slot_lt e1)
  subst e2
  refine ⟨x, k, y, pp, √(tab N pp pp), ?_, Real.sqrt_pos.mpr c3, by rw [← hpo]; exact q3, q4, q5, e1, fun z => ?_, fun i => tab N i pp,
    c3.ne', ?_⟩
  · rw [← h]
    exact if_neg (not_lt.mpr c3.le)
  · rw [Real.sq_sqrt c3.le, _root_.mul_comm, ← hform]
    exact c1 z
  · rw [Real.sq_sqrt c3.le, ← hform]
    simp only
    rw [c2]
    ring

/-- C83: without a Hessian the method is reported as not available, and nothing has been changed. -/
theorem C83_unavailable (S : Solver) (inv : List (List ℝ) → Except Err (List (List ℝ))) (B : Backend) (poi : Poi) (e : Expectation)
    (g : Bool) (b : Option (List Bound)) (w : World) (h : B.hessian e = .error .notImplemented) :
    sigmaMuFromHessian S inv B poi e g b w = (.error .method, w) := by
  unfold sigmaMuFromHessian
  rw [h]

/-- C83: the documentation calls the result "variance on parameter of interest"; it is the standard deviation. For one parameter
with second derivative `-4` the variance is `1/4`, the result `1/2`. -/
theorem C83_variance_fails : ∃ (S : Solver) (inv : List (List ℝ) → Except Err (List (List ℝ))) (B : Backend) (w : World),
    Honest 0 S ∧ B.hessian .observed = .ok (fun _ => [[-4]]) ∧ inv [[4]] = .ok [[1 / 4]] ∧
    (sigmaMuFromHessian S inv B (.float 1) .observed false none w).1 = .ok (fin (1 / 2)) := by
  refine ⟨stay, fun M => .ok (if M = [[4]] then [[1 / 4]] else []), { exB1 with hessian := fun _ => .ok fun _ => [[-4]] },
    ⟨[1], none, none⟩, stay_honest, rfl, by simp, ?_⟩
  have h4 : √(1 / 4 : ℝ) = 1 / 2 := by
    rw [show (1 / 4 : ℝ) = (1 / 2) ^ 2 by norm_num]
    exact Real.sqrt_sq (by norm_num)
  simp [sigmaMuFromHessian, exB1, exB, prepareForFit, getObjective, config, resolvePoi, runFit, fit, fitBounds,
      fixedPoiBounds, slot, adjust, lt, Except.map, FixedPoi.pairs, setFixed, setSuggested, stay, Except.mapError, entry, F.sqrt]
  norm_num at h4 ⊢
  rw [h4]

example : ∀ x : List ℝ, Square 2 [[-2, 0], [0, -2]] ∧
    (∀ i < 2, ∀ j < 2, tab [[-2, 0], [0, -2]] i j = tab [[-2, 0], [0, -2]] j i) ∧ ∀ z, form 2 [[-2, 0], [0, -2]] z ≤ 0 := by
  intro _
  refine ⟨⟨rfl, by simp⟩, ?_, fun z => ?_⟩
  · intro i hi j hj
    interval_cases i <;> interval_cases j <;> simp [tab]
  · simp [form, Finset.sum_range_succ, tab]
    nlinarith [sq_nonneg (z 0), sq_nonneg (z 1)]

/-! ## C84: combination -/

/-- C84: the outcome of `combine` for every outcome of the backend's routine. -/
theorem C84_combine {β : Type} (routine : β → β → Except Err (Combined β)) (a b : Stat β) :
    (routine a.backend b.backend = .error .notImplemented → combine routine a b = .error .combiner) ∧
    (∀ err, err ≠ .notImplemented → routine a.backend b.backend = .error err → combine routine a b = .error err) ∧
    (routine a.backend b.backend = .ok .object → combine routine a b = .error .assertion) ∧
    (∀ c, routine a.backend b.backend = .ok (.backend c) → ∃ r, combine routine a b = .ok r ∧ r.backend = c ∧
      r.analysis = "combine[" ++ a.analysis ++ ", " ++ b.analysis ++ "]") ∧
    matmul routine a b = combine routine a b := by
  unfold matmul combine
  refine ⟨fun h => by rw [h], fun err hne h => ?_, fun h => by rw [h], fun c h => ?_, rfl⟩
  · rw [h]
    cases err <;> first | rfl | exact absurd rfl hne
  · rw [h]
    refine ⟨_, rfl, rfl, ?_⟩
    simp [toString, String.append_assoc]

/-- C84 fails for the cross section: that of a combination is unknown even if both models have the same one, so
`excluded_cross_section` of a combination always raises `UnknownCrossSection`. -/
theorem C84_cross_section_fails {β : Type} (routine : β → β → Except Err (Combined β)) (a b r : Stat β)
    (h : combine routine a b = .ok r) (fuel : ℕ) (solve : UpperLimit.Solver) (I : UpperLimit.Expected → UpperLimit.Inputs) (e : UpperLimit.Expected) :
    excludedCrossSection fuel solve I r.xsection e = some (.error .crossSection) := by
  have : r.xsection = nan := by
    unfold combine at h
    split at h <;> simp at h
    rw [← h]
  rw [this]
  exact (C57_unknown fuel solve I nan e).mpr rfl

/-- C84: the number of toys of a combination is the default, whatever those of the two models are. -/
theorem C84_toys_fails {β : Type} (routine : β → β → Except Err (Combined β)) (a b r : Stat β)
    (h : combine routine a b = .ok r) : r.ntoys = 1000 := by
  unfold combine at h
  split at h <;> simp at h
  rw [← h]

example : combine (fun x y => .ok (.backend (x + y))) (⟨1, "A", fin 2, 5⟩ : Stat ℕ) ⟨2, "B", fin 2, 5⟩ =
    .ok ⟨3, "combine[A, B]", nan, 1000⟩ := by
  simp [combine, toString]

/-! ## C85: uncertainty from the Asimov data -/

/-- C85: the Hessian has priority, and exceptions other than its absence are passed on. -/
theorem C85_priority (hess : Except Err F) (A : Stats.Fit) (ts : String) (mu : ℝ) :
    (∀ s, hess = .ok s → sigmaMu hess A ts mu = .ok s) ∧
    (∀ err, err ≠ .method → hess = .error err → sigmaMu hess A ts mu = .error err) := by
  refine ⟨fun s h => by rw [h]; rfl, fun err hne h => ?_⟩
  rw [h]
  unfold sigmaMu
  cases err <;> first | rfl | exact absurd rfl hne

/-- C85: for Asimov data with best fit zero and a parabolic likelihood of width `σ`, the approximation gives `σ` for every tested
value above zero, for both tests. -/
theorem C85_parabola_partial (σ mu c : ℝ) (hσ : 0 < σ) (hmu : 0 < mu) (ts : String) (hts : ts ∈ ["q", "qmu", "qtilde", "qmutilde"]) :
    sigmaMu (.error .method) ⟨fin 0, fin c, Stats.lift fun t => -c - t ^ 2 / (2 * σ ^ 2)⟩ ts mu = .ok (fin σ) := by
  have hstat : ∀ f, Stats.getTestStatistic ts = .ok f →
      Stats.Fit.stat ⟨fin 0, fin c, Stats.lift fun t => -c - t ^ 2 / (2 * σ ^ 2)⟩ f (fin mu) = fin ((mu / σ) ^ 2) := by
    intro f hf
    have hq : f = Stats.qmu ∨ f = Stats.qmuTilde := by
      simp only [List.mem_cons, List.not_mem_nil, or_false] at hts
      rcases hts with rfl | rfl | rfl | rfl <;> simp [Stats.getTestStatistic, Stats.options] at hf <;> simp [← hf]
    have hval : clip0 (scale (-2) (sub (fin (-c - mu ^ 2 / (2 * σ ^ 2))) (neg (fin c)))) = fin ((mu / σ) ^ 2) := by
      simp only [neg, sub, add, scale, clip0]
      have : -2 * (-c - mu ^ 2 / (2 * σ ^ 2) + - -c) = (mu / σ) ^ 2 := by field_simp; ring
      rw [this]
      simp [le, sq_nonneg (mu / σ)]
    rcases hq with rfl | rfl
    · simp only [Stats.Fit.stat, Stats.qmu, lt, not_lt.mpr hmu.le, if_false, Stats.lift]
      exact hval
    · simp only [Stats.Fit.stat, Stats.qmuTilde, lt, not_lt.mpr hmu.le, if_false, Stats.lift, le, le_refl, if_true]
      exact hval
  have hok : ∃ f, Stats.getTestStatistic ts = .ok f := by
    simp only [List.mem_cons, List.not_mem_nil, or_false] at hts
    rcases hts with rfl | rfl | rfl | rfl <;> simp [Stats.getTestStatistic, Stats.options]
  obtain ⟨f, hf⟩ := hok
  unfold sigmaMu
  simp only [hf, hstat f hf]
  have hms : 0 < mu / σ := div_pos hmu hσ
  rw [if_neg (by simp only [le, not_le]; positivity)]
  simp only [F.sqrt, not_lt.mpr (sq_nonneg (mu / σ)), if_false, Real.sqrt_sq hms.le]
  simp only [F.div, hms.ne', if_false]
  congr 2
  field_simp

/-- C85 fails in general: the documentation divides the distance of the tested value from the best fit to the Asimov data by the
root of the statistic, the code divides the tested value itself. For a parabolic likelihood of width `σ` with best fit `m`, between
zero and the tested value, the result is `σ·mu/(mu-m)` instead of `σ`. -/
theorem C85_distance_fails (σ mu m : ℝ) (hσ : 0 < σ) (hm : 0 < m) (hmu : m < mu) :
    sigmaMu (.error .method) ⟨fin m, fin 0, Stats.lift fun t => -((t - m) ^ 2 / (2 * σ ^ 2))⟩ "qtilde" mu =
      .ok (fin (σ * mu / (mu - m))) ∧ σ < σ * mu / (mu - m) := by
  have hd : 0 < mu - m := by linarith
  have hms : 0 < (mu - m) / σ := div_pos hd hσ
  constructor
  · unfold sigmaMu
    have hf : Stats.getTestStatistic "qtilde" = .ok Stats.qmuTilde := by simp [Stats.getTestStatistic, Stats.options]
    have hstat : Stats.Fit.stat ⟨fin m, fin 0, Stats.lift fun t => -((t - m) ^ 2 / (2 * σ ^ 2))⟩ Stats.qmuTilde (fin mu) =
        fin (((mu - m) / σ) ^ 2) := by
      simp only [Stats.Fit.stat, Stats.qmuTilde, lt, not_lt.mpr hmu.le, if_false, Stats.lift, le, hm.le, if_true]
      simp only [neg, sub, add, scale, clip0]
      have : -2 * (-((mu - m) ^ 2 / (2 * σ ^ 2)) + - -0) = ((mu - m) / σ) ^ 2 := by field_simp; ring
      rw [this]
      simp [le, sq_nonneg ((mu - m) / σ)]
    simp only [hf, hstat]
    rw [if_neg (by simp only [le, not_le]; positivity)]
    simp only [F.sqrt, not_lt.mpr (sq_nonneg ((mu - m) / σ)), if_false, Real.sqrt_sq hms.le]
    simp only [F.div, hms.ne', if_false]
    congr 2
    field_simp
  · rw [lt_div_iff₀ hd]
    nlinarith

/-- C85: where the statistic vanishes (for example for tested values below the best fit) the result is one, whatever the model. -/
theorem C85_default_fails (A : Stats.Fit) (mu : ℝ) (h : lt (fin mu) A.muhat) : sigmaMu (.error .method) A "qtilde" mu = .ok (fin 1) := by
  have hf : Stats.getTestStatistic "qtilde" = .ok Stats.qmuTilde := by simp [Stats.getTestStatistic, Stats.options]
  unfold sigmaMu
  simp only [hf, Stats.Fit.stat, Stats.qmuTilde, h, if_true]
  simp [le]

/-- C85: for the discovery test the tested value does not enter the statistic, so the result is proportional to it; at the value
zero that belongs to the test it is zero. -/
theorem C85_discovery_fails (A : Stats.Fit) (q : ℝ) (hq : 0 < q) (h : A.stat Stats.q0 (fin 0) = fin q) (mu : ℝ) :
    sigmaMu (.error .method) A "q0" mu = .ok (fin (mu / √q)) := by
  have hf : Stats.getTestStatistic "q0" = .ok Stats.q0 := by simp [Stats.getTestStatistic, Stats.options]
  have h' : A.stat Stats.q0 (fin mu) = fin q := h
  unfold sigmaMu
  simp only [hf, h']
  rw [if_neg (by simp only [le, not_le]; exact hq)]
  simp [F.sqrt, not_lt.mpr hq.le, F.div, (Real.sqrt_pos.mpr hq).ne']

example : (⟨fin 1, fin 0, Stats.lift fun t => -((t - 1) ^ 2 / 2)⟩ : Stats.Fit).stat Stats.q0 (fin 0) = fin 1 := by
  simp [Stats.Fit.stat, Stats.q0, Stats.lift, lt, neg, sub, add, scale, clip0]

end Verif.Interface
