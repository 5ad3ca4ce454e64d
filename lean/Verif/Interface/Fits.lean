import Verif.Interface.Props
import Mathlib.Algebra.QuadraticDiscriminant
import Mathlib.Algebra.Order.BigOperators.Ring.Finset

/-!
# Properties C80-C83 and C86: what the fits mean
-/

namespace Verif.Interface
open Verif.Py F Verif.Config Verif.Optimizer
open Verif.Backend (Expectation)
open Classical

/-! ### A perfect minimiser for examples -/

def Candidate (cs : List Constraint) (init : List ℝ) (mask : List Bool) (b : List Bound) (x : List ℝ) : Prop :=
  x.length = init.length ∧ (∀ k : ℕ, mask[k]? = some true → x[k]? = init[k]?) ∧ InBounds b x ∧ Satisfies cs x

/-- Returns a best candidate, if there is one. -/
noncomputable def perfect : Solver := fun f _ cs _ init mask b =>
  if h : mask.length ≤ init.length ∧ ∃ x, Candidate cs init mask b x ∧ ∀ x', Candidate cs init mask b x' → f x' ≠ nan →
      le (f x) (f x') then .ok (f h.2.choose, h.2.choose) else .error .index

theorem perfect_spec {f g cs poi init mask b v x} (h : perfect f g cs poi init mask b = .ok (v, x)) :
    v = f x ∧ mask.length ≤ init.length ∧ Candidate cs init mask b x ∧
      ∀ x', Candidate cs init mask b x' → f x' ≠ nan → le (f x) (f x') := by
  unfold perfect at h
  split at h
  · rename_i hx
    simp only [Except.ok.injEq, Prod.mk.injEq] at h
    obtain ⟨rfl, rfl⟩ := h
    exact ⟨rfl, hx.1, hx.2.choose_spec⟩
  · simp at h

theorem perfect_honest : Honest 0 perfect := by
  constructor
  · intro f g cs poi init mask b v x h
    obtain ⟨h1, h2, h3, -⟩ := perfect_spec h
    refine ⟨h1, fun k hk => ?_⟩
    have hl : k < init.length := lt_of_lt_of_le (List.getElem?_eq_some_iff.mp hk).1 h2
    exact ⟨init[k], init[k], by rw [h3.2.1 k hk, List.getElem?_eq_getElem hl], List.getElem?_eq_getElem hl, by simp⟩
  · intro f g cs poi init mask b v x h
    exact (perfect_spec h).2.2.1.1

theorem perfect_optimal : Optimal perfect := fun _ _ _ _ _ _ _ _ _ h x' h1 h2 h3 h4 h5 =>
  (perfect_spec h).2.2.2 x' ⟨h1, h2, h3, h4⟩ h5

theorem perfect_inside : Inside perfect := fun _ _ _ _ _ _ _ _ _ h => (perfect_spec h).2.2.1.2.2.1

theorem perfect_constrained : Constrained perfect := fun _ _ _ _ _ _ _ _ _ h => (perfect_spec h).2.2.1.2.2.2

theorem exB_consistent : Consistent exB := by
  intro g e d f h x
  simp only [exB] at h
  split at h
  · simp at h
  · simp only [Except.ok.injEq] at h
    rw [← h]
    simp [exB, neg]

theorem neg_ne_nan {a : F} (h : a ≠ nan) : neg a ≠ nan := by cases a <;> simp_all [neg]

theorem le_self {a : F} (h : a ≠ nan) : le a a := by cases a <;> simp_all [le]

/-! ## C86: profile likelihood and maximum -/

/-- C86: `likelihood` at a number: the result is the negative log-likelihood at a point where the POI has that value (up to the
tolerance of the minimiser), and nowhere else with that POI, inside bounds and constraints, is it smaller. -/
theorem C86_profile {tol : ℝ} {S : Solver} (htol : 0 ≤ tol) (hS : Honest tol S) (hO : Optimal S) (B : Backend) (hB : Fallback B)
    (hc : Consistent B) (v : ℝ) (e : Expectation) (d : Option Data) (n g : Bool) (w : World) (hfix : (B.config n).fixed = none)
    (hlen : (B.config n).bounds.length = w.start.length) (hinit : ∀ l, w.init = some l → l.length = w.start.length)
    (k : ℕ) (hk : slot w.start.length (B.config n).poiIndex = some k)
    (hv : 0 ≤ v ∨ le (B.config n).minimumPoi (fin v))
    (hb : ∀ b, (B.config n).bounds[k]? = some b → Allowed b v ∨ (b.1.isSome ∧ b.2.isSome)) (l : F) (x : List ℝ)
    (h : (likelihood S B (.float v) e true d true n g none w).1 = .ok (.pair l x)) :
    l = neg (B.logpdf e d x) ∧ x.length = w.start.length ∧ (∃ y, x[k]? = some y ∧ |y - v| ≤ tol) ∧
    ∀ x' : List ℝ, x'.length = w.start.length → x'[k]? = some v →
      (∀ (j : ℕ) b y, j ≠ k → (B.config n).bounds[j]? = some b → x'[j]? = some y → Allowed b y) →
      Satisfies (w.constraints.getD [] ++ B.constraints) x' → B.logpdf e d x' ≠ nan → le l (neg (B.logpdf e d x')) := by
  have hN : (w.init.getD w.start).length = w.start.length := by
    cases hi : w.init with
    | none => rfl
    | some l => exact hinit l hi
  unfold likelihood at h
  rw [hB.negLL] at h
  simp only [if_true] at h
  cases hq : (profile S B (.float v) e d n g none w).1 with
  | error err => rw [hq] at h; simp [Except.map] at h
  | ok r =>
  obtain ⟨lp, x0⟩ := r
  rw [hq] at h
  simp only [Except.map, Except.ok.injEq, Out.pair.injEq, scaleOut, if_true] at h
  obtain ⟨rfl, rfl⟩ := h
  unfold profile at hq
  cases hp : prepareForFit B e d n g w with
  | mk r w1 =>
  rw [hp] at hq
  cases r with
  | error err => simp at hq
  | ok p =>
  obtain ⟨h1, h2, h3, h4, g', h5, -⟩ := prepare_ok hp
  have hpi : p.config.init = w.start := by rw [h2]; rfl
  have hpo : p.config.poiIndex = (B.config n).poiIndex := by rw [h2]; rfl
  have hwi : w1.init = w.init := by rw [h1]
  have hcf := hc _ _ _ _ h5
  simp only at hq
  split at hq
  · rename_i v' hone heq
    simp only [Poi.float.injEq] at heq
    subst heq
    simp only [Except.ok.injEq, Prod.mk.injEq] at hq
    obtain ⟨rfl, rfl⟩ := hq
    have hw1 : w.start.length = 1 := by rw [← hpi]; exact hone
    have hk0 : k = 0 := by have := slot_lt hk; omega
    subst hk0
    refine ⟨by rw [h3], by rw [hw1]; rfl, ⟨v, rfl, by simpa using htol⟩, fun x' hl hx' _ _ hn => ?_⟩
    have : x' = [v] := by
      rw [hw1] at hl
      obtain ⟨a, rfl⟩ := List.length_eq_one_iff.mp hl
      simp at hx'
      rw [hx']
    subst this
    rw [h3]
    exact le_self (neg_ne_nan hn)
  · simp only [resolvePoi] at hq
    obtain ⟨q1, q2, k', y, q3, q4, q5⟩ := runFit_value hS hq
    obtain ⟨b', hb', hopt⟩ := runFit_optimal hO (by simp) hq
    have hxl : x0.length = w.start.length := by rw [q2, hwi, hpi, hN]
    have hkk : k' = k := by
      rw [hxl, hpo, hk] at q3
      simpa using q3.symm
    subst hkk
    refine ⟨by rw [q1, Option.getD_some, h3], hxl, ⟨y, q4, q5⟩, fun x' hl hx' hbx hcx hn => ?_⟩
    have := hopt x' (by rw [hl, hwi, hpi, hN]) ?_ ?_ ?_ (by rw [h4]; exact hcx) (by rw [hcf]; exact neg_ne_nan hn)
    · rw [hcf, hcf] at this
      rw [q1, Option.getD_some, h3]
      exact this
    · intro q hq' k2 hk2
      simp only [FixedPoi.pairs, List.mem_singleton] at hq'
      subst hq'
      simp only at hk2 ⊢
      rw [hl, hpo, hk] at hk2
      simp only [Option.some.injEq] at hk2
      rw [← hk2]
      exact hx'
    · intro l' k2 hf'
      rw [h2] at hf'
      simp only [config] at hf'
      rw [hfix] at hf'
      simp at hf'
    · have hbd : p.config.bounds = (B.config n).bounds := by rw [h2]; rfl
      have hmp : p.config.minimumPoi = (B.config n).minimumPoi := by rw [h2]; rfl
      simp only [fitBounds, fixedPoiBounds, hbd, hpo, hlen, hk, hmp, Except.map, Except.ok.injEq] at hb'
      intro j c y' hc' hy'
      rw [← hb', List.getElem?_modify] at hc'
      by_cases hj : k' = j
      · subst hj
        rw [hx'] at hy'
        simp only [Option.some.injEq] at hy'
        subst hy'
        cases hbk : (B.config n).bounds[k']? with
        | none => rw [hbk] at hc'; simp at hc'
        | some b0 =>
          rw [hbk] at hc'
          simp only [Option.map_eq_map, Option.map_some, if_true, Option.some.injEq] at hc'
          rw [← hc']
          exact adjust_allowed (hb b0 hbk) hv
      · cases hbk : (B.config n).bounds[j]? with
        | none => rw [hbk] at hc'; simp at hc'
        | some b0 =>
          rw [hbk] at hc'
          simp only [Option.map_eq_map, Option.map_some, hj, if_false, id_eq, Option.some.injEq] at hc'
          subst hc'
          exact hbx j b0 y' (Ne.symm hj) hbk hy'

/-- C86: `maximize_likelihood`: the result is the negative log-likelihood at a point inside the bounds whose POI is `muhat`, and
nowhere inside bounds and constraints is it smaller. -/
theorem C86_maximum {tol : ℝ} {S : Solver} (hS : Honest tol S) (hO : Optimal S) (hI : Inside S) (B : Backend) (hB : Fallback B)
    (hc : Consistent B) (e : Expectation) (d : Option Data) (n g : Bool) (w : World) (hfix : (B.config n).fixed = none)
    (hinit : ∀ l, w.init = some l → l.length = w.start.length) (m : MuHat) (l : F)
    (h : (maximize S B true e n d none none g none w).1 = .ok (m, l)) :
    ∃ x k y, l = neg (B.logpdf e d x) ∧ x.length = w.start.length ∧ InBounds (B.config n).bounds x ∧
      slot w.start.length (B.config true).poiIndex = some k ∧ x[k]? = some y ∧ m = .one y ∧
      ∀ x' : List ℝ, x'.length = w.start.length → InBounds (B.config n).bounds x' →
        Satisfies (w.constraints.getD [] ++ B.constraints) x' → B.logpdf e d x' ≠ nan → le l (neg (B.logpdf e d x')) := by
  have hN : (w.init.getD w.start).length = w.start.length := by
    cases hi : w.init with
    | none => rfl
    | some l => exact hinit l hi
  unfold maximize at h
  rw [hB.minNegLL] at h
  simp only [resolveFixed] at h
  cases hp : prepareForFit B e d n g w with
  | mk r w1 =>
  rw [hp] at h
  cases r with
  | error err => simp at h
  | ok p =>
  obtain ⟨h1, h2, h3, h4, g', h5, -⟩ := prepare_ok hp
  have hpi : p.config.init = w.start := by rw [h2]; rfl
  have hwi : w1.init = w.init := by rw [h1]
  have hcf := hc _ _ _ _ h5
  simp only at h
  cases hr : runFit S p none .none (some p.logpdf) w1 with
  | mk r w2 =>
  rw [hr] at h
  cases r with
  | error err => simp at h
  | ok r =>
  obtain ⟨lp, x⟩ := r
  have hr1 : (runFit S p none .none (some p.logpdf) w1).1 = .ok (lp, x) := by rw [hr]
  obtain ⟨q1, q2⟩ := runFit_point hS hr1
  obtain ⟨b', hb', hopt⟩ := runFit_optimal hO (by simp) hr1
  obtain ⟨b'', hb'', hin⟩ := runFit_inside hI (by simp) hr1
  have hbd : p.config.bounds = (B.config n).bounds := by rw [h2]; rfl
  simp only [fitBounds, fixedPoiBounds, Except.map, Except.ok.injEq, hbd] at hb' hb''
  subst hb' hb''
  have hxl : x.length = w.start.length := by rw [q2, hwi, hpi, hN]
  simp only [Option.getD_some] at q1
  simp only at h
  cases hm : estimates (config B true w2) x none with
  | error err => rw [hm] at h; simp [Except.map] at h
  | ok m' =>
  rw [hm] at h
  simp only [Except.map, Except.ok.injEq, Prod.mk.injEq, scaleOut, if_true] at h
  obtain ⟨rfl, rfl⟩ := h
  simp only [estimates, readKey, resolveKey, item, config] at hm
  rw [hxl] at hm
  cases hk : slot w.start.length (B.config true).poiIndex with
  | none => rw [hk] at hm; simp [Except.map] at hm
  | some k =>
  rw [hk] at hm
  simp only [Except.map, Except.ok.injEq] at hm
  have hkx : k < x.length := by rw [hxl]; exact slot_lt hk
  refine ⟨x, k, x.getD k 0, by rw [q1, h3], hxl, hin, rfl, by simp [List.getD_eq_getElem?_getD, hkx], hm.symm,
    fun x' hl hb hcx hn => ?_⟩
  have := hopt x' (by rw [hl, hwi, hpi, hN]) (by simp [FixedPoi.pairs]) (by
      intro l' k2 hf'
      rw [h2] at hf'
      simp only [config] at hf'
      rw [hfix] at hf'
      simp at hf') hb (by rw [h4]; exact hcx) (by rw [hcf]; exact neg_ne_nan hn)
  rw [hcf, hcf] at this
  rw [q1, h3]
  exact this

/-- C86: so with a perfect minimiser the maximum is never below the likelihood of a POI strictly inside its bounds: likelihood
ratios do not exceed one, in whatever order and from whatever initial values the two fits are made. The two fits may differ in
`allow_negative_signal` (`n` and `m`), as long as this changes the bounds of the POI only and the POI is inside both. With one
parameter no fit takes place for the likelihood, and constraints are not looked at. -/
theorem C86_ratio {tol : ℝ} {S : Solver} (hS : Honest tol S) (hO : Optimal S) (hI : Inside S) (hC : Constrained S)
    (B : Backend) (hB : Fallback B) (hc : Consistent B) (v : ℝ) (e : Expectation) (d : Option Data) (n m g g' : Bool) (w w' : World)
    (hfix : (B.config n).fixed = none) (hlen : (B.config m).bounds.length = w.start.length)
    (hsame : w'.start.length = w.start.length)
    (hinit : ∀ l, w.init = some l → l.length = w.start.length) (hinit' : ∀ l, w'.init = some l → l.length = w.start.length)
    (hcw : w.constraints = none) (hcw' : w'.constraints = none) (h1 : w.start.length ≠ 1 ∨ Satisfies B.constraints [v])
    (k : ℕ) (hk : slot w.start.length (B.config m).poiIndex = some k)
    (hb : ∀ b, (B.config m).bounds[k]? = some b → ∃ lo hi, b = (some lo, some hi) ∧ lt lo (fin v) ∧ lt (fin v) hi)
    (hbn : ∀ b b' y, (B.config n).bounds[k]? = some b → (B.config m).bounds[k]? = some b' → Allowed b' y → |y - v| ≤ tol →
      Allowed b y)
    (hbo : ∀ j, j ≠ k → (B.config n).bounds[j]? = (B.config m).bounds[j]?) (htol : 0 ≤ tol)
    (mu : MuHat) (l l' : F) (x : List ℝ) (hm : (maximize S B true e n d none none g none w).1 = .ok (mu, l))
    (hl : (likelihood S B (.float v) e true d true m g' none w').1 = .ok (.pair l' x)) (hn : l' ≠ nan) : le l l' := by
  have hN : (w'.init.getD w'.start).length = w'.start.length := by
    cases hi : w'.init with
    | none => rfl
    | some l => rw [hsame]; exact hinit' l hi
  obtain ⟨-, -, -, -, -, -, -, -, -, hbest⟩ := C86_maximum hS hO hI B hB hc e d n g w hfix hinit mu l hm
  unfold likelihood at hl
  rw [hB.negLL] at hl
  simp only [if_true] at hl
  cases hq : (profile S B (.float v) e d m g' none w').1 with
  | error err => rw [hq] at hl; simp [Except.map] at hl
  | ok r =>
  obtain ⟨lp, x0⟩ := r
  rw [hq] at hl
  simp only [Except.map, Except.ok.injEq, Out.pair.injEq, scaleOut, if_true] at hl
  obtain ⟨rfl, rfl⟩ := hl
  unfold profile at hq
  cases hp : prepareForFit B e d m g' w' with
  | mk r w1 =>
  rw [hp] at hq
  cases r with
  | error err => simp at hq
  | ok p =>
  obtain ⟨p1, p2, p3, p4, -⟩ := prepare_ok hp
  have hpi : p.config.init = w'.start := by rw [p2]; rfl
  have hpo : p.config.poiIndex = (B.config m).poiIndex := by rw [p2]; rfl
  have hbd : p.config.bounds = (B.config m).bounds := by rw [p2]; rfl
  have hwi : w1.init = w'.init := by rw [p1]
  have hkl : k < (B.config m).bounds.length := by rw [hlen]; exact slot_lt hk
  simp only at hq
  split at hq
  · rename_i v' hone heq
    simp only [Poi.float.injEq] at heq
    subst heq
    simp only [Except.ok.injEq, Prod.mk.injEq] at hq
    obtain ⟨rfl, rfl⟩ := hq
    have hw1 : w.start.length = 1 := by rw [← hsame, ← hpi]; exact hone
    have hk0 : k = 0 := by have := slot_lt hk; omega
    subst hk0
    rw [p3] at hn ⊢
    refine hbest [v] (by rw [hw1]; rfl) ?_ ?_ fun h => hn (by rw [h]; rfl)
    · intro j c y hc' hy'
      have hj : j = 0 := by
        have := (List.getElem?_eq_some_iff.mp hy').1
        simp at this
        exact this
      subst hj
      simp only [List.getElem?_cons_zero, Option.some.injEq] at hy'
      subst hy'
      obtain ⟨lo, hi, h2, h3, h4⟩ := hb _ (List.getElem?_eq_getElem hkl)
      refine hbn c _ v hc' (List.getElem?_eq_getElem hkl) ?_ (by simpa using htol)
      rw [h2]
      refine ⟨fun l hl => ?_, fun l hl => ?_⟩ <;> simp only [Option.some.injEq] at hl <;> subst hl
      · cases lo <;> simp_all [lt, le, le_of_lt]
      · cases hi <;> simp_all [lt, le, le_of_lt]
    · rw [hcw]
      exact h1.resolve_left (by simp [hw1])
  · simp only [resolvePoi] at hq
    obtain ⟨q1, q2, k', y0, q3, q4, q5⟩ := runFit_value hS hq
    obtain ⟨b', hb', hin⟩ := runFit_inside hI (by simp) hq
    have hcs := runFit_constrained hC (by simp) hq
    have hxl : x0.length = w.start.length := by rw [q2, hwi, hpi, hN, hsame]
    have hkk : k' = k := by
      rw [hxl, hpo, hk] at q3
      simpa using q3.symm
    subst hkk
    simp only [fitBounds, fixedPoiBounds, hbd, hpo, hlen, hk, Except.map, Except.ok.injEq] at hb'
    simp only [Option.getD_some] at q1
    rw [q1, p3]
    apply hbest
    · exact hxl
    · intro j c y hc' hy'
      by_cases hj : j = k'
      · subst hj
        rw [q4] at hy'
        simp only [Option.some.injEq] at hy'
        subst hy'
        refine hbn c _ y0 hc' (List.getElem?_eq_getElem hkl) ?_ q5
        apply hin j _ y0 _ q4
        rw [← hb', List.getElem?_modify, List.getElem?_eq_getElem hkl]
        obtain ⟨lo, hi, h2, h3, h4⟩ := hb _ (List.getElem?_eq_getElem hkl)
        simp [h2, adjust, h3, h4]
      · rw [hbo j hj] at hc'
        apply hin j c y _ hy'
        rw [← hb', List.getElem?_modify, hc']
        simp [Ne.symm hj]
    · rw [p4, hcw'] at hcs
      rw [hcw]
      exact hcs
    · intro hnan
      rw [q1, p3, hnan] at hn
      exact hn rfl

example : Honest 0 perfect ∧ Optimal perfect ∧ Inside perfect ∧ Constrained perfect ∧ Fallback exB ∧ Consistent exB ∧
    (exB.config true).fixed = none ∧ (exB.config true).bounds.length = exW.start.length ∧
    (∃ out, (likelihood perfect exB (.float 2) .observed true none true true true none exW).1 = .ok out) := by
  refine ⟨perfect_honest, perfect_optimal, perfect_inside, perfect_constrained, exB_fallback, exB_consistent, rfl, rfl, ?_⟩
  have hp : ∀ f g, f = (fun x : List ℝ => fin ((x.getD 0 0) ^ 2 + x.getD 1 0 ^ 2)) → ∃ x,
      perfect f g exB.constraints 0 [2, 1] [true, false] [(some (fin (-1)), some (fin 10)), (none, none)] = .ok x := by
    intro f g hf
    unfold perfect
    rw [dif_pos]
    · exact ⟨_, rfl⟩
    refine ⟨by simp, [2, 0], ⟨rfl, ?_, ?_, ?_⟩, ?_⟩
    · intro k hk
      rcases k with _ | _ | k <;> simp at hk ⊢
    · intro k c y hc hy
      rcases k with _ | _ | k
      · simp only [List.getElem?_cons_zero, Option.some.injEq] at hc hy
        subst hc hy
        refine ⟨fun l hl => ?_, fun l hl => ?_⟩ <;> simp only [Option.some.injEq] at hl <;> subst hl <;> simp [le] <;> norm_num
      · simp only [List.getElem?_cons_succ, List.getElem?_cons_zero, Option.some.injEq] at hc
        subst hc
        exact ⟨by simp, by simp⟩
      · simp at hc
    · intro c hc
      simp only [exB, List.mem_singleton] at hc
      subst hc
      simp [le]
    · intro x' hx' _
      subst hf
      have h0 : x'.getD 0 0 = 2 := by
        have := hx'.2.1 0 rfl
        simp only [List.getElem?_cons_zero] at this
        simp [List.getD_eq_getElem?_getD, this]
      simp only [le, h0, List.getD_cons_zero, List.getD_cons_succ]
      nlinarith [sq_nonneg (x'.getD 1 0)]
  obtain ⟨x, hx⟩ := hp _ false rfl
  refine ⟨.pair (scaleOut true (exB.logpdf .observed none x.2)) x.2, ?_⟩
  simp [likelihood, exB, profile, prepareForFit, getObjective, config, ModelConfig.npar, exW, resolvePoi, runFit, fit, fitBounds,
      fixedPoiBounds, slot, adjust, lt, Except.map, FixedPoi.pairs, setFixed, setSuggested, Except.mapError] at hx ⊢
  norm_num at hx ⊢
  rw [hx]

end Verif.Interface
