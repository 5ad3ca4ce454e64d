import Verif.Nuisance.Model
import Verif.Nuisance.Spec
import Verif.Hypotest.ModelProps
import Verif.Config.Lemmas
import Verif.Chain.Single

/-!
# Fits with several fixed parameters
-/

namespace Verif.Nuisance
open Verif.Py F Verif.Hypotest Verif.Config Verif.Optimizer
open Verif.Interface (World Solver Plain Prepared runFit runFit_ok prepare_ok prepareForFit Allowed Satisfies Constrained)

/-- `fit` gets `fixed`, which are the values `fix` of the parameters. The bounds of the others are `bounds`. -/
structure Fixes (c : ModelConfig) (fixed : FixedPoi) (N : ℕ) (bounds : List Bound) (fix : List (ℕ × ℝ)) : Prop where
  listed : ∀ q ∈ fixed.pairs c, ∃ k, slot N q.1 = some k ∧ (k, q.2) ∈ fix
  only : ∀ q ∈ fix, ∃ i, (i, q.2) ∈ fixed.pairs c ∧ slot N i = some q.1
  distinct : ((fixed.pairs c).map fun q => slot N q.1).Nodup
  bounds : ∃ b', fitBounds c none fixed = .ok b' ∧ (∀ j : ℕ, (∀ q ∈ fix, q.1 ≠ j) → b'[j]? = bounds[j]?)

/-- `fit` uses bounds that contain the values. -/
def Holds (c : ModelConfig) (fixed : FixedPoi) (fix : List (ℕ × ℝ)) : Prop := ∀ b', fitBounds c none fixed = .ok b' → ∀ q ∈ fix, ∀ b, b'[q.1]? = some b → Allowed b q.2

/-- A fit gives the smallest value with the fixed parameters. -/
theorem run_smallest {S : Solver} (hS : Exact S) (hC : Constrained S) {p : Prepared} {fixed : FixedPoi} {w : World} {N : ℕ} (hw : w.init = none) (hN : p.config.init.length = N)
    (hfix : p.config.fixed = none) (hf : ∀ x, p.func x = neg (p.logpdf x)) {fix : List (ℕ × ℝ)} {bounds : List Bound} (hF : Fixes p.config fixed N bounds fix) {lp : F} {x : List ℝ}
    (h : (runFit S p none fixed (some p.logpdf) w).1 = .ok (lp, x)) :
    lp = p.logpdf x ∧ Admissible N bounds p.constraints fix x ∧ ∀ x', Admissible N bounds p.constraints fix x' → p.logpdf x' ≠ nan → le (neg (p.logpdf x)) (neg (p.logpdf x')) := by
  obtain ⟨h1, h2, hd, hb⟩ := hF
  subst hN
  have h := runFit_ok h
  have hlen := Interface.fit_length hS.honest h
  obtain ⟨k1, k2, -⟩ := C31_fit_partial (hS.honest.keeps _ _ _ _) _ _ _ _ _ _ _ h
  simp only [hw, Option.getD_none, Option.getD_some] at hlen k1 k2
  have split_mem : ∀ q ∈ fixed.pairs p.config, ∃ l1 l2, fixed.pairs p.config = l1 ++ q :: l2 ∧ ∀ k, slot p.config.init.length q.1 = some k → ∀ r ∈ l2, slot p.config.init.length r.1 ≠ some k := by
    intro q hq
    obtain ⟨l1, l2, hl⟩ := List.append_of_mem hq
    refine ⟨l1, l2, hl, fun k hk r hr hr' => ?_⟩
    rw [hl, List.map_append, List.map_cons] at hd
    have := (List.nodup_cons.mp (List.nodup_append.mp hd).2.1).1
    exact this (List.mem_map.mpr ⟨r, hr, by rw [hr', hk]⟩)
  unfold fit at h
  simp only [hw, Option.getD_none, hfix] at h
  split at h
  · simp at h
  rename_i b' hb'
  split at h
  · simp at h
  rename_i hs
  simp only [setSuggested] at h
  split at h
  · simp at h
  rename_i u y hu
  have hxy : y = x := by
    have := congrArg (fun r : Except Config.Err (F × List ℝ) => r.toOption.map Prod.snd) h
    simpa [Except.toOption] using this
  subst hxy
  obtain ⟨b'', hb'', b1⟩ := hb
  have hbb : b'' = b' := Except.ok.inj (hb''.symm.trans hb')
  subst hbb
  obtain ⟨s1, s2⟩ := setFixed_spec (fixed.pairs p.config) p.config.init (List.replicate p.config.init.length false) (by simp)
  obtain ⟨s3, s4, -⟩ := s2 hs
  have hin := hS.inside _ _ _ _ _ _ _ _ _ hu
  have hcs := hC _ _ _ _ _ _ _ _ _ hu
  have hfx : ∀ q ∈ fix, y[q.1]? = some q.2 := by
    intro q hq
    obtain ⟨i, i1, i2⟩ := h2 q hq
    obtain ⟨l1, l2, e1, e2⟩ := split_mem _ i1
    obtain ⟨z, z1, z2⟩ := k2 l1 l2 i q.2 q.1 e1 i2 (e2 q.1 i2)
    rw [z1, sub_eq_zero.mp (abs_nonpos_iff.mp z2)]
  refine ⟨k1, ⟨hlen, hfx, fun j b z hj hbj hz => ?_, hcs⟩, fun x' hx' hn => ?_⟩
  · exact hin j b z ((b1 j hj).trans hbj) hz
  · rw [← hf, ← hf]
    refine hS.optimal _ _ _ _ _ _ _ _ _ hu x' ?_ ?_ ?_ hx'.constraints ?_
    · rw [(setFixed_length _ _ _).1, hx'.length]
    · intro k hk
      by_cases hq : ∃ q ∈ fixed.pairs p.config, slot p.config.init.length q.1 = some k
      · obtain ⟨q, q1, q2⟩ := hq
        obtain ⟨l1, l2, e1, e2⟩ := split_mem _ q1
        rw [s3 l1 l2 q.1 q.2 k e1 q2 (e2 k q2)]
        obtain ⟨k', k3, k4⟩ := h1 q q1
        rw [q2, Option.some.injEq] at k3
        subst k3
        exact hx'.fixed _ k4
      · exfalso
        have := (s1 k fun q q1 q2 => hq ⟨q, q1, q2⟩).2
        rw [this] at hk
        obtain ⟨_, h9⟩ := List.getElem?_eq_some_iff.mp hk
        simp at h9
    · intro j b z hbj hz
      by_cases hj : ∃ q ∈ fix, q.1 = j
      · obtain ⟨q, q1, rfl⟩ := hj
        have := hx'.fixed q q1
        rw [hz, Option.some.injEq] at this
        subst this
        exact hin q.1 b q.2 hbj (hfx q q1)
      · have hj : ∀ q ∈ fix, q.1 ≠ j := fun q q1 q2 => hj ⟨q, q1, q2⟩
        exact hx'.inside j b z hj ((b1 j hj).symm.trans hbj) hz
    · rw [hf]
      exact Interface.neg_ne_nan hn

/-- A fit returns if there is a smallest value. -/
theorem run_finds {S : Solver} (hT : Chain.Finds S) {p : Prepared} {fixed : FixedPoi} {w : World} {N : ℕ} (hw : w.init = none) (hN : p.config.init.length = N)
    (hfix : p.config.fixed = none) (hf : ∀ x, p.func x = neg (p.logpdf x)) {fix : List (ℕ × ℝ)} {bounds : List Bound} (hF : Fixes p.config fixed N bounds fix) (hH : Holds p.config fixed fix)
    (hmin : ∃ l, Smallest (fun x => neg (p.logpdf x)) (Admissible N bounds p.constraints fix) l) :
    ∃ r, (runFit S p none fixed (some p.logpdf) w).1 = .ok r := by
  obtain ⟨h1, h2, hd, b', hb', b1⟩ := hF
  have b2 := hH b' hb'
  subst hN
  have hs : ∀ (l : List (ℤ × ℝ)) (init : List ℝ) (mask : List Bool), (∀ q ∈ l, ∃ k, slot init.length q.1 = some k) → (setFixed init mask l).2 = .ok () := by
    intro l
    induction l with
    | nil => intro _ _ _; rfl
    | cons q l ih =>
      intro init mask h
      obtain ⟨k, hk⟩ := h q (by simp)
      rw [setFixed, hk]
      exact ih _ _ fun r hr => by rw [List.length_set]; exact h r (by simp [hr])
  have hs := hs (fixed.pairs p.config) p.config.init (List.replicate p.config.init.length false) fun q hq => by
    obtain ⟨k, hk, -⟩ := h1 q hq
    exact ⟨k, hk⟩
  obtain ⟨s1, s2⟩ := setFixed_spec (fixed.pairs p.config) p.config.init (List.replicate p.config.init.length false) (by simp)
  obtain ⟨s3, s4, -⟩ := s2 hs
  obtain ⟨l1, l2⟩ := setFixed_length (fixed.pairs p.config) p.config.init (List.replicate p.config.init.length false)
  have split_mem : ∀ q ∈ fixed.pairs p.config, ∃ l1 l2, fixed.pairs p.config = l1 ++ q :: l2 ∧ ∀ k, slot p.config.init.length q.1 = some k → ∀ r ∈ l2, slot p.config.init.length r.1 ≠ some k := by
    intro q hq
    obtain ⟨l1, l2, hl⟩ := List.append_of_mem hq
    refine ⟨l1, l2, hl, fun k hk r hr hr' => ?_⟩
    rw [hl, List.map_append, List.map_cons] at hd
    have := (List.nodup_cons.mp (List.nodup_append.mp hd).2.1).1
    exact this (List.mem_map.mpr ⟨r, hr, by rw [hr', hk]⟩)
  have cand : ∀ x, Interface.Candidate p.constraints (setFixed p.config.init (List.replicate p.config.init.length false) (fixed.pairs p.config)).1.1
      (setFixed p.config.init (List.replicate p.config.init.length false) (fixed.pairs p.config)).1.2 b' x ↔ Admissible p.config.init.length bounds p.constraints fix x := by
    intro x
    constructor
    · rintro ⟨c1, c2, c3, c4⟩
      have hfx : ∀ q ∈ fix, x[q.1]? = some q.2 := by
        intro q hq
        obtain ⟨i, i1, i2⟩ := h2 q hq
        obtain ⟨l1, l2, e1, e2⟩ := split_mem _ i1
        obtain ⟨k', k3, k4⟩ := s4 _ i1
        rw [i2, Option.some.injEq] at k3
        subst k3
        rw [c2 _ k4]
        exact s3 l1 l2 i q.2 q.1 e1 i2 (e2 q.1 i2)
      exact ⟨c1.trans l1, hfx, fun j b z hj hbj hz => c3 j b z ((b1 j hj).trans hbj) hz, c4⟩
    · intro hx
      refine ⟨hx.length.trans l1.symm, fun k hk => ?_, fun j b z hbj hz => ?_, hx.constraints⟩
      · by_cases hq : ∃ q ∈ fixed.pairs p.config, slot p.config.init.length q.1 = some k
        · obtain ⟨q, q1, q2⟩ := hq
          obtain ⟨l1, l2, e1, e2⟩ := split_mem _ q1
          rw [s3 l1 l2 q.1 q.2 k e1 q2 (e2 k q2)]
          obtain ⟨k', k3, k4⟩ := h1 q q1
          rw [q2, Option.some.injEq] at k3
          subst k3
          exact hx.fixed _ k4
        · exfalso
          have := (s1 k fun q q1 q2 => hq ⟨q, q1, q2⟩).2
          rw [this] at hk
          obtain ⟨_, h9⟩ := List.getElem?_eq_some_iff.mp hk
          simp at h9
      · by_cases hj : ∃ q ∈ fix, q.1 = j
        · obtain ⟨q, q1, rfl⟩ := hj
          have := hx.fixed q q1
          rw [hz, Option.some.injEq] at this
          subst this
          exact b2 q q1 b hbj
        · have hj : ∀ q ∈ fix, q.1 ≠ j := fun q q1 q2 => hj ⟨q, q1, q2⟩
          exact hx.inside j b z hj ((b1 j hj).symm.trans hbj) hz
  obtain ⟨l, x, hx, rfl, hle⟩ := hmin
  obtain ⟨r, hr⟩ := hT p.func p.doGrad p.constraints p.config.poiIndex _ _ b' (by rw [l1, l2]; simp) ⟨x, (cand x).mpr hx, fun x' hx' hn => by
    rw [hf, hf]
    rw [hf] at hn
    exact hle x' ((cand x').mp hx') hn⟩
  refine ⟨(p.logpdf r.2, r.2), ?_⟩
  unfold runFit fit
  simp only [hw, Option.getD_none, hfix, hb', hs, setSuggested, hr]
  rfl

/-- The values that were fixed in the fit are inside the bounds that were used. -/
theorem adjust_contains {mp : F} {b : Bound} {v : ℝ} (h : b = (none, none) ∨ (b.1.isSome ∧ b.2.isSome) ∧ (0 ≤ v ∨ le mp (fin v))) : Allowed (adjust mp (fun v _ => fin (v + 1)) b v) v := by
  rcases h with rfl | ⟨⟨ha, hb⟩, hmp⟩
  · exact ⟨by simp [adjust], by simp [adjust]⟩
  obtain ⟨lo, hi⟩ := b
  obtain ⟨lo, rfl⟩ := Option.isSome_iff_exists.mp ha
  obtain ⟨hi, rfl⟩ := Option.isSome_iff_exists.mp hb
  simp only [adjust]
  split
  · rename_i hin
    have hle : ∀ a b : F, lt a b → le a b := by
      intro a b h
      cases a <;> cases b <;> simp_all [lt, le]
      exact h.le
    exact ⟨fun l hl => by simp only [Option.some.injEq] at hl; subst hl; exact hle _ _ hin.1,
      fun l hl => by simp only [Option.some.injEq] at hl; subst hl; exact hle _ _ hin.2⟩
  · refine ⟨fun l hl => ?_, fun l hl => ?_⟩
    · simp only [Option.some.injEq] at hl
      subst hl
      split
      · rename_i hneg
        rcases hmp with h | h
        · linarith
        · exact h
      · rename_i hneg
        simp only [le]
        linarith
    · simp only [Option.some.injEq] at hl
      subst hl
      simp only [le]
      linarith

/-- The parameters that are fixed: the POI, if it has a value. -/
def poiFix (k : ℕ) : Option ℝ → List (ℕ × ℝ)
  | none => []
  | some v => [(k, v)]

/-- All of them, as `fit` gets them. -/
def fixedDict (c : ModelConfig) (j : ℕ) (v : ℝ) : Option ℝ → List (ℤ × ℝ)
  | none => [((j : ℤ), v)]
  | some u => [(c.poiIndex, u), ((j : ℤ), v)]

/-- The POI alone, as `fit` gets it. -/
def fixedNumber : Option ℝ → FixedPoi
  | none => .none
  | some u => .value u

section Fixes
variable {B : Interface.Backend} {N k j : ℕ} (hB : Usual B N k) {poiValue : Option ℝ} {c : ModelConfig}
include hB

section
variable (hjN : j < N) (hkj : k ≠ j) (hv : ∀ v, poiValue = some v → 0 ≤ v ∨ le (B.config true).minimumPoi (fin v)) (hbd : c.bounds = (B.config true).bounds)
  (hmp : c.minimumPoi = (B.config true).minimumPoi)
include hbd hmp

include hjN hkj in
theorem dict_fixes (v : ℝ) : Fixes c (.dict (fixedDict (B.config true) j v poiValue)) N (B.config true).bounds ((j, v) :: poiFix k poiValue) := by
  have hpoi := hB.poi true
  constructor
  · cases poiValue with
    | none =>
      intro q hq
      simp only [fixedDict, FixedPoi.pairs, List.mem_singleton] at hq
      subst hq
      exact ⟨j, slot_nat j hjN, by simp⟩
    | some u =>
      intro q hq
      simp only [fixedDict, FixedPoi.pairs, List.mem_cons, List.not_mem_nil, or_false] at hq
      rcases hq with rfl | rfl
      · exact ⟨k, hpoi, by simp [poiFix]⟩
      · exact ⟨j, slot_nat j hjN, by simp⟩
  · cases poiValue with
    | none =>
      intro q hq
      simp only [poiFix, List.mem_singleton] at hq
      subst hq
      exact ⟨j, by simp [fixedDict, FixedPoi.pairs], slot_nat j hjN⟩
    | some u =>
      intro q hq
      simp only [poiFix, List.mem_cons, List.not_mem_nil, or_false] at hq
      rcases hq with rfl | rfl
      · exact ⟨j, by simp [fixedDict, FixedPoi.pairs], slot_nat j hjN⟩
      · exact ⟨(B.config true).poiIndex, by simp [fixedDict, FixedPoi.pairs], hpoi⟩
  · cases poiValue with
    | none => simp [fixedDict, FixedPoi.pairs]
    | some u => simp [fixedDict, FixedPoi.pairs, hpoi, slot_nat j hjN, hkj]
  · cases hpv : poiValue with
    | none =>
      simp only [fixedDict, fitBounds, fixedPoiBoundsMulti, hbd, hmp]
      cases hl : fixedLoop (B.config true).minimumPoi (B.config true).bounds [((j : ℤ), v)] with
      | error err => simp [fixedLoop, hB.length true, slot_nat j hjN] at hl
      | ok r =>
      refine ⟨r, rfl, ?_⟩
      obtain ⟨-, f2, -⟩ := fixedLoop_spec _ _ _ _ hl
      rw [hB.length true] at f2
      refine fun i hi => f2 i fun q hq => ?_
      · simp only [List.mem_singleton] at hq
        subst hq
        rw [slot_nat j hjN]
        simpa [poiFix] using hi
    | some u =>
      simp only [fixedDict, fitBounds, fixedPoiBoundsMulti, hbd, hmp]
      cases hl : fixedLoop (B.config true).minimumPoi (B.config true).bounds [((B.config true).poiIndex, u), ((j : ℤ), v)] with
      | error err => simp [fixedLoop, hB.length true, slot_nat j hjN, hpoi] at hl
      | ok r =>
      refine ⟨r, rfl, ?_⟩
      obtain ⟨-, f2, -⟩ := fixedLoop_spec _ _ _ _ hl
      rw [hB.length true] at f2
      refine fun i hi => f2 i fun q hq => ?_
      · simp only [poiFix, List.mem_cons, List.not_mem_nil, or_false, forall_eq_or_imp, forall_eq] at hq hi
        rcases hq with rfl | rfl
        · simp only [hpoi, ne_eq, Option.some.injEq]
          exact hi.2
        · simp only [slot_nat j hjN, ne_eq, Option.some.injEq]
          exact hi.1

include hkj hv in
theorem dict_holds {v : ℝ} {b₀ : Bound} (hj : (B.config true).bounds[j]? = some b₀) (hb₀ : b₀ = (none, none) ∨ (b₀.1.isSome ∧ b₀.2.isSome) ∧ (0 ≤ v ∨ le (B.config true).minimumPoi (fin v))) : Holds c (.dict (fixedDict (B.config true) j v poiValue)) ((j, v) :: poiFix k poiValue) := by
  have hjN : j < N := by
    rw [← hB.length true]
    exact (List.getElem?_eq_some_iff.mp hj).1
  have hpoi := hB.poi true
  intro b' hb' q hq b hb
  cases hpv : poiValue with
  | none =>
    rw [hpv] at hb' hq
    simp only [fixedDict, fitBounds, fixedPoiBoundsMulti, hbd, hmp] at hb'
    cases hl : fixedLoop (B.config true).minimumPoi (B.config true).bounds [((j : ℤ), v)] with
    | error err => rw [hl] at hb'; simp [Except.map] at hb'
    | ok r =>
    rw [hl] at hb'
    simp only [Except.map, Except.ok.injEq] at hb'
    subst hb'
    obtain ⟨-, f2, f3⟩ := fixedLoop_spec _ _ _ _ hl
    rw [hB.length true] at f2 f3
    simp only [poiFix, List.mem_singleton] at hq
    subst hq
    have := f3 [] [] j v j rfl (slot_nat j hjN) (by simp)
    rw [this, hj, Option.map_some, Option.some.injEq] at hb
    rw [← hb]
    exact adjust_contains hb₀
  | some u =>
    rw [hpv] at hb' hq
    simp only [fixedDict, fitBounds, fixedPoiBoundsMulti, hbd, hmp] at hb'
    cases hl : fixedLoop (B.config true).minimumPoi (B.config true).bounds [((B.config true).poiIndex, u), ((j : ℤ), v)] with
    | error err => rw [hl] at hb'; simp [Except.map] at hb'
    | ok r =>
    rw [hl] at hb'
    simp only [Except.map, Except.ok.injEq] at hb'
    subst hb'
    obtain ⟨-, f2, f3⟩ := fixedLoop_spec _ _ _ _ hl
    rw [hB.length true] at f2 f3
    simp only [poiFix, List.mem_cons, List.not_mem_nil, or_false] at hq
    rcases hq with rfl | rfl
    · have := f3 [((B.config true).poiIndex, u)] [] j v j rfl (slot_nat j hjN) (by simp [hpoi, hkj])
      rw [this, hj, Option.map_some, Option.some.injEq] at hb
      rw [← hb]
      exact adjust_contains hb₀
    · have := f3 [] [((j : ℤ), v)] _ u k rfl hpoi (by simp [slot_nat j hjN, Ne.symm hkj])
      rw [this] at hb
      obtain ⟨b0, hb0, rfl⟩ := Option.map_eq_some_iff.mp hb
      exact adjust_contains (.inr ⟨hB.bounds true _ hb0, hv u hpv⟩)

end

variable {n : Bool} (hbd : c.bounds = (B.config n).bounds) (hmp : c.minimumPoi = (B.config n).minimumPoi) (hpi : c.poiIndex = (B.config n).poiIndex)
include hbd hmp

include hpi in
theorem number_fixes : Fixes c (fixedNumber poiValue) N (B.config n).bounds (poiFix k poiValue) := by
  have hpoi := hB.poi n
  constructor
  · cases poiValue with
    | none => simp [fixedNumber, FixedPoi.pairs]
    | some u =>
      intro q hq
      simp only [fixedNumber, FixedPoi.pairs, List.mem_singleton] at hq
      subst hq
      exact ⟨k, by rw [hpi]; exact hpoi, by simp [poiFix]⟩
  · cases poiValue with
    | none => simp [poiFix]
    | some u =>
      intro q hq
      simp only [poiFix, List.mem_singleton] at hq
      subst hq
      exact ⟨_, by simp [fixedNumber, FixedPoi.pairs]; rfl, by rw [hpi]; exact hpoi⟩
  · cases poiValue <;> simp [fixedNumber, FixedPoi.pairs]
  · cases poiValue with
    | none =>
      simp only [fixedNumber, fitBounds, fixedPoiBounds, Except.map, hbd]
      exact ⟨_, rfl, fun _ _ => rfl⟩
    | some u =>
      simp only [fixedNumber, fitBounds, fixedPoiBounds, hbd, hpi, hB.length n, hpoi, hmp, Except.map]
      refine ⟨_, rfl, fun i hi => ?_⟩
      simp only [poiFix, List.mem_singleton, forall_eq] at hi
      rw [List.getElem?_modify]
      simp [hi]

include hpi in
theorem number_holds (hv : ∀ v, poiValue = some v → 0 ≤ v ∨ le (B.config n).minimumPoi (fin v)) : Holds c (fixedNumber poiValue) (poiFix k poiValue) := by
  have hpoi := hB.poi n
  intro b' hb' q hq b hb
  cases hpv : poiValue with
  | none =>
    rw [hpv] at hq
    simp [poiFix] at hq
  | some u =>
    rw [hpv] at hb' hq
    simp only [fixedNumber, fitBounds, fixedPoiBounds, hbd, hpi, hB.length n, hpoi, hmp, Except.map, Except.ok.injEq] at hb'
    subst hb'
    simp only [poiFix, List.mem_singleton] at hq
    subst hq
    rw [List.getElem?_modify] at hb
    cases hbk : (B.config n).bounds[k]? with
    | none => rw [hbk] at hb; simp at hb
    | some b0 =>
      rw [hbk] at hb
      simp only [Option.map_eq_map, Option.map_some, if_true, Option.some.injEq] at hb
      rw [← hb]
      exact Interface.adjust_allowed (.inr (hB.bounds n _ hbk)) (hv u hpv)

end Fixes

/-- What the fits are given. -/
structure Ready (B : Interface.Backend) (e : Stats.Expect) (n : Bool) (N : ℕ) (p : Prepared) (w : World) (fixed : FixedPoi) (fix : List (ℕ × ℝ)) : Prop where
  init : w.init = none
  length : p.config.init.length = N
  free : p.config.fixed = none
  func : ∀ x, p.func x = neg (B.logpdf (expectation e) none x)
  logpdf : p.logpdf = B.logpdf (expectation e) none
  constraints : p.constraints = B.constraints
  fixes : Fixes p.config fixed N (B.config n).bounds fix

theorem Ready.smallest {S : Solver} (hS : Exact S) (hC : Constrained S) {B : Interface.Backend} {e : Stats.Expect} {n : Bool} {N : ℕ} {p : Prepared} {w : World} {fixed : FixedPoi} {fix : List (ℕ × ℝ)} (h : Ready B e n N p w fixed fix)
    {lp : F} {x : List ℝ} (hr : (runFit S p none fixed (some p.logpdf) w).1 = .ok (lp, x)) :
    lp = B.logpdf (expectation e) none x ∧ Admissible N (B.config n).bounds B.constraints fix x ∧
      ∀ x', Admissible N (B.config n).bounds B.constraints fix x' → neg (B.logpdf (expectation e) none x') ≠ nan → le (neg (B.logpdf (expectation e) none x)) (neg (B.logpdf (expectation e) none x')) := by
  obtain ⟨r1, r2, r3⟩ := run_smallest hS hC h.init h.length h.free (fun x => by rw [h.func, h.logpdf]) h.fixes hr
  rw [h.constraints] at r2 r3
  rw [h.logpdf] at r1 r3
  exact ⟨r1, r2, fun x' hx' hn' => r3 x' hx' fun h => hn' (by simp only [h, neg])⟩

variable {S : Solver} (hS : Exact S) (hC : Constrained S) {B : Interface.Backend} {N k j : ℕ} (hB : Usual B N k) (hjN : j < N) (hkj : k ≠ j) {poiValue : Option ℝ}
  (hv : ∀ v, poiValue = some v → 0 ≤ v ∨ le (B.config true).minimumPoi (fin v))

/-- The value of a fit. -/
def nllOf : Except Interface.Err (F × List ℝ) → F
  | .ok (lp, _) => neg lp
  | .error _ => nan

include hB hjN hkj in
/-- The fits of the search. -/
theorem nll_runs {g : Bool} {e : Stats.Expect} {w : World} (hw : Plain N w) (v : ℝ) :
    (nllFn S B g e poiValue j w v = nan ∧ ¬ ∃ r, Interface.getObjective B (expectation e) none g = .ok r) ∨
      ∃ p w1, Ready B e true N p w1 (.dict (fixedDict (B.config true) j v poiValue)) ((j, v) :: poiFix k poiValue) ∧
        (∀ b, (B.config true).bounds[j]? = some b → (b = (none, none) ∨ (b.1.isSome ∧ b.2.isSome) ∧ (0 ≤ v ∨ le (B.config true).minimumPoi (fin v))) → (∀ v, poiValue = some v → 0 ≤ v ∨ le (B.config true).minimumPoi (fin v)) →
          Holds p.config (.dict (fixedDict (B.config true) j v poiValue)) ((j, v) :: poiFix k poiValue)) ∧
        nllFn S B g e poiValue j w v = nllOf (runFit S p none (.dict (fixedDict (B.config true) j v poiValue)) (some p.logpdf) w1).1 := by
  have hpoi := hB.poi true
  have hne : (B.config true).poiIndex ≠ (j : ℤ) := by
    intro h
    rw [h, slot_nat j hjN, Option.some.injEq] at hpoi
    exact hkj hpoi.symm
  unfold nllFn Interface.likelihood
  rw [hB.fallback.negLL]
  simp only [Bool.false_eq_true, if_false]
  unfold Interface.profile
  cases hp : prepareForFit B (expectation e) none true g w with
  | mk r w1 =>
  cases r with
  | error err =>
    refine .inl ⟨by simp [Except.map], ?_⟩
    rintro ⟨⟨f, g'⟩, hr⟩
    unfold prepareForFit at hp
    rw [hr] at hp
    simp at hp
  | ok p =>
  obtain ⟨h1, h2, h3, h4, g', h5, -⟩ := prepare_ok hp
  refine .inr ⟨p, w1, ⟨by rw [h1]; exact hw.1, by rw [h2]; exact hw.2.2, by rw [h2]; exact hB.fixed true, fun x => hB.consistent _ _ _ _ h5 x, h3, by rw [h4, hw.2.1]; rfl,
    dict_fixes (c := p.config) hB hjN hkj (by rw [h2]; rfl) (by rw [h2]; rfl) v⟩, fun b hj hb hv => dict_holds (c := p.config) hB hkj hv (by rw [h2]; rfl) (by rw [h2]; rfl) hj hb, ?_⟩
  have hres : Interface.resolvePoi B w1 (.dict (tested (B.config true) poiValue j v)) = .ok (.dict (fixedDict (B.config true) j v poiValue)) := by
    cases poiValue with
    | none => simp [fixedDict, Interface.resolvePoi, tested, resolvePoiIndices, resolveLoop, resolveKey, dictSet]
    | some u => simp [fixedDict, Interface.resolvePoi, tested, resolvePoiIndices, resolveLoop, resolveKey, dictSet, hne]
  simp only [hres]
  cases hr : runFit S p none (.dict (fixedDict (B.config true) j v poiValue)) (some p.logpdf) w1 with
  | mk q w2 =>
  cases q with
  | error err => simp [Except.map, nllOf]
  | ok q => simp [Except.map, nllOf, Interface.scaleOut]

include hS hC hB hjN hkj in
theorem nll_smallest {g : Bool} {e : Stats.Expect} {w : World} (hw : Plain N w) {v : ℝ} {l : F} (hl : nllFn S B g e poiValue j w v = l) (hn : l ≠ nan) :
    Smallest (fun x => neg (B.logpdf (expectation e) none x)) (Admissible N (B.config true).bounds B.constraints ((j, v) :: poiFix k poiValue)) l := by
  rcases nll_runs hB hjN hkj hw v with ⟨h, -⟩ | ⟨p, w1, hp, -, h⟩
  · exact absurd (hl.symm.trans h) hn
  · rw [hl] at h
    cases hr : (runFit S p none (.dict (fixedDict (B.config true) j v poiValue)) (some p.logpdf) w1).1 with
    | error err => rw [hr] at h; exact absurd h hn
    | ok q =>
      obtain ⟨lp, x⟩ := q
      obtain ⟨r1, r2, r3⟩ := hp.smallest hS hC hr
      rw [hr, nllOf, r1] at h
      exact ⟨x, r2, h, fun x' hx' hn' => h ▸ r3 x' hx' hn'⟩

theorem le_antisymm' {a b : F} (h1 : le a b) (h2 : le b a) : a = b := by
  cases a <;> cases b <;> simp_all [le]
  exact _root_.le_antisymm h1 h2

theorem Smallest.unique {f : List ℝ → F} {A : List ℝ → Prop} {l l' : F} (h : Smallest f A l) (h' : Smallest f A l') (hn : l ≠ nan) (hn' : l' ≠ nan) : l = l' := by
  obtain ⟨x, hx, rfl, h1⟩ := h
  obtain ⟨x', hx', rfl, h2⟩ := h'
  exact le_antisymm' (h1 x' hx' hn') (h2 x hx hn)

include hS hC hB hkj hv in
/-- The search has the value if there is one. -/
theorem nll_value (hT : Chain.Finds S) {g : Bool} {e : Stats.Expect} {w : World} (hw : Plain N w) (ht : ∃ r, Interface.getObjective B (expectation e) none g = .ok r) {v : ℝ} {l : F} {b : Bound} (hj : (B.config true).bounds[j]? = some b)
    (hb : b = (none, none) ∨ (b.1.isSome ∧ b.2.isSome) ∧ (0 ≤ v ∨ le (B.config true).minimumPoi (fin v)))
    (hl : Smallest (fun x => neg (B.logpdf (expectation e) none x)) (Admissible N (B.config true).bounds B.constraints ((j, v) :: poiFix k poiValue)) l) (hn : l ≠ nan) :
    nllFn S B g e poiValue j w v = l := by
  have hjN : j < N := by
    rw [← hB.length true]
    exact (List.getElem?_eq_some_iff.mp hj).1
  rcases nll_runs hB hjN hkj hw v with ⟨-, h⟩ | ⟨p, w1, hp, hH, h⟩
  · exact absurd ht h
  obtain ⟨⟨lp, x⟩, hr⟩ := run_finds hT hp.init hp.length hp.free (fun x => by rw [hp.func, hp.logpdf]) hp.fixes (hH b hj hb hv) ⟨l, by rw [hp.logpdf, hp.constraints]; exact hl⟩
  obtain ⟨r1, r2, r3⟩ := hp.smallest hS hC hr
  rw [hr, nllOf, r1] at h
  rw [h]
  obtain ⟨x', hx', rfl, hx2⟩ := hl
  have h3 := r3 x' hx' hn
  refine le_antisymm' h3 (hx2 x r2 fun h0 => ?_)
  dsimp only at h0
  rw [h0] at h3
  simp [le] at h3

include hB in
/-- The first fit. -/
theorem max_runs {g n : Bool} {e : Stats.Expect} {w : World} (hw : Plain N w) (keys : Option (List Key)) :
    ((∃ err, (Interface.maximize S B true (expectation e) n none keys (poiValue.map Interface.Poi.float) g none w).1 = .error err) ∧ ¬ ∃ r, Interface.getObjective B (expectation e) none g = .ok r) ∨
      ∃ p w1, Ready B e n N p w1 (fixedNumber poiValue) (poiFix k poiValue) ∧
        ((∀ v, poiValue = some v → 0 ≤ v ∨ le (B.config n).minimumPoi (fin v)) → Holds p.config (fixedNumber poiValue) (poiFix k poiValue)) ∧
        ((∃ err, (runFit S p none (fixedNumber poiValue) (some p.logpdf) w1).1 = .error err ∧ ∃ err, (Interface.maximize S B true (expectation e) n none keys (poiValue.map Interface.Poi.float) g none w).1 = .error err) ∨
          ∃ lp x w2, (runFit S p none (fixedNumber poiValue) (some p.logpdf) w1).1 = .ok (lp, x) ∧
            (Interface.maximize S B true (expectation e) n none keys (poiValue.map Interface.Poi.float) g none w).1 = (Interface.estimates (Interface.config B true w2) x keys).map fun m => (m, neg lp)) := by
  unfold Interface.maximize
  rw [hB.fallback.minNegLL]
  have hres : Interface.resolveFixed B w (poiValue.map Interface.Poi.float) = .ok (fixedNumber poiValue) := by
    cases poiValue <;> rfl
  simp only [hres]
  cases hp : prepareForFit B (expectation e) none n g w with
  | mk r w1 =>
  cases r with
  | error err =>
    refine .inl ⟨⟨_, rfl⟩, ?_⟩
    rintro ⟨⟨f, g'⟩, hr⟩
    unfold prepareForFit at hp
    rw [hr] at hp
    simp at hp
  | ok p =>
  obtain ⟨h1, h2, h3, h4, g', h5, -⟩ := prepare_ok hp
  refine .inr ⟨p, w1, ⟨by rw [h1]; exact hw.1, by rw [h2]; exact hw.2.2, by rw [h2]; exact hB.fixed n, fun x => hB.consistent _ _ _ _ h5 x, h3, by rw [h4, hw.2.1]; rfl,
    number_fixes (c := p.config) (n := n) hB (by rw [h2]; rfl) (by rw [h2]; rfl) (by rw [h2]; rfl)⟩,
    fun hv => number_holds (c := p.config) (n := n) hB (by rw [h2]; rfl) (by rw [h2]; rfl) (by rw [h2]; rfl) hv, ?_⟩
  cases hr : runFit S p none (fixedNumber poiValue) (some p.logpdf) w1 with
  | mk q w2 =>
  cases q with
  | error err => exact .inl ⟨err, rfl, err, by simp only [hr]⟩
  | ok q =>
    obtain ⟨lp, x⟩ := q
    exact .inr ⟨lp, x, w2, rfl, by simp only [hr, Interface.scaleOut, if_true]⟩

include hS hC hB in
/-- What the first fit has found. -/
theorem max_smallest {g n : Bool} {e : Stats.Expect} {w : World} (hw : Plain N w) {keys : Option (List Key)} {m : Interface.MuHat} {l : F}
    (h : (Interface.maximize S B true (expectation e) n none keys (poiValue.map Interface.Poi.float) g none w).1 = .ok (m, l)) :
    ∃ x w2, Interface.estimates (Interface.config B true w2) x keys = .ok m ∧ Admissible N (B.config n).bounds B.constraints (poiFix k poiValue) x ∧ l = neg (B.logpdf (expectation e) none x) ∧
      ∀ x', Admissible N (B.config n).bounds B.constraints (poiFix k poiValue) x' → neg (B.logpdf (expectation e) none x') ≠ nan → le l (neg (B.logpdf (expectation e) none x')) := by
  rcases max_runs (S := S) (g := g) hB hw keys with ⟨⟨err, h1⟩, -⟩ | ⟨p, w1, hp, -, ⟨_, -, err, h1⟩ | ⟨lp, x, w2, hr, h1⟩⟩
  · rw [h] at h1; cases h1
  · rw [h] at h1; cases h1
  · rw [h] at h1
    obtain ⟨r1, r2, r3⟩ := hp.smallest hS hC hr
    cases he : Interface.estimates (Interface.config B true w2) x keys with
    | error err => rw [he] at h1; simp [Except.map] at h1
    | ok mm =>
      rw [he] at h1
      simp only [Except.map, Except.ok.injEq, Prod.mk.injEq] at h1
      obtain ⟨rfl, rfl⟩ := h1
      exact ⟨x, w2, he, r2, by rw [r1], fun x' hx' hn' => by rw [r1]; exact r3 x' hx' hn'⟩

end Verif.Nuisance
