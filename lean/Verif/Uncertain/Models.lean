import Verif.Uncertain.Spec
import Verif.Uncertain.Wide

/-!
# The simplified likelihoods with any signal
-/

namespace Verif.Uncertain
open Verif.Py F Verif.Config Verif.Optimizer Verif.Hypotest Verif.Chain
open Verif.Interface (MuHat Data Toys World Size Plain Solver Candidate Allowed InBounds Satisfies)
open Verif.Backend (Ext Vec Args Built Fits Simplified WithMatrix at' signalAt factorAt poissonLog stdLog mvnLog sourceCount)
open Verif.Stats (Expect Calc Levels)

theorem product_variation (y x : Vec) (i : ℕ) : ∀ (ss : List Synth.Source) (st : ℕ), Synth.product y x i (1 + st) ss = variation y (fun j => at' x (1 + j)) i st ss
  | [], _ => rfl
  | s :: l, st => by
    have h := product_variation y x i l (st + if s.shape then y.length else 1)
    simp only [Synth.product, variation, Synth.Source.width, Nat.add_assoc] at h ⊢
    rw [h]
    congr 2
    split <;> rfl

theorem signal_eq (a : Args) (ss : List Synth.Source) (x : Vec) (i : ℕ) : signalAt a x i * factorAt a ss x i = signalIn a ss (fun j => at' x (1 + j)) i := by
  unfold signalAt factorAt signalIn
  cases a.signal with
  | array y => simp only [Nat.add_assoc, product_variation]
  | function f => simp

theorem factor_continuous (s up dn : ℝ) : Continuous (Synth.factor s up dn) := by
  unfold Synth.factor
  by_cases hs : s = 0
  · simp only [hs, if_true]
    exact continuous_const
  · have h1 : ∀ c : ℝ, Continuous fun a : ℝ => (max 1 (1 + c / s)) ^ a := fun c =>
      Real.continuous_const_rpow (ne_of_gt (lt_of_lt_of_le one_pos (le_max_left _ _)))
    have h2 : (fun a : ℝ => if s = 0 then (1 : ℝ) else (max 1 (1 + (if 0 < a then up else dn) / s)) ^ a) =
        fun a : ℝ => if a ≤ 0 then (max 1 (1 + dn / s)) ^ a else (max 1 (1 + up / s)) ^ a := by
      funext a
      rw [if_neg hs]
      by_cases ha : a ≤ 0
      · rw [if_pos ha, if_neg (not_lt.mpr ha)]
      · rw [if_neg ha, if_pos (not_le.mp ha)]
    rw [h2]
    exact Continuous.if_le (h1 dn) (h1 up) continuous_id continuous_const fun a ha => by
      have : a = 0 := ha
      rw [this, Real.rpow_zero, Real.rpow_zero]

theorem variation_continuous (y : Vec) (i : ℕ) : ∀ (ss : List Synth.Source) (st : ℕ), Continuous fun θ : ℕ → ℝ => variation y θ i st ss
  | [], _ => continuous_const
  | s :: l, st => by
    unfold variation
    exact ((factor_continuous _ _ _).comp (continuous_apply _)).mul (variation_continuous y i l _)

theorem variation_congr (y : Vec) {i n : ℕ} (hy : y.length = n) (hi : i < n) {θ θ' : ℕ → ℝ} : ∀ (ss : List Synth.Source) (st : ℕ),
    (∀ j < st + sourceCount n ss, θ j = θ' j) → variation y θ i st ss = variation y θ' i st ss
  | [], _, _ => rfl
  | s :: l, st, h => by
    unfold variation
    have hc : sourceCount n (s :: l) = (if s.shape then n else 1) + sourceCount n l := by simp [sourceCount]
    rw [hc] at h
    rw [variation_congr y hy hi l (st + if s.shape then y.length else 1) fun j hj => h j (by rw [hy] at hj; omega)]
    congr 2
    apply h
    split <;> omega

/-- Without uncertainties of the signal nothing varies. -/
theorem variation_zero (y : Vec) {i n : ℕ} (hy : y.length = n) (hi : i < n) {θ : ℕ → ℝ} : ∀ (ss : List Synth.Source) (st : ℕ),
    (∀ j < sourceCount n ss, θ (st + j) = 0) → variation y θ i st ss = 1
  | [], _, _ => rfl
  | s :: l, st, h => by
    unfold variation
    have hc : sourceCount n (s :: l) = (if s.shape then n else 1) + sourceCount n l := by simp [sourceCount]
    rw [hc] at h
    rw [variation_zero y hy hi l (st + if s.shape then y.length else 1) fun j hj => by
      rw [hy, Nat.add_assoc]
      exact h _ (by omega)]
    have h0 : θ (if s.shape then st + i else st) = 0 := by
      cases hs : s.shape
      · have := h 0 (by rw [hs]; simp)
        simpa using this
      · exact h i (by rw [hs]; simp; omega)
    rw [h0]
    unfold Synth.factor
    split <;> simp

/-- Everything that C169 asks of the model: a simplified likelihood whose signal has finite uncertainties `ss`, or is a continuous function of `a.nsp` parameters, whose bounds are `l` and `u`; yields of
the right lengths, and non-negative backgrounds (also for some values of the nuisance parameters). -/
structure Setting (E : Ext) (a : Args) (m : Backend.Model) (ss : List Synth.Source) (bin : ℕ → ℝ → ℝ) (pen : (ℕ → ℝ) → ℝ) (l u : ℕ → ℝ) (lo : F) : Prop where
  model : Nuisance E a m bin pen
  fits : Fits a
  sources : Backend.Sources a ss
  box : a.nsp = 0 ∨ a.bounds = some ((List.range a.nsp).map fun j => some (some (fin (l j)), some (fin (u j))))
  nonempty : ∀ j < a.nsp, l j ≤ u j
  smooth : ∀ f, a.signal = .function f → ∀ i < a.data.length, Continuous fun θ : ℕ → ℝ => at' (f ((List.range a.nsp).map θ)) i
  background : ∀ i < a.data.length, 0 ≤ at' a.background i
  feasible : ∃ θ, Admissible a.data.length bin θ
  lowest : m.config.minimumPoi = lo

/-- The number of parameters other than the signal strength. -/
def count (a : Args) (ss : List Synth.Source) : ℕ := a.nsp + a.data.length + sourceCount a.data.length ss

section
variable {E : Ext} {a : Args} {m : Backend.Model} {ss : List Synth.Source} {bin : ℕ → ℝ → ℝ} {pen : (ℕ → ℝ) → ℝ} {l u : ℕ → ℝ} {lo : F} (h : Setting E a m ss bin pen l u lo)
include h

theorem Setting.log (e) (D x : Vec) (hD : a.data.length ≤ D.length) (hx : x.length = m.config.npar) :
    Backend.logpdf E m e (some D) x =
      .ok (likelihoodWith E.gammaln a.nsp a.data.length (sourceCount a.data.length ss) (signalIn a ss) bin pen (at' D) (at' x 0) fun i => at' x (1 + i)) := by
  obtain ⟨hm, hf, hs, -⟩ := h
  have h1 : ∀ i, at' x 0 * signalAt a x i * factorAt a ss x i = at' x 0 * signalIn a ss (fun j => at' x (1 + j)) i := fun i => by rw [mul_assoc, signal_eq]
  cases hm with
  | uncorrelated sigma h hl =>
    rw [Backend.C53_loglik_uncorrelated E a sigma m h hl hf ss hs x D hx hD e]
    simp only [likelihoodWith, expectedWith, h1, Nat.add_assoc]
  | matrix _ corr h hi1 hi2 hP =>
    rw [Backend.C53_loglik_matrix E a m bin corr h hf ss hs hi1 hi2 x D hx hD e]
    simp only [likelihoodWith, expectedWith, h1, Nat.add_assoc]

theorem Setting.signal_continuous {i : ℕ} (hi : i < a.data.length) : Continuous fun θ => signalIn a ss θ i := by
  unfold signalIn
  cases hs : a.signal with
  | array y => exact continuous_const.mul (variation_continuous y i ss _)
  | function f => exact h.smooth f hs i hi

theorem Setting.signal_few {i : ℕ} (hi : i < a.data.length) {θ θ' : ℕ → ℝ} (he : ∀ j < count a ss, θ j = θ' j) : signalIn a ss θ i = signalIn a ss θ' i := by
  have hf := h.fits.2
  unfold signalIn
  cases hs : a.signal with
  | array y =>
    rw [hs] at hf
    dsimp only
    rw [variation_congr y hf hi ss _ he]
  | function f =>
    dsimp only
    congr 2
    exact List.map_congr_left fun j hj => he j (by have := List.mem_range.mp hj; unfold count; omega)

theorem Setting.steady (D : ℕ → ℝ) : Steady (count a ss) (Region a.nsp a.data.length l u bin)
    (likelihoodWith E.gammaln a.nsp a.data.length (sourceCount a.data.length ss) (signalIn a ss) bin pen D) := by
  have ht := h.model.tame h.feasible
  have hshift : ∀ p : ℕ, Continuous fun (θ : ℕ → ℝ) (i : ℕ) => θ (p + i) := fun p => continuous_pi fun i => continuous_apply _
  refine ⟨?_, ?_, ?_, ?_, ?_, ?_⟩
  · unfold likelihoodWith
    refine (continuous_finsetSum _ fun i hi => ?_).add ((ht.constraint.comp ((hshift _).comp continuous_snd)).add (continuous_finsetSum _ fun j _ => ?_))
    · have h1 : Continuous fun x : ℝ × (ℕ → ℝ) => expectedWith a.nsp (signalIn a ss) bin x.1 x.2 i :=
        ((continuous_fst.mul ((h.signal_continuous (Finset.mem_range.mp hi)).comp continuous_snd)).add
          ((ht.background i (Finset.mem_range.mp hi)).comp ((continuous_apply _).comp continuous_snd))).max continuous_const
      have h2 : ∀ x : ℝ × (ℕ → ℝ), expectedWith a.nsp (signalIn a ss) bin x.1 x.2 i ≠ 0 := fun x => ne_of_gt (lt_of_lt_of_le (by positivity) (le_max_right _ _))
      unfold poissonLog
      exact ((continuous_const.mul (h1.log h2)).sub h1).sub continuous_const
    · have : Continuous stdLog := by unfold stdLog; fun_prop
      exact this.comp ((continuous_apply _).comp continuous_snd)
  · have : {θ | Region a.nsp a.data.length l u bin θ} = {θ : ℕ → ℝ | Admissible a.data.length bin fun i => θ (a.nsp + i)} ∩
        ⋂ j, ⋂ (_ : j < a.nsp), {θ : ℕ → ℝ | l j ≤ θ j} ∩ {θ | θ j ≤ u j} := by
      ext θ
      simp [Region]
    rw [this]
    exact (admissible_closed ht (hshift _)).inter (isClosed_iInter fun j => isClosed_iInter fun _ =>
      (isClosed_le continuous_const (continuous_apply _)).inter (isClosed_le (continuous_apply _) continuous_const))
  · intro θ θ' he mu
    unfold likelihoodWith
    have h1 : ∀ i < a.data.length, θ (a.nsp + i) = θ' (a.nsp + i) := fun i hi => he _ (by unfold count; omega)
    rw [ht.few _ _ h1]
    congr 1
    · refine Finset.sum_congr rfl fun i hi => ?_
      have hi := Finset.mem_range.mp hi
      unfold expectedWith
      rw [h.signal_few hi he, h1 i hi]
    · congr 1
      refine Finset.sum_congr rfl fun j hj => ?_
      rw [he _ (by have := Finset.mem_range.mp hj; unfold count; omega)]
  · rintro θ θ' he ⟨h1, h2⟩
    refine ⟨admissible_congr ht (fun i hi => he _ (by unfold count; omega)) h1, fun j hj => ?_⟩
    rw [← he j (by unfold count; omega)]
    exact h2 j hj
  · obtain ⟨θ, hθ⟩ := h.feasible
    refine ⟨fun j => if j < a.nsp then l j else θ (j - a.nsp), fun i hi => ?_, fun j hj => ?_⟩
    · simpa using hθ i hi
    · simp only [hj, if_true]
      exact ⟨le_rfl, h.nonempty j hj⟩
  · obtain ⟨K, c, hc, hK⟩ := ht.falls
    choose P hP using fun i => poissonLog_bounded E.gammaln (D i)
    obtain ⟨d, hd, hd1, hd2⟩ : ∃ d : ℝ, 0 < d ∧ d ≤ c ∧ d ≤ 1 / 2 := ⟨min c (1 / 2), by positivity, min_le_left _ _, min_le_right _ _⟩
    refine ⟨∑ i ∈ Finset.range a.data.length, P i + K + d * ∑ j ∈ Finset.range a.nsp, (l j ^ 2 + u j ^ 2), d, hd, fun mu θ hθ => ?_⟩
    unfold likelihoodWith count
    have h1 : ∑ i ∈ Finset.range a.data.length, poissonLog E.gammaln (D i) (expectedWith a.nsp (signalIn a ss) bin mu θ i) ≤ ∑ i ∈ Finset.range a.data.length, P i :=
      Finset.sum_le_sum fun i _ => hP i _ (le_max_right _ _)
    have h2 := hK fun i => θ (a.nsp + i)
    have h3 := stdLog_falls (sourceCount a.data.length ss) fun j => θ (a.nsp + a.data.length + j)
    rw [Finset.sum_range_add, Finset.sum_range_add]
    have h4 : ∑ j ∈ Finset.range a.nsp, θ j ^ 2 ≤ ∑ j ∈ Finset.range a.nsp, (l j ^ 2 + u j ^ 2) := Finset.sum_le_sum fun j hj => by
      obtain ⟨q1, q2⟩ := hθ.2 j (Finset.mem_range.mp hj)
      by_cases q : 0 ≤ θ j
      · nlinarith [sq_nonneg (l j)]
      · nlinarith [sq_nonneg (u j)]
    have h5 : 0 ≤ ∑ i ∈ Finset.range a.data.length, θ (a.nsp + i) ^ 2 := Finset.sum_nonneg fun _ _ => sq_nonneg _
    have h6 : 0 ≤ ∑ i ∈ Finset.range (sourceCount a.data.length ss), θ (a.nsp + a.data.length + i) ^ 2 := Finset.sum_nonneg fun _ _ => sq_nonneg _
    have h7 := mul_le_mul_of_nonneg_left h4 hd.le
    have h8 := mul_le_mul_of_nonneg_right hd1 h5
    have h9 := mul_le_mul_of_nonneg_right hd2 h6
    linarith

theorem Setting.wide (draw) : Wide (plugged E draw m) (count a ss) a.data.length (Region a.nsp a.data.length l u bin)
    (likelihoodWith E.gammaln a.nsp a.data.length (sourceCount a.data.length ss) (signalIn a ss) bin pen) (expectedWith a.nsp (signalIn a ss) bin) lo (used a) := by
  have hs := h.model.simplified h.fits
  have hb : Built a m := .simplified bin hs
  have hn : m.config.npar = count a ss + 1 := by
    rw [(Backend.C51_partition a m bin hs h.fits ss h.sources).1]
    unfold count
    omega
  have hbounds : ∀ negative, ((plugged E draw m).config negative).bounds.drop 1 = (List.range a.nsp).map (fun j => (some (fin (l j)), some (fin (u j)))) ++
      List.replicate (a.data.length + sourceCount a.data.length ss) (none, none) := by
    intro negative
    have hd := ((Backend.C51_sizes a m hb h.fits).2.2.2.2 negative 10).2.2.2.2
    simp only [plugged]
    rw [hd]
    obtain ⟨n, g, pdf, hm, -⟩ := hs.shape h.fits
    obtain ⟨unc, c, hu, hc, -, -, -, hcfg, -⟩ := Backend.simplified_ok hm
    have hn' := (Backend.baseConfig_sizes hu hc).npar
    have hk : Backend.uncCount unc = sourceCount a.data.length ss := by
      have := (Backend.C51_partition a m bin hs h.fits ss h.sources).1
      rw [hcfg] at this
      omega
    rw [hcfg]
    unfold Backend.baseConfig at hc
    obtain ⟨m0, -, hc⟩ := Backend.bind_ok.mp hc
    obtain ⟨b0, hb0, hc⟩ := Backend.bind_ok.mp hc
    cases hc
    have hb1 : b0 = (List.range a.nsp).map fun j => (some (fin (l j)), some (fin (u j))) := by
      rcases h.box with hz | hz
      · have := Backend.sigBounds_length hb0
        rw [hz, List.length_eq_zero_iff] at this
        rw [this, hz]
        rfl
      · rw [hz] at hb0
        simp only [Backend.sigBounds, List.length_map, List.length_range, ne_eq, not_true_eq_false, if_false, Except.ok.injEq] at hb0
        rw [← hb0, List.map_map]
        rfl
    subst hb1
    simp only [List.cons_append, List.nil_append, List.drop_succ_cons, List.drop_zero, List.append_assoc, List.replicate_append_replicate, hk]
  refine ⟨hn ▸ plugged_usual E draw hb h.fits, fun g e d => ?_, fun negative => by
      simp only [plugged, Backend.configOf]
      split <;> exact h.lowest, fun negative => ?_, ?_, ?_, plugged_none E draw hb h.fits, fun e => (used_length h.fits e).ge, ?_, h.steady, fun D D' hD => ?_, ?_⟩
  · obtain ⟨f, g', hf⟩ : ∃ f g', Interface.getObjective (plugged E draw m) e d g = .ok (f, g') := ⟨_, _, rfl⟩
    refine ⟨f, g', hf, ?_⟩
    simp only [Interface.getObjective, plugged, Except.ok.injEq, Prod.mk.injEq] at hf
    have hc := plugged_consistent E draw m g e d
    exact fun x => hc f (by simp only [plugged, Except.ok.injEq]; exact hf.1) x
  · obtain ⟨h1, -, h2⟩ := Backend.C87_poi_bounds_partial a m hb h.fits 10
    cases negative
    · exact h1
    · simp only [plugged, h2, h.lowest, if_true]
  · intro negative x hx
    obtain ⟨f, h1, h2⟩ := Backend.background_eq hs h.fits x (by rw [hx]; unfold count; omega)
    have hsat : Satisfies (plugged E draw m).constraints x ↔ Admissible a.data.length bin fun i => at' x (1 + (a.nsp + i)) := by
      simp only [Satisfies, plugged, h1, List.map_cons, List.map_nil, List.mem_singleton, forall_eq, constraint, h2, Except.map, value]
      simp only [Bool.false_eq_true, false_implies, true_and, true_implies, le, minimum_nonneg, Admissible]
      simp [Nat.add_assoc]
    rw [hsat, and_comm]
    refine and_congr_right fun _ => ?_
    have hdrop : ∀ j : ℕ, 0 < j → ((plugged E draw m).config negative).bounds[j]? = (((plugged E draw m).config negative).bounds.drop 1)[j - 1]? := fun j hj => by
      rw [List.getElem?_drop]
      congr 1
      omega
    constructor
    · intro hin j hj
      have hlt : 1 + j < x.length := by rw [hx]; unfold count; omega
      have := hin (1 + j) (some (fin (l j)), some (fin (u j))) (at' x (1 + j)) (by omega)
        (by
          rw [hdrop _ (by omega), hbounds, Nat.add_sub_cancel_left, List.getElem?_append_left (by simpa using hj)]
          simp [hj])
        (by simp [at', List.getElem?_eq_getElem hlt])
      exact ⟨this.1 _ rfl, this.2 _ rfl⟩
    · intro hin j b y hj hbj hy
      rw [hdrop j (by omega), hbounds] at hbj
      by_cases hlt : j - 1 < a.nsp
      · rw [List.getElem?_append_left (by simpa using hlt)] at hbj
        simp only [List.getElem?_map, List.getElem?_range hlt, Option.map_some, Option.some.injEq] at hbj
        subst hbj
        have := hin (j - 1) hlt
        dsimp only at this
        have hy' : at' x (1 + (j - 1)) = y := by
          rw [show 1 + (j - 1) = j by omega]
          simp [at', hy]
        rw [hy'] at this
        exact ⟨fun c hc => by simp only [Option.some.injEq] at hc; subst hc; exact this.1, fun c hc => by simp only [Option.some.injEq] at hc; subst hc; exact this.2⟩
      · rw [List.getElem?_append_right (by simpa using hlt)] at hbj
        have := List.mem_of_getElem? hbj
        simp only [List.mem_replicate] at this
        rw [this.2]
        exact ⟨fun c hc => by simp at hc, fun c hc => by simp at hc⟩
  · intro e D hD x hx
    simp only [plugged, h.log e D x hD (by rw [hx, hn]), value]
  · intro x hx
    obtain ⟨v, v1, v2, v3, v4, -⟩ := Backend.C53_expected_data E a m bin hs h.fits ss h.sources x (by rw [hx, hn])
    refine ⟨v ++ List.replicate (a.data.length + sourceCount a.data.length ss) 0, ?_, by rw [List.length_append, v2]; omega, fun i hi => ?_⟩
    · simp only [plugged, v4, Except.mapError]
    · have : at' (v ++ List.replicate (a.data.length + sourceCount a.data.length ss) 0) i = at' v i := by
        simp [at', List.getD, List.getElem?_append_left (by rw [v2]; exact hi : i < v.length)]
      rw [this, v3 i hi, mul_assoc, signal_eq]
      simp only [expectedWith, Nat.add_assoc]
  · funext mu θ
    unfold likelihoodWith
    congr 1
    exact Finset.sum_congr rfl fun i hi => by rw [hD i (Finset.mem_range.mp hi)]
  · rw [← h.lowest]
    cases hsig : a.signal with
    | function f =>
      rw [Backend.C52_function a m hb h.fits f hsig]
      simp [le]
    | array y =>
      obtain ⟨-, h2, h3⟩ := Backend.C52_minimum a m hb h.fits y hsig
      by_cases hp : ∃ i < a.data.length, 0 < at' y i
      · obtain ⟨m0, h4, -, h5⟩ := h3 hp
        rw [h4]
        change m0 ≤ 0
        by_contra hlt
        obtain ⟨i, hi, -, h7⟩ := h5 0 (not_le.mp hlt)
        have := h.background i hi
        linarith
      · push Not at hp
        rw [h2 hp]
        simp [le]

end

end Verif.Uncertain
