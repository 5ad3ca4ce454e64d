import Verif.Uncertain.LimitProps

/-!
# C172: a model with uncertainties of the signal, compared to the same model without them
-/

namespace Verif.Uncertain
open Verif.Py F Verif.Chain Verif.Hypotest Verif.Reach
open Verif.Interface (Data World Size Plain Solver perfect)
open Verif.Backend (Ext Vec Args at' stdLog sourceCount)
open Verif.Stats (Expect Calc Levels levelsOf)
open Verif.UpperLimit (Expected Band Limit Entries)
open Verif.Uncorrelated (entry entry_mono answer_eq level_list answer_levels)

/-! ## Lemmas -/

theorem pen_zero {E : Ext} {a : Args} {m : Backend.Model} {bin : ℕ → ℝ → ℝ} {pen : (ℕ → ℝ) → ℝ} (h : Nuisance E a m bin pen) {θ : ℕ → ℝ} (he : (pen fun _ => 0) ≤ pen θ) :
    ∀ i < a.data.length, θ i = 0 := by
  cases h with
  | uncorrelated sigma h hl =>
    intro i hi
    by_contra hn
    refine absurd he (not_le.mpr (Finset.sum_lt_sum (fun j _ => ?_) ⟨i, Finset.mem_range.mpr hi, ?_⟩))
    · unfold stdLog
      nlinarith [sq_nonneg (θ j)]
    · unfold stdLog
      have : 0 < θ i ^ 2 := by positivity
      nlinarith
  | matrix _ corr h hi1 hi2 hP =>
    by_contra hn
    push Not at hn
    have := hP θ hn
    unfold Backend.mvnLog at he
    simp only [zero_mul, mul_zero, Finset.sum_const_zero, neg_zero, zero_div] at he
    linarith

theorem deviance_zero {d l : ℝ} (hd : 0 < d) (hl : 0 < l) (h : deviance d l ≤ 0) : l = d := by
  by_contra hn
  have h1 : l / d ≠ 1 := fun h1 => hn (by field_simp at h1; exact h1)
  have h2 := Real.log_lt_sub_one_of_pos (div_pos hl hd) h1
  have h3 : Real.log (d / l) = -Real.log (l / d) := by rw [← Real.log_inv, inv_div]
  unfold deviance at h
  rw [h3] at h
  have h4 := mul_lt_mul_of_pos_left h2 hd
  have h5 : d * (l / d - 1) = l - d := by field_simp
  linarith

theorem reported_iff {σ : Type} {I : σ → Prop} {M : Methods σ} {e : Expected} {v q qA : ℝ} (hI : ∃ s, I s)
    (hE : Ends I (exclusion M (.float v) e.toExpect false .asymptotic) (.ok (levelsOf e.toExpect false q qA))) (i : ℕ) (hi : i < (if e = .observed then 1 else 5)) (x : F) :
    Reported I M e i v x ↔ x = fin (entry e q qA i) := by
  obtain ⟨l, hl, hli⟩ := level_list e q qA
  constructor
  · rintro ⟨l', hE2, hx⟩
    obtain ⟨w, hw⟩ := hI
    have := (hE2 _ hw).1
    rw [(hE _ hw).1, hl] at this
    simp only [Except.ok.injEq, Levels.one.injEq] at this
    subst this
    rw [hli i hi] at hx
    exact (Option.some.inj hx).symm
  · rintro rfl
    exact ⟨l, by rw [← hl]; exact hE, hli i hi⟩

section
variable {E : Ext} {a : Args} {m : Backend.Model} {ss : List Synth.Source} {bin : ℕ → ℝ → ℝ} {pen : (ℕ → ℝ) → ℝ} {l u : ℕ → ℝ} {lo : F} (h : Setting E a m ss bin pen l u lo)
include h

/-- The parameters with the best signal parameters left out. -/
theorem profile_background {D : ℕ → ℝ} {l0 : ℝ} {θ : ℕ → ℝ} (s : ℕ → ℝ)
    (h0 : ProfileMax (Region a.nsp a.data.length l u bin) (likelihoodWith E.gammaln a.nsp a.data.length (sourceCount a.data.length ss) (signalIn a ss) bin pen D) 0 l0 θ) :
    ProfileMax (Admissible a.data.length bin) (logLikelihood E.gammaln a.data.length s bin pen D) 0 (l0 - sourceCount a.data.length ss * stdLog 0) (fun i => θ (a.nsp + i)) := by
  have hbound : ∀ θ', Admissible a.data.length bin θ' → logLikelihood E.gammaln a.data.length s bin pen D 0 θ' ≤ l0 - sourceCount a.data.length ss * stdLog 0 := by
    intro θ' hθ'
    have := h0.2.2 _ (region_place h (t := fun j => if j < a.nsp then l j else 0) (fun j hj => by rw [if_pos hj]; exact ⟨le_rfl, h.nonempty j hj⟩) hθ')
    rw [likelihood_background, misfit_place h, place_pulls] at this
    have hz : pulls a.nsp a.data.length (sourceCount a.data.length ss) (fun j => if j < a.nsp then l j else 0) = 0 :=
      Finset.sum_eq_zero fun j _ => by dsimp only; rw [if_neg (by omega)]; ring
    rw [hz] at this
    rw [likelihood_zero]
    unfold full at this
    linarith
  have heq := h0.2.1
  rw [likelihood_background] at heq
  unfold full at heq
  have h1 := hbound _ h0.1.1
  rw [likelihood_zero] at h1
  have hp := pulls_nonneg a.nsp a.data.length (sourceCount a.data.length ss) θ
  refine ⟨h0.1.1, ?_, hbound⟩
  rw [likelihood_zero]
  have h2 := h0.2.2 _ (region_place h (t := fun j => if j < a.nsp then l j else 0) (fun j hj => by rw [if_pos hj]; exact ⟨le_rfl, h.nonempty j hj⟩) h0.1.1)
  rw [likelihood_background, misfit_place h, place_pulls] at h2
  have hz : pulls a.nsp a.data.length (sourceCount a.data.length ss) (fun j => if j < a.nsp then l j else 0) = 0 :=
    Finset.sum_eq_zero fun j _ => by dsimp only; rw [if_neg (by omega)]; ring
  rw [hz] at h2
  unfold full at h2
  linarith

/-- The likelihood without the uncertainties is the one with them at zero. -/
theorem likelihood_plain {y : Vec} (hy : a.signal = .array y) (D : ℕ → ℝ) (mu : ℝ) (t θ : ℕ → ℝ) (ht : ∀ j, a.nsp ≤ j → t j = 0) :
    likelihoodWith E.gammaln a.nsp a.data.length (sourceCount a.data.length ss) (signalIn a ss) bin pen D mu (place a.nsp a.data.length t θ) =
      logLikelihood E.gammaln a.data.length (at' y) bin pen D mu θ + sourceCount a.data.length ss * stdLog 0 := by
  have hf := h.fits.2
  rw [hy] at hf
  have hp := (h.model.tame h.feasible).few (fun i => place a.nsp a.data.length t θ (a.nsp + i)) θ fun i hi => place_background t θ hi
  have hz : pulls a.nsp a.data.length (sourceCount a.data.length ss) t = 0 := Finset.sum_eq_zero fun j _ => by rw [ht _ (by omega)]; ring
  rw [likelihood_split, place_pulls, hz]
  unfold logLikelihood
  rw [hp]
  have : ∀ i ∈ Finset.range a.data.length, Backend.poissonLog E.gammaln (D i) (expectedIn (signalIn a ss (place a.nsp a.data.length t θ)) bin mu (fun i => place a.nsp a.data.length t θ (a.nsp + i)) i) =
      Backend.poissonLog E.gammaln (D i) (expectedIn (at' y) bin mu θ i) := by
    intro i hi
    have hi := Finset.mem_range.mp hi
    have hs : signalIn a ss (place a.nsp a.data.length t θ) i = at' y i := by
      rw [signal_place h hi]
      unfold signalIn
      rw [hy]
      dsimp only
      rw [variation_zero y hf hi ss _ fun j _ => ht _ (by omega), mul_one]
    unfold expectedIn
    dsimp only
    rw [hs, place_background t θ hi]
  rw [Finset.sum_congr rfl this]
  ring

end

/-! ## C172 -/

section
variable {S : Solver} (hS : Exact S) (hT : Finds S) (hC : Interface.Constrained S) {E : Ext} (draw : Vec × List Vec → ℕ → List Vec) {a : Args} {m : Backend.Model} {ss : List Synth.Source}
  {bin : ℕ → ℝ → ℝ} {pen : (ℕ → ℝ) → ℝ} {l u : ℕ → ℝ} {lo : F} (h : Setting E a m ss bin pen l u lo) (g : Bool) (ntoys : Size) (available : Calc → Bool) (percentile : List F → F → F)
include hS hT hC h

/-- C172. The Asimov data of exclusion tests do not depend on the signal, its uncertainties and its parameters: they are what is expected from the backgrounds, at the nuisance parameters that are best for the
backgrounds alone. The likelihood below is that of any signal `s` without uncertainties. -/
theorem C172_asimov (e : Expect) (ts : String) (hts : ts ≠ "q0") (s : ℕ → ℝ) (w : World) (hw : Plain (count a ss + 1) w) :
    ∃ l0 θ, ∃ D : Vec, (Interface.generateAsimov S (plugged E draw m) (expectation e) ts g none w).1 = .ok D ∧
      ProfileMax (Admissible a.data.length bin) (logLikelihood E.gammaln a.data.length s bin pen (at' (used a e))) 0 l0 θ ∧ ∀ i < a.data.length, at' D i = expectedIn s bin 0 θ i := by
  obtain ⟨l0, θ, D, h1, h2, h3, h4⟩ := (h.wide draw).asimov hS hT hC e ts g hw
  rw [if_neg hts] at h1 h3
  refine ⟨_, _, D, h4, profile_background h s h1, fun i hi => ?_⟩
  rw [h3 i hi]
  unfold expectedWith expectedIn
  rw [zero_mul, zero_mul]

variable {S' : Solver} (hS' : Exact S') (hT' : Finds S') (hC' : Interface.Constrained S') (draw' : Vec × List Vec → ℕ → List Vec) {a' : Args} {m' : Backend.Model} {y : Vec} {lo' : ℝ}
  (h' : Simple E a' m' y bin pen lo') (hd : a'.data = a.data) (hb : a'.background = a.background) (hy : a.signal = .array y) (g' : Bool) (ntoys' : Size) (percentile' : List F → F → F)
include hS' hT' hC' h' hd hb hy

/-- C172. Uncertainties of the signal never reduce the observed significance: it is at least that of the model with the same signal, backgrounds and data without them. -/
theorem C172_discovery (e : Expect) : ∃ Z ZA Z' ZA', Z' ≤ Z ∧ ∀ w w', Plain (count a ss + 1) w → Plain (a.data.length + 1) w' →
    (significance (modelMethods S (plugged E draw m) g none ntoys available percentile) e w).1 = .ok (Stats.discovery ZA Z) ∧
    (significance (modelMethods S' (plugged E draw' m') g' none ntoys' available percentile') e w').1 = .ok (Stats.discovery ZA' Z') := by
  obtain ⟨best, lb, l0, l1, θ, A, bestA, lA, l0A, k1, ⟨θ0, k2⟩, -, -, -, -, k3⟩ := C169_significance hS hT hC draw h g ntoys available percentile e rfl rfl
  obtain ⟨best', lb', l0', l1', θ', A', bestA', lA', l0A', p1, ⟨θ0', p2⟩, -, -, -, -, p3⟩ := C117_significance hS' hT' hC' draw' h' e g' ntoys' available percentile' rfl rfl
  rw [hd] at p1 p2 p3
  have hu : used a' e = used a e := by cases e <;> simp [used, hd, hb]
  rw [hu] at p1 p2
  have q1 := profile_background h (at' y) k2
  have e1 : l0 - sourceCount a.data.length ss * stdLog 0 = l0' :=
    le_antisymm (by rw [q1.2.1]; exact p2.2.2 _ q1.1) (by rw [p2.2.1]; exact q1.2.2 _ p2.1)
  obtain ⟨p4, p5, ⟨θb, p6, rfl⟩, p7⟩ := p1
  have e2 := k1.2.2.2 best' _ p4 p5 (region_place h (t := fun j => if j < a.nsp then l j else 0) (fun j hj => by rw [if_pos hj]; exact ⟨le_rfl, h.nonempty j hj⟩) p6)
  rw [likelihood_plain h hy _ _ _ _ fun j hj => if_neg (by omega)] at e2
  exact ⟨_, _, _, _, Real.sqrt_le_sqrt (by linarith), fun w w' hw hw' => ⟨k3 w hw, p3 w' hw'⟩⟩

/-- C172. And they never improve the sensitivity that is expected before the measurement: no expected level is above that of the model without them, if the backgrounds are those that were given when the
nuisance parameters are zero, and not below the smallest number of events that the code uses. -/
theorem C172_sensitivity (hav : available .asymptotic = true) (hbin : ∀ i < a.data.length, bin i 0 = at' a.background i) (hpos : ∀ i < a.data.length, 1 / 10 ^ 20 ≤ at' a.background i)
    {v : ℝ} (hv : 0 ≤ v) (i : ℕ) (hi : i < 5) :
    ∃ r r', (∀ x, Reported (Plain (count a ss + 1)) (modelMethods S (plugged E draw m) g none ntoys available percentile) .apriori i v x ↔ x = fin r) ∧
      (∀ x, Reported (Plain (a.data.length + 1)) (modelMethods S' (plugged E draw' m') g' none ntoys' available percentile') .apriori i v x ↔ x = fin r') ∧ r ≤ r' := by
  obtain ⟨best, lb, lv, l0, θ0, A, bestA, lA, lvA, l0A, h1, ⟨θ1, h2⟩, h3, rfl, h5, ⟨θ2, h6⟩, -, hE⟩ :=
    C169_levels hS hT hC draw h g ntoys available percentile Expected.apriori.toExpect false (mu := .float v) rfl hv rfl rfl rfl
  obtain ⟨best', lb', lv', l0', θ0', A', bestA', lA', lvA', l0A', p1, ⟨θ1', p2⟩, p3, rfl, p5, ⟨θ2', p6⟩, -, pE⟩ :=
    C117_levels hS' hT' hC' draw' h' Expected.apriori.toExpect false (mu := .float v) rfl hv g' ntoys' available percentile' rfl rfl rfl
  simp only [Bool.false_eq_true, if_false] at p1 p5
  have hpen := pen_le h.model
  rw [hd] at p1 p2 p3 p5 p6 pE
  have hu : used a' Expected.apriori.toExpect = a.background := hb
  have hu0 : used a Expected.apriori.toExpect = a.background := rfl
  rw [hu] at p1 p2 p3
  rw [hu0] at h1 h2 h3
  have hDpos : ∀ i < a.data.length, 0 < at' a.background i := fun i hi => lt_of_lt_of_le (by positivity) (hpos i hi)
  have hmax : ∀ {θ : ℕ → ℝ} {i : ℕ}, i < a.data.length → θ i = 0 → max (bin i (θ i)) (1 / 10 ^ 20) = at' a.background i := fun hi h0 => by rw [h0, hbin _ hi]; exact max_eq_left (hpos _ hi)
  -- without signal the best parameters are zero
  have hadm : Admissible a.data.length bin fun _ => 0 := fun i hi => by rw [hbin i hi]; exact (hDpos i hi).le
  have hm0 : misfit a.data.length bin pen (at' a.background) (fun _ => 0) = 0 := by
    unfold misfit
    rw [sub_self, _root_.add_zero]
    refine Finset.sum_eq_zero fun i hi => ?_
    have hi := Finset.mem_range.mp hi
    rw [hmax (θ := fun _ => 0) hi rfl]
    unfold deviance
    rw [div_self (hDpos i hi).ne', Real.log_one]
    ring
  have hbest : ∀ {l0 : ℝ} {θ : ℕ → ℝ}, ProfileMax (Admissible a.data.length bin) (logLikelihood E.gammaln a.data.length (at' y) bin pen (at' a.background)) 0 l0 θ → (pen fun _ => 0) ≤ pen θ := by
    intro l0 θ hp
    have k1 := hp.2.2 _ hadm
    rw [hp.2.1, likelihood_zero, likelihood_zero, hm0] at k1
    have k2 := misfit_price (bin := bin) hpen (fun i hi => (hDpos i hi).le) θ
    linarith
  have z := pen_zero h.model (hbest (profile_background h (at' y) h3))
  have z' := pen_zero h.model (hbest p3)
  -- so the Asimov data are the backgrounds
  have hA : ∀ i < a.data.length, expectedWith a.nsp (signalIn a ss) bin 0 θ0 i = at' a.background i := fun i hi => by
    unfold expectedWith
    rw [zero_mul, _root_.zero_add]
    exact hmax (θ := fun i => θ0 (a.nsp + i)) hi (z i hi)
  have hA' : ∀ i < a.data.length, expectedIn (at' y) bin 0 θ0' i = at' a.background i := fun i hi => by
    unfold expectedIn
    rw [zero_mul, _root_.zero_add]
    exact hmax hi (z' i hi)
  have hlike : ∀ mu θ, logLikelihood E.gammaln a.data.length (at' y) bin pen (expectedWith a.nsp (signalIn a ss) bin 0 θ0) mu θ =
      logLikelihood E.gammaln a.data.length (at' y) bin pen (expectedIn (at' y) bin 0 θ0') mu θ := fun mu θ => by
    unfold logLikelihood
    congr 1
    exact Finset.sum_congr rfl fun i hi => by rw [hA i (Finset.mem_range.mp hi), hA' i (Finset.mem_range.mp hi)]
  have hsat : saturated E.gammaln a.data.length pen (expectedWith a.nsp (signalIn a ss) bin 0 θ0) = saturated E.gammaln a.data.length pen (expectedIn (at' y) bin 0 θ0') := by
    unfold saturated
    congr 1
    exact Finset.sum_congr rfl fun i hi => by rw [hA i (Finset.mem_range.mp hi), hA' i (Finset.mem_range.mp hi)]
  obtain ⟨q, k1, k2⟩ := stat_exists (v := v) (l := lb) (lv := lv) h1.1 (fin (-l0))
  obtain ⟨qA, k3, k4⟩ := stat_exists (v := v) (l := lA) (lv := lvA) h5.1 (fin (-l0A))
  obtain ⟨q', k1', k2'⟩ := stat_exists (v := v) (l := lb') (lv := lv') p1.1 (fin (-l0'))
  obtain ⟨qA', k3', k4'⟩ := stat_exists (v := v) (l := lA') (lv := lvA') p5.1 (fin (-l0A'))
  -- the best strength without uncertainties is zero
  have hAnn' : ∀ i < a.data.length, 0 ≤ expectedIn (at' y) bin 0 θ0' i := fun i _ => (expectedIn_pos 0 θ0' i).le
  have hge : saturated E.gammaln a.data.length pen (expectedIn (at' y) bin 0 θ0') ≤ lA' := by
    have := p5.2.2.2 0 θ0' le_rfl (by norm_num) p3.1
    rw [likelihood_zero, misfit_asimov] at this
    linarith [hbest p3]
  have hb0 : bestA' = 0 := by
    obtain ⟨c1, c2, ⟨θ'', c3, c4⟩, -⟩ := p5
    rw [c4, likelihood_eq] at hge
    have hdev : ∀ i ∈ Finset.range a.data.length, 0 ≤ deviance (expectedIn (at' y) bin 0 θ0' i) (expectedIn (at' y) bin bestA' θ'' i) :=
      fun i hi => deviance_nonneg (hAnn' i (Finset.mem_range.mp hi)) (expectedIn_pos _ _ _)
    have hsum := Finset.sum_nonneg hdev
    have z'' := pen_zero h.model (θ := θ'') (by linarith)
    obtain ⟨j, hj, hyj⟩ := h'.positive
    rw [hd] at hj
    have hdj : deviance (expectedIn (at' y) bin 0 θ0' j) (expectedIn (at' y) bin bestA' θ'' j) ≤ 0 :=
      (Finset.single_le_sum hdev (Finset.mem_range.mpr hj)).trans (by linarith [hpen θ''])
    have := deviance_zero (expectedIn_pos _ _ _) (expectedIn_pos _ _ _) hdj
    rw [hA' j hj] at this
    have hle : bestA' * at' y j + bin j (θ'' j) ≤ expectedIn (at' y) bin bestA' θ'' j := le_max_left _ _
    rw [z'' j hj, hbin j hj] at hle
    have : bestA' * at' y j ≤ 0 := by linarith
    nlinarith
  have hqA' : qA' = max (2 * (lA' - lvA')) 0 := k3'.below (by rw [hb0]; exact hv)
  -- the statistic is smaller with the uncertainties
  have hAnn : ∀ i < a.data.length, 0 ≤ expectedWith a.nsp (signalIn a ss) bin 0 θ0 i := fun i hi => by rw [hA i hi]; exact (hDpos i hi).le
  have hle : qA ≤ qA' := by
    rw [hqA']
    rcases le_or_gt bestA v with hbv | hbv
    · rw [k3.below hbv]
      refine max_le_max_right _ ?_
      obtain ⟨-, -, ⟨θ'', -, c4⟩, -⟩ := h5
      have b1 := likelihood_le (γ := E.gammaln) (p := a.nsp) (k := sourceCount a.data.length ss) (sig := signalIn a ss) (bin := bin) hpen hAnn bestA θ''
      have b2 := h6.2.2 _ (region_place h (t := fun j => if j < a.nsp then l j else 0) (fun j hj => by rw [if_pos hj]; exact ⟨le_rfl, h.nonempty j hj⟩) p6.1)
      rw [likelihood_plain h hy _ _ _ _ fun j hj => if_neg (by omega), hlike, ← p6.2.1] at b2
      have b3 := pulls_nonneg a.nsp a.data.length (sourceCount a.data.length ss) θ''
      unfold full at b1
      rw [hsat] at b1
      linarith
    · rw [k3.beyond hbv]; exact le_max_right _ _
  rw [answer_eq k1.nonneg k3.nonneg k2 k4, hav, answer_levels _ k1.nonneg k3.nonneg] at hE
  rw [answer_eq k1'.nonneg k3'.nonneg k2' k4', hav, answer_levels _ k1'.nonneg k3'.nonneg] at pE
  refine ⟨_, _, reported_iff ⟨⟨List.replicate (count a ss + 1) 0, none, none⟩, rfl, rfl, by simp⟩ hE i (by simpa using hi),
    reported_iff ⟨⟨List.replicate (a.data.length + 1) 0, none, none⟩, rfl, rfl, by simp⟩ pE i (by simpa using hi), ?_⟩
  have := entry_mono .apriori (q := 0) (q' := 0) le_rfl le_rfl k3.nonneg hle i
  exact this

end

/-! ### The models of C170 with and without the uncertainty of 20 % -/

theorem exPlain_model (E : Ext) : ∃ m lo, Simple E ⟨.array [5, 10], [50, 60], [55, 58], none, 0, none⟩ m [5, 10] (fun i t => at' [50, 60] i + at' [3, 4] i * t) (fun θ => ∑ i ∈ Finset.range 2, stdLog (θ i)) lo := by
  have hf : Backend.Fits ⟨.array [5, 10], [50, 60], [55, 58], none, 0, none⟩ := ⟨rfl, rfl⟩
  obtain ⟨m, hm⟩ := Backend.simplified_accepts ⟨.array [5, 10], [50, 60], [55, 58], none, 0, none⟩ hf [] (.inl ⟨rfl, rfl⟩) rfl 2 (Backend.linear [50, 60] [3, 4])
    (.normal (List.replicate 2 0) (List.replicate 2 1) (.slice 1 2))
  have h : Nuisance E ⟨.array [5, 10], [50, 60], [55, 58], none, 0, none⟩ m _ _ := .uncorrelated [3, 4] hm rfl
  have hp : ∃ i < 2, 0 < at' ([5, 10] : Vec) i := ⟨0, by norm_num, by simp [at']⟩
  obtain ⟨lo, hlo, -⟩ := (Backend.C52_minimum _ m (.simplified _ (h.simplified hf)) hf [5, 10] rfl).2.2 hp
  refine ⟨m, lo, h, hf, rfl, rfl, rfl, hp, fun i hi => ?_, ⟨fun _ => 0, fun i hi => ?_⟩, hlo⟩
  · have hi : i < 2 := hi
    interval_cases i <;> simp [at']
  · have hi : i < 2 := hi
    interval_cases i <;> simp [at']

example (E : Ext) (draw draw' : Vec × List Vec → ℕ → List Vec) : ∃ m m' Z ZA Z' ZA', Z' ≤ Z ∧
    (significance (modelMethods perfect (plugged E draw m) true none (.int 100) (fun _ => true) fun _ _ => nan) .observed (⟨[1, 0, 0, 0], none, none⟩ : World)).1 = .ok (Stats.discovery ZA Z) ∧
    (significance (modelMethods perfect (plugged E draw' m') false none (.int 7) (fun _ => true) fun _ _ => pinf) .observed (⟨[1, 0, 0], none, none⟩ : World)).1 = .ok (Stats.discovery ZA' Z') := by
  obtain ⟨m, lo, h⟩ := exNorm_model E
  obtain ⟨m', lo', h'⟩ := exPlain_model E
  obtain ⟨Z, ZA, Z', ZA', h1, h2⟩ := C172_discovery perfect_exact perfect_finds Interface.perfect_constrained draw h true (.int 100) (fun _ => true) (fun _ _ => nan) perfect_exact perfect_finds
    Interface.perfect_constrained draw' h' rfl rfl rfl false (.int 7) (fun _ _ => pinf) .observed
  exact ⟨m, m', Z, ZA, Z', ZA', h1, h2 _ _ ⟨rfl, rfl, rfl⟩ ⟨rfl, rfl, rfl⟩⟩

example (E : Ext) (draw draw' : Vec × List Vec → ℕ → List Vec) : ∃ m m' r r',
    Reported (Plain 4) (modelMethods perfect (plugged E draw m) true none (.int 100) (fun _ => true) fun _ _ => nan) .apriori 2 3 (fin r) ∧
    Reported (Plain 3) (modelMethods perfect (plugged E draw' m') false none (.int 7) (fun _ => true) fun _ _ => pinf) .apriori 2 3 (fin r') ∧ r ≤ r' := by
  obtain ⟨m, lo, h⟩ := exNorm_model E
  obtain ⟨m', lo', h'⟩ := exPlain_model E
  obtain ⟨r, r', h1, h2, h3⟩ := C172_sensitivity perfect_exact perfect_finds Interface.perfect_constrained draw h true (.int 100) (fun _ => true) (fun _ _ => nan) perfect_exact perfect_finds
    Interface.perfect_constrained draw' h' rfl rfl rfl false (.int 7) (fun _ _ => pinf) rfl (fun i hi => by have hi : i < 2 := hi; interval_cases i <;> simp [exNorm, at'])
    (fun i hi => by have hi : i < 2 := hi; interval_cases i <;> simp [exNorm, at'] <;> norm_num) (v := 3) (by norm_num) 2 (by norm_num)
  exact ⟨m, m', r, r', (h1 _).mpr rfl, (h2 _).mpr rfl, h3⟩

example (E : Ext) (draw) : ∃ m, ∃ D : Vec, (Interface.generateAsimov perfect (plugged E draw m) .observed "qtilde" true none (⟨[1, 0, 0, 0, 0, 0], none, none⟩ : World)).1 = .ok D := by
  obtain ⟨m, lo, h⟩ := exUncertain_model E
  obtain ⟨l0, θ, D, h1, -⟩ := C172_asimov perfect_exact perfect_finds Interface.perfect_constrained draw h true .observed "qtilde" (by simp) (at' [5, 10]) ⟨[1, 0, 0, 0, 0, 0], none, none⟩ ⟨rfl, rfl, rfl⟩
  exact ⟨m, D, h1⟩

end Verif.Uncertain
