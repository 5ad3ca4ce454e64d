import Verif.Stats.Lemmas
import Mathlib.Topology.Order.OrderClosed
import Mathlib.Topology.Piecewise

/-!
# Properties of the hypothesis tests (C09-C17, C71, C72)
-/

namespace Verif.Stats
open Verif.Py F
open Classical

/-! ## C09 -/

/-- C09: no test statistic is ever negative, for any likelihood, any fit result and any name. -/
theorem C09_never_negative {name : String} {t : TestStat} (h : getTestStatistic name = .ok t)
    (mu muhat maxLogpdf : F) (logpdf : F → F) : ¬ lt (t mu muhat maxLogpdf logpdf) (fin 0) := by
  rcases get_statVal h mu muhat maxLogpdf logpdf with e | e | ⟨r, hr, e⟩
  · rw [e]; simp [lt]
  · rw [e]; simp [lt]
  · rw [e]; simpa [lt] using hr

example : getTestStatistic "qtilde" = .ok qmuTilde := get_qtilde

/-- C09: with finite likelihood values every test statistic is a real number `≥ 0`; `muhat` may be anything, even
nan, and the reported maximum need not be a maximum. -/
theorem C09_finite_and_nonneg {name : String} {t : TestStat} (h : getTestStatistic name = .ok t)
    (mu muhat : F) (maxLogpdf : ℝ) (logpdf : F → F) (h1 : Finite (logpdf mu)) (h0 : Finite (logpdf (fin 0))) :
    ∃ r : ℝ, 0 ≤ r ∧ t mu muhat (fin maxLogpdf) logpdf = fin r := by
  obtain ⟨a, ha⟩ := h1
  obtain ⟨b, hb⟩ := h0
  rcases get_cases h with rfl | rfl | rfl | rfl
  · unfold qmuTilde; split
    · exact ⟨0, le_refl _, rfl⟩
    · split <;> simp [ha, hb, sub, add, neg, scale, clip0]
  · unfold qmu; split
    · exact ⟨0, le_refl _, rfl⟩
    · simp [ha, sub, add, neg, scale, clip0]
  · unfold q0; split
    · exact ⟨0, le_refl _, rfl⟩
    · simp [hb, sub, add, neg, scale, clip0]
  · unfold qmuLeft; split
    · exact ⟨0, le_refl _, rfl⟩
    · simp [ha, sub, add, neg, scale, clip0]

example : Finite (lift (fun x => -x ^ 2) (fin 3)) ∧ Finite (lift (fun x => -x ^ 2) (fin 0)) :=
  ⟨⟨_, rfl⟩, ⟨_, rfl⟩⟩

/-- C09: the statistic vanishes on the side that is not tested. -/
theorem C09_zero_side (mu muhat maxLogpdf : F) (logpdf : F → F) :
    (lt mu muhat → qmu mu muhat maxLogpdf logpdf = fin 0) ∧
    (lt mu muhat → qmuTilde mu muhat maxLogpdf logpdf = fin 0) ∧
    (lt muhat mu → qmuLeft mu muhat maxLogpdf logpdf = fin 0) ∧
    (lt muhat (fin 0) → q0 mu muhat maxLogpdf logpdf = fin 0) := by
  refine ⟨fun h => ?_, fun h => ?_, fun h => ?_, fun h => ?_⟩ <;>
    simp [qmu, qmuTilde, qmuLeft, q0, h]

example : lt (fin 1) (fin 2) ∧ lt (fin (-1)) (fin 0) := by simp [lt]

/-- C09: the statistic vanishes at the best fit point. -/
theorem C09_zero_at_best_fit (ℓ : ℝ → ℝ) (muhat : ℝ) (h : MaximumAt ℓ muhat) :
    qmu (fin muhat) (fin muhat) (fin (ℓ muhat)) (lift ℓ) = fin 0 ∧
    qmuTilde (fin muhat) (fin muhat) (fin (ℓ muhat)) (lift ℓ) = fin 0 ∧
    qmuLeft (fin muhat) (fin muhat) (fin (ℓ muhat)) (lift ℓ) = fin 0 ∧
    (muhat = 0 → q0 (fin muhat) (fin muhat) (fin (ℓ muhat)) (lift ℓ) = fin 0) := by
  refine ⟨?_, ?_, ?_, ?_⟩
  · simp [qmu, lt, lift, sub, add, neg, scale, clip0]
  · have := h 0
    by_cases h0 : 0 ≤ muhat
    · simp [qmuTilde, lt, le, lift, sub, add, neg, scale, clip0, h0]
    · simp [qmuTilde, lt, le, lift, sub, add, neg, scale, clip0, h0]
      linarith
  · simp [qmuLeft, lt, lift, sub, add, neg, scale, clip0]
  · rintro rfl
    simp [q0, lt, lift, sub, add, neg, scale, clip0]

example : MaximumAt (fun x => -(x - 1) ^ 2) 1 := by
  intro y; simp only [sub_self]; nlinarith [sq_nonneg (y - 1)]

/-! ## C10 -/

/-- C10: for `muhat ≤ mu` the statistic `q_mu_tilde` is minus twice the logarithm of the likelihood ratio between `mu`
and `max(muhat, 0)`, for every likelihood with maximum at `muhat`. -/
theorem C10_ratio (ℓ : ℝ → ℝ) (muhat mu : ℝ) (h : MaximumAt ℓ muhat) (hmu : muhat ≤ mu)
    (hbest : ℓ mu ≤ ℓ (max muhat 0)) :
    qmuTilde (fin mu) (fin muhat) (fin (ℓ muhat)) (lift ℓ) = fin (-2 * (ℓ mu - ℓ (max muhat 0))) := by
  by_cases h0 : 0 ≤ muhat
  · rw [max_eq_left h0]
    have := h mu
    simp [qmuTilde, lt, le, lift, sub, add, neg, scale, clip0, h0, not_lt.2 hmu, sub_eq_add_neg]
    linarith
  · rw [max_eq_right (not_le.1 h0).le] at hbest ⊢
    simp [qmuTilde, lt, le, lift, sub, add, neg, scale, clip0, h0, not_lt.2 hmu, sub_eq_add_neg]
    linarith

example : MaximumAt (fun x => -(x + 1) ^ 2) (-1) ∧ (-1 : ℝ) ≤ 2 ∧
    (fun x : ℝ => -(x + 1) ^ 2) 2 ≤ (fun x : ℝ => -(x + 1) ^ 2) (max (-1) 0) := by
  refine ⟨?_, by norm_num, ?_⟩
  · intro y; nlinarith [sq_nonneg (y + 1)]
  · rw [max_eq_right (by norm_num)]; norm_num

/-- C10: the hypothesis `hbest` of `C10_ratio` holds for every likelihood that decreases to the right of its
maximum, when `mu ≥ 0`. -/
theorem C10_ratio_unimodal (ℓ : ℝ → ℝ) (muhat mu : ℝ) (h : MaximumAt ℓ muhat) (hmu : muhat ≤ mu) (h0 : 0 ≤ mu)
    (hdec : ∀ x y, muhat ≤ x → x ≤ y → ℓ y ≤ ℓ x) :
    qmuTilde (fin mu) (fin muhat) (fin (ℓ muhat)) (lift ℓ) = fin (-2 * (ℓ mu - ℓ (max muhat 0))) :=
  C10_ratio ℓ muhat mu h hmu (hdec _ _ (le_max_left _ _) (max_le hmu h0))

example : MaximumAt (fun x => -(x + 1) ^ 2) (-1) ∧
    ∀ x y : ℝ, -1 ≤ x → x ≤ y → (fun x : ℝ => -(x + 1) ^ 2) y ≤ (fun x : ℝ => -(x + 1) ^ 2) x := by
  refine ⟨fun y => ?_, fun x y hx hy => ?_⟩
  · nlinarith [sq_nonneg (y + 1)]
  · simp only; nlinarith

/-- C10: `q_mu_tilde` and `q_mu` agree for `muhat ≥ 0`, for arbitrary floats. -/
theorem C10_agrees (mu muhat maxLogpdf : F) (logpdf : F → F) (h : le (fin 0) muhat) :
    qmuTilde mu muhat maxLogpdf logpdf = qmu mu muhat maxLogpdf logpdf := by
  simp [qmuTilde, qmu, h]

example : le (fin 0) (fin 1) := by simp [le]

/-- C10: `q_mu_tilde` never exceeds `q_mu` when the reported maximum is a maximum. -/
theorem C10_below (ℓ : ℝ → ℝ) (muhat mu : ℝ) (h : MaximumAt ℓ muhat) :
    le (qmuTilde (fin mu) (fin muhat) (fin (ℓ muhat)) (lift ℓ))
      (qmu (fin mu) (fin muhat) (fin (ℓ muhat)) (lift ℓ)) := by
  by_cases hlt : mu < muhat
  · simp [qmuTilde, qmu, lt, hlt, le]
  · have := h 0
    by_cases h0 : 0 ≤ muhat
    · simp [qmuTilde, qmu, lt, hlt, le, h0, lift, sub, add, neg, scale, clip0]
    · simp [qmuTilde, qmu, lt, hlt, le, h0, lift, sub, add, neg, scale, clip0]
      grind

/-- C10 needs the reported value to be a maximum: with an inaccurate fit `q_mu_tilde` can exceed `q_mu`. -/
theorem C10_below_needs_maximum : ∃ (ℓ : ℝ → ℝ) (muhat mu : ℝ),
    ¬ le (qmuTilde (fin mu) (fin muhat) (fin (ℓ muhat)) (lift ℓ))
      (qmu (fin mu) (fin muhat) (fin (ℓ muhat)) (lift ℓ)) := by
  refine ⟨fun x => if x = 0 then 1 else 0, -1, 1, ?_⟩
  norm_num [qmuTilde, qmu, lt, le, lift, sub, add, neg, scale, clip0]

/-! ## C11 -/

/-- The order of the three p-values of the asymptotic calculator. -/
def OrderedProbs (clsb clb cls : F) : Prop :=
  IsProb clsb ∧ IsProb clb ∧ IsProb cls ∧ le clsb clb ∧ le clsb cls ∧
    (∀ r s, clsb = fin r → clb = fin s → s ≠ 0 → cls = fin (r / s))

/-- C11: for every Asimov statistic `sqrtQA ≥ 0` and every shift (also infinite) the observed p-values are ordered
probabilities. -/
theorem C11_observed (sqrtQA : ℝ) (hA : 0 ≤ sqrtQA) (delta : F) (hd : delta ≠ nan) :
    let p := pvalues delta (asymptoticDist (neg (fin sqrtQA))) (asymptoticDist (fin 0))
    OrderedProbs p.1 p.2.1 p.2.2 := by
  cases delta with
  | nan => exact absurd rfl hd
  | pinf => rw [pvalues_pinf]; simp [OrderedProbs, IsProb, le]
  | ninf => rw [pvalues_ninf]; simp [OrderedProbs, IsProb, le]
  | fin d =>
    rw [pvalues_fin]
    refine ⟨⟨_, rfl, Phi_nonneg _, Phi_le_one _⟩, ⟨_, rfl, Phi_nonneg _, Phi_le_one _⟩,
      ⟨_, rfl, cls_nonneg _ _, cls_le_one hA _⟩, ?_, ?_, ?_⟩
    · exact Phi_mono (by linarith)
    · exact clsb_le_cls _ _
    · intro r s h1 h2 _
      simp only [F.fin.injEq] at h1 h2
      rw [h1, h2]

example : (0 : ℝ) ≤ 2 ∧ pinf ≠ nan := ⟨by norm_num, by simp⟩

/-- C11: the same for the five expected values. -/
theorem C11_expected (sqrtQA : ℝ) (hA : 0 ≤ sqrtQA) (i : Fin 5) :
    let e := expectedPvalues (asymptoticDist (neg (fin sqrtQA))) (asymptoticDist (fin 0))
    e.1.length = 5 ∧ e.2.1.length = 5 ∧ e.2.2.length = 5 ∧
      OrderedProbs (e.1.getD i nan) (e.2.1.getD i nan) (e.2.2.getD i nan) := by
  refine ⟨by simp [expectedPvalues, nsigmas], by simp [expectedPvalues, nsigmas],
    by simp [expectedPvalues, nsigmas], ?_⟩
  have key : ∀ n : ℝ, OrderedProbs (fin (Phi (-n - sqrtQA))) (fin (Phi (-n)))
      (fin (Phi (-n - sqrtQA) / Phi (-n))) := by
    intro n
    have := C11_observed sqrtQA hA (fin n) (by simp)
    rwa [pvalues_fin] at this
  rw [expected_fin]
  fin_cases i <;> exact key _

example : (0 : ℝ) ≤ 1.5 := by norm_num

/-- C11: `significance` reports `sqrt(q0)` of the expected data and of the data, the upper tail probability of the second, and those of the first with fluctuations of up to two
standard deviations; it does not raise for finite likelihood values. -/
theorem C11_significance (D A : Fit) (q qA : ℝ) (hq : 0 ≤ q) (hA : 0 ≤ qA) (hD : D.stat q0 (fin 0) = fin q)
    (hAs : A.stat q0 (fin 0) = fin qA) : significance D A = .ok (discovery (Real.sqrt qA) (Real.sqrt q)) := by
  unfold significance
  rw [compute_eq get_q0, hD, hAs, shift_fin hq hA]
  have e : -(Real.sqrt q - Real.sqrt qA) - Real.sqrt qA = - Real.sqrt q := by ring
  simp only [List.mem_cons, String.reduceEq, List.not_mem_nil, or_false, or_true, if_true,
    asymptoticLevel, pvalues_fin, e, Phi_neg, expected_fin, discovery, nsigmas, List.map_cons, List.map_nil]
  have h2 : ∀ n : ℝ, Phi (-n - √qA) = 1 - Phi (√qA + n) := fun n => by rw [← Phi_neg]; congr 1; ring
  simp only [h2]

example : (⟨fin 1, fin (-3), lift (fun x => 3 - (x - 1) ^ 2)⟩ : Fit).stat q0 (fin 0) = fin 2 := by
  norm_num [Fit.stat, q0, lt, lift, sub, add, neg, scale, clip0]

/-! ## C12 -/

/-- C12: the five expected CLsb, CLb and CLs values never decrease along the list. -/
theorem C12_expected_ordered (sqrtQA : ℝ) (hA : 0 ≤ sqrtQA) :
    let e := expectedPvalues (asymptoticDist (neg (fin sqrtQA))) (asymptoticDist (fin 0))
    Ascending e.1 ∧ Ascending e.2.1 ∧ Ascending e.2.2 := by
  have base : (nsigmas).Pairwise (fun x y : ℝ => y ≤ x) := by
    norm_num [nsigmas, List.pairwise_cons]
  rw [expected_fin]
  refine ⟨?_, ?_, ?_⟩
  · exact (List.pairwise_map.2 (base.imp (fun h => Phi_mono (by linarith))))
  · exact (List.pairwise_map.2 (base.imp (fun h => Phi_mono (by linarith))))
  · exact (List.pairwise_map.2 (base.imp (fun h => Phi_ratio_mono hA (by linarith))))

example : (0 : ℝ) ≤ 3 := by norm_num

/-- C12: CLsb and CLb increase strictly, CLb takes the values of the normal distribution at the documented
fluctuations, and the band has five entries. -/
theorem C12_background_values (sqrtQA : ℝ) :
    (expectedPvalues (asymptoticDist (neg (fin sqrtQA))) (asymptoticDist (fin 0))).2.1 =
      [fin (Phi (-2)), fin (Phi (-1)), fin (1 / 2), fin (Phi 1), fin (Phi 2)] := by
  rw [expected_fin]
  simp [nsigmas, Phi_zero]

/-! ## C13 -/

/-- What `exclusion_confidence_level` should return: one level for observed, five for expected, all in `[0,1]`. -/
def WellShaped (e : Expect) : Levels → Prop
  | .one l => e ≠ .all ∧ l.length = (if e = .observed then 1 else 5) ∧ ∀ x ∈ l, IsProb x
  | .both a b => e = .all ∧ a.length = 1 ∧ b.length = 5 ∧ (∀ x ∈ a, IsProb x) ∧ (∀ x ∈ b, IsProb x)

/-- C13: for `expected` other than `"all"` every returned level is a number in `[0,1]` and the shape is the documented
one: for all likelihood values (nan and infinities included), all calculators and both values of
`allow_negative_signal`. -/
theorem C13_range_and_shape (B : Backend) (mu : F) (e : Expect) (neg : Bool) (c : Calc) (he : e ≠ .all)
    (hav : B.available c = true) :
    ∃ L, exclusionConfidenceLevel B mu e neg c = .ok L ∧ WellShaped e L := by
  have key : ∃ r, calculatorPvalues B mu (if neg then "q" else "qtilde") c = .ok r ∧ Shaped ProbOrNan r := by
    cases c
    · exact asymptoticPvalues_shaped B mu neg
    · exact toyPvalues_shaped B mu neg
    · exact chiSquarePvalues_shaped B mu neg
  obtain ⟨r, hr, hs⟩ := key
  obtain ⟨s1, s2, s3, s4⟩ := hs
  have map_prob : ∀ l : List F, (∀ x ∈ l, ProbOrNan x) →
      ∀ x ∈ l.map (fun x => if isNan x then fin 0 else sub (fin 1) x), IsProb x := by
    intro l hl x hx
    obtain ⟨y, hy, rfl⟩ := List.mem_map.1 hx
    exact level_prob (hl y hy)
  unfold exclusionConfidenceLevel
  simp only [hav, if_true]
  rw [hr]
  cases e
  · exact ⟨_, rfl, by simp, by simp [s1], map_prob _ s3⟩
  · exact ⟨_, rfl, by simp, by simp [s2], map_prob _ s4⟩
  · exact ⟨_, rfl, by simp, by simp [s2], map_prob _ s4⟩
  · exact absurd rfl he

/-- A backend: Gaussian likelihoods with maximum at 0 for the Asimov data and at 1 for the data. -/
noncomputable def gaussBackend : Backend where
  data := ⟨fin 1, fin 0, lift (fun x => -(x - 1) ^ 2)⟩
  asimov := ⟨fin 0, fin 0, lift (fun x => -x ^ 2)⟩
  sigToys := []
  bkgToys := []
  percentile := fun _ _ => nan
  available := fun _ => true

example : gaussBackend.available .asymptotic = true ∧ Expect.observed ≠ Expect.all := ⟨rfl, by simp⟩

/-- All likelihood values that a calculator asks for are finite; for toys: there is at least one background toy and
one signal toy. -/
def FiniteInputs (B : Backend) (mu : F) : Calc → Prop
  | .asymptotic => Finite B.data.nll ∧ Finite (B.data.logpdf mu) ∧ Finite (B.data.logpdf (fin 0)) ∧
      Finite B.asimov.nll ∧ Finite (B.asimov.logpdf mu) ∧ Finite (B.asimov.logpdf (fin 0))
  | .toy => B.sigToys ≠ [] ∧ B.bkgToys ≠ []
  | .chiSquare => Finite B.data.nll ∧ Finite (B.data.logpdf mu) ∧ Finite (B.data.logpdf (fin 0))

theorem stat_finite {name : String} {t : TestStat} (h : getTestStatistic name = .ok t) (D : Fit) (mu : F)
    (hn : Finite D.nll) (h1 : Finite (D.logpdf mu)) (h0 : Finite (D.logpdf (fin 0))) :
    ∃ r : ℝ, 0 ≤ r ∧ D.stat t mu = fin r := by
  obtain ⟨n, hn⟩ := hn
  have := C09_finite_and_nonneg h mu D.muhat (-n) D.logpdf h1 h0
  simpa [Fit.stat, hn, neg] using this

theorem asymptoticLevel_prob {a : ℝ} (ha : 0 ≤ a) (d : ℝ) {ts : String} (h : ts ≠ "q0") :
    Shaped IsProb (asymptoticLevel (fin a) (fin d) ts) := by
  rw [asymptoticLevel_eq _ _ h, pvalues_fin, expected_fin]
  refine ⟨rfl, by simp [nsigmas], ?_, ?_⟩
  · intro x hx
    simp only [List.mem_singleton] at hx
    exact hx ▸ ⟨_, rfl, cls_nonneg _ _, cls_le_one ha _⟩
  · intro x hx
    simp only [List.mem_map] at hx
    obtain ⟨n, -, rfl⟩ := hx
    exact ⟨_, rfl, cls_nonneg _ _, cls_le_one ha _⟩

theorem tailFraction_prob {l : List F} (hl : l ≠ []) (v : F) : IsProb (tailFraction l v) := by
  have h0 : (0 : ℝ) < l.length := by exact_mod_cast List.length_pos_iff.2 hl
  refine ⟨(l.countP (fun s => decide (le v s)) : ℝ) / l.length, by simp only [tailFraction, div, if_neg h0.ne'],
    by positivity, ?_⟩
  rw [div_le_one h0]
  exact_mod_cast List.countP_le_length

/-- C13 for `expected="all"`: the same claim under the assumption that all likelihood values in use are finite. What
is missing is nan/inf likelihood values, for which the claim is false (`C13_all_fails`). -/
theorem C13_all_partial (B : Backend) (mu : F) (neg : Bool) (c : Calc) (hf : FiniteInputs B mu c)
    (hav : B.available c = true) :
    ∃ L, exclusionConfidenceLevel B mu .all neg c = .ok L ∧ WellShaped .all L := by
  have hq := testName_ne neg
  obtain ⟨t, ht⟩ := getName_ok neg
  have key : ∃ r, calculatorPvalues B mu (if neg then "q" else "qtilde") c = .ok r ∧ Shaped IsProb r := by
    cases c
    · obtain ⟨f1, f2, f3, f4, f5, f6⟩ := hf
      obtain ⟨q, hq0, hqe⟩ := stat_finite ht B.data mu f1 f2 f3
      obtain ⟨qA, hA0, hAe⟩ := stat_finite ht B.asimov mu f4 f5 f6
      simp only [calculatorPvalues, asymptoticPvalues]
      rw [compute_eq ht, hqe, hAe, shift_fin hq0 hA0]
      by_cases h1 : (if neg then "q" else "qtilde") ∈ ["q", "q0", "qmu"]
      · rw [if_pos h1]
        exact ⟨_, rfl, asymptoticLevel_prob (Real.sqrt_nonneg _) _ hq⟩
      · rw [if_neg h1]
        by_cases h2 : qA = 0 ∧ 0 < q
        · rw [if_pos h2]
          exact ⟨_, rfl, shaped_ones isProb_one⟩
        · rw [if_neg h2]
          exact ⟨_, rfl, asymptoticLevel_prob (Real.sqrt_nonneg _) _ hq⟩
    · obtain ⟨hs, hb⟩ := hf
      simp only [calculatorPvalues, toyPvalues]
      rw [ht]
      have hsb : ∀ v, IsProb (clip01 (pvalues v (empiricDist B.percentile (B.sigToys.map (·.stat t mu)))
          (empiricDist B.percentile (B.bkgToys.map (·.stat t mu)))).2.2) := by
        intro v
        obtain ⟨a, ha, -, -⟩ := tailFraction_prob (l := B.sigToys.map (·.stat t mu)) (by simpa using hs) v
        obtain ⟨b, hb', -, -⟩ := tailFraction_prob (l := B.bkgToys.map (·.stat t mu)) (by simpa using hb) v
        have : Finite (pvalues v (empiricDist B.percentile (B.sigToys.map (·.stat t mu)))
          (empiricDist B.percentile (B.bkgToys.map (·.stat t mu)))).2.2 := by
          simp only [pvalues, empiricDist, ha, hb', eq, Finite, div]
          split
          · exact ⟨_, rfl⟩
          · exact ⟨_, rfl⟩
        obtain ⟨r, hr⟩ := this
        rw [hr]
        exact ⟨_, rfl, le_min (le_max_right _ _) zero_le_one, min_le_right _ _⟩
      refine ⟨_, rfl, by simp [toyLevel, hq], by simp [toyLevel, hq, expectedPvalues, nsigmas], ?_, ?_⟩
      · intro x hx
        simp only [toyLevel, hq, if_false, List.mem_map, List.mem_singleton] at hx
        obtain ⟨y, rfl, rfl⟩ := hx
        exact hsb _
      · intro x hx
        simp only [toyLevel, hq, if_false, expectedPvalues, List.map_map, List.mem_map, Function.comp] at hx
        obtain ⟨n, -, rfl⟩ := hx
        exact hsb _
    · obtain ⟨f1, f2, f3⟩ := hf
      obtain ⟨q, hq0, hqe⟩ := stat_finite ht B.data mu f1 f2 f3
      simp only [calculatorPvalues, chiSquarePvalues]
      rw [ht]
      obtain ⟨b, hb0, hb⟩ := chiNull_fin (ts := if neg then "q" else "qtilde") f1 f3
      simp only [hqe, sqrt_fin hq0, hb, chiShift_fin hq0 hb0]
      exact ⟨_, rfl, asymptoticLevel_prob (Real.sqrt_nonneg _) _ hq⟩
  obtain ⟨r, hr, s1, s2, s3, s4⟩ := key
  have map_prob : ∀ l : List F, (∀ x ∈ l, IsProb x) → ∀ x ∈ l.map (sub (fin 1)), IsProb x := by
    intro l hl x hx
    obtain ⟨y, hy, rfl⟩ := List.mem_map.1 hx
    exact one_sub_prob (hl y hy)
  unfold exclusionConfidenceLevel
  simp only [hav, if_true]
  rw [hr]
  exact ⟨_, rfl, rfl, by simp [s1], by simp [s2], map_prob _ s3, map_prob _ s4⟩

example : FiniteInputs gaussBackend (fin 2) .asymptotic ∧ FiniteInputs gaussBackend (fin 2) .chiSquare :=
  ⟨⟨⟨_, rfl⟩, ⟨_, rfl⟩, ⟨_, rfl⟩, ⟨_, rfl⟩, ⟨_, rfl⟩, ⟨_, rfl⟩⟩, ⟨_, rfl⟩, ⟨_, rfl⟩, ⟨_, rfl⟩⟩

/-- C13 is false for `expected="all"`: nan values are replaced by 0 only on the other return path. If the likelihood
of the hypothesis is 0 both for the data and for the Asimov data (`logpdf = -inf`), the observed level is nan. -/
theorem C13_all_fails : ∃ (B : Backend) (mu : F), Finite mu ∧ Finite B.data.muhat ∧ Finite B.data.nll ∧
    Finite B.asimov.muhat ∧ Finite B.asimov.nll ∧
    ∃ e, exclusionConfidenceLevel B mu .all false .asymptotic = .ok (.both [nan] e) := by
  refine ⟨⟨⟨fin 0, fin 0, fun x => if x = fin 1 then ninf else fin 0⟩,
    ⟨fin 0, fin 0, fun x => if x = fin 1 then ninf else fin 0⟩, [], [], fun _ _ => nan, fun _ => true⟩,
    fin 1, ⟨_, rfl⟩, ⟨_, rfl⟩, ⟨_, rfl⟩, ⟨_, rfl⟩, ⟨_, rfl⟩, ?_⟩
  have hs : ∀ D : Fit, D.muhat = fin 0 → D.nll = fin 0 → D.logpdf = (fun x => if x = fin 1 then ninf else fin 0) →
      D.stat qmuTilde (fin 1) = pinf := by
    intro D h1 h2 h3
    norm_num [Fit.stat, h1, h2, h3, qmuTilde, lt, le, sub, add, neg, scale, clip0]
  unfold exclusionConfidenceLevel
  simp only [if_true, Bool.false_eq_true, if_false, calculatorPvalues, asymptoticPvalues]
  have e := compute_eq get_qtilde (fin 1) ⟨fin 0, fin 0, fun x => if x = fin 1 then ninf else fin 0⟩
    ⟨fin 0, fin 0, fun x => if x = fin 1 then ninf else fin 0⟩
  simp only at e
  rw [e, hs _ rfl rfl rfl]
  simp [shiftOf, F.sqrt, le, asymptoticLevel, pvalues, asym_pvalue, sub, add, neg, cdf, eq, div]

/-- C13: the five expected levels never increase along the list, for the asymptotic and the chi-square calculator and
all likelihood values. -/
theorem C13_expected_monotone (B : Backend) (mu : F) (e : Expect) (neg : Bool) (c : Calc)
    (hc : c = .asymptotic ∨ c = .chiSquare) (he : e = .apriori ∨ e = .aposteriori) (hav : B.available c = true) :
    ∃ l, exclusionConfidenceLevel B mu e neg c = .ok (.one l) ∧ l.length = 5 ∧ Descending l := by
  have hq := testName_ne neg
  obtain ⟨t, ht⟩ := getName_ok neg
  have key : ∃ r, calculatorPvalues B mu (if neg then "q" else "qtilde") c = .ok r ∧ Shaped ProbOrNan r ∧
      (r.2 = List.replicate 5 nan ∨ Ascending r.2) := by
    rcases hc with rfl | rfl
    · obtain ⟨r, hr, hs⟩ := asymptoticPvalues_shaped B mu neg
      refine ⟨r, hr, hs, ?_⟩
      simp only [asymptoticPvalues] at hr
      rw [compute_eq ht] at hr
      cases hsh : shiftOf (if neg then "q" else "qtilde") (B.data.stat t mu) (B.asimov.stat t mu) with
      | error err =>
        obtain rfl := shift_err hsh
        rw [hsh] at hr
        simp only [Except.ok.injEq] at hr
        rw [← hr]
        exact Or.inr ones_ascending
      | ok v =>
        obtain ⟨a, b, d⟩ := v
        rw [hsh] at hr
        simp only [Except.ok.injEq, asymptoticLevel_eq _ _ hq] at hr
        rw [← hr]
        exact expected_cls_ascending (shift_ok (stat_statVal ht _ _) hsh)
    · obtain ⟨r, hr, hs⟩ := chiSquarePvalues_shaped B mu neg
      refine ⟨r, hr, hs, ?_⟩
      simp only [chiSquarePvalues] at hr
      rw [ht] at hr
      simp only [Except.ok.injEq, asymptoticLevel_eq _ _ hq] at hr
      rw [← hr]
      exact expected_cls_ascending (sqrt_statVal (stat_statVal ht _ _))
  obtain ⟨r, hr, ⟨s1, s2, s3, s4⟩, ho⟩ := key
  unfold exclusionConfidenceLevel
  simp only [hav, if_true]
  rw [hr]
  rcases he with rfl | rfl
  · exact ⟨_, rfl, by simp [s2], level_ascending ho s4⟩
  · exact ⟨_, rfl, by simp [s2], level_ascending ho s4⟩

example : gaussBackend.available .chiSquare = true := rfl

/-- A fit with test statistic `q` (`muhat = 0`). -/
noncomputable def fitOf (q : ℝ) : Fit := ⟨fin 0, fin 0, lift (fun x => if x = 0 then 0 else - q / 2)⟩

theorem fitOf_stat {q : ℝ} (h : 0 ≤ q) : (fitOf q).stat qmuTilde (fin 1) = fin q := by
  simp [fitOf, Fit.stat, qmuTilde, lt, le, lift, sub, add, neg, scale, clip0]
  rw [max_eq_left (by linarith), if_neg (by norm_num)]; ring_nf

theorem fitOf_stat_q {q : ℝ} (h : 0 ≤ q) : (fitOf q).stat qmu (fin 1) = fin q := by
  simp [fitOf, Fit.stat, qmu, lt, lift, sub, add, neg, scale, clip0]
  rw [max_eq_left (by linarith), if_neg (by norm_num)]; ring_nf

/-- `numpy.percentile` of the sample `1, 1, 2`. -/
noncomputable def sample112 : List F → F → F
  | _, fin n => fin (linearPercentile [1, 1, 2] (Phi n))
  | _, _ => nan

/-- C13 for the toy calculator: monotonicity of the expected levels is false. With signal toys `2, 2, 0` and background
toys `1, 1, 2` the level at `+2` sigma is 0 and at `0` sigma is 1/3. -/
theorem C13_toy_monotone_fails : ∃ (B : Backend) (mu : F), B.sigToys.length = 3 ∧ B.bkgToys.length = 3 ∧
    (∀ n, B.percentile (B.bkgToys.map (·.stat qmuTilde mu)) (fin n) =
      fin (linearPercentile [1, 1, 2] (Phi n))) ∧
    B.bkgToys.map (·.stat qmuTilde mu) = [fin 1, fin 1, fin 2] ∧
    ∃ l, exclusionConfidenceLevel B mu .aposteriori false .toy = .ok (.one l) ∧ l[0]? = some (fin 0) ∧
      l[2]? = some (fin (1 / 3)) := by
  refine ⟨⟨fitOf 1, fitOf 1, [fitOf 2, fitOf 2, fitOf 0], [fitOf 1, fitOf 1, fitOf 2], sample112,
    fun _ => true⟩, fin 1, rfl, rfl, fun n => rfl, ?_, ?_⟩
  · simp [fitOf_stat]
  · have h2 : linearPercentile [1, 1, 2] (Phi 2) = 2 * Phi 2 := by
      have a : 1 / 2 < Phi 2 := by rw [← Phi_zero]; exact Phi_strictMono (by norm_num)
      have b := Phi_lt_one 2
      have hf : ⌊(2 : ℝ) * Phi 2⌋₊ = 1 := by
        rw [Nat.floor_eq_iff (by linarith)]
        constructor <;> push_cast <;> linarith
      have e : ((3 : ℝ) - 1) * Phi 2 = 2 * Phi 2 := by ring
      simp [linearPercentile, e, hf]
      ring
    have h0 : linearPercentile [1, 1, 2] (Phi 0) = 1 := by
      norm_num [linearPercentile, Phi_zero]
    have a : 1 < 2 * Phi 2 := by
      have : 1 / 2 < Phi 2 := by rw [← Phi_zero]; exact Phi_strictMono (by norm_num)
      linarith
    have b : 2 * Phi 2 < 2 := by have := Phi_lt_one 2; linarith
    have b' : 2 * Phi 2 ≤ 2 := b.le
    have c : ¬ 2 * Phi 2 ≤ 1 := not_le.2 a
    have c' : ¬ 2 * Phi 2 ≤ 0 := by linarith
    unfold exclusionConfidenceLevel
    simp only [if_true, Bool.false_eq_true, if_false, calculatorPvalues, toyPvalues]
    rw [get_qtilde]
    refine ⟨_, rfl, ?_, ?_⟩
    · simp only [toyLevel, expectedPvalues, nsigmas, List.map_cons, List.map_nil, empiricDist, sample112,
        fitOf_stat (show (0:ℝ) ≤ 2 by norm_num), fitOf_stat (show (0:ℝ) ≤ 1 by norm_num),
        fitOf_stat (le_refl (0:ℝ)), h2, String.reduceEq, if_false, List.getElem?_cons_zero]
      simp [pvalues, tailFraction, le, b', c, c', div, eq]
      norm_num [clip01, isNan, sub, add, neg]
    · simp only [toyLevel, expectedPvalues, nsigmas, List.map_cons, List.map_nil, empiricDist, sample112,
        fitOf_stat (show (0:ℝ) ≤ 2 by norm_num), fitOf_stat (show (0:ℝ) ≤ 1 by norm_num),
        fitOf_stat (le_refl (0:ℝ)), h0, String.reduceEq, if_false, List.getElem?_cons_zero,
        List.getElem?_cons_succ]
      norm_num [pvalues, tailFraction, List.countP_cons, le, div, eq]
      norm_num [clip01, isNan, sub, add, neg]

/-! ## C14 -/

/-- C14: `compute_teststatistics` raises `AsimovTestStatZero` exactly if the formula of equation (66) would divide by
`sqrt(q_A) = 0`, and for the known names nothing else is raised. For all likelihood values. -/
theorem C14_raises_iff (name : String) (t : TestStat) (h : getTestStatistic name = .ok t) (mu : F) (D A : Fit) :
    (computeTeststatistics mu (D.muhat, D.nll) D.logpdf (A.muhat, A.nll) A.logpdf name =
        .error .asimovTestStatZero ↔
      name ∉ ["q", "qmu", "q0"] ∧ A.stat t mu = fin 0 ∧ D.stat t mu ≠ fin 0) ∧
    ∀ e, computeTeststatistics mu (D.muhat, D.nll) D.logpdf (A.muhat, A.nll) A.logpdf name = .error e →
      e = .asimovTestStatZero := by
  rw [compute_eq h]
  refine ⟨?_, fun e he => shift_err he⟩
  have hm : name ∈ ["q", "q0", "qmu"] ↔ name ∈ ["q", "qmu", "q0"] := by
    simp only [List.mem_cons, List.not_mem_nil, or_false]; tauto
  by_cases hn : name ∈ ["q", "q0", "qmu"]
  · simp only [shiftOf, hn, if_true]
    simp [hm.1 hn]
  · have hn' := mt hm.2 hn
    simp only [shiftOf, hn, if_false, hn', not_false_eq_true, true_and]
    rcases stat_statVal h A mu with eA | eA | ⟨qA, hA, eA⟩
    · rw [eA, sqrt_nan]
      split
      · simp
      · simp [eq]
    · rw [eA]
      split
      · simp
      · simp [F.sqrt, eq]
    · rcases stat_statVal h D mu with eD | eD | ⟨q, hq, eD⟩
      · rw [eA, eD]
        simp only [sqrt_fin hA, sqrt_nan, sqrt_pinf, le, eq, if_false, Real.sqrt_eq_zero hA]
        by_cases h0 : qA = 0 <;> simp [h0]
      · rw [eA, eD]
        simp only [sqrt_fin hA, sqrt_nan, sqrt_pinf, le, eq, if_false, Real.sqrt_eq_zero hA]
        by_cases h0 : qA = 0 <;> simp [h0]
      · rw [eA, eD]
        simp only [sqrt_fin hA, sqrt_fin hq, le, eq, Real.sqrt_eq_zero hA]
        by_cases h0 : qA = 0
        · subst h0
          simp only [Real.sqrt_zero, F.fin.injEq, true_and, ne_eq, if_true]
          by_cases hq0 : q = 0
          · simp [hq0]
          · have : ¬ Real.sqrt q ≤ 0 := by
              rw [not_le]; exact Real.sqrt_pos.2 (lt_of_le_of_ne hq (Ne.symm hq0))
            simp [this, hq0]
        · simp only [h0, if_false, F.fin.injEq, false_and, iff_false]
          split <;> simp

example : (fitOf 0).stat qmuTilde (fin 1) = fin 0 ∧ (fitOf 2).stat qmuTilde (fin 1) ≠ fin 0 := by
  rw [fitOf_stat (le_refl 0), fitOf_stat (by norm_num)]
  simp

/-- C14: `exclusion_confidence_level` turns this into exclusion level 0, in the documented shape. -/
theorem C14_caller (B : Backend) (mu : F) (h : B.available .asymptotic = true)
    (hA : B.asimov.stat qmuTilde mu = fin 0) (hD : B.data.stat qmuTilde mu ≠ fin 0) :
    exclusionConfidenceLevel B mu .observed false .asymptotic = .ok (.one [fin 0]) ∧
    exclusionConfidenceLevel B mu .apriori false .asymptotic = .ok (.one (List.replicate 5 (fin 0))) ∧
    exclusionConfidenceLevel B mu .aposteriori false .asymptotic = .ok (.one (List.replicate 5 (fin 0))) ∧
    exclusionConfidenceLevel B mu .all false .asymptotic =
      .ok (.both [fin 0] (List.replicate 5 (fin 0))) := by
  have e := (C14_raises_iff "qtilde" qmuTilde get_qtilde mu B.data B.asimov).1.2 ⟨by simp, hA, hD⟩
  have e' : calculatorPvalues B mu "qtilde" .asymptotic = .ok ([fin 1], List.replicate 5 (fin 1)) := by
    simp only [calculatorPvalues, asymptoticPvalues, e]
  refine ⟨?_, ?_, ?_, ?_⟩ <;>
    simp [exclusionConfidenceLevel, h, e', isNan, sub, add, neg, List.replicate]

example : (⟨fitOf 2, fitOf 0, [], [], fun _ _ => nan, fun _ => true⟩ : Backend).available .asymptotic = true := rfl

/-- C14: `significance` never raises, whatever the likelihood values. -/
theorem C14_significance_never_raises (D A : Fit) : ∃ r, significance D A = .ok r := by
  unfold significance
  cases h : computeTeststatistics (fin 0) (D.muhat, D.nll) D.logpdf (A.muhat, A.nll) A.logpdf "q0" with
  | ok v => exact ⟨_, rfl⟩
  | error e =>
    obtain rfl := (C14_raises_iff "q0" q0 get_q0 (fin 0) D A).2 e h
    have := (C14_raises_iff "q0" q0 get_q0 (fin 0) D A).1.1 h
    simp at this

/-! ## C15 -/

/-- C15: for `qtilde` the third component of `compute_teststatistics` is equation (66). -/
theorem C15_shift_is_eq66 (D A : Fit) (mu : F) (q qA : ℝ) (hq : 0 ≤ q) (hA : 0 < qA)
    (hD : D.stat qmuTilde mu = fin q) (hAs : A.stat qmuTilde mu = fin qA) :
    computeTeststatistics mu (D.muhat, D.nll) D.logpdf (A.muhat, A.nll) A.logpdf "qtilde" =
      .ok (fin (Real.sqrt q), fin (Real.sqrt qA), fin (eq66 q qA)) := by
  rw [compute_eq get_qtilde, hD, hAs, shift_fin hq hA.le]
  simp [hA.ne']

example : (fitOf 3).stat qmuTilde (fin 1) = fin 3 ∧ (0 : ℝ) < 3 := ⟨fitOf_stat (by norm_num), by norm_num⟩

/-- C15: the shift is a continuous function of the observed statistic, in particular across the switch. -/
theorem C15_continuous (qA : ℝ) (hA : 0 < qA) : Continuous (fun q => eq66 q qA) := by
  unfold eq66
  refine Continuous.if_le (by fun_prop) (by fun_prop) continuous_id continuous_const ?_
  intro q hq
  have : q = qA := hq
  rw [this]; simp

/-- C15: the shift increases strictly with the observed statistic. -/
theorem C15_strictly_increasing (qA : ℝ) (hA : 0 < qA) (q q' : ℝ) (h0 : 0 ≤ q) (h : q < q') :
    eq66 q qA < eq66 q' qA := by
  have hs : 0 < Real.sqrt qA := Real.sqrt_pos.2 hA
  unfold eq66
  split
  · split
    · have := Real.sqrt_lt_sqrt h0 h
      linarith
    · rename_i h1 h2
      have a : Real.sqrt q ≤ Real.sqrt qA := Real.sqrt_le_sqrt h1
      have b : 0 < (q' - qA) / (2 * Real.sqrt qA) := div_pos (by linarith) (by linarith)
      linarith
  · rename_i h1
    rw [if_neg (by linarith)]
    exact div_lt_div_of_pos_right (by linarith) (by linarith)

example : (0 : ℝ) < 1 ∧ (0 : ℝ) ≤ 1 ∧ (1 : ℝ) < 2 := by norm_num

theorem observed_level (B : Backend) (mu : F) (neg : Bool) (t : TestStat)
    (ht : getTestStatistic (if neg then "q" else "qtilde") = .ok t) (hav : B.available .asymptotic = true)
    (q qA : ℝ) (hq : 0 ≤ q) (hA : 0 ≤ qA) (hD : B.data.stat t mu = fin q) (hAs : B.asimov.stat t mu = fin qA) :
    exclusionConfidenceLevel B mu .observed neg .asymptotic = .ok (.one [fin
      (if neg = false ∧ qA = 0 ∧ 0 < q then 0 else
        1 - Phi (-(if neg then Real.sqrt q - Real.sqrt qA else eq66 q qA) - Real.sqrt qA) /
          Phi (-(if neg then Real.sqrt q - Real.sqrt qA else eq66 q qA)))]) := by
  have hne := testName_ne neg
  unfold exclusionConfidenceLevel
  simp only [hav, if_true, calculatorPvalues, asymptoticPvalues]
  rw [compute_eq ht, hD, hAs, shift_fin hq hA]
  cases neg
  · by_cases h0 : qA = 0 ∧ 0 < q
    · simp [h0, isNan, sub, add, F.neg]
    · simp only [h0, Bool.false_eq_true, if_false, List.mem_cons, String.reduceEq, List.not_mem_nil, or_self,
        and_false, asymptoticLevel_eq (ts := "qtilde") _ _ (by simp), pvalues_fin, List.map_cons, List.map_nil,
        level_fin]
  · simp only [if_true, List.mem_cons, true_or, Bool.true_eq_false, false_and, if_false,
      asymptoticLevel_eq (ts := "q") _ _ (by simp), pvalues_fin, List.map_cons, List.map_nil, level_fin]

/-- C15: with the same Asimov statistic, a larger observed statistic never gives a smaller observed exclusion level,
for `qtilde` and for `q` and also at `q_A = 0`. -/
theorem C15_larger_statistic_excludes_more (B B' : Backend) (mu : F) (neg : Bool) (t : TestStat)
    (ht : getTestStatistic (if neg then "q" else "qtilde") = .ok t)
    (hav : B.available .asymptotic = true) (hav' : B'.available .asymptotic = true)
    (q q' qA : ℝ) (hq : 0 ≤ q) (hqq : q ≤ q') (hA : 0 ≤ qA) (hD : B.data.stat t mu = fin q)
    (hD' : B'.data.stat t mu = fin q') (hAs : B.asimov.stat t mu = fin qA)
    (hAs' : B'.asimov.stat t mu = fin qA) :
    ∃ l l' : ℝ, exclusionConfidenceLevel B mu .observed neg .asymptotic = .ok (.one [fin l]) ∧
      exclusionConfidenceLevel B' mu .observed neg .asymptotic = .ok (.one [fin l']) ∧ l ≤ l' := by
  refine ⟨_, _, observed_level B mu neg t ht hav q qA hq hA hD hAs,
    observed_level B' mu neg t ht hav' q' qA (hq.trans hqq) hA hD' hAs', ?_⟩
  have mono : ∀ {d d' : ℝ}, d ≤ d' → 1 - Phi (-d - Real.sqrt qA) / Phi (-d) ≤
      1 - Phi (-d' - Real.sqrt qA) / Phi (-d') := by
    intro d d' h
    have := Phi_ratio_mono (Real.sqrt_nonneg qA) (x := -d') (y := -d) (by linarith)
    linarith
  cases neg
  · by_cases h0 : qA = 0
    · subst h0
      have e : ∀ x : ℝ, 1 - Phi x / Phi x = 0 := by
        intro x; rw [div_self (Phi_pos x).ne']; simp
      simp [e]
    · simp only [h0, false_and, and_false, if_false]
      apply mono
      rcases eq_or_lt_of_le hqq with rfl | hlt
      · simp
      · exact (C15_strictly_increasing qA (lt_of_le_of_ne hA (Ne.symm h0)) q q' hq hlt).le
  · simp only [Bool.true_eq_false, false_and, if_false, if_true]
    apply mono
    have := Real.sqrt_le_sqrt hqq
    linarith

example : (fitOf 1).stat qmuTilde (fin 1) = fin 1 ∧ (fitOf 4).stat qmuTilde (fin 1) = fin 4 ∧ (1 : ℝ) ≤ 4 :=
  ⟨fitOf_stat (by norm_num), fitOf_stat (by norm_num), by norm_num⟩

/-! ## C16 -/

/-- C16: with at least one sample the empirical p-value is a probability, for every value. -/
theorem C16_probability (perc : List F → F → F) (samples : List F) (h : samples ≠ []) (v : F) :
    IsProb ((empiricDist perc samples).pvalue v) := tailFraction_prob h v

example : [fin 1, fin 2] ≠ ([] : List F) := by simp

/-- C16: it is 1 if no sample lies below the value. -/
theorem C16_one_below (perc : List F → F → F) (samples : List F) (h : samples ≠ []) (v : F)
    (hv : ∀ s ∈ samples, le v s) : (empiricDist perc samples).pvalue v = fin 1 := by
  have h0 : (samples.length : ℝ) ≠ 0 := by
    exact_mod_cast (List.length_pos_iff.2 h).ne'
  have : samples.countP (fun s => decide (le v s)) = samples.length := by
    rw [List.countP_eq_length]; intro s hs; simpa using hv s hs
  simp only [empiricDist, tailFraction, this, div, if_neg h0, div_self h0]

example : ∀ s ∈ [fin 1, fin 2, pinf], le (fin 1) s := by simp [le]

/-- C16: it is 0 if all samples lie below the value. -/
theorem C16_zero_above (perc : List F → F → F) (samples : List F) (h : samples ≠ []) (v : F)
    (hv : ∀ s ∈ samples, lt s v) : (empiricDist perc samples).pvalue v = fin 0 := by
  have h0 : (samples.length : ℝ) ≠ 0 := by
    exact_mod_cast (List.length_pos_iff.2 h).ne'
  have : samples.countP (fun s => decide (le v s)) = 0 := by
    rw [List.countP_eq_zero]; intro s hs
    simpa using lt_not_le (hv s hs)
  simp only [empiricDist, tailFraction, this, div, if_neg h0, Nat.cast_zero, zero_div]

example : ∀ s ∈ [fin 1, fin 2], lt s (fin 3) := by norm_num [lt]

theorem le_trans_F {a b c : F} (h1 : le a b) (h2 : le b c) : le a c := by
  cases a <;> cases b <;> cases c <;> simp_all [le]
  linarith

/-- C16: it does not increase with the value. -/
theorem C16_antitone (perc : List F → F → F) (samples : List F) (h : samples ≠ []) (v w : F) (hvw : le v w) :
    le ((empiricDist perc samples).pvalue w) ((empiricDist perc samples).pvalue v) := by
  have h0 : (0 : ℝ) < samples.length := by
    exact_mod_cast (List.length_pos_iff.2 h)
  have : samples.countP (fun s => decide (le w s)) ≤ samples.countP (fun s => decide (le v s)) := by
    apply List.countP_mono_left
    intro s _ hs
    simp only [decide_eq_true_eq] at hs ⊢
    exact le_trans_F hvw hs
  simp only [empiricDist, tailFraction, div, if_neg h0.ne', le]
  exact div_le_div_of_nonneg_right (by exact_mod_cast this) h0.le

example : le (fin 1) (fin 2) := by norm_num [le]

/-- C16: it does not depend on the order of the samples. -/
theorem C16_order_irrelevant (perc : List F → F → F) (samples samples' : List F) (h : samples.Perm samples')
    (v : F) : (empiricDist perc samples).pvalue v = (empiricDist perc samples').pvalue v := by
  simp only [empiricDist, tailFraction, h.countP_eq, h.length_eq]

example : [fin 1, fin 2].Perm [fin 2, fin 1] := List.Perm.swap _ _ _

/-- C16: `n` times the p-value is the number of samples that are `≥` the value; one more such sample raises it by
one, another sample leaves it. -/
theorem C16_counts (perc : List F → F → F) (samples : List F) (s v : F) :
    ∃ k : ℕ → ℝ, (empiricDist perc (s :: samples)).pvalue v = fin (k 1 / (samples.length + 1)) ∧
      (samples ≠ [] → (empiricDist perc samples).pvalue v = fin (k 0 / samples.length)) ∧
      k 1 = k 0 + (if le v s then 1 else 0) ∧ (samples = [] → k 0 = 0) := by
  refine ⟨fun i => if i = 0 then samples.countP (fun s => decide (le v s)) else
    (s :: samples).countP (fun s => decide (le v s)), ?_, ?_, ?_, ?_⟩
  · have h0 : ((samples.length : ℝ) + 1) ≠ 0 := by positivity
    simp [empiricDist, tailFraction, div, h0]
  · intro h
    have h0 : (samples.length : ℝ) ≠ 0 := by
      exact_mod_cast (List.length_pos_iff.2 h).ne'
    simp [empiricDist, tailFraction, div, h0]
  · simp [List.countP_cons]
  · rintro rfl; simp

/-! ## C17 -/

/-- C17: every string outside the known names is rejected. -/
theorem C17_unknown (name : String) (h : name ∉ knownNames) :
    getTestStatistic name = .error .unknownTestStatistics := get_unknown h

example : "qmu_right" ∉ knownNames := by simp [knownNames]

/-- C17: the known names are accepted and select the documented statistic; aliases agree. -/
theorem C17_known :
    getTestStatistic "q" = .ok qmu ∧ getTestStatistic "qmu" = .ok qmu ∧
    getTestStatistic "qtilde" = .ok qmuTilde ∧ getTestStatistic "qmutilde" = .ok qmuTilde ∧
    getTestStatistic "q0" = .ok q0 ∧ getTestStatistic "qmu_left" = .ok qmuLeft :=
  ⟨get_q, get_qmu, get_qtilde, get_qmutilde, get_q0, get_qmu_left⟩

/-- C17: `get_test_statistic` accepts a name exactly if it is a known one, and `compute_teststatistics` passes the
rejection on. -/
theorem C17_accepts_iff (name : String) :
    ((∃ t, getTestStatistic name = .ok t) ↔ name ∈ knownNames) ∧
    (name ∉ knownNames → ∀ mu D l A l', computeTeststatistics mu D l A l' name =
      .error .unknownTestStatistics) := by
  refine ⟨⟨?_, ?_⟩, ?_⟩
  · rintro ⟨t, ht⟩
    by_contra h
    rw [get_unknown h] at ht
    simp at ht
  · intro h
    simp only [knownNames, List.mem_cons, List.not_mem_nil, or_false] at h
    rcases h with rfl | rfl | rfl | rfl | rfl | rfl
    · exact ⟨_, get_q⟩
    · exact ⟨_, get_qmu⟩
    · exact ⟨_, get_qtilde⟩
    · exact ⟨_, get_qmutilde⟩
    · exact ⟨_, get_q0⟩
    · exact ⟨_, get_qmu_left⟩
  · intro h mu D l A l'
    simp [computeTeststatistics, get_unknown h]

/-! ## C72 -/

/-- C72: if the observed statistic is nan, the asymptotic and the chi-square calculator report exclusion level 0.
Missing: the toy calculator, for which the claim is false (`C72_nan_not_excluded_fails`). -/
theorem C72_nan_not_excluded_partial (B : Backend) (mu : F) (neg : Bool) (t : TestStat) (c : Calc)
    (ht : getTestStatistic (if neg then "q" else "qtilde") = .ok t) (hc : c = .asymptotic ∨ c = .chiSquare)
    (hav : B.available c = true) (hD : B.data.stat t mu = nan) :
    exclusionConfidenceLevel B mu .observed neg c = .ok (.one [fin 0]) := by
  have hne := testName_ne neg
  unfold exclusionConfidenceLevel
  simp only [hav, if_true]
  rcases hc with rfl | rfl
  · simp only [calculatorPvalues, asymptoticPvalues]
    rw [compute_eq ht, hD]
    rcases shift_nan (if neg then "q" else "qtilde") (B.asimov.stat t mu) with h | ⟨a, b, h⟩
    · rw [h]
      simp [level_fin]
    · rw [h]
      simp only [asymptoticLevel_eq _ _ hne, pvalues_nan, List.map_cons, List.map_nil, level_nan]
  · simp only [calculatorPvalues, chiSquarePvalues]
    rw [ht]
    simp only [hD, asymptoticLevel_eq _ _ hne, chiShift_nan, pvalues_nan, List.map_cons, List.map_nil, level_nan]

example : (⟨fin 0, fin 0, fun _ => nan⟩ : Fit).stat qmuTilde (fin 1) = nan := by
  have : ¬ (1 : ℝ) < 0 := by norm_num
  simp [Fit.stat, qmuTilde, lt, le, this, sub, add, scale, clip0]

/-- C72 is false for the toy calculator: a nan statistic is not `≤` any toy, both tail fractions are 0 and the
hypothesis is reported as excluded with level 1, whatever the toys are. -/
theorem C72_nan_not_excluded_fails (B : Backend) (mu : F) (neg : Bool) (t : TestStat)
    (ht : getTestStatistic (if neg then "q" else "qtilde") = .ok t) (hav : B.available .toy = true)
    (hs : B.sigToys ≠ []) (hb : B.bkgToys ≠ []) (hD : B.data.stat t mu = nan) :
    exclusionConfidenceLevel B mu .observed neg .toy = .ok (.one [fin 1]) := by
  have hne := testName_ne neg
  have h1 : (B.sigToys.length : ℝ) ≠ 0 := by exact_mod_cast (List.length_pos_iff.2 hs).ne'
  have h2 : (B.bkgToys.length : ℝ) ≠ 0 := by exact_mod_cast (List.length_pos_iff.2 hb).ne'
  unfold exclusionConfidenceLevel
  simp only [hav, if_true, calculatorPvalues, toyPvalues]
  rw [ht]
  have e : ∀ s, le nan s = False := fun s => by cases s <;> rfl
  simp [hD, toyLevel, hne, pvalues, empiricDist, tailFraction, e, div, eq, clip01, isNan, sub, add, F.neg, h2]

example : ∃ B : Backend, B.available .toy = true ∧ B.sigToys ≠ [] ∧ B.bkgToys ≠ [] ∧
    B.data.stat qmuTilde (fin 1) = nan := by
  refine ⟨⟨⟨fin 0, fin 0, fun _ => nan⟩, fitOf 1, [fitOf 1], [fitOf 2], fun _ _ => nan, fun _ => true⟩, rfl,
    by simp, by simp, ?_⟩
  have : ¬ (1 : ℝ) < 0 := by norm_num
  simp [Fit.stat, qmuTilde, lt, le, this, sub, add, scale, clip0]

/-! ## C71 -/

/-- C71, asymptotic calculator: for a fixed Asimov statistic `q_A > 0` the observed exclusion level comes arbitrarily
close to 1 when the likelihood of the hypothesis drops. -/
theorem C71_asymptotic (neg : Bool) (t : TestStat)
    (ht : getTestStatistic (if neg then "q" else "qtilde") = .ok t) (qA : ℝ) (hA : 0 < qA) (ε : ℝ) (hε : 0 < ε) :
    ∃ K : ℝ, ∀ (B : Backend) (mu : F) (q : ℝ), B.available .asymptotic = true → K ≤ q →
      B.data.stat t mu = fin q → B.asimov.stat t mu = fin qA →
      ∃ l, exclusionConfidenceLevel B mu .observed neg .asymptotic = .ok (.one [fin l]) ∧ 1 - ε ≤ l := by
  have hs : 0 < Real.sqrt qA := Real.sqrt_pos.2 hA
  obtain ⟨X, hX⟩ := Phi_ratio_small hs hε
  refine ⟨if neg then max 0 (Real.sqrt qA - X) ^ 2 else max qA (qA - 2 * Real.sqrt qA * X), ?_⟩
  intro B mu q hav hK hD hAs
  have hq : 0 ≤ q := by
    refine le_trans ?_ hK
    cases neg
    · exact le_trans hA.le (le_max_left _ _)
    · simp only [if_true]; positivity
  refine ⟨_, observed_level B mu neg t ht hav q qA hq hA.le hD hAs, ?_⟩
  rw [if_neg (fun h => hA.ne' h.2.1)]
  suffices h : -(if neg then Real.sqrt q - Real.sqrt qA else eq66 q qA) ≤ X by
    have := hX _ h
    linarith
  cases neg
  · simp only [Bool.false_eq_true, if_false] at hK ⊢
    have h1 : qA ≤ q := le_trans (le_max_left _ _) hK
    have h2 : qA - 2 * Real.sqrt qA * X ≤ q := le_trans (le_max_right _ _) hK
    have h3 : -X ≤ (q - qA) / (2 * Real.sqrt qA) := by
      rw [le_div_iff₀ (by linarith)]; linarith
    unfold eq66
    split
    · rename_i h4
      have : q = qA := le_antisymm h4 h1
      subst this
      simp at h3 ⊢
      linarith
    · linarith
  · simp only [if_true] at hK ⊢
    have := Real.sqrt_le_sqrt hK
    rw [Real.sqrt_sq (le_max_left _ _)] at this
    have := le_trans (le_max_right 0 (Real.sqrt qA - X)) this
    linarith

example : getTestStatistic (if false then "q" else "qtilde") = .ok qmuTilde ∧ (0 : ℝ) < 3 ∧ (0 : ℝ) < 0.05 :=
  ⟨get_qtilde, by norm_num, by norm_num⟩

theorem chi_level (B : Backend) (mu : F) (neg : Bool) (t : TestStat)
    (ht : getTestStatistic (if neg then "q" else "qtilde") = .ok t) (hav : B.available .chiSquare = true)
    (q b : ℝ) (hq : 0 ≤ q) (hb : 0 ≤ b) (hD : B.data.stat t mu = fin q)
    (hB : chiNullStat B.data (if neg then "q" else "qtilde") = fin b) :
    exclusionConfidenceLevel B mu .observed neg .chiSquare = .ok (.one [fin
      (1 - Phi (-(if neg ∨ q ≤ b then Real.sqrt b - Real.sqrt q else (b - q) / (2 * Real.sqrt q)) - Real.sqrt q) /
          Phi (-(if neg ∨ q ≤ b then Real.sqrt b - Real.sqrt q else (b - q) / (2 * Real.sqrt q))))]) := by
  have hne := testName_ne neg
  unfold exclusionConfidenceLevel
  simp only [hav, if_true, calculatorPvalues, chiSquarePvalues]
  rw [ht]
  simp only [hD, hB, chiShift_fin hq hb, sqrt_fin hq, asymptoticLevel_eq _ _ hne, pvalues_fin, List.map_cons,
    List.map_nil]
  cases neg <;> simp [isNan, sub, add, F.neg, sub_eq_add_neg]

/-- C71, chi-square calculator with `allow_negative_signal=False`: the level is at least `1 - 2 Φ(-sqrt(q)/2)` as soon
as the hypothesis is worse than the null hypothesis, so it comes arbitrarily close to 1. -/
theorem C71_chi_square_qtilde (ε : ℝ) (hε : 0 < ε) (b : ℝ) (hb : 0 ≤ b) :
    ∃ K : ℝ, ∀ (B : Backend) (mu : F) (q : ℝ), B.available .chiSquare = true → K ≤ q →
      B.data.stat qmuTilde mu = fin q → chiNullStat B.data "qtilde" = fin b →
      ∃ l, exclusionConfidenceLevel B mu .observed false .chiSquare = .ok (.one [fin l]) ∧ 1 - ε ≤ l := by
  obtain ⟨X, hX⟩ := Filter.eventually_atBot.1 (Phi_tendsto_bot.eventually (gt_mem_nhds (show 0 < ε / 2 by linarith)))
  refine ⟨max b 0 + 1 + (2 * max 0 (-X)) ^ 2, ?_⟩
  intro B mu q hav hK hD hB
  have p1 : 0 ≤ max b 0 := le_max_right _ _
  have p2 : b ≤ max b 0 := le_max_left _ _
  have p3 : 0 ≤ (2 * max 0 (-X)) ^ 2 := sq_nonneg _
  have hq : 0 < q := by linarith
  have hqb : b < q := by linarith
  have hs : 0 < Real.sqrt q := Real.sqrt_pos.2 hq
  have hsq : Real.sqrt q * Real.sqrt q = q := Real.mul_self_sqrt hq.le
  refine ⟨_, chi_level B mu false qmuTilde get_qtilde hav q b hq.le hb hD hB, ?_⟩
  have hn : ¬ ((false = true) ∨ q ≤ b) := by
    rintro (h | h)
    · simp at h
    · linarith
  simp only [hn, if_false]
  have hden : 1 / 2 ≤ Phi (-((b - q) / (2 * Real.sqrt q))) := by
    rw [← Phi_zero]
    apply Phi_mono
    rw [← neg_div]
    exact div_nonneg (by linarith) (by linarith)
  have hnum : Phi (-((b - q) / (2 * Real.sqrt q)) - Real.sqrt q) < ε / 2 := by
    apply hX
    have h1 : 2 * max 0 (-X) ≤ Real.sqrt q := by
      apply Real.le_sqrt_of_sq_le
      linarith
    have h2 : -X ≤ max 0 (-X) := le_max_right _ _
    have h3 : -((b - q) / (2 * Real.sqrt q)) ≤ Real.sqrt q / 2 := by
      rw [← neg_div, div_le_iff₀ (by linarith)]
      nlinarith
    linarith
  have : Phi (-((b - q) / (2 * Real.sqrt q)) - Real.sqrt q) / Phi (-((b - q) / (2 * Real.sqrt q))) ≤ ε := by
    rw [div_le_iff₀ (Phi_pos _)]
    nlinarith
  linarith

/-- C71 is false for the chi-square calculator with `allow_negative_signal=True`: the level never exceeds
`Φ(sqrt(b))`, where `b` is the statistic of the null hypothesis. With the best fit at the null hypothesis (`b = 0`) no
hypothesis is excluded with more than 50%, however small its likelihood. -/
theorem C71_chi_square_q_fails (B : Backend) (mu : F) (q b : ℝ) (hav : B.available .chiSquare = true)
    (hq : 0 ≤ q) (hb : 0 ≤ b) (hD : B.data.stat qmu mu = fin q) (hB : chiNullStat B.data "q" = fin b) :
    ∃ l, exclusionConfidenceLevel B mu .observed true .chiSquare = .ok (.one [fin l]) ∧
      l ≤ Phi (Real.sqrt b) ∧ (b = 0 → l ≤ 1 / 2) := by
  have key : 1 - Phi (-(Real.sqrt b - Real.sqrt q) - Real.sqrt q) / Phi (-(Real.sqrt b - Real.sqrt q)) ≤
      Phi (Real.sqrt b) := by
    have e : -(Real.sqrt b - Real.sqrt q) - Real.sqrt q = - Real.sqrt b := by ring
    rw [e]
    have h1 : Phi (-Real.sqrt b) ≤ Phi (-Real.sqrt b) / Phi (-(Real.sqrt b - Real.sqrt q)) := by
      rw [le_div_iff₀ (Phi_pos _)]
      nlinarith [Phi_le_one (-(Real.sqrt b - Real.sqrt q)), Phi_nonneg (-Real.sqrt b)]
    have h2 := Phi_neg (Real.sqrt b)
    linarith
  refine ⟨_, by simpa using chi_level B mu true qmu get_q hav q b hq hb hD hB, ?_, ?_⟩
  · simpa using key
  · rintro rfl
    rw [Real.sqrt_zero, Phi_zero] at key
    simpa using key

example (q : ℝ) (h : 0 ≤ q) : (fitOf q).stat qmu (fin 1) = fin q ∧ chiNullStat (fitOf q) "q" = fin 0 := by
  refine ⟨fitOf_stat_q h, ?_⟩
  simp [chiNullStat, fitOf, lift, sub, add, neg, scale, clip0]

/-- C71: the quotient in the chi-square calculator never has divisor zero, unless the likelihood without signal is NaN: where the square root of the statistic is not at most that of the null
hypothesis, it is not zero. So there is no `ZeroDivisionError`, and the branch for it, L1115, is dead. -/
theorem C71_divisor (D : Fit) (testStat : String) (q : F) (hb : chiNullStat D testStat ≠ nan) (h : ¬ le (sqrt q) (sqrt (chiNullStat D testStat))) :
    scale 2 (sqrt q) ≠ fin 0 := by
  unfold chiNullStat at hb h
  dsimp only at hb h
  generalize scale (-2) _ = z at hb h
  cases q with
  | nan => simp [sqrt, scale]
  | pinf => simp [sqrt, scale]
  | ninf => simp [sqrt, scale]
  | fin q =>
    intro he
    by_cases hq : q < 0
    · simp [sqrt, scale, hq] at he
    · simp only [sqrt, if_neg hq, scale, fin.injEq] at he h
      have h0 : Real.sqrt q = 0 := by linarith
      rw [h0] at h
      cases z with
      | nan => simp [clip0] at hb
      | pinf => simp [clip0, sqrt, le] at h
      | ninf => simp [clip0, sqrt, le] at h
      | fin z => simp [clip0, sqrt, le, not_lt.mpr (le_max_right z 0), Real.sqrt_nonneg] at h

/-- The branch is reached: the statistic is 4 and that of the null hypothesis is 0. -/
example : chiNullStat (fitOf 4) "qtilde" = fin 0 ∧ ¬ le (sqrt (fin 4)) (sqrt (fin 0)) := by
  refine ⟨by simp [chiNullStat, fitOf, lift, sub, add, neg, scale, clip0], ?_⟩
  simp [sqrt, le]
  norm_num

end Verif.Stats
