import Verif.Stats.Model
import Verif.Stats.Spec
import Verif.Py.Normal

/-! # Lemmas for the hypothesis test properties -/

namespace Verif.Stats
open Verif.Py F
open Classical

theorem clip0_not_neg (x : F) : ¬ lt (clip0 x) (fin 0) := by
  cases x <;> simp [clip0, lt]

theorem clip0_cases (x : F) : clip0 x = nan ∨ clip0 x = pinf ∨ ∃ r, 0 ≤ r ∧ clip0 x = fin r := by
  cases x <;> simp [clip0]

/-- The possible values of a test statistic. -/
def StatVal (x : F) : Prop := x = nan ∨ x = pinf ∨ ∃ r, 0 ≤ r ∧ x = fin r

theorem statVal_clip0 (x : F) : StatVal (clip0 x) := clip0_cases x

theorem statVal_zero : StatVal (fin 0) := Or.inr (Or.inr ⟨0, le_refl _, rfl⟩)

theorem statVal_qmuTilde (a b c f) : StatVal (qmuTilde a b c f) := by
  unfold qmuTilde; split
  · exact statVal_zero
  · exact statVal_clip0 _

theorem statVal_qmu (a b c f) : StatVal (qmu a b c f) := by
  unfold qmu; split
  · exact statVal_zero
  · exact statVal_clip0 _

theorem statVal_qmuLeft (a b c f) : StatVal (qmuLeft a b c f) := by
  unfold qmuLeft; split
  · exact statVal_zero
  · exact statVal_clip0 _

theorem statVal_q0 (a b c f) : StatVal (q0 a b c f) := by
  unfold q0; split
  · exact statVal_zero
  · exact statVal_clip0 _

theorem options_cases {s : String} {t : TestStat} (h : options s = some t) :
    t = qmuTilde ∨ t = qmu ∨ t = q0 ∨ t = qmuLeft := by
  unfold options at h
  split at h <;> simp_all

theorem get_cases {s : String} {t : TestStat} (h : getTestStatistic s = .ok t) :
    t = qmuTilde ∨ t = qmu ∨ t = q0 ∨ t = qmuLeft := by
  unfold getTestStatistic at h
  simp only at h
  split at h
  · simp at h
  · rename_i f hf
    simp only [Except.ok.injEq] at h
    exact options_cases (h ▸ hf)

theorem get_statVal {s : String} {t : TestStat} (h : getTestStatistic s = .ok t) (a b c f) :
    StatVal (t a b c f) := by
  rcases get_cases h with rfl | rfl | rfl | rfl
  · exact statVal_qmuTilde ..
  · exact statVal_qmu ..
  · exact statVal_q0 ..
  · exact statVal_qmuLeft ..

theorem sqrt_statVal {x : F} (h : StatVal x) : StatVal (F.sqrt x) := by
  rcases h with rfl | rfl | ⟨r, hr, rfl⟩
  · exact Or.inl rfl
  · exact Or.inr (Or.inl rfl)
  · right; right
    refine ⟨Real.sqrt r, Real.sqrt_nonneg _, ?_⟩
    simp [F.sqrt, not_lt.2 hr]

theorem sqrt_fin {r : ℝ} (h : 0 ≤ r) : F.sqrt (fin r) = fin (Real.sqrt r) := by
  simp [F.sqrt, not_lt.2 h]

theorem sqrt_nan : F.sqrt nan = nan := rfl
theorem sqrt_pinf : F.sqrt pinf = pinf := rfl

/-! ### the names -/

theorem get_q : getTestStatistic "q" = .ok qmu := by simp [getTestStatistic, options]
theorem get_qmu : getTestStatistic "qmu" = .ok qmu := by simp [getTestStatistic, options]
theorem get_qtilde : getTestStatistic "qtilde" = .ok qmuTilde := by simp [getTestStatistic, options]
theorem get_qmutilde : getTestStatistic "qmutilde" = .ok qmuTilde := by simp [getTestStatistic, options]
theorem get_q0 : getTestStatistic "q0" = .ok q0 := by simp [getTestStatistic, options]
theorem get_qmu_left : getTestStatistic "qmu_left" = .ok qmuLeft := by simp [getTestStatistic, options]

theorem get_unknown {s : String} (h : s ∉ knownNames) :
    getTestStatistic s = .error .unknownTestStatistics := by
  simp only [knownNames, List.mem_cons, List.not_mem_nil, or_false, not_or] at h
  obtain ⟨h1, h2, h3, h4, h5, h6⟩ := h
  unfold getTestStatistic
  simp only [List.mem_cons, List.not_mem_nil, h1, h2, h3, h4, if_false, or_self]
  have : options s = none := by
    unfold options
    split <;> simp_all
  rw [this]

/-! ### p-values -/

theorem asym_pvalue (shift value : F) : (asymptoticDist shift).pvalue value = cdf (sub shift value) := by
  simp only [asymptoticDist]
  split
  · rfl
  · rename_i h
    cases hs : sub shift value <;> simp_all [cdf, le]

theorem asym_expected (n : ℝ) : (asymptoticDist (fin 0)).expected (fin n) = fin n := by
  simp [asymptoticDist, add, lt]

/-- The p-values of the asymptotic calculator for a finite statistic and shift. -/
theorem pvalues_fin (a d : ℝ) : pvalues (fin d) (asymptoticDist (neg (fin a))) (asymptoticDist (fin 0)) =
    (fin (Phi (-d - a)), fin (Phi (-d)), fin (Phi (-d - a) / Phi (-d))) := by
  have h := (Phi_pos (-d)).ne'
  have e1 : -a + -d = -d - a := by ring
  simp [pvalues, asym_pvalue, sub, add, neg, cdf, eq, div, h, e1]

theorem pvalues_pinf (a : ℝ) : pvalues pinf (asymptoticDist (neg (fin a))) (asymptoticDist (fin 0)) =
    (fin 0, fin 0, fin 0) := by
  simp [pvalues, asym_pvalue, sub, add, neg, cdf, eq]

theorem pvalues_ninf (a : ℝ) : pvalues ninf (asymptoticDist (neg (fin a))) (asymptoticDist (fin 0)) =
    (fin 1, fin 1, fin 1) := by
  simp [pvalues, asym_pvalue, sub, add, neg, cdf, eq, div]

/-- The three expected lists of the asymptotic calculator. -/
theorem expected_fin (a : ℝ) : expectedPvalues (asymptoticDist (neg (fin a))) (asymptoticDist (fin 0)) =
    (nsigmas.map (fun n => fin (Phi (-n - a))), nsigmas.map (fun n => fin (Phi (-n))),
      nsigmas.map (fun n => fin (Phi (-n - a) / Phi (-n)))) := by
  simp only [expectedPvalues, asym_expected, pvalues_fin, List.map_map]
  rfl

theorem cls_le_one {a : ℝ} (ha : 0 ≤ a) (x : ℝ) : Phi (x - a) / Phi x ≤ 1 := by
  rw [div_le_one (Phi_pos x)]
  exact Phi_mono (by linarith)

theorem cls_nonneg (a x : ℝ) : 0 ≤ Phi (x - a) / Phi x := div_nonneg (Phi_nonneg _) (Phi_nonneg _)

theorem clsb_le_cls (a x : ℝ) : Phi (x - a) ≤ Phi (x - a) / Phi x := by
  rw [le_div_iff₀ (Phi_pos x)]
  nlinarith [Phi_le_one x, Phi_nonneg (x - a)]

/-- A p-value as it enters `1 - x if not isnan(x) else 0.0`. -/
def ProbOrNan (x : F) : Prop := x = nan ∨ IsProb x

theorem cdf_probOrNan (x : F) : ProbOrNan (cdf x) := by
  cases x
  · exact Or.inl rfl
  · exact Or.inr ⟨0, rfl, le_refl _, zero_le_one⟩
  · exact Or.inr ⟨_, rfl, Phi_nonneg _, Phi_le_one _⟩
  · exact Or.inr ⟨1, rfl, zero_le_one, le_refl _⟩

theorem lt_not_le {a b : F} (h : lt a b) : ¬ le b a := by
  cases a <;> cases b <;> simp_all [lt, le]

/-- Every p-value of the asymptotic calculator is a probability or nan, whatever the value. -/
theorem pvalues_probOrNan {s : F} (hs : StatVal s) (v : F) :
    ProbOrNan (pvalues v (asymptoticDist (neg s)) (asymptoticDist (fin 0))).1 ∧
    ProbOrNan (pvalues v (asymptoticDist (neg s)) (asymptoticDist (fin 0))).2.2 := by
  refine ⟨by simp only [pvalues, asym_pvalue]; exact cdf_probOrNan _, ?_⟩
  rcases hs with rfl | rfl | ⟨a, ha, rfl⟩
  · have h : ∀ d : ℝ, (Phi d) ≠ 0 := fun d => (Phi_pos d).ne'
    cases v <;> simp [pvalues, asym_pvalue, sub, add, neg, cdf, eq, div, ProbOrNan, IsProb, h]
  · cases v with
    | fin d =>
      have h := (Phi_pos (-d)).ne'
      simp [pvalues, asym_pvalue, sub, add, neg, cdf, eq, div, ProbOrNan, IsProb, h]
    | _ => simp [pvalues, asym_pvalue, sub, add, neg, cdf, eq, div, ProbOrNan, IsProb]
  · cases v with
    | fin d =>
      rw [pvalues_fin]
      exact Or.inr ⟨_, rfl, cls_nonneg _ _, cls_le_one ha _⟩
    | pinf => rw [pvalues_pinf]; exact Or.inr ⟨0, rfl, le_refl _, zero_le_one⟩
    | ninf => rw [pvalues_ninf]; exact Or.inr ⟨1, rfl, zero_le_one, le_refl _⟩
    | nan => exact Or.inl (by simp [pvalues, asym_pvalue, sub, add, neg, cdf, eq, div])

theorem level_fin (r : ℝ) : (if isNan (fin r) then fin 0 else sub (fin 1) (fin r)) = fin (1 - r) := by
  simp [isNan, sub, add, neg, sub_eq_add_neg]

theorem level_prob {x : F} (h : ProbOrNan x) : IsProb (if isNan x then fin 0 else sub (fin 1) x) := by
  rcases h with rfl | ⟨r, rfl, h0, h1⟩
  · exact ⟨0, by simp [isNan], le_refl _, zero_le_one⟩
  · exact ⟨1 - r, by simp [isNan, sub, add, neg, sub_eq_add_neg], by linarith, by linarith⟩

theorem one_sub_prob {x : F} (h : IsProb x) : IsProb (sub (fin 1) x) := by
  rcases h with ⟨r, rfl, h0, h1⟩
  exact ⟨1 - r, by simp [sub, add, neg, sub_eq_add_neg], by linarith, by linarith⟩

theorem asymptoticLevel_eq (s d : F) {ts : String} (h : ts ≠ "q0") : asymptoticLevel s d ts =
    ([(pvalues d (asymptoticDist (neg s)) (asymptoticDist (fin 0))).2.2],
      (expectedPvalues (asymptoticDist (neg s)) (asymptoticDist (fin 0))).2.2) := by
  simp [asymptoticLevel, h]

/-- The shape of a pair of p-value lists. -/
def Shaped (P : F → Prop) (r : List F × List F) : Prop :=
  r.1.length = 1 ∧ r.2.length = 5 ∧ (∀ x ∈ r.1, P x) ∧ (∀ x ∈ r.2, P x)

theorem asymptoticLevel_shaped {s : F} (hs : StatVal s) (d : F) {ts : String} (h : ts ≠ "q0") :
    Shaped ProbOrNan (asymptoticLevel s d ts) := by
  rw [asymptoticLevel_eq _ _ h]
  refine ⟨rfl, by simp [expectedPvalues, nsigmas], ?_, ?_⟩
  · intro x hx
    simp only [List.mem_singleton] at hx
    exact hx ▸ (pvalues_probOrNan hs d).2
  · intro x hx
    simp only [expectedPvalues, List.map_map, List.mem_map, Function.comp] at hx
    obtain ⟨n, -, rfl⟩ := hx
    exact (pvalues_probOrNan hs _).2

theorem isProb_one : IsProb (fin 1) := ⟨1, rfl, zero_le_one, le_refl _⟩

theorem clip01_probOrNan (x : F) : ProbOrNan (clip01 x) := by
  cases x
  · exact Or.inl rfl
  · exact Or.inr ⟨0, rfl, le_refl _, zero_le_one⟩
  · rename_i r
    exact Or.inr ⟨_, rfl, le_min (le_max_right _ _) zero_le_one, min_le_right _ _⟩
  · exact Or.inr isProb_one

theorem testName_ne (b : Bool) : (if b then "q" else "qtilde") ≠ "q0" := by cases b <;> decide

theorem getName_ok (b : Bool) : ∃ t, getTestStatistic (if b then "q" else "qtilde") = .ok t := by
  cases b
  · exact ⟨_, get_qtilde⟩
  · exact ⟨_, get_q⟩

/-! ### `compute_teststatistics` -/

theorem shift_fin {ts : String} {q qA : ℝ} (hq : 0 ≤ q) (hA : 0 ≤ qA) : shiftOf ts (fin q) (fin qA) =
    if ts ∈ ["q", "q0", "qmu"] then
      .ok (fin (Real.sqrt q), fin (Real.sqrt qA), fin (Real.sqrt q - Real.sqrt qA))
    else if qA = 0 ∧ 0 < q then .error .asimovTestStatZero
    else .ok (fin (Real.sqrt q), fin (Real.sqrt qA), fin (eq66 q qA)) := by
  unfold shiftOf
  simp only [sqrt_fin hq, sqrt_fin hA]
  split
  · simp [sub, add, neg, sub_eq_add_neg]
  · by_cases h : q ≤ qA
    · have hs : Real.sqrt q ≤ Real.sqrt qA := Real.sqrt_le_sqrt h
      have hn : ¬ (qA = 0 ∧ 0 < q) := by rintro ⟨h1, h2⟩; linarith
      simp [le, hs, hn, sub, add, neg, eq66, h, sub_eq_add_neg]
    · have hs : ¬ Real.sqrt q ≤ Real.sqrt qA := by
        rw [not_le] at h ⊢
        exact Real.sqrt_lt_sqrt hA h
      by_cases h0 : qA = 0
      · have : 0 < q := by rw [h0] at h; exact not_le.1 h
        simp [le, h0, this, eq]
      · have hA' : Real.sqrt qA ≠ 0 := by
          rw [Real.sqrt_ne_zero hA]; exact h0
        simp [le, hs, h0, eq, hA', eq66, h, sub, add, neg, scale, div, sub_eq_add_neg]

/-- The values of the shift, for all inputs. -/
theorem shift_ok {ts : String} {q qA a b d : F} (hA : StatVal qA) (h : shiftOf ts q qA = .ok (a, b, d)) :
    StatVal b := by
  unfold shiftOf at h
  simp only at h
  split at h
  · simp at h; rw [← h.2.1]; exact sqrt_statVal hA
  · split at h
    · simp at h; rw [← h.2.1]; exact sqrt_statVal hA
    · split at h
      · simp at h
      · simp at h; rw [← h.2.1]; exact sqrt_statVal hA

theorem compute_eq {ts : String} {t : TestStat} (h : getTestStatistic ts = .ok t) (mu : F) (D A : Fit) :
    computeTeststatistics mu (D.muhat, D.nll) D.logpdf (A.muhat, A.nll) A.logpdf ts =
      shiftOf ts (D.stat t mu) (A.stat t mu) := by
  simp [computeTeststatistics, h, Fit.stat]

theorem stat_statVal {ts : String} {t : TestStat} (h : getTestStatistic ts = .ok t) (D : Fit) (mu : F) :
    StatVal (D.stat t mu) := get_statVal h ..

theorem shift_err {ts : String} {q qA : F} {e : Err} (h : shiftOf ts q qA = .error e) :
    e = .asimovTestStatZero := by
  unfold shiftOf at h
  simp only at h
  split at h
  · simp at h
  · split at h
    · simp at h
    · split at h
      · simpa using h.symm
      · simp at h

theorem shaped_ones {P : F → Prop} (h : P (fin 1)) : Shaped P ([fin 1], List.replicate 5 (fin 1)) := by
  refine ⟨rfl, by simp, ?_, ?_⟩
  · intro x hx; simp at hx; exact hx ▸ h
  · intro x hx; simp at hx; exact hx ▸ h

theorem asymptoticPvalues_shaped (B : Backend) (mu : F) (neg : Bool) :
    ∃ r, asymptoticPvalues B mu (if neg then "q" else "qtilde") = .ok r ∧ Shaped ProbOrNan r := by
  obtain ⟨t, ht⟩ := getName_ok neg
  unfold asymptoticPvalues
  rw [compute_eq ht]
  cases hs : shiftOf (if neg then "q" else "qtilde") (B.data.stat t mu) (B.asimov.stat t mu) with
  | error e =>
    obtain rfl := shift_err hs
    exact ⟨_, rfl, shaped_ones (Or.inr isProb_one)⟩
  | ok v =>
    obtain ⟨a, b, d⟩ := v
    exact ⟨_, rfl, asymptoticLevel_shaped (shift_ok (stat_statVal ht _ _) hs) d (testName_ne _)⟩

theorem toyPvalues_shaped (B : Backend) (mu : F) (neg : Bool) :
    ∃ r, toyPvalues B mu (if neg then "q" else "qtilde") = .ok r ∧ Shaped ProbOrNan r := by
  obtain ⟨t, ht⟩ := getName_ok neg
  unfold toyPvalues
  rw [ht]
  refine ⟨_, rfl, ?_⟩
  have hq := testName_ne neg
  refine ⟨by simp [toyLevel, hq], by simp [toyLevel, hq, expectedPvalues, nsigmas], ?_, ?_⟩
  · intro x hx
    simp only [List.mem_map] at hx
    obtain ⟨y, -, rfl⟩ := hx
    exact clip01_probOrNan y
  · intro x hx
    simp only [List.mem_map] at hx
    obtain ⟨y, -, rfl⟩ := hx
    exact clip01_probOrNan y

theorem chiSquarePvalues_shaped (B : Backend) (mu : F) (neg : Bool) :
    ∃ r, chiSquarePvalues B mu (if neg then "q" else "qtilde") = .ok r ∧ Shaped ProbOrNan r := by
  obtain ⟨t, ht⟩ := getName_ok neg
  unfold chiSquarePvalues
  rw [ht]
  exact ⟨_, rfl, asymptoticLevel_shaped (sqrt_statVal (stat_statVal ht _ _)) _ (testName_ne _)⟩

/-- The expected CLs values are ordered, or all nan, or all 0. -/
theorem expected_cls_ascending {s : F} (hs : StatVal s) :
    let l := (expectedPvalues (asymptoticDist (neg s)) (asymptoticDist (fin 0))).2.2
    l = List.replicate 5 nan ∨ Ascending l := by
  rcases hs with rfl | rfl | ⟨a, ha, rfl⟩
  · left
    simp [expectedPvalues, nsigmas, asym_expected, pvalues, asym_pvalue, sub, add, neg, cdf, eq, div,
      fun x => (Phi_pos x).ne', List.replicate]
  · right
    have h : ∀ d : ℝ, (Phi d) ≠ 0 := fun d => (Phi_pos d).ne'
    simp [expectedPvalues, nsigmas, asym_expected, pvalues, asym_pvalue, sub, add, neg, cdf, eq, div, h,
      Ascending, le]
  · right
    rw [expected_fin]
    simp only [nsigmas, Ascending, List.pairwise_map]
    have : ∀ {x y : ℝ}, y ≤ x → le (fin (Phi (-x - a) / Phi (-x))) (fin (Phi (-y - a) / Phi (-y))) := by
      intro x y h
      exact Phi_ratio_mono ha (by linarith)
    refine List.Pairwise.imp (R := fun x y : ℝ => y ≤ x) (fun h => this h) ?_
    norm_num [List.pairwise_cons]

theorem level_ascending {l : List F} (h : l = List.replicate 5 nan ∨ Ascending l) (hp : ∀ x ∈ l, ProbOrNan x) :
    Descending (l.map (fun x => if isNan x then fin 0 else sub (fin 1) x)) := by
  rcases h with rfl | h
  · simp [Descending, isNan, List.replicate, le]
  · unfold Descending
    rw [List.pairwise_map]
    refine List.Pairwise.imp_of_mem ?_ h
    intro x y hx hy hxy
    rcases hp x hx with rfl | ⟨r, rfl, -, -⟩
    · simp [le] at hxy
    · rcases hp y hy with rfl | ⟨r', rfl, -, -⟩
      · simp [le] at hxy
      · simp only [le] at hxy
        simp [isNan, sub, add, neg, le]
        linarith

theorem one_sub_descending {l : List F} (h : Ascending l) (hp : ∀ x ∈ l, IsProb x) :
    Descending (l.map (sub (fin 1))) := by
  unfold Descending
  rw [List.pairwise_map]
  refine List.Pairwise.imp_of_mem ?_ h
  intro x y hx hy hxy
  obtain ⟨r, rfl, -, -⟩ := hp x hx
  obtain ⟨r', rfl, -, -⟩ := hp y hy
  simp only [le] at hxy
  simp [sub, add, neg, le]
  linarith

theorem statVal_not_nan {x : F} (h : StatVal x) (hn : x ≠ nan) (hi : x ≠ pinf) : ∃ r, 0 ≤ r ∧ x = fin r := by
  rcases h with h | h | h
  · exact absurd h hn
  · exact absurd h hi
  · exact h

theorem ones_ascending : Ascending (List.replicate 5 (fin 1)) := by
  simp [Ascending, List.replicate, le]

theorem chiShift_fin {ts : String} {q b : ℝ} (hq : 0 ≤ q) (hb : 0 ≤ b) : chiShift ts (fin q) (fin b) =
    fin (if ts = "q" ∨ q ≤ b then Real.sqrt b - Real.sqrt q else (b - q) / (2 * Real.sqrt q)) := by
  unfold chiShift
  simp only [sqrt_fin hq, sqrt_fin hb, le]
  by_cases h : q ≤ b
  · have := Real.sqrt_le_sqrt h
    simp [h, this, sub, add, neg, sub_eq_add_neg]
  · have h' : ¬ Real.sqrt q ≤ Real.sqrt b := by
      rw [not_le] at h ⊢
      exact Real.sqrt_lt_sqrt hb h
    have h0 : Real.sqrt q ≠ 0 := by
      intro h0
      rw [h0] at h'
      exact h' (Real.sqrt_nonneg _)
    by_cases ht : ts = "q"
    · simp [ht, sub, add, neg, sub_eq_add_neg]
    · simp [ht, h, h', sub, add, neg, scale, div, h0, sub_eq_add_neg]

theorem chiNull_fin {D : Fit} {ts : String} (hn : Finite D.nll) (h0 : Finite (D.logpdf (fin 0))) :
    ∃ b : ℝ, 0 ≤ b ∧ chiNullStat D ts = fin b := by
  obtain ⟨n, hn⟩ := hn
  obtain ⟨b, hb⟩ := h0
  unfold chiNullStat
  simp only [hn, hb]
  split
  · exact ⟨_, le_max_right _ _, rfl⟩
  · exact ⟨_, le_max_right _ _, rfl⟩

theorem nan_sub (x : F) : sub nan x = nan := by cases x <;> rfl
theorem sub_nan (x : F) : sub x nan = nan := by cases x <;> rfl
theorem nan_div (x : F) : div nan x = nan := by cases x <;> rfl
theorem nan_le (x : F) : ¬ le nan x := by cases x <;> simp [le]
theorem div_nan (x : F) : div x nan = nan := by cases x <;> rfl

theorem pvalues_nan (s : F) : (pvalues nan (asymptoticDist s) (asymptoticDist (fin 0))).2.2 = nan := by
  simp only [pvalues, asym_pvalue, sub_nan, cdf, eq, if_false, div]

theorem shift_nan (ts : String) (qA : F) :
    shiftOf ts nan qA = .error .asimovTestStatZero ∨ ∃ a b, shiftOf ts nan qA = .ok (a, b, nan) := by
  unfold shiftOf
  simp only [sqrt_nan, nan_sub, nan_div, nan_le, if_false]
  split
  · exact Or.inr ⟨_, _, rfl⟩
  · split
    · exact Or.inl rfl
    · exact Or.inr ⟨_, _, rfl⟩

theorem chiShift_nan (ts : String) (b : F) : chiShift ts nan b = nan := by
  unfold chiShift
  simp only [sqrt_nan, sub_nan, nan_div]
  split <;> rfl

theorem level_nan : (if isNan nan then fin 0 else sub (fin 1) nan) = fin 0 := by simp [isNan]

end Verif.Stats
