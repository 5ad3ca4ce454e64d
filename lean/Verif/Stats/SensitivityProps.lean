import Verif.Stats.Mills
import Verif.Stats.LevelSpec

/-!
# C148: more sensitivity excludes more
-/

namespace Verif.Stats
open Verif.Py F

theorem levels_eq (B : Backend) (mu : F) (e : Expect) (neg : Bool) (t : TestStat) (ht : getTestStatistic (if neg then "q" else "qtilde") = .ok t)
    (hav : B.available .asymptotic = true) (q qA : ℝ) (hq : 0 ≤ q) (hA : 0 ≤ qA) (hD : B.data.stat t mu = fin q) (hAs : B.asimov.stat t mu = fin qA) :
    exclusionConfidenceLevel B mu e neg .asymptotic = .ok (levelsOf e neg q qA) := by
  classical
  have hexp : ∀ (d : ℝ) (ts : String), ts ≠ "q0" → asymptoticLevel (fin (√qA)) (fin d) ts =
      ([fin (Phi (-d - √qA) / Phi (-d))], [-2, -1, 0, 1, 2].map fun n => fin (Phi (n - √qA) / Phi n)) := by
    intro d ts hts
    rw [asymptoticLevel_eq _ _ hts, expected_fin, pvalues_fin]
    simp [nsigmas]
  have hsub : ∀ x : ℝ, sub (fin 1) (fin x) = fin (1 - x) := fun x => by simp [sub, add, F.neg, sub_eq_add_neg]
  unfold exclusionConfidenceLevel
  simp only [hav, if_true, calculatorPvalues, asymptoticPvalues]
  rw [compute_eq ht, hD, hAs, shift_fin hq hA]
  cases neg
  · simp only [Bool.false_eq_true, if_false]
    rw [if_neg (by simp)]
    by_cases h0 : qA = 0 ∧ 0 < q
    · rw [if_pos h0]
      obtain ⟨rfl, h0⟩ := h0
      cases e <;> simp [levelsOf, observedOf, expectedOf, h0, isNan, hsub, List.replicate, div_self (Phi_pos _).ne']
    · rw [if_neg h0]
      simp only [hexp _ "qtilde" (by simp)]
      cases e <;> simp only [levelsOf, observedOf, expectedOf, h0, Bool.false_eq_true, and_false, if_false, List.map_cons, List.map_nil, hsub] <;> simp [isNan]
  · simp only [if_true]
    rw [if_pos (by simp)]
    simp only [hexp _ "q" (by simp)]
    cases e <;> simp only [levelsOf, observedOf, expectedOf, Bool.true_eq_false, false_and, if_false, if_true, List.map_cons, List.map_nil, hsub] <;> simp [isNan]

theorem observed_strict (neg : Bool) {q qA qA' : ℝ} (hq : 0 ≤ q) (hA : 0 ≤ qA) (hAA : qA < qA') : observedOf neg q qA < observedOf neg q qA' := by
  have h1 : ∀ x : ℝ, 1 - Phi x / Phi x = 0 := fun x => by rw [div_self (Phi_pos x).ne', sub_self]
  have hpos : ∀ d a : ℝ, 0 < a → 0 < 1 - Phi (d - a) / Phi d := by
    intro d a ha
    have := (div_lt_one (Phi_pos d)).mpr (Phi_strictMono (by linarith : d - a < d))
    linarith
  -- below the switch, and for `q` everywhere
  have low : ∀ {a a' : ℝ}, a < a' → 1 - Phi (-(√q - a) - a) / Phi (-(√q - a)) < 1 - Phi (-(√q - a') - a') / Phi (-(√q - a')) := by
    intro a a' haa
    have e1 : -(√q - a) - a = -√q := by ring
    have e2 : -(√q - a') - a' = -√q := by ring
    rw [e1, e2]
    have := div_lt_div_of_pos_left (Phi_pos (-√q)) (Phi_pos (-(√q - a))) (Phi_strictMono (by linarith : -(√q - a) < -(√q - a')))
    linarith
  unfold observedOf
  cases neg
  · simp only [true_and, Bool.false_eq_true, if_false]
    by_cases h0 : qA = 0
    · subst h0
      have : (if (0 : ℝ) = 0 ∧ 0 < q then 0 else 1 - Phi (-eq66 q 0 - √0) / Phi (-eq66 q 0)) = 0 := by
        split
        · rfl
        · rw [Real.sqrt_zero, sub_zero, h1]
      rw [this, if_neg (by simp [hAA.ne'])]
      exact hpos _ _ (Real.sqrt_pos.mpr hAA)
    · have hA0 : 0 < qA := lt_of_le_of_ne hA (Ne.symm h0)
      rw [if_neg (by simp [h0]), if_neg (by simp [(hA0.trans hAA).ne'])]
      -- the two sides of the switch
      have below : ∀ {x y : ℝ}, q ≤ x → 0 < x → x < y → 1 - Phi (-eq66 q x - √x) / Phi (-eq66 q x) < 1 - Phi (-eq66 q y - √y) / Phi (-eq66 q y) := by
        intro x y hx h0 hxy
        unfold eq66
        rw [if_pos hx, if_pos (hx.trans hxy.le)]
        exact low (Real.sqrt_lt_sqrt h0.le hxy)
      have above : ∀ {x y : ℝ}, 0 < x → x < y → y ≤ q → 1 - Phi (-eq66 q x - √x) / Phi (-eq66 q x) < 1 - Phi (-eq66 q y - √y) / Phi (-eq66 q y) := by
        intro x y hx hxy hy
        have key : ∀ z, 0 < z → z ≤ q → eq66 q z = (q - √z ^ 2) / (2 * √z) := by
          intro z hz hzq
          unfold eq66
          rw [Real.sq_sqrt hz.le]
          split
          · have : q = z := le_antisymm (by assumption) hzq
            rw [this, sub_self, sub_self, zero_div]
          · rfl
        rw [key x hx (hxy.le.trans hy), key y (hx.trans hxy) hy]
        have := ratio_above (q := q) (Real.sqrt_pos.mpr hx) (Real.sqrt_lt_sqrt hx.le hxy) (by rw [Real.sq_sqrt (hx.trans hxy).le]; exact hy)
        linarith
      rcases le_total q qA with h2 | h2
      · exact below h2 hA0 hAA
      · rcases le_total q qA' with h3 | h3
        · rcases h2.eq_or_lt with rfl | h2
          · exact below le_rfl hA0 hAA
          · rcases h3.eq_or_lt with rfl | h3
            · exact above hA0 h2 le_rfl
            · exact (above hA0 h2 le_rfl).trans (below le_rfl (hA0.trans h2) h3)
        · exact above hA0 hAA h3
  · simp only [Bool.true_eq_false, false_and, if_false, if_true]
    exact low (Real.sqrt_lt_sqrt hA hAA)

theorem observed_sensitive (neg : Bool) {q qA qA' : ℝ} (hq : 0 ≤ q) (hA : 0 ≤ qA) (hAA : qA ≤ qA') : observedOf neg q qA ≤ observedOf neg q qA' := by
  rcases hAA.eq_or_lt with rfl | hAA
  · exact le_rfl
  · exact (observed_strict neg hq hA hAA).le

theorem observed_more (neg : Bool) {q q' qA : ℝ} (hq : 0 ≤ q) (hqq : q ≤ q') (hA : 0 ≤ qA) : observedOf neg q qA ≤ observedOf neg q' qA := by
  have mono : ∀ {d d' : ℝ}, d ≤ d' → 1 - Phi (-d - √qA) / Phi (-d) ≤ 1 - Phi (-d' - √qA) / Phi (-d') := by
    intro d d' h
    have := Phi_ratio_mono (Real.sqrt_nonneg qA) (x := -d') (y := -d) (by linarith)
    linarith
  unfold observedOf
  cases neg
  · by_cases h0 : qA = 0
    · subst h0
      have e : ∀ x : ℝ, 1 - Phi x / Phi x = 0 := fun x => by rw [div_self (Phi_pos x).ne', sub_self]
      simp [e]
    · simp only [h0, false_and, and_false, if_false, Bool.false_eq_true]
      apply mono
      rcases eq_or_lt_of_le hqq with rfl | hlt
      · exact le_rfl
      · exact (C15_strictly_increasing qA (lt_of_le_of_ne hA (Ne.symm h0)) q q' hq hlt).le
  · simp only [Bool.true_eq_false, false_and, if_false, if_true]
    apply mono
    linarith [Real.sqrt_le_sqrt hqq]

theorem expected_sensitive {qA qA' : ℝ} (hAA : qA ≤ qA') : Below (expectedOf qA) (expectedOf qA') := by
  have key : ∀ n : ℝ, 1 - Phi (n - √qA) / Phi n ≤ 1 - Phi (n - √qA') / Phi n := by
    intro n
    have h1 := Phi_mono (by linarith [Real.sqrt_le_sqrt hAA] : n - √qA' ≤ n - √qA)
    have := div_le_div_of_nonneg_right h1 (Phi_nonneg n)
    linarith
  unfold Below expectedOf
  simp only [List.map_cons, List.map_nil]
  exact .cons ⟨_, _, rfl, rfl, key _⟩ (.cons ⟨_, _, rfl, rfl, key _⟩ (.cons ⟨_, _, rfl, rfl, key _⟩ (.cons ⟨_, _, rfl, rfl, key _⟩ (.cons ⟨_, _, rfl, rfl, key _⟩ .nil))))

theorem levelsOf_mono (e : Expect) (neg : Bool) {q q' qA qA' : ℝ} (hq : 0 ≤ q) (hqq : q ≤ q') (hA : 0 ≤ qA) (hAA : qA ≤ qA') :
    NotAbove (levelsOf e neg q qA) (levelsOf e neg q' qA') := by
  have ho : Below [fin (observedOf neg q qA)] [fin (observedOf neg q' qA')] :=
    .cons ⟨_, _, rfl, rfl, (observed_more neg hq hqq hA).trans (observed_sensitive neg (hq.trans hqq) hA hAA)⟩ .nil
  have he := expected_sensitive hAA
  cases e
  · exact ho
  · exact he
  · exact he
  · exact ⟨ho, he⟩

theorem expected_strict {qA qA' : ℝ} (hA : 0 ≤ qA) (hAA : qA < qA') (n : ℝ) : 1 - Phi (n - √qA) / Phi n < 1 - Phi (n - √qA') / Phi n := by
  have h1 := Phi_strictMono (by linarith [Real.sqrt_lt_sqrt hA hAA] : n - √qA' < n - √qA)
  have := div_lt_div_of_pos_right h1 (Phi_pos n)
  linarith

theorem levelsOf_strict (e : Expect) (neg : Bool) {q q' qA qA' : ℝ} (hq : 0 ≤ q) (hqq : q ≤ q') (hA : 0 ≤ qA) (hAA : qA < qA') :
    AllLess (levelsOf e neg q qA) (levelsOf e neg q' qA') := by
  have ho : Less [fin (observedOf neg q qA)] [fin (observedOf neg q' qA')] :=
    .cons ⟨_, _, rfl, rfl, lt_of_le_of_lt (observed_more neg hq hqq hA) (observed_strict neg (hq.trans hqq) hA hAA)⟩ .nil
  have key := expected_strict hA hAA
  have he : Less (expectedOf qA) (expectedOf qA') := by
    unfold Less expectedOf
    simp only [List.map_cons, List.map_nil]
    exact .cons ⟨_, _, rfl, rfl, key _⟩ (.cons ⟨_, _, rfl, rfl, key _⟩ (.cons ⟨_, _, rfl, rfl, key _⟩ (.cons ⟨_, _, rfl, rfl, key _⟩ (.cons ⟨_, _, rfl, rfl, key _⟩ .nil))))
  cases e
  · exact ho
  · exact he
  · exact he
  · exact ⟨ho, he⟩

/-- C148: larger statistics, of the data and of the Asimov data, never give smaller exclusion levels, observed and expected; for both test statistics, across the switch of
equation (66) and also at `q_A = 0`. -/
theorem C148_levels (B B' : Backend) (mu mu' : F) (e : Expect) (neg : Bool) (t : TestStat) (ht : getTestStatistic (if neg then "q" else "qtilde") = .ok t)
    (hav : B.available .asymptotic = true) (hav' : B'.available .asymptotic = true) (q q' qA qA' : ℝ) (hq : 0 ≤ q) (hqq : q ≤ q') (hA : 0 ≤ qA) (hAA : qA ≤ qA')
    (hD : B.data.stat t mu = fin q) (hD' : B'.data.stat t mu' = fin q') (hAs : B.asimov.stat t mu = fin qA) (hAs' : B'.asimov.stat t mu' = fin qA') :
    ∃ L L', exclusionConfidenceLevel B mu e neg .asymptotic = .ok L ∧ exclusionConfidenceLevel B' mu' e neg .asymptotic = .ok L' ∧ NotAbove L L' :=
  ⟨_, _, levels_eq B mu e neg t ht hav q qA hq hA hD hAs, levels_eq B' mu' e neg t ht hav' q' qA' (hq.trans hqq) (hA.trans hAA) hD' hAs', levelsOf_mono e neg hq hqq hA hAA⟩

example : (fitOf 5).stat qmuTilde (fin 1) = fin 5 ∧ (fitOf 3).stat qmuTilde (fin 1) = fin 3 ∧ (fitOf 4).stat qmuTilde (fin 1) = fin 4 ∧ (0 : ℝ) ≤ 5 ∧ (3 : ℝ) ≤ 4 :=
  ⟨fitOf_stat (by norm_num), fitOf_stat (by norm_num), fitOf_stat (by norm_num), by norm_num, by norm_num⟩

/-- C148: a larger statistic of the Asimov data, with a statistic of the data that is not smaller, gives larger levels. -/
theorem C148_strict (B B' : Backend) (mu mu' : F) (e : Expect) (neg : Bool) (t : TestStat) (ht : getTestStatistic (if neg then "q" else "qtilde") = .ok t)
    (hav : B.available .asymptotic = true) (hav' : B'.available .asymptotic = true) (q q' qA qA' : ℝ) (hq : 0 ≤ q) (hqq : q ≤ q') (hA : 0 ≤ qA) (hAA : qA < qA')
    (hD : B.data.stat t mu = fin q) (hD' : B'.data.stat t mu' = fin q') (hAs : B.asimov.stat t mu = fin qA) (hAs' : B'.asimov.stat t mu' = fin qA') :
    ∃ L L', exclusionConfidenceLevel B mu e neg .asymptotic = .ok L ∧ exclusionConfidenceLevel B' mu' e neg .asymptotic = .ok L' ∧ AllLess L L' :=
  ⟨_, _, levels_eq B mu e neg t ht hav q qA hq hA hD hAs, levels_eq B' mu' e neg t ht hav' q' qA' (hq.trans hqq) (hA.trans hAA.le) hD' hAs', levelsOf_strict e neg hq hqq hA hAA⟩

example : (fitOf 5).stat qmuTilde (fin 1) = fin 5 ∧ (fitOf 3).stat qmuTilde (fin 1) = fin 3 ∧ (fitOf 4).stat qmuTilde (fin 1) = fin 4 ∧ (0 : ℝ) ≤ 5 ∧ (3 : ℝ) < 4 :=
  ⟨fitOf_stat (by norm_num), fitOf_stat (by norm_num), fitOf_stat (by norm_num), by norm_num, by norm_num⟩

end Verif.Stats
