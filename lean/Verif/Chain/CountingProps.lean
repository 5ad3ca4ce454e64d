import Verif.Chain.GaussianProps

/-!
# Properties C119 and C120: counting experiments
-/

namespace Verif.Chain
open Verif.Py F Verif.Config Verif.Optimizer Verif.Hypotest
open Verif.Interface (MuHat Data Toys World Size Plain Solver perfect)
open Verif.Backend (Ext Vec Args Built Fits at' signalAt poissonLog)
open Verif.Stats (Expect Calc Levels eq66)

/-! ## Levels from the statistics of the data and of the expected data -/

open Classical in
theorem expected_level (B : Stats.Backend) (mu : F) (e : Expect) (he : e = .apriori ∨ e = .aposteriori) (neg : Bool) (t : Stats.TestStat)
    (ht : Stats.getTestStatistic (if neg then "q" else "qtilde") = .ok t) (hav : B.available .asymptotic = true) (q qA : ℝ) (hq : 0 ≤ q) (hA : 0 < qA)
    (hD : B.data.stat t mu = fin q) (hAs : B.asimov.stat t mu = fin qA) :
    Stats.exclusionConfidenceLevel B mu e neg .asymptotic = .ok (.one ([-2, -1, 0, 1, 2].map fun n => fin (1 - Phi (n - √qA) / Phi n))) := by
  have hne := Stats.testName_ne neg
  have hlev : ∀ d : ℝ, (Stats.asymptoticLevel (fin (√qA)) (fin d) (if neg then "q" else "qtilde")).2.map
      (fun x => if isNan x then fin 0 else sub (fin 1) x) = [-2, -1, 0, 1, 2].map fun n => fin (1 - Phi (n - √qA) / Phi n) := by
    intro d
    rw [Stats.asymptoticLevel_eq _ _ hne, Stats.expected_fin]
    simp [Stats.nsigmas, Stats.level_fin]
  unfold Stats.exclusionConfidenceLevel
  simp only [hav, if_true, Stats.calculatorPvalues, Stats.asymptoticPvalues]
  rw [Stats.compute_eq ht, hD, hAs, Stats.shift_fin hq hA.le]
  by_cases h3 : (if neg then "q" else "qtilde") ∈ ["q", "q0", "qmu"]
  · rw [if_pos h3]
    rcases he with rfl | rfl <;> simp only [hlev]
  · rw [if_neg h3, if_neg (by simp [hA.ne'])]
    rcases he with rfl | rfl <;> simp only [hlev]

open Classical in
theorem fitOf_qtilde {k : ℝ → ℝ} {x v : ℝ} (hx : Best k 0 x) (hxv : x ≤ v) (hkv : k v ≤ k x) :
    (fitOf v x (fin (-(k x))) (fin (-(k v))) (fin (-(k 0)))).stat Stats.qmuTilde (fin v) = fin (2 * (k x - k v)) := by
  simp only [Stats.Fit.stat, Stats.qmuTilde, fitOf, lt, le, not_lt.mpr hxv, hx.1, if_false, if_true, neg, sub, add, scale, clip0]
  exact Stats.clip_eq (by ring) (by linarith)

section
variable {S : Solver} (hS : Exact S) (hT : Finds S) {B : Interface.Backend} {lo : ℝ} (hB : Single B lo)
include hS hT hB

/-- The level from the likelihood of the data, best at `x`, and that of the expected data, best at zero. -/
theorem single_qtilde {e : Expect} {D : Data} {h hA : ℝ → ℝ} (hl : ∀ y, B.logpdf (expectation e) none [y] = fin (h y))
    (hlA : ∀ y, B.logpdf (expectation e) (some D) [y] = fin (hA y)) (hD : B.expectedData [0] = .ok D) {x : ℝ} (hx : Best h 0 x) (hxA : Best hA 0 0)
    {mu : Mu} {v : ℝ} (hmu : mu.Is v) (hv : 0 < v) {qA : ℝ} (hqA : qA = 2 * (hA 0 - hA v)) (hpos : 0 < qA)
    (g : Bool) (ntoys : Size) (available : Calc → Bool) (hav : available .asymptotic = true) (percentile : List F → F → F) (w : World) (hw : Plain 1 w) :
    (∀ q, e = .observed → x ≤ v → h v ≤ h x → q = 2 * (h x - h v) →
      (exclusion (modelMethods S B g none ntoys available percentile) mu e false .asymptotic w).1 =
        .ok (.one [fin (1 - Phi (-eq66 q qA - √qA) / Phi (-eq66 q qA))])) ∧
    (e = .observed → v < x → ∃ l, (exclusion (modelMethods S B g none ntoys available percentile) mu e false .asymptotic w).1 = .ok (.one [fin l]) ∧ l ≤ 1 / 2) ∧
    (e = .apriori ∨ e = .aposteriori → (x ≤ v → h v ≤ h x) → (exclusion (modelMethods S B g none ntoys available percentile) mu e false .asymptotic w).1 =
      .ok (.one ([-2, -1, 0, 1, 2].map fun n => fin (1 - Phi (n - √qA) / Phi n)))) := by
  rw [single_levels hS hT hB hl hlA hD (negative := false) (by simpa using hx) (by simpa using hxA) hmu hv.le g ntoys available percentile w hw]
  have hasi := fitOf_qtilde hxA hv.le (by linarith)
  rw [← hqA] at hasi
  have hlow : v < x → (fitOf v x (fin (-(h x))) (fin (-(h v))) (fin (-(h 0)))).stat Stats.qmuTilde (fin v) = fin 0 := by
    intro hvx
    simp [Stats.Fit.stat, Stats.qmuTilde, fitOf, lt, hvx]
  refine ⟨?_, ?_, ?_⟩
  · rintro q rfl hxv hkv hq
    rw [Stats.observed_level _ _ false Stats.qmuTilde Stats.get_qtilde hav q qA (by linarith) hpos.le (by rw [hq]; exact fitOf_qtilde hx hxv hkv) hasi]
    simp [hpos.ne', Except.mapError]
  · rintro rfl hvx
    obtain ⟨l, hl, -, h2⟩ := Stats.zero_level ⟨fitOf v x (fin (-(h x))) (fin (-(h v))) (fin (-(h 0))),
        fitOf v 0 (fin (-(hA 0))) (fin (-(hA v))) (fin (-(hA 0))), [], [], percentile, available⟩ (fin v) false hav _ Stats.get_qtilde (hlow hvx)
    refine ⟨l, ?_, h2⟩
    rw [hl]
    rfl
  · intro he hkv
    rcases lt_or_ge v x with hvx | hxv
    · rw [expected_level _ _ e he false Stats.qmuTilde Stats.get_qtilde hav 0 qA le_rfl hpos (hlow hvx) hasi]
      rfl
    · rw [expected_level _ _ e he false Stats.qmuTilde Stats.get_qtilde hav _ qA (by linarith [hkv hxv]) hpos (fitOf_qtilde hx hxv (hkv hxv)) hasi]
      rfl

end

/-! ## The likelihood of one count -/

theorem poissonLog_up {G : ℝ → ℝ} {n l k : ℝ} (hl : 0 < l) (hlk : l < k) (hk : k ≤ n) : poissonLog G n l < poissonLog G n k := by
  have h0 : 0 < k := hl.trans hlk
  have h1 := Real.log_lt_sub_one_of_pos (div_pos hl h0) (by rw [Ne, div_eq_one_iff_eq h0.ne']; exact hlk.ne)
  rw [Real.log_div hl.ne' h0.ne'] at h1
  have h2 : k * (l / k - 1) = l - k := by field_simp
  have h3 : l / k - 1 < 0 := by rw [sub_neg, div_lt_one h0]; exact hlk
  unfold poissonLog
  nlinarith

theorem poissonLog_down {G : ℝ → ℝ} {n l k : ℝ} (hn : 0 ≤ n) (hk : 0 < k) (hlk : k < l) (hnk : n ≤ k) : poissonLog G n l < poissonLog G n k := by
  have h0 : 0 < l := hk.trans hlk
  have h1 := Real.log_lt_sub_one_of_pos (div_pos h0 hk) (by rw [Ne, div_eq_one_iff_eq hk.ne']; exact hlk.ne')
  rw [Real.log_div h0.ne' hk.ne'] at h1
  have h2 : k * (l / k - 1) = l - k := by field_simp
  have h3 : 0 < l / k - 1 := by rw [sub_pos, one_lt_div hk]; exact hlk
  unfold poissonLog
  rcases hn.eq_or_lt with rfl | hn
  · linarith
  · nlinarith

/-- The log-likelihood of `n` events as a function of the signal strength. -/
noncomputable def countLog (G : ℝ → ℝ) (s b n : ℝ) : ℝ → ℝ := fun y => poissonLog G n (max (y * s + b) (1 / 10 ^ 20))

theorem countLog_best {G : ℝ → ℝ} {s b n : ℝ} (hs : 0 < s) (hb : 1 / 10 ^ 20 ≤ b) (hn : 0 ≤ n) (h10 : (n - b) / s ≤ 10) :
    Best (countLog G s b n) 0 (max ((n - b) / s) 0) := by
  have hb0 : 0 < b := lt_of_lt_of_le (by norm_num) hb
  have hnc : ∀ y, 0 ≤ y → max (y * s + b) (1 / 10 ^ 20) = y * s + b := fun y hy => max_eq_left (by nlinarith)
  have hrate : max ((n - b) / s) 0 * s + b = max n b := by
    rcases le_total n b with h | h
    · rw [max_eq_right (div_nonpos_of_nonpos_of_nonneg (by linarith) hs.le), max_eq_right h]
      ring
    · rw [max_eq_left (div_nonneg (by linarith) hs.le), max_eq_left h]
      field_simp
      ring
  refine ⟨le_max_right _ _, max_le h10 (by norm_num), fun y hy _ => ?_⟩
  have key : y = max ((n - b) / s) 0 ∨ countLog G s b n y < countLog G s b n (max ((n - b) / s) 0) := by
    unfold countLog
    rw [hnc y hy, hnc _ (le_max_right _ _), hrate]
    rcases lt_trichotomy (y * s + b) (max n b) with h | h | h
    · right
      refine poissonLog_up (by nlinarith) h ?_
      rcases le_total n b with h' | h'
      · rw [max_eq_right h'] at h
        nlinarith
      · rw [max_eq_left h']
    · left
      rw [← hrate] at h
      have : y * s = max ((n - b) / s) 0 * s := by linarith
      exact mul_right_cancel₀ hs.ne' this
    · right
      exact poissonLog_down hn (lt_of_lt_of_le hb0 (le_max_right _ _)) h (le_max_left _ _)
  rcases key with rfl | h
  · exact ⟨le_rfl, fun _ => rfl⟩
  · exact ⟨h.le, fun h' => absurd h' h.ne⟩

/-- Twice the logarithm of the ratio of the likelihoods at the best fit and at `v`. -/
theorem countLog_ratio {G : ℝ → ℝ} {s b n v : ℝ} (hs : 0 < s) (hb : 1 / 10 ^ 20 ≤ b) (hv : 0 ≤ v) :
    2 * (countLog G s b n (max ((n - b) / s) 0) - countLog G s b n v) = countingStat n b (v * s + b) := by
  have hb0 : 0 < b := lt_of_lt_of_le (by norm_num) hb
  have hnc : ∀ y, 0 ≤ y → max (y * s + b) (1 / 10 ^ 20) = y * s + b := fun y hy => max_eq_left (by nlinarith)
  have hrate : max ((n - b) / s) 0 * s + b = max n b := by
    rcases le_total n b with h | h
    · rw [max_eq_right (div_nonpos_of_nonpos_of_nonneg (by linarith) hs.le), max_eq_right h]
      ring
    · rw [max_eq_left (div_nonneg (by linarith) hs.le), max_eq_left h]
      field_simp
      ring
  unfold countLog countingStat
  rw [hnc v hv, hnc _ (le_max_right _ _), hrate, Real.log_div (lt_of_lt_of_le hb0 (le_max_right _ _)).ne' (by nlinarith : (0 : ℝ) < v * s + b).ne']
  unfold poissonLog
  ring

/-! ## The backend -/

section
variable (E : Ext) (draw : Vec × List Vec → ℕ → List Vec) {s b n : ℝ} {m : Backend.Model} (h : Backend.poisson [s] [b] [n] none = .ok m)
include h

theorem counting_single (hs : 0 < s) (hb : 0 ≤ b) : ∃ lo, Single (plugged E draw m) lo ∧ lo ≤ 0 := by
  let a : Args := ⟨.array [s], [b], [n], none, 0, none⟩
  have hf : Fits a := ⟨rfl, rfl⟩
  have hB : Built a m := .poisson [s] none ⟨rfl, rfl, rfl, rfl⟩ h
  obtain ⟨-, -, h3⟩ := Backend.C52_minimum a m hB hf [s] rfl
  obtain ⟨lo, h4, -, h5⟩ := h3 ⟨0, by simp [a], by simpa [at'] using hs⟩
  obtain ⟨c, hc, -, -, -, h6⟩ := Backend.poisson_ok h
  refine ⟨lo, plugged_single E draw hB hf ((Backend.C51_simple_rate a hf).2.2.1 [s] m rfl h).1 ?_ h4, ?_⟩
  · rcases h6 with ⟨-, -, -, h6⟩ | ⟨s', h7, -⟩
    · exact h6
    · simp at h7
  · by_contra hlt
    obtain ⟨i, hi, -, h8⟩ := h5 0 (not_le.mp hlt)
    have : i = 0 := by simp [a] at hi; exact hi
    subst this
    simp [a, at'] at h8
    linarith

theorem counting_log (e : Expect) (k y : ℝ) : (plugged E draw m).logpdf (expectation e) (some [k]) [y] = fin (countLog E.gammaln s b k y) := by
  let a : Args := ⟨.array [s], [b], [n], none, 0, none⟩
  have hf : Fits a := ⟨rfl, rfl⟩
  obtain ⟨h1, h2, h3⟩ := (Backend.C51_simple_rate a hf).2.2.1 [s] m rfl h
  obtain ⟨c, hc, -, -, -, h6⟩ := Backend.poisson_ok h
  rcases h6 with ⟨-, h6, -, -⟩ | ⟨s', h7, -⟩
  swap
  · simp at h7
  simp only [plugged]
  rw [Backend.poisson_loglik E m _ h6 h2 1 _ [y] [k] (h3 [y] (by rw [h1]; rfl)) rfl]
  simp [value, countLog, at', a]

theorem counting_none (e : Expect) (y : ℝ) :
    (plugged E draw m).logpdf (expectation e) none [y] = fin (countLog E.gammaln s b (if e = .apriori then b else n) y) := by
  let a : Args := ⟨.array [s], [b], [n], none, 0, none⟩
  have hf : Fits a := ⟨rfl, rfl⟩
  have hB : Built a m := .poisson [s] none ⟨rfl, rfl, rfl, rfl⟩ h
  rw [plugged_none E draw hB hf, ← counting_log E draw h e]
  cases e <;> rfl

theorem counting_asimov (hs : 0 < s) (hb : 1 / 10 ^ 20 ≤ b) {z : ℝ} (hz : 0 ≤ z) : (plugged E draw m).expectedData [z] = .ok [z * s + b] := by
  let a : Args := ⟨.array [s], [b], [n], none, 0, none⟩
  have hf : Fits a := ⟨rfl, rfl⟩
  obtain ⟨h1, h2, h3⟩ := (Backend.C51_simple_rate a hf).2.2.1 [s] m rfl h
  simp only [plugged]
  rw [(Backend.C53_expected_simple a hf true).2.2.1 [s] m rfl h [z] (by rw [h1]; rfl)]
  have : (1 / 10 ^ 20 : ℝ) ≤ z * s + b := by nlinarith
  simp only [a, at', List.length_singleton, List.range_one, List.map_cons, List.map_nil, List.getD_cons_zero, Except.mapError, max_eq_left this]

end

/-- C119. `significance` of a counting experiment (the Poisson model of spey with one bin, without uncertainties) when the minimiser is exact: `n` events where
`b` are expected without signal (the code replaces rates below `1e-20`) and `s` more with it. The significance of the data is
`sqrt(2 (n ln(n/b) - (n - b)))` if `n` is above `b` and zero otherwise, that of the expected data
`sqrt(2 ((s + b) ln(1 + s/b) - s))`; equations (96) and (97) of arXiv:1007.1727. The best fit must be inside the allowed range, which ends at 10. With
a-priori expectation the data are the background. -/
theorem C119_significance {S : Solver} (hS : Exact S) (hT : Finds S) (E : Ext) (draw) {s b n : ℝ} {m : Backend.Model}
    (h : Backend.poisson [s] [b] [n] none = .ok m) (hs : 0 < s) (hb : 1 / 10 ^ 20 ≤ b) (hn : 0 ≤ n) (e : Expect) {k : ℝ}
    (hk : k = if e = .apriori then b else n) (h10 : (k - b) / s ≤ 10)
    (g : Bool) (ntoys : Size) (available : Calc → Bool) (percentile : List F → F → F) (w : World) (hw : Plain 1 w) :
    ∃ ZA Z, (significance (modelMethods S (plugged E draw m) g none ntoys available percentile) e w).1 = .ok (Stats.discovery ZA Z) ∧
      ZA = √(2 * ((s + b) * Real.log (1 + s / b) - s)) ∧ (b ≤ k → Z = √(2 * (k * Real.log (k / b) - (k - b)))) ∧ (k ≤ b → Z = 0) := by
  have hb0 : 0 < b := lt_of_lt_of_le (by norm_num) hb
  obtain ⟨lo, hB, -⟩ := counting_single E draw h hs hb0.le
  have hk0 : 0 ≤ k := by rw [hk]; split <;> linarith
  have hest : (1 * s + b - b) / s = 1 := by field_simp; ring
  have hsig := single_significance hS hT hB (fun y => by rw [counting_none E draw h e, ← hk]) (counting_log E draw h e (1 * s + b))
    (counting_asimov E draw h hs hb zero_le_one) (countLog_best hs hb hk0 h10) (countLog_best hs hb (by linarith) (by rw [hest]; norm_num)) g ntoys available
    percentile w hw
  refine ⟨_, _, hsig, ?_, ?_, ?_⟩
  · rw [countLog_ratio hs hb le_rfl]
    unfold countingStat
    have : 1 + s / b = (s + b) / b := by field_simp; ring
    rw [max_eq_left (by linarith : b ≤ 1 * s + b), this]
    congr 1
    ring_nf
  · intro hbk
    rw [countLog_ratio hs hb le_rfl]
    unfold countingStat
    rw [max_eq_left hbk]
    congr 1
    ring_nf
  · intro hkb
    rw [countLog_ratio hs hb le_rfl]
    unfold countingStat
    rw [max_eq_right hkb]
    simp [div_self hb0.ne']

/-- Expected 5 signal and 50 background events, 60 are seen. -/
example (E : Ext) (draw) : ∃ m ZA, (significance (modelMethods perfect (plugged E draw m) true none (.int 100) (fun _ => true) fun _ _ => nan) .observed
    (⟨[1], none, none⟩ : World)).1 = .ok (Stats.discovery ZA (√(2 * (60 * Real.log (60 / 50) - (60 - 50))))) := by
  obtain ⟨m, hm⟩ := Backend.poisson_accepts [5] [50] [60] rfl
  obtain ⟨ZA, Z, h1, -, h2, -⟩ := C119_significance perfect_exact perfect_finds E draw hm (by norm_num) (by norm_num) (by norm_num) .observed (k := 60)
    (by rw [if_neg (by simp)]) (by norm_num) true (.int 100) (fun _ => true) (fun _ _ => nan) ⟨[1], none, none⟩ ⟨rfl, rfl, rfl⟩
  refine ⟨m, ZA, ?_⟩
  rw [h1, h2 (by norm_num)]


theorem countingStat_pos {b l : ℝ} (hb : 0 < b) (hl : b < l) : 0 < countingStat b b l := by
  have := poissonLog_down (G := fun _ => 0) hb.le hb hl le_rfl
  unfold poissonLog at this
  unfold countingStat
  rw [max_self, Real.log_div hb.ne' (hb.trans hl).ne']
  linarith

/-- C120. `exclusion_confidence_level` of a counting experiment, with the default test statistic: if `v` is not below the best fit, the level is that of
equation (66) of arXiv:1007.1727 for the statistic `2 (n ln(N/l) - N + l)`, where `l = v s + b` is the number of events that is tested and `N` the larger of `n` and
`b`, and for the same with `b` events. Below the best fit it is at most one half. The expected levels depend on the second one only. -/
theorem C120_levels {S : Solver} (hS : Exact S) (hT : Finds S) (E : Ext) (draw) {s b n : ℝ} {m : Backend.Model}
    (h : Backend.poisson [s] [b] [n] none = .ok m) (hs : 0 < s) (hb : 1 / 10 ^ 20 ≤ b) (hn : 0 ≤ n) (h10 : (n - b) / s ≤ 10)
    {mu : Mu} {v : ℝ} (hmu : mu.Is v) (hv : 0 < v) {q qA : ℝ} (hq : q = countingStat n b (v * s + b)) (hqA : qA = countingStat b b (v * s + b))
    (g : Bool) (ntoys : Size) (available : Calc → Bool) (hav : available .asymptotic = true) (percentile : List F → F → F) (w : World) (hw : Plain 1 w) :
    (n ≤ v * s + b → (exclusion (modelMethods S (plugged E draw m) g none ntoys available percentile) mu .observed false .asymptotic w).1 =
      .ok (.one [fin (1 - Phi (-eq66 q qA - √qA) / Phi (-eq66 q qA))])) ∧
    (v * s + b < n → ∃ l, (exclusion (modelMethods S (plugged E draw m) g none ntoys available percentile) mu .observed false .asymptotic w).1 =
      .ok (.one [fin l]) ∧ l ≤ 1 / 2) ∧
    (∀ e, e = .apriori ∨ e = .aposteriori → (exclusion (modelMethods S (plugged E draw m) g none ntoys available percentile) mu e false .asymptotic w).1 =
      .ok (.one ([-2, -1, 0, 1, 2].map fun N => fin (1 - Phi (N - √qA) / Phi N)))) := by
  have hb0 : 0 < b := lt_of_lt_of_le (by norm_num) hb
  obtain ⟨lo, hB, -⟩ := counting_single E draw h hs hb0.le
  have hasi := counting_asimov E draw h hs hb (le_refl 0)
  rw [zero_mul, _root_.zero_add] at hasi
  have hz : max ((b - b) / s) 0 = 0 := by simp
  have hxA : Best (countLog E.gammaln s b b) 0 0 := by
    have := countLog_best (G := E.gammaln) hs hb hb0.le (by rw [sub_self, zero_div]; norm_num)
    rwa [hz] at this
  have hqA' : qA = 2 * (countLog E.gammaln s b b 0 - countLog E.gammaln s b b v) := by
    have := countLog_ratio (G := E.gammaln) (n := b) hs hb hv.le
    rw [hz] at this
    rw [hqA, this]
  have hpos : 0 < qA := hqA ▸ countingStat_pos hb0 (by nlinarith)
  have hmain : ∀ e : Expect, ∀ k, k = (if e = .apriori then b else n) → 0 ≤ k ∧ (k - b) / s ≤ 10 := by
    rintro e k rfl
    split
    · exact ⟨hb0.le, by rw [sub_self, zero_div]; norm_num⟩
    · exact ⟨hn, h10⟩
  have hle : ∀ k, 0 ≤ k → max ((k - b) / s) 0 ≤ v → countLog E.gammaln s b k v ≤ countLog E.gammaln s b k (max ((k - b) / s) 0) := by
    intro k hk hkv
    have hbest := countLog_ratio (G := E.gammaln) (n := k) hs hb hv.le
    have hkb : max k b ≤ v * s + b := by
      refine max_le ?_ (by nlinarith)
      have := (le_max_left _ _).trans hkv
      rw [div_le_iff₀ hs] at this
      linarith
    have : 0 ≤ countingStat k b (v * s + b) := by
      rcases hkb.eq_or_lt with h' | h'
      · unfold countingStat
        rw [← h', div_self (lt_of_lt_of_le hb0 (le_max_right _ _)).ne']
        simp
      · have := poissonLog_down (G := fun _ => 0) hk (lt_of_lt_of_le hb0 (le_max_right _ _)) h' (le_max_left k b)
        unfold poissonLog at this
        unfold countingStat
        rw [Real.log_div (lt_of_lt_of_le hb0 (le_max_right _ _)).ne' (by nlinarith : (0 : ℝ) < v * s + b).ne']
        linarith
    linarith
  have hex : ∀ e : Expect, ∀ k, k = (if e = .apriori then b else n) → _ := fun e k hk =>
    single_qtilde hS hT hB (fun y => by rw [counting_none E draw h e, ← hk]) (counting_log E draw h e b) hasi
      (countLog_best hs hb (hmain e k hk).1 (hmain e k hk).2) hxA hmu hv hqA' hpos g ntoys available hav percentile w hw
  have hiff : max ((n - b) / s) 0 ≤ v ↔ n ≤ v * s + b := by
    rw [max_le_iff, div_le_iff₀ hs]
    constructor
    · intro h'; linarith [h'.1]
    · intro h'; exact ⟨by linarith, hv.le⟩
  refine ⟨fun hnv => ?_, fun hnv => ?_, fun e he => ?_⟩
  · exact (hex .observed n rfl).1 q rfl (hiff.mpr hnv) (hle n hn (hiff.mpr hnv)) (by rw [countLog_ratio hs hb hv.le, hq])
  · exact (hex .observed n rfl).2.1 rfl (lt_of_not_ge fun h' => absurd (hiff.mp h') (not_le.mpr hnv))
  · exact (hex e _ rfl).2.2 he (hle _ (hmain e _ rfl).1)

/-- The same experiment, tested with signal strength 5. -/
example (E : Ext) (draw) : ∃ m, (exclusion (modelMethods perfect (plugged E draw m) true none (.int 100) (fun _ => true) fun _ _ => nan) (.float 5) .observed false
    .asymptotic (⟨[1], none, none⟩ : World)).1 =
      .ok (.one [fin (1 - Phi (-eq66 (countingStat 60 50 (5 * 5 + 50)) (countingStat 50 50 (5 * 5 + 50)) - √(countingStat 50 50 (5 * 5 + 50))) /
        Phi (-eq66 (countingStat 60 50 (5 * 5 + 50)) (countingStat 50 50 (5 * 5 + 50))))]) := by
  obtain ⟨m, hm⟩ := Backend.poisson_accepts [5] [50] [60] rfl
  exact ⟨m, (C120_levels perfect_exact perfect_finds E draw hm (by norm_num) (by norm_num) (by norm_num) (by norm_num) (mu := .float 5) rfl (by norm_num) rfl rfl true
    (.int 100) (fun _ => true) rfl (fun _ _ => nan) ⟨[1], none, none⟩ ⟨rfl, rfl, rfl⟩).1 (by norm_num)⟩

end Verif.Chain
