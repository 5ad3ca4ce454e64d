import Verif.Backend.Props

/-!
# Property C106: fits of Asimov data
-/

namespace Verif.Backend
open Verif.Py F

/-- Among all parameter vectors of length `n`, the function has its largest value at `x` (and raises nowhere). -/
def BestAt (n : ℕ) (f : Vec → Except Err ℝ) (x : Vec) : Prop :=
  ∃ v, f x = .ok v ∧ ∀ y : Vec, y.length = n → ∃ u, f y = .ok u ∧ u ≤ v

/-- The quadratic form of a matrix is never negative. -/
def NonNegative (n : ℕ) (P : ℕ → ℕ → ℝ) : Prop :=
  ∀ x : ℕ → ℝ, 0 ≤ ∑ i ∈ Finset.range n, ∑ j ∈ Finset.range n, x i * P i j * x j

theorem poissonLog_le (g : ℝ → ℝ) {d l : ℝ} (hd : 0 < d) (hl : 0 < l) : poissonLog g d l ≤ poissonLog g d d := by
  have h := Real.log_le_sub_one_of_pos (div_pos hl hd)
  rw [Real.log_div hl.ne' hd.ne'] at h
  have h2 := mul_le_mul_of_nonneg_left h hd.le
  have h3 : d * (l / d - 1) = l - d := by field_simp
  unfold poissonLog
  linarith

theorem stdLog_le (x : ℝ) : stdLog x ≤ stdLog 0 := by
  unfold stdLog
  nlinarith [sq_nonneg x]

theorem mvnLog_le {n : ℕ} {P : ℕ → ℕ → ℝ} (hP : NonNegative n P) (l : ℝ) (x y : ℕ → ℝ) (hy : ∀ i < n, y i = 0) :
    mvnLog n P l x ≤ mvnLog n P l y := by
  have h0 : ∑ i ∈ Finset.range n, ∑ j ∈ Finset.range n, y i * P i j * y j = 0 := by
    apply Finset.sum_eq_zero
    intro i hi
    apply Finset.sum_eq_zero
    intro j _
    rw [hy i (Finset.mem_range.mp hi)]
    ring
  unfold mvnLog
  rw [h0]
  have := hP x
  linarith

theorem clip_pos (x : ℝ) : 0 < max x (1 / 10 ^ 20) := lt_max_of_lt_right (by positivity)

/-- The log-likelihood of a Poisson model without constraint terms. -/
theorem poisson_loglik (E : Ext) (m : Model) (r : Vec → Except Err Vec) (hm : m.main = .poisson r) (hc : m.constraint = none)
    (n : ℕ) (f : ℕ → ℝ) (pars D : Vec) (hr : m.main.rate pars = .ok ((List.range n).map f)) (hD : D.length = n) (e : Expectation) :
    logpdf E m e (some D) pars = .ok (∑ i ∈ Finset.range n, poissonLog E.gammaln (at' D i) (max (f i) (1 / 10 ^ 20))) := by
  rw [hm] at hr
  simp only [Main.rate] at hr
  simp only [logpdf, hc, chosen, hm, Main.logProb]
  rw [hr, ok_bind, List.map_map, vec_eq D hD, bcast_map, ok_bind, pure_ok, sum_range_map]
  congr 1
  apply Finset.sum_congr rfl
  intro i hi
  rw [at'_map _ (Finset.mem_range.mp hi)]
  rfl

theorem poisson_best (E : Ext) (m : Model) (r : Vec → Except Err Vec) (hm : m.main = .poisson r) (hc : m.constraint = none)
    (n k : ℕ) (f : Vec → ℕ → ℝ) (hr : ∀ pars : Vec, pars.length = k → m.main.rate pars = .ok ((List.range n).map (f pars)))
    (x : Vec) (hx : x.length = k) (e : Expectation) :
    BestAt k (logpdf E m e (some ((List.range n).map fun i => max (f x i) (1 / 10 ^ 20)))) x := by
  refine ⟨_, poisson_loglik E m r hm hc n (f x) x _ (hr x hx) (by simp) e, fun y hy => ?_⟩
  refine ⟨_, poisson_loglik E m r hm hc n (f y) y _ (hr y hy) (by simp) e, ?_⟩
  apply Finset.sum_le_sum
  intro i hi
  rw [at'_map _ (Finset.mem_range.mp hi)]
  exact poissonLog_le _ (clip_pos _) (clip_pos _)

/-- C106. The models without constraint terms: whatever the parameters are, a fit of their Asimov data finds nothing better than these
parameters. For the multivariate normal model the inverse of the covariance matrix has to be a non-negative form. -/
theorem C106_simple (E : Ext) (a : Args) (hf : Fits a) (aux : Bool) (e : Expectation) :
    (∀ sigma m, sigma.length = a.data.length → gaussian a sigma = .ok m → ∀ x D : Vec, x.length = m.config.npar →
      expectedData m x aux = .ok D → BestAt m.config.npar (logpdf E m e (some D)) x) ∧
    (∀ cov m, multivariate a cov = .ok m → (E.inv cov).length = a.data.length → (∀ r ∈ E.inv cov, r.length = a.data.length) →
      NonNegative a.data.length (fun i j => at' ((E.inv cov).getD i []) j) → ∀ x D : Vec, x.length = m.config.npar →
      expectedData m x aux = .ok D → BestAt m.config.npar (logpdf E m e (some D)) x) ∧
    (∀ y s m, a.signal = .array y → poisson y a.background a.data s = .ok m → ∀ x D : Vec, x.length = m.config.npar →
      expectedData m x aux = .ok D → BestAt m.config.npar (logpdf E m e (some D)) x) := by
  obtain ⟨h1, h2, h3, h4⟩ := C53_expected_simple a hf aux
  obtain ⟨r1, r2, r3, r4⟩ := C51_simple_rate a hf
  refine ⟨fun sigma m hl hm x D hx hD => ?_, fun cov m hm hi1 hi2 hP x D hx hD => ?_, fun y s m hy hm x D hx hD => ?_⟩
  · rw [h1 sigma m hm x hx, Except.ok.injEq] at hD
    have hDl : D.length = a.data.length := by rw [← hD]; simp
    refine ⟨_, C53_loglik_gaussian E a sigma m hm hl hf x D hx hDl e, fun z hz =>
      ⟨_, C53_loglik_gaussian E a sigma m hm hl hf z D hz hDl e, ?_⟩⟩
    apply Finset.sum_le_sum
    intro i hi
    rw [← hD, at'_map _ (Finset.mem_range.mp hi), sub_self, zero_div]
    have := stdLog_le ((at' x 0 * signalAt a x i + at' a.background i - (at' z 0 * signalAt a z i + at' a.background i)) / at' sigma i)
    linarith
  · rw [h2 cov m hm x hx, Except.ok.injEq] at hD
    have hDl : D.length = a.data.length := by rw [← hD]; simp
    refine ⟨_, C53_loglik_multivariate E a cov m hm hf hi1 hi2 x D hx hDl e, fun z hz =>
      ⟨_, C53_loglik_multivariate E a cov m hm hf hi1 hi2 z D hz hDl e, ?_⟩⟩
    apply mvnLog_le hP
    intro i hi
    rw [← hD, at'_map _ hi, sub_self]
  · cases s with
    | none =>
      rw [h3 y m hy hm x hx, Except.ok.injEq] at hD
      obtain ⟨q1, q2, q3⟩ := r3 y m hy hm
      obtain ⟨c, hc, _, _, h5, h6⟩ := poisson_ok hm
      rcases h6 with ⟨_, h6, _⟩ | ⟨s, hs, _⟩
      · rw [← hD]
        exact poisson_best E m _ h6 q2 _ _ _ q3 x hx e
      · simp at hs
    | some s =>
      rw [h4 y s m hy hm x hx, Except.ok.injEq] at hD
      obtain ⟨q1, q2, q3⟩ := r4 y s m hy hm
      obtain ⟨c, hc, _, _, h5, h6⟩ := poisson_ok hm
      rcases h6 with ⟨hs, _⟩ | ⟨s', hs, _, h6, _⟩
      · simp at hs
      · rw [← hD]
        exact poisson_best E m _ h6 q2 _ _ _ q3 x hx e

/-- Two bins, POI 3: the Asimov data are 8 and 10. -/
example : ∃ m, poisson [1, 1] [5, 7] [6, 6] none = .ok m ∧ m.config.npar = 1 ∧ expectedData m [3] true = .ok [8, 10] ∧
    BestAt 1 (logpdf exExt m .observed (some [8, 10])) [3] := by
  obtain ⟨m, hm⟩ := poisson_accepts [1, 1] [5, 7] [6, 6] rfl
  let a : Args := ⟨.array [1, 1], [5, 7], [6, 6], none, 0, none⟩
  have hf : Fits a := ⟨rfl, rfl⟩
  have hn := ((C51_simple_rate a hf).2.2.1 _ m rfl hm).1
  have hD : expectedData m [3] true = .ok [8, 10] := by
    rw [(C53_expected_simple a hf true).2.2.1 _ m rfl hm [3] (by rw [hn]; rfl)]
    simp [a, at', List.range_succ]
    norm_num
  have h := (C106_simple exExt a hf true .observed).2.2 _ none m rfl hm [3] _ (by rw [hn]; rfl) hD
  have hn' := hn
  generalize m.config.npar = k at h hn
  subst hn
  exact ⟨m, hm, hn', hD, h⟩

/-- `m` is one of the four simplified models; for the three with a matrix its inverse has the right shape and is a non-negative form. -/
inductive Regular (E : Ext) (a : Args) (m : Model) : (ℕ → ℝ → ℝ) → Prop
  | uncorrelated (sigma : Vec) (h : Backend.uncorrelated a sigma = .ok m) (hl : sigma.length = a.data.length) :
      Regular E a m fun i t => at' a.background i + at' sigma i * t
  | matrix (bin : ℕ → ℝ → ℝ) (corr : List Vec) (h : WithMatrix a m bin corr) (hi1 : (E.inv corr).length = a.data.length)
      (hi2 : ∀ r ∈ E.inv corr, r.length = a.data.length)
      (hP : NonNegative a.data.length (fun i j => at' ((E.inv corr).getD i []) j)) : Regular E a m bin

theorem Regular.simplified {E : Ext} {a : Args} {m : Model} {bin : ℕ → ℝ → ℝ} (h : Regular E a m bin) (hf : Fits a) : Simplified a m bin := by
  cases h with
  | uncorrelated sigma h hl => exact .uncorrelated sigma h hl
  | matrix _ corr h hi1 hi2 hP => exact (h.shape hf).1

/-- The log-likelihood is a Poisson term per bin plus a function of the nuisance parameters that is largest where they vanish. -/
theorem Regular.loglik {E : Ext} {a : Args} {m : Model} {bin : ℕ → ℝ → ℝ} (h : Regular E a m bin) (hf : Fits a) (ss : List Synth.Source)
    (hs : Sources a ss) (e : Expectation) : ∃ k : Vec → ℝ,
      (∀ pars D : Vec, pars.length = m.config.npar → a.data.length ≤ D.length → logpdf E m e (some D) pars = .ok (
        ∑ i ∈ Finset.range a.data.length, poissonLog E.gammaln (at' D i)
          (max (at' pars 0 * signalAt a pars i * factorAt a ss pars i + bin i (at' pars (1 + a.nsp + i))) (1 / 10 ^ 20)) + k pars)) ∧
      ∀ pars x : Vec, (∀ i < a.data.length + sourceCount a.data.length ss, at' x (1 + a.nsp + i) = 0) → k pars ≤ k x := by
  cases h with
  | uncorrelated sigma h hl =>
    refine ⟨_, fun pars D hp hD => C53_loglik_uncorrelated E a sigma m h hl hf ss hs pars D hp hD e, fun pars x hx => ?_⟩
    apply add_le_add
    · apply Finset.sum_le_sum
      intro i hi
      rw [hx i (by have := Finset.mem_range.mp hi; omega)]
      exact stdLog_le _
    · apply Finset.sum_le_sum
      intro i hi
      rw [_root_.add_assoc (1 + a.nsp), hx (a.data.length + i) (by have := Finset.mem_range.mp hi; omega)]
      exact stdLog_le _
  | matrix _ corr h hi1 hi2 hP =>
    refine ⟨_, fun pars D hp hD => C53_loglik_matrix E a m bin corr h hf ss hs hi1 hi2 pars D hp hD e, fun pars x hx => ?_⟩
    apply add_le_add
    · exact mvnLog_le hP _ _ _ fun i hi => hx i (by omega)
    · apply Finset.sum_le_sum
      intro i hi
      rw [_root_.add_assoc (1 + a.nsp), hx (a.data.length + i) (by have := Finset.mem_range.mp hi; omega)]
      exact stdLog_le _

/-- C106. The four simplified models: if the nuisance parameters vanish, a fit of the Asimov data finds nothing better than the
parameters that made them. Missing: nuisance parameters that do not vanish, for which the claim is false (`C106_refit_fails`). -/
theorem C106_refit_partial (E : Ext) (a : Args) (m : Model) (bin : ℕ → ℝ → ℝ) (h : Regular E a m bin) (hf : Fits a)
    (ss : List Synth.Source) (hs : Sources a ss) (aux : Bool) (e : Expectation) (x D : Vec) (hx : x.length = m.config.npar)
    (h0 : ∀ i < a.data.length + sourceCount a.data.length ss, at' x (1 + a.nsp + i) = 0) (hD : expectedData m x aux = .ok D) :
    BestAt m.config.npar (logpdf E m e (some D)) x := by
  obtain ⟨v, v1, v2, v3, v4, -⟩ := C53_expected_data E a m bin (h.simplified hf) hf ss hs x hx
  obtain ⟨k, hk, hk0⟩ := h.loglik hf ss hs e
  have hDv : a.data.length ≤ D.length ∧ ∀ i < a.data.length, at' D i = at' v i := by
    cases aux
    · rw [v1, Except.ok.injEq] at hD
      subst hD
      exact ⟨v2.ge, fun i _ => rfl⟩
    · rw [v4, Except.ok.injEq] at hD
      subst hD
      refine ⟨by rw [List.length_append, v2]; omega, fun i hi => ?_⟩
      simp [at', List.getD, List.getElem?_append_left (by rw [v2]; exact hi : i < v.length)]
  refine ⟨_, hk x D hx hDv.1, fun y hy => ⟨_, hk y D hy hDv.1, ?_⟩⟩
  apply add_le_add _ (hk0 y x h0)
  apply Finset.sum_le_sum
  intro i hi
  rw [hDv.2 i (Finset.mem_range.mp hi), v3 i (Finset.mem_range.mp hi)]
  exact poissonLog_le _ (clip_pos _) (clip_pos _)

/-- C106. Before the fit (`apriori`), the simplified models with background `b_i` at vanishing nuisance parameters (all but that of the third moments)
give vanishing nuisance parameters when fitted without signal, whatever the signal parameters are; so `C106_refit_partial` applies to the
Asimov data of this fit, which are the background, and a fit of them finds nothing better than no signal. -/
theorem C106_apriori (E : Ext) (a : Args) (m : Model) (bin : ℕ → ℝ → ℝ) (h : Regular E a m bin) (hf : Fits a)
    (ss : List Synth.Source) (hs : Sources a ss) (hb : ∀ i < a.data.length, bin i 0 = at' a.background i)
    (hpos : ∀ i < a.data.length, 1 / 10 ^ 20 ≤ at' a.background i) (x : Vec) (hx : x.length = m.config.npar) (h00 : at' x 0 = 0)
    (h0 : ∀ i < a.data.length + sourceCount a.data.length ss, at' x (1 + a.nsp + i) = 0) :
    BestAt m.config.npar (logpdf E m .apriori none) x ∧ expectedData m x false = .ok a.background ∧
      BestAt m.config.npar (logpdf E m .apriori (some a.background)) x := by
  obtain ⟨v, v1, v2, v3, -, -⟩ := C53_expected_data E a m bin (h.simplified hf) hf ss hs x hx
  have hv : v = a.background := by
    rw [vec_eq v v2, vec_eq a.background hf.1]
    apply List.map_congr_left
    intro i hi
    have hi := List.mem_range.mp hi
    rw [v3 i hi, h00, h0 i (by omega), hb i hi, zero_mul, zero_mul, _root_.zero_add, max_eq_left (hpos i hi)]
  have hr := C106_refit_partial E a m bin h hf ss hs false .apriori x v hx h0 v1
  rw [hv] at hr v1
  refine ⟨?_, v1, hr⟩
  have e : ∀ pars, logpdf E m .apriori none pars = logpdf E m .apriori (some a.background) pars := by
    intro pars
    have hbg : m.background = a.background := by
      obtain ⟨n, g, pdf, hm, -⟩ := (h.simplified hf).shape hf
      obtain ⟨unc, c, hu, hc, h1, h2, -⟩ := simplified_ok hm
      exact h2
    simp [logpdf, chosen, hbg]
  obtain ⟨w, hw, hw'⟩ := hr
  exact ⟨w, by rw [e]; exact hw, fun y hy => by rw [e]; exact hw' y hy⟩

/-- The example with two bins, a normalisation and a shape uncertainty. -/
example : ∃ m bin, Regular exExt exArgs m bin ∧ Fits exArgs ∧ Sources exArgs Synth.exSources ∧
    (∀ i < 2, bin i 0 = at' exArgs.background i) ∧ (∀ i < 2, 1 / 10 ^ 20 ≤ at' exArgs.background i) := by
  obtain ⟨m, hm⟩ := exBuilt
  refine ⟨m, _, .uncorrelated [3, 4] hm rfl, exArgs_fits, exArgs_sources, fun i hi => by simp, ?_⟩
  intro i hi
  rcases i with _ | _ | i
  · norm_num [exArgs, at']
  · norm_num [exArgs, at']
  · omega

/-- One bin with background 4 ± 1, signal 1 and 10 events. -/
def exPull : Args := ⟨.array [1], [4], [10], none, 0, none⟩

theorem exPull_built : ∃ m, uncorrelated exPull [1] = .ok m ∧ m.config.npar = 2 ∧
    (∀ (E : Ext) (e : Expectation) (x y d : ℝ) (w : Vec), logpdf E m e (some (d :: w)) [x, y] =
      .ok (poissonLog E.gammaln d (max (x + (4 + y)) (1 / 10 ^ 20)) + stdLog y)) ∧
    (∀ (E : Ext) (x y : ℝ), logpdf E m .observed none [x, y] =
      .ok (poissonLog E.gammaln 10 (max (x + (4 + y)) (1 / 10 ^ 20)) + stdLog y)) ∧
    ∀ x y : ℝ, expectedData m [x, y] true = .ok [max (x + (4 + y)) (1 / 10 ^ 20), 0] := by
  have hf : Fits exPull := ⟨rfl, rfl⟩
  have hs : Sources exPull [] := .inl ⟨rfl, rfl⟩
  obtain ⟨m, hm⟩ := simplified_accepts exPull hf [] hs rfl [(1 : ℝ)].length (linear exPull.background [1])
    (.normal (List.replicate exPull.data.length 0) (List.replicate [(1 : ℝ)].length 1) (.slice (1 + exPull.nsp) [(1 : ℝ)].length))
  have hm' : uncorrelated exPull [1] = .ok m := hm
  have hS : Simplified exPull m _ := .uncorrelated [1] hm' rfl
  have hn : m.config.npar = 2 := by
    rw [(C51_partition _ _ _ hS hf [] hs).1]
    rfl
  have hl : ∀ (E : Ext) (e : Expectation) (x y d : ℝ) (w : Vec), logpdf E m e (some (d :: w)) [x, y] =
      .ok (poissonLog E.gammaln d (max (x + (4 + y)) (1 / 10 ^ 20)) + stdLog y) := by
    intro E e x y d w
    rw [C53_loglik_uncorrelated E exPull [1] m hm' rfl hf [] hs [x, y] (d :: w) (by rw [hn]; rfl) (by simp [exPull]) e]
    simp [exPull, at', signalAt, factorAt, Synth.product, sourceCount]
  refine ⟨m, hm', hn, hl, fun E x y => ?_, fun x y => ?_⟩
  · have hd : m.data = [10] := by
      obtain ⟨unc, c, hu, hc, h1, -⟩ := simplified_ok hm
      exact h1
    rw [← hl E .observed x y 10 []]
    simp [logpdf, chosen, hd]
  · obtain ⟨v, v1, v2, v3, v4, -⟩ := C53_expected_data exExt exPull m _ hS hf [] hs [x, y] (by rw [hn]; rfl)
    obtain ⟨z, rfl⟩ := List.length_eq_one_iff.mp v2
    have := v3 0 (by simp [exPull])
    simp [exPull, at', signalAt, factorAt, Synth.product] at this
    rw [v4, this]
    simp [exPull, sourceCount]

/-- C106 is false in general. With background 4 ± 1 and 10 events, the best fit without signal has the nuisance parameter 1 and expects 5
events. A fit of these 5 events, the Asimov data without signal, finds signal strength 1 and no pull, and nothing without signal is as good. The reason
is that the auxiliary data stay at zero. -/
theorem C106_refit_fails : ∃ m, uncorrelated exPull [1] = .ok m ∧ m.config.npar = 2 ∧ ∀ E : Ext,
    (∃ v, logpdf E m .observed none [0, 1] = .ok v ∧ ∀ t, ∃ u, logpdf E m .observed none [0, t] = .ok u ∧ u ≤ v) ∧
    expectedData m [0, 1] true = .ok [5, 0] ∧
    BestAt 2 (logpdf E m .observed (some [5, 0])) [1, 0] ∧
    ∀ v, logpdf E m .observed (some [5, 0]) [1, 0] = .ok v → ∀ t, ∃ u, logpdf E m .observed (some [5, 0]) [0, t] = .ok u ∧ u < v := by
  obtain ⟨m, hm, hn, hl, hlo, hd⟩ := exPull_built
  have e5 : max ((0 : ℝ) + (4 + 1)) (1 / 10 ^ 20) = 5 := by norm_num
  have e5' : max ((1 : ℝ) + (4 + 0)) (1 / 10 ^ 20) = 5 := by norm_num
  refine ⟨m, hm, hn, fun E => ⟨⟨_, hlo E 0 1, fun t => ⟨_, hlo E 0 t, ?_⟩⟩, by rw [hd, e5],
    ⟨_, hl E _ 1 0 5 [0], fun y hy => ?_⟩, fun v hv t => ⟨_, hl E _ 0 t 5 [0], ?_⟩⟩⟩
  · rw [e5]
    obtain ⟨z, hz⟩ : ∃ z, z = max (0 + (4 + t)) (1 / 10 ^ 20) := ⟨_, rfl⟩
    rw [← hz]
    have hz0 : 0 < z := by rw [hz]; exact clip_pos _
    have hlog : Real.log z ≤ Real.log 5 + (z / 5 - 1) := by
      have := Real.log_le_sub_one_of_pos (show 0 < z / 5 by positivity)
      rw [Real.log_div hz0.ne' (by norm_num)] at this
      linarith
    have hzt : z - t ^ 2 / 2 ≤ 5 - 1 / 2 := by
      rcases le_total (0 + (4 + t)) (1 / 10 ^ 20) with h | h
      · rw [max_eq_right h] at hz
        have h1 : (1 : ℝ) / 10 ^ 20 ≤ 1 := by norm_num
        have h2 := sq_nonneg t
        linarith
      · rw [max_eq_left h] at hz
        nlinarith [sq_nonneg (t - 1)]
    unfold poissonLog stdLog
    linarith
  · match y, hy with
    | [x, t], _ =>
      refine ⟨_, hl E _ x t 5 [0], ?_⟩
      rw [e5']
      exact add_le_add (poissonLog_le _ (by norm_num) (clip_pos _)) (stdLog_le t)
  · rw [hl, Except.ok.injEq, e5'] at hv
    subst hv
    obtain ⟨z, hz⟩ : ∃ z, z = max (0 + (4 + t)) (1 / 10 ^ 20) := ⟨_, rfl⟩
    rw [← hz]
    have hz0 : 0 < z := by rw [hz]; exact clip_pos _
    by_cases ht : t = 0
    · subst ht
      have hz4 : z = 4 := by rw [hz]; norm_num
      subst hz4
      have := Real.log_lt_sub_one_of_pos (show (0 : ℝ) < 4 / 5 by norm_num) (by norm_num)
      rw [Real.log_div (by norm_num) (by norm_num)] at this
      unfold poissonLog stdLog
      linarith
    · have h1 := poissonLog_le E.gammaln (show (0 : ℝ) < 5 by norm_num) hz0
      have h2 : 0 < t ^ 2 := by positivity
      have h3 : stdLog t < stdLog 0 := by
        unfold stdLog
        linarith
      linarith

end Verif.Backend
