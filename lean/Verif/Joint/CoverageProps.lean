import Verif.Joint.Coverage
import Verif.Joint.LimitProps

/-!
# Property C193: how often a combination excludes a signal that exists
-/

namespace Verif.Joint
open MeasureTheory ProbabilityTheory
open Verif.Py F Verif.Hypotest Verif.Chain
open Verif.Interface (MuHat Data World Size Plain Solver perfect)
open Verif.Stats (Expect Calc Levels gaussianLog gaussianLevel levelsOf)
open Verif.Backend (Ext Vec Args Fits at')
open Verif.UpperLimit (Expected Band Limit Entries Sound Reaches)
open Verif.Uncorrelated (stat_nonneg stat_strength entry entry_mono)

/-- Levels of at least `CL` mean that the measured strength is small. -/
theorem level_small {σ v x t CL : ℝ} (hσ : 0 < σ) (hCL : 1 / 2 ≤ CL) (hCL1 : CL < 1) (ht : Phi t = 1 - CL) (h : CL ≤ gaussianLevel σ (min x v) v) : x ≤ v + t * σ := by
  have ht0 : t ≤ 0 := by
    by_contra hlt
    have := Phi_strictMono (not_le.mp hlt)
    rw [Phi_zero, ht] at this
    linarith
  unfold gaussianLevel at h
  have hp := Phi_pos (min x v / σ)
  have h2 : Phi ((min x v - v) / σ) < Phi t := by
    rw [ht]
    have h3 : Phi ((min x v - v) / σ) / Phi (min x v / σ) ≤ 1 - CL := by linarith
    rw [div_le_iff₀ hp] at h3
    have := mul_lt_mul_of_pos_left (Phi_lt_one (min x v / σ)) (by linarith : 0 < 1 - CL)
    linarith
  have h3 : (min x v - v) / σ < t := by
    by_contra hge
    exact absurd h2 (not_lt.mpr (Phi_mono (not_lt.mp hge)))
  rw [div_lt_iff₀ hσ] at h3
  have h4 : t * σ ≤ 0 := mul_nonpos_of_nonpos_of_nonneg ht0 hσ.le
  have h5 : x < v := by
    by_contra hge
    rw [min_eq_right (not_lt.mp hge)] at h3
    linarith
  rw [min_eq_left h5.le] at h3
  linarith

section
variable {Ω : Type} [MeasurableSpace Ω] {μ : Measure Ω} [IsProbabilityMeasure μ] {n : ℕ} (hn : 0 < n) {E : Ext} {a : ℕ → Args} {P C : ℕ → ℕ → ℕ → ℝ} {y : ℕ → Vec} {u : ℝ} {X : ℕ → Ω → Vec}
  {m : ℕ → Ω → Backend.Model} (hx : Together μ n E a P C y u X m) {fit : Minimizer (ℕ → World)} (hfit : Reliable fit) {S : Solver} (hS : Exact S) (hT : Finds S) (draw : Vec × List Vec → ℕ → List Vec)
  {name : ℕ → String} (hname : Distinct n name) {inv : List (List ℝ) → Except Interface.Err (List (List ℝ))} (hinv : InvertsNumbers inv) (g : Bool) (ntoys : Size)
  (available : ℕ → Calc → Bool) (percentile percentile' : List F → F → F)
include hn hx hfit hS hT hname hinv

/-- C193. Data of several independent Gaussian models (independent bins or covariance matrices, any numbers of bins) with a signal of strength `u`: the probability that `exclusion_confidence_level` of the
combination reports a level of at least `CL` for a strength that is not larger is at most `1 - CL`. For confidence levels of at least one half (`C182_low_fails` for a single model). -/
theorem C193_excluded (hav : ∀ i < n, available i .asymptotic = true) {mu : Mu} {v : ℝ} (hmu : mu.Is v) (hv : 0 < v) (hv10 : v ≤ 10) (hvu : v ≤ u) {CL : ℝ} (hCL : 1 / 2 ≤ CL) (hCL1 : CL < 1) :
    μ.real {ω | ∃ l, CL ≤ l ∧ Ends (All n fun _ => 1) (exclusion (combined fit (members n name S inv E draw (fun i => m i ω) g ntoys available percentile') percentile) mu .observed false .asymptotic)
      (.ok (.one [fin l]))} ≤ 1 - CL := by
  have hσ : 0 < pooledDeviation n (deviationOf a P y) := pooledDeviation_pos hn fun i hi => hx.positive hi
  obtain ⟨t, ht⟩ := Phi_surj (p := 1 - CL) (by linarith) (by linarith)
  obtain ⟨w, hw⟩ := plain_exists 1
  have hsub : {ω | ∃ l, CL ≤ l ∧ Ends (All n fun _ => 1) (exclusion (combined fit (members n name S inv E draw (fun i => m i ω) g ntoys available percentile') percentile) mu .observed false .asymptotic)
      (.ok (.one [fin l]))} ⊆ {ω | pooled n (measuredBy a P y X ω) (deviationOf a P y) ≤ v + t * pooledDeviation n (deviationOf a P y)} := by
    rintro ω ⟨l, hl, hE⟩
    have hk : ∀ i < n, ({ a i with data := X i ω } : Args).data.length = (a i).background.length := fun i hi => (hx.each i hi).length ω
    have hobs := joint_observed hfit hS hT draw hn (a := fun i => { a i with data := X i ω }) (m := fun i => m i ω) (Q := P) (y := y) (fun i hi => (hx.each i hi).models ω) hname hinv g ntoys available hav
      percentile percentile' .observed (est := measuredBy a P y X ω) (dev := deviationOf a P y) (fun i hi => by rw [hk i hi]; rfl) (fun i hi => by rw [hk i hi]; rfl) rfl rfl rfl hmu hv hv10
    have h1 := (hE (fun _ => w) fun _ _ => hw).1
    rw [(hobs (fun _ => w) fun _ _ => hw).1] at h1
    simp only [Except.ok.injEq, Levels.one.injEq, List.cons.injEq, fin.injEq, and_true] at h1
    exact level_small hσ hCL hCL1 ht (h1 ▸ hl)
  refine (measureReal_mono hsub).trans ?_
  rw [(hx.strength hn _).1, ← ht]
  refine Phi_mono ?_
  rw [div_le_iff₀ hσ]
  linarith

/-- C193. Without signal, the p-value that `significance` of the combination reports is at most `α` with probability `α` at most. -/
theorem C193_discovery (h0 : u = 0) {α : ℝ} (hα : 0 < α) (hα1 : α < 1 / 2) :
    μ.real {ω | ∃ p, p ≤ α ∧ ∃ A Z l, Ends (All n fun _ => 1) (significance (combined fit (members n name S inv E draw (fun i => m i ω) g ntoys available percentile') percentile) .observed)
      (.ok (A, Z, [fin p], l))} ≤ α := by
  have hσ : 0 < pooledDeviation n (deviationOf a P y) := pooledDeviation_pos hn fun i hi => hx.positive hi
  obtain ⟨t, ht⟩ := Phi_surj (p := α) hα (by linarith)
  have ht0 : t < 0 := by
    by_contra hge
    have := Phi_mono (not_lt.mp hge)
    rw [Phi_zero, ht] at this
    linarith
  obtain ⟨w, hw⟩ := plain_exists 1
  have hlaw := (hx.strength hn (-t * pooledDeviation n (deviationOf a P y))).2
  have hsub : {ω | ∃ p, p ≤ α ∧ ∃ A Z l, Ends (All n fun _ => 1) (significance (combined fit (members n name S inv E draw (fun i => m i ω) g ntoys available percentile') percentile) .observed)
      (.ok (A, Z, [fin p], l))} ⊆ {ω | -t * pooledDeviation n (deviationOf a P y) ≤ pooled n (measuredBy a P y X ω) (deviationOf a P y)} := by
    rintro ω ⟨p, hp, A, Z, l, hE⟩
    have hk : ∀ i < n, ({ a i with data := X i ω } : Args).data.length = (a i).background.length := fun i hi => (hx.each i hi).length ω
    by_contra hlt
    simp only [Set.mem_ofPred_eq, not_le] at hlt
    -- a mean above 10 is possible with a large deviation only
    obtain ⟨low, c, c', hl0, hlow, hc⟩ := gaussian_calls hfit hS hT draw hn (a := fun i => { a i with data := X i ω }) (m := fun i => m i ω) (Q := P) (y := y) (fun i hi => (hx.each i hi).models ω) hname.nodup
      hinv g ntoys available percentile' .observed (x := measuredBy a P y X ω) (σ := deviationOf a P y) (fun i hi => by rw [hk i hi]; rfl) (fun i hi => by rw [hk i hi]; rfl)
    generalize pooled n (measuredBy a P y X ω) (deviationOf a P y) = x at *
    generalize pooledDeviation n (deviationOf a P y) = σ at *
    have hm : Interface.mayBeNegative "q0" = false := by simp [Interface.mayBeNegative]
    have hst : strength "q0" = 1 := by simp [strength]
    have hA := hc.bestA "q0"
    have hAl := fun u => hc.asimov "q0" u
    have hB := hc.best false
    rw [hm, hst] at hA
    simp only [hst] at hAl
    simp only [Bool.false_eq_true, if_false] at hA hB
    have k1 := nearest_is_best (c := c) (x := x) hσ (by norm_num : (0 : ℝ) ≤ 10)
    have k2 := nearest_is_best (c := c' "q0") (x := 1) hσ (by norm_num : (0 : ℝ) ≤ 10)
    have hp' := significance_fits (l0 := gaussianLog c σ x 0) (l0A := gaussianLog (c' "q0") σ 1 0) k1.1 k2.1 ((k1.2.2 0 le_rfl (by norm_num)).1) ((k2.2.2 0 le_rfl (by norm_num)).1)
    have hsig := C107_significance (I := All n fun _ => 1) (combined fit (members n name S inv E draw (fun i => m i ω) g ntoys available percentile') percentile) ⟨fun _ => w, fun _ _ => hw⟩ .observed _ _ _
      ⟨hB, hc.likelihood 0, hc.likelihood 0⟩ _ _ _ ⟨hA, hAl 0, hAl 0⟩
    rw [hp'] at hsig
    have h4 := (hE (fun _ => w) fun _ _ => hw).1
    rw [(hsig (fun _ => w) fun _ _ => hw).1] at h4
    simp only [Stats.discovery, Except.mapError, Except.ok.injEq, Prod.mk.injEq, List.cons.injEq, fin.injEq, and_true] at h4
    obtain ⟨-, -, h4, -⟩ := h4
    rw [neg_mul] at hlt
    have h5 : √(2 * (gaussianLog c σ x (nearest 0 x) - gaussianLog c σ x 0)) < -t := by
      rcases le_or_gt x 0 with hx0 | hx0
      · have : nearest 0 x = 0 := by simp [nearest, hx0]
        rw [this]
        simp [ht0]
      · have hle : √(2 * (gaussianLog c σ x (nearest 0 x) - gaussianLog c σ x 0)) ≤ x / σ := by
          refine Real.sqrt_le_iff.mpr ⟨by positivity, ?_⟩
          have e : 2 * (gaussianLog c σ x (nearest 0 x) - gaussianLog c σ x 0) = (x / σ) ^ 2 - ((nearest 0 x - x) / σ) ^ 2 := by
            unfold gaussianLog
            field_simp
            ring
          rw [e]
          linarith [sq_nonneg ((nearest 0 x - x) / σ)]
        refine hle.trans_lt ?_
        rw [div_lt_iff₀ hσ]
        linarith
    have h6 := Phi_strictMono h5
    rw [Phi_neg, ht] at h6
    linarith
  refine (measureReal_mono hsub).trans ?_
  rw [hlaw, ← ht, h0]
  refine le_of_eq ?_
  congr 1
  field_simp
  ring

/-- C193. As for a single model (`C182_low_fails`), this is false for smaller confidence levels: all data exclude the strength. -/
theorem C193_low_fails (hav : ∀ i < n, available i .asymptotic = true) {mu : Mu} {v : ℝ} (hmu : mu.Is v) (hv : 0 < v) (hv10 : v ≤ 10) :
    ∃ CL, 0 < CL ∧ CL < 1 / 2 ∧ μ.real {ω | ∃ l, CL ≤ l ∧ Ends (All n fun _ => 1)
      (exclusion (combined fit (members n name S inv E draw (fun i => m i ω) g ntoys available percentile') percentile) mu .observed false .asymptotic) (.ok (.one [fin l]))} = 1 := by
  have hσ : 0 < pooledDeviation n (deviationOf a P y) := pooledDeviation_pos hn fun i hi => hx.positive hi
  have hobs : ∀ ω, Ends (All n fun _ => 1) (exclusion (combined fit (members n name S inv E draw (fun i => m i ω) g ntoys available percentile') percentile) mu .observed false .asymptotic)
      (.ok (.one [fin (gaussianLevel (pooledDeviation n (deviationOf a P y)) (min (pooled n (measuredBy a P y X ω) (deviationOf a P y)) v) v)])) := by
    intro ω
    have hk : ∀ i < n, ({ a i with data := X i ω } : Args).data.length = (a i).background.length := fun i hi => (hx.each i hi).length ω
    exact joint_observed hfit hS hT draw hn (a := fun i => { a i with data := X i ω }) (m := fun i => m i ω) (Q := P) (y := y) (fun i hi => (hx.each i hi).models ω) hname hinv g ntoys available hav
      percentile percentile' .observed (est := measuredBy a P y X ω) (dev := deviationOf a P y) (fun i hi => by rw [hk i hi]; rfl) (fun i hi => by rw [hk i hi]; rfl) rfl rfl rfl hmu hv hv10
  generalize pooledDeviation n (deviationOf a P y) = σ at *
  have hp := Phi_pos (v / σ)
  have h12 : 1 / 2 < Phi (v / σ) := by
    have := Phi_strictMono (div_pos hv hσ)
    rwa [Phi_zero] at this
  have h1 := Phi_lt_one (v / σ)
  refine ⟨1 - 1 / 2 / Phi (v / σ), ?_, ?_, ?_⟩
  · rw [sub_pos, div_lt_one hp]
    exact h12
  · have : 1 / 2 < 1 / 2 / Phi (v / σ) := by
      rw [lt_div_iff₀ hp]
      linarith
    linarith
  · refine Eq.trans (congrArg μ.real (?_ : _ = Set.univ)) probReal_univ
    refine Set.eq_univ_of_forall fun ω => ⟨_, ?_, hobs ω⟩
    generalize pooled n (measuredBy a P y X ω) (deviationOf a P y) = x
    unfold gaussianLevel
    have hm := Phi_ratio_mono (div_nonneg hv.le hσ.le) (div_le_div_of_nonneg_right (min_le_right x v) hσ.le)
    rw [sub_self, Phi_zero] at hm
    rw [sub_div]
    linarith

/-- C193. The observed upper limit that `poi_upper_limit` of the combination returns is below the true strength (with the tolerance of the root finder) with probability `1 - CL` at most. -/
theorem C193_limit (hav : ∀ i < n, available i .asymptotic = true) (hu : 0 < u) (hu10 : u ≤ 10) {CL : ℝ} (hCL : 1 / 2 ≤ CL) (hCL1 : CL < 1) (fuel : ℕ) (T : Finder) (hstay : T.Stays) (tol : ℝ → ℝ)
    (hsound : Sound tol T.solver) (low hig : Option ℝ) (hlow : low = none ∨ hig = none ∨ ∃ a b, low = some a ∧ hig = some b ∧ 1e-10 ≤ a ∧ 0 ≤ b) (band : Band) {s₀ : ℕ → World}
    (hs₀ : All n (fun _ => 1) s₀) :
    μ.real {ω | ∃ L mu, (poiUpperLimit fuel T (combined fit (members n name S inv E draw (fun i => m i ω) g ntoys available percentile') percentile)
        (fun e v => sigmaMu (combined fit (members n name S inv E draw (fun i => m i ω) g ntoys available percentile') percentile) none (.float v) e "qtilde") true .observed CL low hig band s₀).1 =
          .ok (some L) ∧ fin mu ∈ L.values ∧ mu + tol mu ≤ u} ≤ 1 - CL := by
  refine (measureReal_mono ?_).trans (C193_excluded hn hx hfit hS hT draw hname hinv g ntoys available percentile percentile' hav (mu := .float u) rfl hu hu10 le_rfl hCL hCL1)
  rintro ω ⟨L, mu, hr, hmem, hle⟩
  have hσ : 0 < pooledDeviation n (deviationOf a P y) := pooledDeviation_pos hn fun i hi => hx.positive hi
  have hk : ∀ i < n, ({ a i with data := X i ω } : Args).data.length = (a i).background.length := fun i hi => (hx.each i hi).length ω
  have hst := fun {z : ℝ} (hz : 0 ≤ z) => joint_stats hfit hS hT draw hn (a := fun i => { a i with data := X i ω }) (m := fun i => m i ω) (Q := P) (y := y) (fun i hi => (hx.each i hi).models ω) hname hinv g ntoys
    available hav percentile percentile' .observed (est := measuredBy a P y X ω) (dev := deviationOf a P y) (fun i hi => by rw [hk i hi]; rfl) (fun i hi => by rw [hk i hi]; rfl) rfl rfl
    (mu := .float z) (v := z) rfl hz
  obtain ⟨lo, c, c', hl0, -, hc⟩ := gaussian_calls hfit hS hT draw hn (a := fun i => { a i with data := X i ω }) (m := fun i => m i ω) (Q := P) (y := y) (fun i hi => (hx.each i hi).models ω) hname.nodup
    hinv g ntoys available percentile' .observed (x := measuredBy a P y X ω) (σ := deviationOf a P y) (fun i hi => by rw [hk i hi]; rfl) (fun i hi => by rw [hk i hi]; rfl)
  have hav' := members_available (name := name) (S := S) (inv := inv) (E := E) (draw := draw) (m := fun i => m i ω) (g := g) (ntoys := ntoys) (percentile := percentile) (fit := fit)
    (percentile' := percentile') hav
  generalize pooled n (measuredBy a P y X ω) (deviationOf a P y) = x at *
  generalize pooledDeviation n (deviationOf a P y) = σ at *
  obtain ⟨M, hM⟩ : ∃ M, M = combined fit (members n name S inv E draw (fun i => m i ω) g ntoys available percentile') percentile := ⟨_, rfl⟩
  have hf : FitsFrom (All n fun _ => 1) M Expected.observed.toExpect (nearest 0 x) (fin (-(gaussianLog c σ x (nearest 0 x)))) (fun v => fin (-(gaussianLog c σ x v)))
      (nearest (if Interface.mayBeNegative "qtilde" then lo else 0) (strength "qtilde"))
      (fin (-(gaussianLog (c' "qtilde") σ (strength "qtilde") (nearest (if Interface.mayBeNegative "qtilde" then lo else 0) (strength "qtilde")))))
      fun v => fin (-(gaussianLog (c' "qtilde") σ (strength "qtilde") v)) := by
    have hB := hc.best false
    simp only [Bool.false_eq_true, if_false] at hB
    rw [hM]
    exact ⟨hB, fun v _ => hc.likelihood v, hc.bestA "qtilde", fun v _ => hc.asimov "qtilde" v⟩
  rw [← hM] at hr hav'
  have hstart : ∃ c d, 1e-10 ≤ c ∧ 0 ≤ d ∧ Ends (All n fun _ => 1) (starts (fun v => sigmaMu M none (.float v) Expected.observed.toExpect "qtilde") (.one (nearest 0 x)) low hig) (.ok (c, d)) := by
    have found : low = none ∨ hig = none → ∃ c d, 1e-10 ≤ c ∧ 0 ≤ d ∧
        Ends (All n fun _ => 1) (starts (fun v => sigmaMu M none (.float v) Expected.observed.toExpect "qtilde") (.one (nearest 0 x)) low hig) (.ok (c, d)) := by
      intro hn
      obtain ⟨c, d, h1, h2, h3⟩ := starts_found (I := All n fun _ => 1) (sigma := fun v => sigmaMu M none (.float v) Expected.observed.toExpect "qtilde") (m := nearest 0 x) (fun hb => by
        obtain ⟨z, -, hz⟩ := sigma_from ⟨s₀, hs₀⟩ hf (le_trans (by norm_num) hb.le)
        exact ⟨z, hz⟩) hn
      exact ⟨c, d, h1, le_trans (by norm_num) h2, h3⟩
    rcases hlow with h | h | ⟨a, d, rfl, rfl, h1, h2⟩
    · exact found (.inl h)
    · exact found (.inr h)
    · exact ⟨a, d, h1, h2, starts_given _ _ _ _⟩
  obtain ⟨a', b', h1, h2, h3⟩ := hstart
  obtain ⟨-, h4⟩ := limit_means ⟨s₀, hs₀⟩ hf hav' (sigma := fun e v => sigmaMu M none (.float v) e "qtilde") h3 h1 h2 hstay hsound hs₀ hr
  have hL : L.values = [fin mu] := by
    simp only [Entries] at h4
    generalize L.values = vs at h4 hmem
    cases h4 with
    | cons a b =>
      cases b
      simp only [List.mem_singleton] at hmem
      rw [hmem]
  rw [hL] at h4
  simp only [Entries, List.forall₂_cons, List.forall₂_nil_left_iff, and_true] at h4
  rcases h4 with ⟨mu', h5, -, z, r, h6, ⟨h7, ls, h8, h9⟩, h10⟩ | ⟨h5, -⟩
  · rw [fin.injEq] at h5
    subst h5
    have hz0 : 0 ≤ z := le_trans (by norm_num) h7
    have hzu : z ≤ u := by linarith [(abs_le.mp h6).2]
    have k1 := (h8 s₀ hs₀).1
    have k2 := (hst hz0 s₀ hs₀).1
    rw [← hM] at k2
    rw [Expected.toExpect, k2] at k1
    simp only [levelsOf, Except.ok.injEq, Levels.one.injEq] at k1
    rw [← k1] at h9
    simp only [List.getElem?_cons_zero, Option.some.injEq, fin.injEq] at h9
    have k3 := hst hu.le
    rw [← hM] at k3
    refine ⟨_, ?_, hM ▸ k3⟩
    have j1 := fun x => Toys.statOf_is (v := z) hσ x
    have j2 := fun x => Toys.statOf_is (v := u) hσ x
    have := entry_mono .observed (stat_nonneg (j1 _)) (stat_strength (Toys.parabola_concave hσ _) hzu (j1 x) (j2 _)) (stat_nonneg (j1 0))
      (stat_strength (Toys.parabola_concave hσ 0) hzu (j1 0) (j2 0)) 0
    simp only [entry] at this
    rw [← h9] at h10
    exact h10.trans this
  · exact absurd h5 (by simp)

/-- C193. The expected levels of the combination are quantiles of the observed one: with a signal of strength `u`, or none, the observed level reaches the expected one for data `k = i - 2` standard deviations above the
background with probability `Phi (k - u / σ)`, if these data measure less than the tested strength. -/
theorem C193_band (hav : ∀ i < n, available i .asymptotic = true) {mu : Mu} {v : ℝ} (hmu : mu.Is v) (hv : 0 < v) (hv10 : v ≤ 10) {i : ℕ} (hi : i < 5)
    (hin : ((i : ℝ) - 2) * pooledDeviation n (deviationOf a P y) < v) :
    μ.real {ω | ∃ l l' ls, l' ≤ l ∧ ls[i]? = some (fin l') ∧
      Ends (All n fun _ => 1) (exclusion (combined fit (members n name S inv E draw (fun i => m i ω) g ntoys available percentile') percentile) mu .observed false .asymptotic) (.ok (.one [fin l])) ∧
      Ends (All n fun _ => 1) (exclusion (combined fit (members n name S inv E draw (fun i => m i ω) g ntoys available percentile') percentile) mu .apriori false .asymptotic) (.ok (.one ls))} =
    Phi ((i : ℝ) - 2 - u / pooledDeviation n (deviationOf a P y)) := by
  have hσ : 0 < pooledDeviation n (deviationOf a P y) := pooledDeviation_pos hn fun i hi => hx.positive hi
  have hlaw := (hx.strength hn (((i : ℝ) - 2) * pooledDeviation n (deviationOf a P y))).1
  have hk : ∀ ω, ∀ i < n, ({ a i with data := X i ω } : Args).data.length = (a i).background.length := fun ω i hi => (hx.each i hi).length ω
  have hobs := fun ω => joint_observed hfit hS hT draw hn (a := fun i => { a i with data := X i ω }) (m := fun i => m i ω) (Q := P) (y := y) (fun i hi => (hx.each i hi).models ω) hname hinv g ntoys available hav
    percentile percentile' .observed (est := measuredBy a P y X ω) (dev := deviationOf a P y) (fun i hi => by rw [hk ω i hi]; rfl) (fun i hi => by rw [hk ω i hi]; rfl) rfl rfl rfl hmu hv hv10
  have hexp := fun ω => (C123_levels hfit hS hT draw hn (a := fun i => { a i with data := X i ω }) (m := fun i => m i ω) (Q := P) (y := y) (fun i hi => (hx.each i hi).models ω) hname hinv g ntoys available hav
    percentile percentile' .apriori (est := fun _ => 0) (dev := deviationOf a P y) (fun i hi => by simp [used, estimate, form]) (fun i hi => by rw [hk ω i hi]; rfl) (x := 0) (by simp [pooled]) rfl false (by simp)
    (by norm_num) hmu hv).2 (.inl rfl)
  rw [sub_div, mul_div_assoc, div_self hσ.ne', mul_one] at hlaw
  rw [← hlaw]
  generalize pooledDeviation n (deviationOf a P y) = σ at *
  congr 1
  ext ω
  simp only [Set.mem_ofPred_eq]
  have key : ∀ x z : ℝ, x < v → (gaussianLevel σ x v ≤ gaussianLevel σ (min z v) v ↔ z ≤ x) := by
    intro x z hxv
    unfold gaussianLevel
    rw [sub_div, sub_div]
    constructor
    · intro h
      by_contra hlt
      have hlt : x < min z v := lt_min (not_le.mp hlt) hxv
      have := Phi_ratio_strict (div_pos hv hσ) (div_lt_div_of_pos_right hlt hσ)
      linarith
    · intro h
      have := Phi_ratio_mono (div_nonneg hv.le hσ.le) (div_le_div_of_nonneg_right ((min_le_left z v).trans h) hσ.le)
      linarith
  have hget : ([-2, -1, 0, 1, 2].map fun n => fin (gaussianLevel σ (n * σ) v))[i]? = some (fin (gaussianLevel σ (((i : ℝ) - 2) * σ) v)) := by
    interval_cases i <;> simp <;> norm_num
  rw [← key _ _ hin]
  obtain ⟨w, hw⟩ := plain_exists 1
  constructor
  · rintro ⟨l, l', ls, h1, h2, h3, h6⟩
    have h4 := (h3 (fun _ => w) fun _ _ => hw).1
    have h5 := (h6 (fun _ => w) fun _ _ => hw).1
    rw [(hobs ω (fun _ => w) fun _ _ => hw).1] at h4
    rw [(hexp ω (fun _ => w) fun _ _ => hw).1] at h5
    simp only [Except.ok.injEq, Levels.one.injEq, List.cons.injEq, fin.injEq, and_true] at h4
    rw [Except.ok.injEq, Levels.one.injEq] at h5
    rw [← h5, hget, Option.some.injEq, fin.injEq] at h2
    rw [h2, h4]
    exact h1
  · exact fun h => ⟨_, _, _, h, hget, hobs ω, hexp ω⟩

end

/-- Two experiments with independent data, each as `Toys.exGauss_experiments`. -/
theorem exTogether (E : Ext) (u : ℝ) : ∃ X m, Together (Measure.infinitePi fun _ : ℕ => Measure.infinitePi fun _ : ℕ × ℕ => gaussianReal 0 1) 2 E (fun _ => exGaussArgs)
    (fun _ => independent (at' [1, 1])) (fun _ => Toys.diagonal (at' [1, 1])) (fun _ => [2, 1]) u X m := by
  obtain ⟨X, m, h, hm⟩ := Toys.exGauss_measurable E u
  refine ⟨fun i ω => X (ω i), fun i ω => m (ω i), fun i _ => ⟨fun ω => h.models (ω i), h.covariance, fun c => ?_⟩, fun c => ?_⟩
  · have h1 := Measure.infinitePi_map_eval (fun _ : ℕ => Measure.infinitePi fun _ : ℕ × ℕ => gaussianReal 0 1) i
    obtain ⟨-, h3⟩ := h.law c
    have h2 := hm c
    have h4 : Measurable fun f : ℕ → ℕ × ℕ → ℝ => f i := measurable_pi_apply i
    rw [List.length_map, List.length_range] at h3 ⊢
    refine ⟨(h2.comp h4).aemeasurable, ?_⟩
    refine (Measure.map_map h2 h4).symm.trans ?_
    rw [h1]
    exact h3
  · have := iIndepFun_infinitePi (P := fun _ : ℕ => Measure.infinitePi fun _ : ℕ × ℕ => gaussianReal 0 1) (𝓧 := fun _ => ℝ) (X := fun i z => Toys.combined 2 (c i) (X z)) fun i => hm (c i)
    exact this.precomp (g := fun i : Fin 2 => (i : ℕ)) Fin.val_injective

/-- Two experiments exclude a signal of strength 2 at 95% confidence level at most once in twenty times. -/
example (E : Ext) (draw) : ∃ m : ℕ → (ℕ → ℕ × ℕ → ℝ) → Backend.Model, (Measure.infinitePi fun _ : ℕ => Measure.infinitePi fun _ : ℕ × ℕ => gaussianReal 0 1).real {ω | ∃ l, 95 / 100 ≤ l ∧
    Ends (All 2 fun _ => 1) (exclusion (combined ideal (members 2 (fun i => if i = 0 then "a" else "b") perfect exInverse E draw (fun i => m i ω) true (.int 100) (fun _ _ => true) fun _ _ => nan)
      fun _ _ => nan) (.float 2) .observed false .asymptotic) (.ok (.one [fin l]))} ≤ 1 - 95 / 100 := by
  obtain ⟨X, m, h⟩ := exTogether E 2
  exact ⟨m, C193_excluded two_pos h ideal_reliable perfect_exact perfect_finds draw exNames (fun _ _ => rfl) true (.int 100) (fun _ _ => true) (fun _ _ => nan) (fun _ _ => nan) (fun _ _ => rfl) (mu := .float 2) rfl
    two_pos (by norm_num) le_rfl (by norm_num) (by norm_num)⟩

/-- A p-value of 1% without signal. -/
example (E : Ext) (draw) : ∃ m : ℕ → (ℕ → ℕ × ℕ → ℝ) → Backend.Model, (Measure.infinitePi fun _ : ℕ => Measure.infinitePi fun _ : ℕ × ℕ => gaussianReal 0 1).real {ω | ∃ p, p ≤ 1 / 100 ∧ ∃ A Z l,
    Ends (All 2 fun _ => 1) (significance (combined ideal (members 2 (fun i => if i = 0 then "a" else "b") perfect exInverse E draw (fun i => m i ω) true (.int 100) (fun _ _ => true) fun _ _ => nan)
      fun _ _ => nan) .observed) (.ok (A, Z, [fin p], l))} ≤ 1 / 100 := by
  obtain ⟨X, m, h⟩ := exTogether E 0
  exact ⟨m, C193_discovery two_pos h ideal_reliable perfect_exact perfect_finds draw exNames (fun _ _ => rfl) true (.int 100) (fun _ _ => true) (fun _ _ => nan) (fun _ _ => nan) rfl (by norm_num) (by norm_num)⟩

/-- All data exclude the strength 2 at a confidence level below one half. -/
example (E : Ext) (draw) : ∃ (m : ℕ → (ℕ → ℕ × ℕ → ℝ) → Backend.Model) (CL : ℝ), 0 < CL ∧ CL < 1 / 2 ∧ (Measure.infinitePi fun _ : ℕ => Measure.infinitePi fun _ : ℕ × ℕ => gaussianReal 0 1).real
    {ω | ∃ l, CL ≤ l ∧ Ends (All 2 fun _ => 1) (exclusion (combined ideal (members 2 (fun i => if i = 0 then "a" else "b") perfect exInverse E draw (fun i => m i ω) true (.int 100) (fun _ _ => true)
      fun _ _ => nan) fun _ _ => nan) (.float 2) .observed false .asymptotic) (.ok (.one [fin l]))} = 1 := by
  obtain ⟨X, m, h⟩ := exTogether E 2
  exact ⟨m, C193_low_fails two_pos h ideal_reliable perfect_exact perfect_finds draw exNames (fun _ _ => rfl) true (.int 100) (fun _ _ => true) (fun _ _ => nan) (fun _ _ => nan) (fun _ _ => rfl) (mu := .float 2) rfl
    two_pos (by norm_num)⟩

/-- The upper limit of two experiments at 95% confidence level, for a signal of strength 3. -/
example (E : Ext) (draw) (k : ℕ) : ∃ m : ℕ → (ℕ → ℕ × ℕ → ℝ) → Backend.Model, (Measure.infinitePi fun _ : ℕ => Measure.infinitePi fun _ : ℕ × ℕ => gaussianReal 0 1).real {ω | ∃ L mu,
    (poiUpperLimit k (bisection 0.001) (combined ideal (members 2 (fun i => if i = 0 then "a" else "b") perfect exInverse E draw (fun i => m i ω) true (.int 100) (fun _ _ => true) fun _ _ => nan) fun _ _ => nan)
      (fun e v => sigmaMu (combined ideal (members 2 (fun i => if i = 0 then "a" else "b") perfect exInverse E draw (fun i => m i ω) true (.int 100) (fun _ _ => true) fun _ _ => nan) fun _ _ => nan) none (.float v) e
        "qtilde") true .observed (95 / 100) none none .nominal fun _ => ⟨[0], none, none⟩).1 = .ok (some L) ∧ fin mu ∈ L.values ∧ mu + 0.001 ≤ 3} ≤ 1 - 95 / 100 := by
  obtain ⟨X, m, h⟩ := exTogether E 3
  exact ⟨m, C193_limit two_pos h ideal_reliable perfect_exact perfect_finds draw exNames (fun _ _ => rfl) true (.int 100) (fun _ _ => true) (fun _ _ => nan) (fun _ _ => nan) (fun _ _ => rfl) (by norm_num) (by norm_num)
    (by norm_num) (by norm_num) k (bisection 0.001) (bisection_stays _) (fun _ => 0.001) (bisection_sound (by norm_num)) none none (.inl rfl) .nominal fun _ _ => ⟨rfl, rfl, rfl⟩⟩

/-- Without signal, the observed level of two experiments for the strength 1 reaches the expected one (index 2) in half of the cases. -/
example (E : Ext) (draw) : ∃ m : ℕ → (ℕ → ℕ × ℕ → ℝ) → Backend.Model, (Measure.infinitePi fun _ : ℕ => Measure.infinitePi fun _ : ℕ × ℕ => gaussianReal 0 1).real {ω | ∃ l l' ls, l' ≤ l ∧ ls[2]? = some (fin l') ∧
    Ends (All 2 fun _ => 1) (exclusion (combined ideal (members 2 (fun i => if i = 0 then "a" else "b") perfect exInverse E draw (fun i => m i ω) true (.int 100) (fun _ _ => true) fun _ _ => nan)
      fun _ _ => nan) (.float 1) .observed false .asymptotic) (.ok (.one [fin l])) ∧
    Ends (All 2 fun _ => 1) (exclusion (combined ideal (members 2 (fun i => if i = 0 then "a" else "b") perfect exInverse E draw (fun i => m i ω) true (.int 100) (fun _ _ => true) fun _ _ => nan)
      fun _ _ => nan) (.float 1) .apriori false .asymptotic) (.ok (.one ls))} = 1 / 2 := by
  obtain ⟨X, m, h⟩ := exTogether E 0
  refine ⟨m, (C193_band two_pos h ideal_reliable perfect_exact perfect_finds draw exNames (fun _ _ => rfl) true (.int 100) (fun _ _ => true) (fun _ _ => nan) (fun _ _ => nan) (fun _ _ => rfl) (mu := .float 1) rfl
    one_pos (by norm_num) (i := 2) (by norm_num) (by norm_num)).trans ?_⟩
  simp [Phi_zero]

end Verif.Joint
