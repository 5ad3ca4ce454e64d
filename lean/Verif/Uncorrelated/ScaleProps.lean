import Verif.Uncorrelated.OrderProps

/-!
# C152: only the product of signal strength and signal yields matters
-/

namespace Verif.Uncorrelated
open Verif.Py F Verif.Config Verif.Optimizer Verif.Hypotest Verif.Chain
open Verif.Interface (Data World Size Plain Solver perfect)
open Verif.Backend (Ext Vec Args Built at' poissonLog stdLog)
open Verif.Stats (Expect Calc Levels levelsOf NotAbove)

/-- The bin with the signal yield multiplied by `c`. -/
def Bin.scaled (c : ℝ) (x : Bin) : Bin := { x with s := c * x.s }

theorem profile_scaled (G : ℝ → ℝ) (bins : List Bin) (c mu : ℝ) : profile G (bins.map (Bin.scaled c)) mu = profile G bins (c * mu) := by
  unfold profile
  rw [List.map_map]
  congr 1
  refine List.map_congr_left fun x _ => ?_
  simp only [Function.comp_apply, Bin.scaled]
  rw [show mu * (c * x.s) = c * mu * x.s by ring]

theorem seen_scaled (e : Expect) (bins : List Bin) (c : ℝ) : seen e (bins.map (Bin.scaled c)) = (seen e bins).map (Bin.scaled c) := by
  unfold seen
  split
  · rw [List.map_map, List.map_map]
    rfl
  · rfl

theorem asimov_scaled (bins : List Bin) (c : ℝ) : (bins.map (Bin.scaled c)).map (Bin.asimov 0) = (bins.map (Bin.asimov 0)).map (Bin.scaled c) := by
  rw [List.map_map, List.map_map]
  refine List.map_congr_left fun x _ => ?_
  simp [Bin.asimov, Bin.scaled]

/-- A signal that explains all events: a larger one fits no better. -/
theorem bin_falls (G : ℝ → ℝ) {d b σ x y : ℝ} (hd : 0 ≤ d) (hb : 1 / 10 ^ 20 ≤ b) (hσ : 0 ≤ σ) (hx : 0 ≤ x) (hxy : x ≤ y) (h : d ≤ x + b) : binLog G d b σ y ≤ binLog G d b σ x := by
  have hb0 : (0 : ℝ) < b := lt_of_lt_of_le (by norm_num) hb
  have k := bin_more G hd h hb hσ hx hxy
  have hf : fitted (x + b) b σ x = x + b := by
    unfold fitted
    have : (x + b - σ ^ 2) ^ 2 + 4 * σ ^ 2 * (x + b) = (x + b + σ ^ 2) ^ 2 := by ring
    rw [this, Real.sqrt_sq (by positivity), max_eq_left]
    · ring
    · refine max_le (by linarith) (by linarith)
  have h1 : binLog G (x + b) b σ y ≤ binLog G (x + b) b σ x := by
    have e : binLog G (x + b) b σ x = poissonLog G (x + b) (x + b) + stdLog 0 := by
      unfold binLog
      rw [hf, show x + b - x - b = 0 by ring, zero_div]
    have h3 : ∀ t : ℝ, stdLog t ≤ stdLog 0 := fun t => by unfold stdLog; nlinarith [sq_nonneg t]
    have h4 : ∀ r, 0 < r → poissonLog G (x + b) r ≤ poissonLog G (x + b) (x + b) := by
      intro r hr
      have := log_le hr (by linarith : 0 < x + b)
      unfold poissonLog
      have e : (x + b) * (r / (x + b) - 1) = r - (x + b) := by field_simp
      nlinarith [mul_le_mul_of_nonneg_left this (by linarith : 0 ≤ x + b)]
    rw [e]
    unfold binLog
    linarith [h4 _ (fitted_pos (x + b) b σ y), h3 ((fitted (x + b) b σ y - y - b) / σ)]
  linarith

/-- All events are explained by the signal strength `K` or less. -/
def Explained (K : ℝ) (bins : List Bin) : Prop := ∀ x ∈ bins, x.d ≤ K * x.s + x.b

theorem profile_falls (G : ℝ → ℝ) {bins : List Bin} (hp : ∀ x ∈ bins, x.Proper) {K y : ℝ} (hK : 0 ≤ K) (h : Explained K bins) (hy : K ≤ y) : profile G bins y ≤ profile G bins K := by
  unfold profile
  induction bins with
  | nil => simp
  | cons a l ih =>
    obtain ⟨p1, p2, p3, p4⟩ := hp a (by simp)
    have := ih (fun z hz => hp z (by simp [hz])) fun z hz => h z (by simp [hz])
    have k := bin_falls G p4 p2 p3 (mul_nonneg hK p1) (mul_le_mul_of_nonneg_right hy p1) (h a (by simp))
    simp only [List.map_cons, List.sum_cons]
    linarith

theorem fitted_le {d b σ M : ℝ} (hM : 1 / 10 ^ 20 ≤ M) (hd : d ≤ M) (hb : b ≤ M) : fitted d b σ 0 ≤ M := by
  have hM0 : 0 < M := lt_of_lt_of_le (by norm_num) hM
  unfold fitted
  refine max_le ?_ (max_le hM0.le hM)
  have : √((0 + b - σ ^ 2) ^ 2 + 4 * σ ^ 2 * d) ≤ 2 * M - (0 + b - σ ^ 2) := by
    refine Real.sqrt_le_iff.mpr ⟨by nlinarith [sq_nonneg σ], ?_⟩
    nlinarith [mul_nonneg (sq_nonneg σ) (sub_nonneg.mpr hd), mul_nonneg hM0.le (sub_nonneg.mpr hb)]
  linarith

theorem asimov_explained {bins : List Bin} (hp : ∀ x ∈ bins, x.Proper) {K : ℝ} (hK : 0 ≤ K) (h : Explained K bins) : Explained K (bins.map (Bin.asimov 0)) := by
  intro x hx
  obtain ⟨y, hy, rfl⟩ := List.mem_map.mp hx
  obtain ⟨p1, p2, p3, p4⟩ := hp y hy
  simp only [Bin.asimov, zero_mul]
  have := mul_nonneg hK p1
  exact fitted_le (by linarith) (h y hy) (by linarith)

theorem seen_explained (e : Expect) {bins : List Bin} (hp : ∀ x ∈ bins, x.Proper) {K : ℝ} (hK : 0 ≤ K) (h : Explained K bins) : Explained K (seen e bins) := by
  unfold seen
  split
  · intro x hx
    obtain ⟨y, hy, rfl⟩ := List.mem_map.mp hx
    simp only [Bin.prior]
    linarith [mul_nonneg hK (hp y hy).1]
  · exact h

theorem explained_best (G : ℝ → ℝ) {bins : List Bin} (hp : ∀ x ∈ bins, x.Proper) {K b : ℝ} (hK : 0 ≤ K) (hK10 : K ≤ 10) (h : Explained K bins) (hb : IsBest (profile G bins) b) :
    ∃ b', 0 ≤ b' ∧ b' ≤ K ∧ ∀ mu, 0 ≤ mu → profile G bins mu ≤ profile G bins b' := by
  have glob : ∀ mu, 0 ≤ mu → profile G bins mu ≤ profile G bins b := by
    intro mu hmu
    rcases le_or_gt mu 10 with h1 | h1
    · exact hb.2.2 mu hmu h1
    · exact (profile_falls G hp hK h (by linarith)).trans (hb.2.2 K hK hK10)
  rcases le_or_gt b K with h1 | h1
  · exact ⟨b, hb.1, h1, glob⟩
  · exact ⟨K, hK, le_rfl, fun mu hmu => (glob mu hmu).trans (profile_falls G hp hK h h1.le)⟩

theorem stat_best {P : ℝ → ℝ} {v q : ℝ} (h : IsStat P v q) : ∃ b, IsBest P b := ⟨h.choose, h.choose_spec.1⟩

/-- A statistic for the rescaled strengths. -/
theorem stat_scaled (G : ℝ → ℝ) {bins : List Bin} (hp : ∀ x ∈ bins, x.Proper) {c v q q' : ℝ} (hc : 0 < c) (h : Explained (min 10 (10 * c)) bins)
    (hq : IsStat (profile G bins) (c * v) q) (hq' : IsStat (profile G (bins.map (Bin.scaled c))) v q') (hp' : ∀ x ∈ bins.map (Bin.scaled c), x.Proper) : q = q' := by
  obtain ⟨b, hb⟩ := stat_best hq
  obtain ⟨b, h0, h1, h2⟩ := explained_best G hp (le_min (by norm_num) (by linarith)) (min_le_left _ _) h hb
  have e1 : IsBest (profile G bins) b := ⟨h0, h1.trans (min_le_left _ _), fun mu hmu _ => h2 mu hmu⟩
  have e2 : IsBest (profile G (bins.map (Bin.scaled c))) (b / c) := by
    refine ⟨div_nonneg h0 hc.le, (div_le_iff₀ hc).mpr (h1.trans (min_le_right _ _)), fun mu hmu _ => ?_⟩
    rw [profile_scaled, profile_scaled, mul_div_cancel₀ _ hc.ne']
    exact h2 _ (mul_nonneg hc.le hmu)
  obtain ⟨r, hr⟩ : ∃ r, (b ≤ c * v → r = max (2 * (profile G bins b - profile G bins (c * v))) 0) ∧ (c * v < b → r = 0) := by
    rcases le_or_gt b (c * v) with hh | hh
    · exact ⟨_, fun _ => rfl, fun h => absurd hh (not_le.mpr h)⟩
    · exact ⟨0, fun h => absurd hh (not_lt.mpr h), fun _ => rfl⟩
  have f1 : q = r := stat_unique (profile_concave G hp) hq ⟨b, e1, hr⟩
  have f2 : q' = r := by
    refine stat_unique (profile_concave G hp') hq' ⟨b / c, e2, fun hh => ?_, fun hh => hr.2 ?_⟩
    · rw [profile_scaled, profile_scaled, mul_div_cancel₀ _ hc.ne']
      exact hr.1 (by rw [div_le_iff₀ hc] at hh; linarith)
    · rw [lt_div_iff₀ hc] at hh; linarith
  rw [f1, f2]

theorem discovery_scaled (G : ℝ → ℝ) {bins : List Bin} (hp : ∀ x ∈ bins, x.Proper) {c q q' : ℝ} (hc : 0 < c) (h : Explained (min 10 (10 * c)) bins)
    (hq : IsDiscovery (profile G bins) q) (hq' : IsDiscovery (profile G (bins.map (Bin.scaled c))) q') : q = q' := by
  obtain ⟨b, hb, rfl⟩ := hq
  obtain ⟨b', h0, h1, h2⟩ := explained_best G hp (le_min (by norm_num) (by linarith)) (min_le_left _ _) h hb
  have e1 : IsBest (profile G bins) b' := ⟨h0, h1.trans (min_le_left _ _), fun mu hmu _ => h2 mu hmu⟩
  have e2 : IsBest (profile G (bins.map (Bin.scaled c))) (b' / c) := by
    refine ⟨div_nonneg h0 hc.le, (div_le_iff₀ hc).mpr (h1.trans (min_le_right _ _)), fun mu hmu _ => ?_⟩
    rw [profile_scaled, profile_scaled, mul_div_cancel₀ _ hc.ne']
    exact h2 _ (mul_nonneg hc.le hmu)
  rw [discovery_unique hq' ⟨b' / c, e2, rfl⟩, profile_scaled, profile_scaled, mul_div_cancel₀ _ hc.ne', mul_zero, best_eq hb e1]

theorem scaled_valid {bins : List Bin} {c : ℝ} (hc : 0 < c) (hv : Valid bins) : Valid (bins.map (Bin.scaled c)) := by
  refine ⟨fun x hx => ?_, ?_⟩
  · obtain ⟨y, hy, rfl⟩ := List.mem_map.mp hx
    obtain ⟨p1, p2, p3, p4⟩ := hv.1 y hy
    exact ⟨mul_nonneg hc.le p1, p2, p3, p4⟩
  · obtain ⟨y, hy, h⟩ := hv.2
    exact ⟨y.scaled c, List.mem_map.mpr ⟨y, hy, rfl⟩, mul_pos hc h⟩

section
variable {S S' : Solver} (hS : Exact S) (hT : Finds S) (hC : Interface.Constrained S) (hS' : Exact S') (hT' : Finds S') (hC' : Interface.Constrained S') {E : Ext}
  (draw draw' : Vec × List Vec → ℕ → List Vec) {bins : List Bin} {m m' : Backend.Model} {N N' : ℕ} {c : ℝ} (hc : 0 < c) (h : Describes bins m N) (hv : Valid bins)
  (h' : Describes (bins.map (Bin.scaled c)) m' N') (hx : Explained (min 10 (10 * c)) bins) (g g' : Bool) (ntoys ntoys' : Size) (available : Calc → Bool) (percentile percentile' : List F → F → F)
include hS hT hC hS' hT' hC' hc h hv h' hx

/-- C152, if a strength of at most 10 and of at most `10 c` explains all events: signal yields `c` times as large with a strength `v` have the levels of the signal yields with the strength `c v`.
(Missing: strong excesses, for which the default bound of the signal strength matters, see `C152_bound_fails`.) -/
theorem C152_levels_partial (e : Expect) {mu mu' : Mu} {v : ℝ} (hmu : mu.Is (c * v)) (hmu' : mu'.Is v) (hv0 : 0 ≤ v) (w w' : World) (hw : Plain N w) (hw' : Plain N' w') :
    (exclusion (modelMethods S (plugged E draw m) g none ntoys available percentile) mu e false .asymptotic w).1 =
      (exclusion (modelMethods S' (plugged E draw' m') g' none ntoys' available percentile') mu' e false .asymptotic w').1 := by
  obtain ⟨q, qA, a1, a2, a3⟩ := levels hS hT hC (E := E) draw g ntoys available percentile h hv e hmu (mul_nonneg hc.le hv0)
  obtain ⟨q', qA', b1, b2, b3⟩ := levels hS' hT' hC' (E := E) draw' g' ntoys' available percentile' h' (scaled_valid hc hv) e hmu' hv0
  have hK : (0 : ℝ) ≤ min 10 (10 * c) := le_min (by norm_num) (by linarith)
  have s1 := seen_valid e hv
  have s2 := asimov_valid 0 s1
  rw [seen_scaled] at b1 b2
  rw [asimov_scaled] at b2
  have e1 : q = q' := stat_scaled _ s1.1 hc (seen_explained e hv.1 hK hx) a1 b1 (scaled_valid hc s1).1
  have e2 : qA = qA' := stat_scaled _ s2.1 hc (asimov_explained s1.1 hK (seen_explained e hv.1 hK hx)) a2 b2 (scaled_valid hc s2).1
  rw [a3 w hw, b3 w' hw', e1, e2]

/-- C152, under the same condition: the observed significance does not depend on the size of the signal. -/
theorem C152_significance_partial (e : Expect) : ∃ Z ZA ZA', ∀ w w', Plain N w → Plain N' w' →
      (significance (modelMethods S (plugged E draw m) g none ntoys available percentile) e w).1 = .ok (Stats.discovery ZA Z) ∧
      (significance (modelMethods S' (plugged E draw' m') g' none ntoys' available percentile') e w').1 = .ok (Stats.discovery ZA' Z) := by
  obtain ⟨q, qA, a1, a2, a3⟩ := C143_significance hS hT hC (E := E) draw h hv g ntoys available percentile e
  obtain ⟨q', qA', b1, b2, b3⟩ := C143_significance hS' hT' hC' (E := E) draw' h' (scaled_valid hc hv) g' ntoys' available percentile' e
  have hK : (0 : ℝ) ≤ min 10 (10 * c) := le_min (by norm_num) (by linarith)
  have s1 := seen_valid e hv
  rw [seen_scaled] at b1
  have e1 : q = q' := discovery_scaled _ s1.1 hc (seen_explained e hv.1 hK hx) a1 b1
  subst e1
  exact ⟨_, _, _, fun w w' hw hw' => ⟨a3 w hw, b3 w' hw'⟩⟩

end

example : Explained (min 10 (10 * 2)) exBins ∧ Explained (min 10 (10 * (1 / 2))) exBins := by
  constructor <;> intro x hx <;> simp only [exBins, List.mem_cons, List.not_mem_nil, or_false] at hx <;> rcases hx with rfl | rfl <;> norm_num

/-- 1000 events where 1 is expected: a signal that is 100 times as large has another significance. -/
theorem C152_bound_fails (E : Ext) (draw : Vec × List Vec → ℕ → List Vec) : ∃ m m' Z ZA Z' ZA',
    Describes [⟨1, 1, 0, 1000⟩] m 1 ∧ Describes ([⟨1, 1, 0, 1000⟩].map (Bin.scaled 100)) m' 1 ∧
    (significance (modelMethods perfect (plugged E draw m) true none (.int 100) (fun _ => true) fun _ _ => nan) .observed (⟨[1], none, none⟩ : World)).1 = .ok (Stats.discovery ZA Z) ∧
    (significance (modelMethods perfect (plugged E draw m') true none (.int 100) (fun _ => true) fun _ _ => nan) .observed (⟨[1], none, none⟩ : World)).1 = .ok (Stats.discovery ZA' Z') ∧
    Z < Z' := by
  have hv : Valid [⟨1, 1, 0, 1000⟩] := ⟨fun x hx => by
    simp only [List.mem_cons, List.not_mem_nil, or_false] at hx
    subst hx
    norm_num [Bin.Proper], ⟨1, 1, 0, 1000⟩, by simp, by norm_num⟩
  have hv' := scaled_valid (c := 100) (by norm_num) hv
  obtain ⟨m, hm⟩ := poisson_exists [⟨1, 1, 0, 1000⟩] (by simp)
  obtain ⟨m', hm'⟩ := poisson_exists ([⟨1, 1, 0, 1000⟩].map (Bin.scaled 100)) (by simp [Bin.scaled])
  obtain ⟨q, qA, a1, -, a3⟩ := C143_significance perfect_exact perfect_finds Interface.perfect_constrained (E := E) draw hm hv true (.int 100) (fun _ => true) (fun _ _ => nan) .observed
  obtain ⟨q', qA', b1, -, b3⟩ := C143_significance perfect_exact perfect_finds Interface.perfect_constrained (E := E) draw hm' hv' true (.int 100) (fun _ => true) (fun _ _ => nan) .observed
  refine ⟨m, m', √q, √qA, √q', √qA', hm, hm', a3 _ ⟨rfl, rfl, rfl⟩, b3 _ ⟨rfl, rfl, rfl⟩, Real.sqrt_lt_sqrt (discovery_nonneg a1) ?_⟩
  have key : ∀ mu, 0 ≤ mu → profile E.gammaln [⟨1, 1, 0, 1000⟩] mu = 1000 * Real.log (mu + 1) - (mu + 1) - E.gammaln (1000 + 1) + stdLog 0 := by
    intro mu hmu
    simp only [profile, List.map_cons, List.map_nil, List.sum_cons, List.sum_nil, _root_.add_zero, binLog, mul_one]
    rw [fitted_none (by norm_num) hmu, div_zero]
    rfl
  have s1 : seen .observed [(⟨1, 1, 0, 1000⟩ : Bin)] = [⟨1, 1, 0, 1000⟩] := by simp [seen]
  rw [seen_scaled, s1] at b1
  rw [s1] at a1
  obtain ⟨x, hx, rfl⟩ := a1
  obtain ⟨y, hy, rfl⟩ := b1
  have hy1 := hy.2.2 1 zero_le_one (by norm_num)
  rw [profile_scaled, profile_scaled] at hy1
  rw [profile_scaled, profile_scaled, mul_zero]
  have : profile E.gammaln [⟨1, 1, 0, 1000⟩] x < profile E.gammaln [⟨1, 1, 0, 1000⟩] (100 * 1) := by
    rw [key x hx.1, key _ (by norm_num)]
    have l1 := log_le (by linarith [hx.1] : 0 < x + 1) (by norm_num : (0 : ℝ) < 11)
    have l2 : Real.log 101 = Real.log 11 + Real.log (101 / 11) := by
      rw [← Real.log_mul (by norm_num) (by norm_num)]
      norm_num
    have l3 := Real.one_sub_inv_le_log_of_pos (by norm_num : (0 : ℝ) < 101 / 11)
    have hx10 := hx.2.1
    have l4 := Real.log_le_log (by linarith [hx.1] : 0 < x + 1) (by linarith : x + 1 ≤ 11)
    norm_num at l2 l3 ⊢
    linarith [hx.1]
  linarith

end Verif.Uncorrelated
