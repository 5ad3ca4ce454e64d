import Verif.Uncorrelated.Tests
import Verif.Stats.SensitivityProps

/-!
# C143 to C147: the tests of binned models as functions of the bins

`default.uncorrelated_background` and `default.poisson` inside `StatisticalModel`, with exact minimisers.
-/

namespace Verif.Uncorrelated
open Verif.Py F Verif.Config Verif.Optimizer Verif.Hypotest Verif.Chain
open Verif.Interface (Data World Size Plain Solver perfect)
open Verif.Backend (Ext Vec Args Built at' poissonLog stdLog)
open Verif.Stats (Expect Calc Levels levelsOf observedOf)

/-! ## The levels -/

theorem answer_levels (e : Expect) {q qA : ℝ} (hq : 0 ≤ q) (hA : 0 ≤ qA) : answer true e q qA = .ok (levelsOf e false q qA) := by
  unfold answer
  rw [Stats.levels_eq _ _ e false _ Stats.get_qtilde rfl q qA hq hA (statFit_stat hq le_rfl) (statFit_stat hA le_rfl)]
  rfl

/-! ## C143 -/

section
variable {S : Solver} (hS : Exact S) (hT : Finds S) (hC : Interface.Constrained S) {E : Ext} (draw : Vec × List Vec → ℕ → List Vec) {bins : List Bin} {m : Backend.Model}
  {N : ℕ} (h : Describes bins m N) (hv : Valid bins) (g : Bool) (ntoys : Size) (available : Calc → Bool) (percentile : List F → F → F)
include hS hT hC h hv

/-- C143. `exclusion_confidence_level` of `default.uncorrelated_background` and of `default.poisson`, when the minimiser is exact: the levels of the asymptotic formulae for the statistics `q`
and `qA` of two profile likelihoods which are known in closed form, that of the data and that of the Asimov data (the numbers of events that fit best without signal). -/
theorem C143_levels (hav : available .asymptotic = true) (e : Expect) {mu : Mu} {v : ℝ} (hmu : mu.Is v) (hv0 : 0 ≤ v) :
    ∃ q qA, IsStat (profile E.gammaln (seen e bins)) v q ∧ IsStat (profile E.gammaln ((seen e bins).map (Bin.asimov 0))) v qA ∧ ∀ w, Plain N w →
      (exclusion (modelMethods S (plugged E draw m) g none ntoys available percentile) mu e false .asymptotic w).1 = .ok (levelsOf e false q qA) := by
  obtain ⟨q, qA, h1, h2, h3⟩ := levels hS hT hC (E := E) draw g ntoys available percentile h hv e hmu hv0
  refine ⟨q, qA, h1, h2, fun w hw => ?_⟩
  rw [h3 w hw, hav, answer_levels e (stat_nonneg h1) (stat_nonneg h2)]

/-- C143. `significance` of the same models. -/
theorem C143_significance (e : Expect) :
    ∃ q qA, IsDiscovery (profile E.gammaln (seen e bins)) q ∧ IsDiscovery (profile E.gammaln ((seen e bins).map (Bin.asimov 1))) qA ∧ ∀ w, Plain N w →
      (significance (modelMethods S (plugged E draw m) g none ntoys available percentile) e w).1 = .ok (Stats.discovery (√qA) (√q)) :=
  discoveries hS hT hC draw g ntoys available percentile h hv e

end

/-- The statistics of C143 are determined by the bins. -/
theorem C143_determined {bins : List Bin} (h : ∀ x ∈ bins, x.Proper) (G : ℝ → ℝ) (v q q' : ℝ) :
    (IsStat (profile G bins) v q → IsStat (profile G bins) v q' → q = q') ∧ (IsDiscovery (profile G bins) q → IsDiscovery (profile G bins) q' → q = q') :=
  ⟨stat_unique (profile_concave G h), discovery_unique⟩

/-- Two bins with backgrounds `50 ± 3` and `60 ± 4`, and the same without uncertainties. -/
def exBins : List Bin := [⟨5, 50, 3, 55⟩, ⟨2, 60, 4, 58⟩]
def exCounts : List Bin := [⟨5, 50, 0, 55⟩, ⟨2, 60, 0, 58⟩]

theorem exBins_valid : Valid exBins := by
  refine ⟨fun x hx => ?_, ⟨5, 50, 3, 55⟩, by simp [exBins], by norm_num⟩
  simp only [exBins, List.mem_cons, List.not_mem_nil, or_false] at hx
  rcases hx with rfl | rfl <;> norm_num [Bin.Proper]

theorem exCounts_valid : Valid exCounts := by
  refine ⟨fun x hx => ?_, ⟨5, 50, 0, 55⟩, by simp [exCounts], by norm_num⟩
  simp only [exCounts, List.mem_cons, List.not_mem_nil, or_false] at hx
  rcases hx with rfl | rfl <;> norm_num [Bin.Proper]

theorem uncorrelated_model (bins : List Bin) : ∃ m, Backend.uncorrelated (argsOf bins) (bins.map Bin.σ) = .ok m := by
  obtain ⟨m, hm⟩ := Backend.simplified_accepts (argsOf bins) (argsOf_fits bins) [] (.inl ⟨rfl, rfl⟩) rfl (bins.map Bin.σ).length (Backend.linear (bins.map Bin.b) (bins.map Bin.σ))
    (.normal (List.replicate (bins.map Bin.d).length 0) (List.replicate (bins.map Bin.σ).length 1) (.slice (1 + 0) (bins.map Bin.σ).length))
  exact ⟨m, hm⟩

theorem uncorrelated_exists (bins : List Bin) : ∃ m, Describes bins m (bins.length + 1) := by
  obtain ⟨m, hm⟩ := uncorrelated_model bins
  exact ⟨m, .uncorrelated hm⟩

theorem poisson_exists (bins : List Bin) (hσ : ∀ x ∈ bins, x.σ = 0) : ∃ m, Describes bins m 1 := by
  obtain ⟨m, hm⟩ := Backend.poisson_accepts (bins.map Bin.s) (bins.map Bin.b) (bins.map Bin.d) (by simp)
  exact ⟨m, .poisson hm hσ⟩

theorem exCounts_sigma : ∀ x ∈ exCounts, x.σ = 0 := by
  intro x hx
  simp only [exCounts, List.mem_cons, List.not_mem_nil, or_false] at hx
  rcases hx with rfl | rfl <;> rfl

example (E : Ext) (draw) : ∃ m q qA, IsStat (profile E.gammaln exBins) 2 q ∧
    (exclusion (modelMethods perfect (plugged E draw m) true none (.int 100) (fun _ => true) fun _ _ => nan) (.float 2) .observed false .asymptotic
      (⟨[1, 0, 0], none, none⟩ : World)).1 = .ok (.one [fin (observedOf false q qA)]) := by
  obtain ⟨m, hm⟩ := uncorrelated_exists exBins
  obtain ⟨q, qA, h1, -, h2⟩ := C143_levels perfect_exact perfect_finds Interface.perfect_constrained (E := E) draw hm exBins_valid true (.int 100) (fun _ => true)
    (fun _ _ => nan) rfl .observed (mu := .float 2) rfl zero_le_two
  exact ⟨m, q, qA, h1, h2 _ ⟨rfl, rfl, rfl⟩⟩

example (E : Ext) (draw) : ∃ m q qA, IsDiscovery (profile E.gammaln exCounts) q ∧
    (significance (modelMethods perfect (plugged E draw m) true none (.int 100) (fun _ => true) fun _ _ => nan) .observed
      (⟨[1], none, none⟩ : World)).1 = .ok (Stats.discovery (√qA) (√q)) := by
  obtain ⟨m, hm⟩ := poisson_exists exCounts exCounts_sigma
  obtain ⟨q, qA, h1, -, h2⟩ := C143_significance perfect_exact perfect_finds Interface.perfect_constrained (E := E) draw hm exCounts_valid true (.int 100) (fun _ => true)
    (fun _ _ => nan) .observed
  exact ⟨m, q, qA, h1, h2 _ ⟨rfl, rfl, rfl⟩⟩

/-- What is expected before the measurement. -/
theorem fitted_prior {b σ : ℝ} (hb : 1 / 10 ^ 20 ≤ b) : fitted b b σ 0 = b := by
  have h0 : (0 : ℝ) < 1 / 10 ^ 20 := by norm_num
  unfold fitted
  have : (0 + b - σ ^ 2) ^ 2 + 4 * σ ^ 2 * b = (b + σ ^ 2) ^ 2 := by ring
  rw [this, Real.sqrt_sq (by nlinarith [sq_nonneg σ]), max_eq_right h0.le, max_eq_left]
  · ring
  · linarith

theorem prior_best (G : ℝ → ℝ) {b σ x : ℝ} (hb : 1 / 10 ^ 20 ≤ b) (hσ : 0 ≤ σ) (hx : 0 ≤ x) :
    binLog G b b σ x ≤ binLog G b b σ 0 ∧ (0 < x → binLog G b b σ x < binLog G b b σ 0) := by
  have h0 : (0 : ℝ) < b := lt_of_lt_of_le (by norm_num) hb
  have hr := fitted_pos b b σ x
  have h2 : binLog G b b σ 0 = poissonLog G b b + stdLog 0 := by
    unfold binLog
    rw [fitted_prior hb, sub_zero, sub_self, zero_div]
  have h3 : ∀ t : ℝ, stdLog t ≤ stdLog 0 := fun t => by unfold stdLog; nlinarith [sq_nonneg t]
  have h4 : ∀ r, 0 < r → r ≠ b → poissonLog G b r < poissonLog G b b := by
    intro r hr hne
    rcases lt_or_gt_of_ne hne with hlt | hlt
    · exact poissonLog_up hr hlt le_rfl
    · exact poissonLog_down h0.le h0 hlt le_rfl
  have h5 : ∀ r, 0 < r → poissonLog G b r ≤ poissonLog G b b := fun r hr => by
    by_cases hne : r = b
    · rw [hne]
    · exact (h4 r hr hne).le
  rw [h2]
  refine ⟨by unfold binLog; linarith [h5 _ hr, h3 ((fitted b b σ x - x - b) / σ)], fun hx0 => ?_⟩
  unfold binLog
  by_cases hne : fitted b b σ x = b
  · have hσ0 : σ ≠ 0 := by
      rintro rfl
      rw [fitted_none hb hx] at hne
      linarith
    have : stdLog ((fitted b b σ x - x - b) / σ) < stdLog 0 := by
      have : (fitted b b σ x - x - b) / σ ≠ 0 := div_ne_zero (by rw [hne]; linarith) hσ0
      have := sq_pos_of_ne_zero this
      unfold stdLog
      nlinarith
    linarith [h5 _ hr]
  · linarith [h4 _ hr hne, h3 ((fitted b b σ x - x - b) / σ)]

/-- C143. If the Asimov data agree with the backgrounds (a-priori expectation, or no uncertainties), they are fitted best without signal, and every signal strength can be tested: `qA` is positive. -/
theorem C143_sensitive (G : ℝ → ℝ) {bins : List Bin} (hv : Valid bins) (e : Expect) (he : e = .apriori ∨ ∀ x ∈ bins, x.σ = 0 ∨ x.d = x.b) {v qA : ℝ} (hv0 : 0 < v)
    (h : IsStat (profile G ((seen e bins).map (Bin.asimov 0))) v qA) : 0 < qA ∧ qA = 2 * (profile G (bins.map Bin.prior) 0 - profile G (bins.map Bin.prior) v) := by
  have hb : (seen e bins).map (Bin.asimov 0) = bins.map Bin.prior := by
    have key : ∀ x ∈ bins, x.σ = 0 ∨ x.d = x.b → x.asimov 0 = x.prior := by
      intro x hx h
      obtain ⟨-, p2, -, -⟩ := hv.1 x hx
      unfold Bin.asimov Bin.prior
      rcases h with h | h
      · rw [zero_mul, h, fitted_none p2 le_rfl, _root_.zero_add]
      · rw [zero_mul, h, fitted_prior p2]
    unfold seen
    rcases he with rfl | he
    · rw [if_pos rfl, List.map_map]
      refine List.map_congr_left fun x hx => ?_
      obtain ⟨-, p2, -, -⟩ := hv.1 x hx
      simp only [Function.comp_apply, Bin.asimov, Bin.prior, zero_mul, fitted_prior p2]
    · split
      · rw [List.map_map]
        refine List.map_congr_left fun x hx => ?_
        obtain ⟨-, p2, -, -⟩ := hv.1 x hx
        simp only [Function.comp_apply, Bin.asimov, Bin.prior, zero_mul, fitted_prior p2]
      · exact List.map_congr_left fun x hx => key x hx (he x hx)
  rw [hb] at h
  have key : ∀ (l : List Bin), (∀ x ∈ l, x.Proper) → ∀ y, 0 ≤ y → profile G (l.map Bin.prior) y ≤ profile G (l.map Bin.prior) 0 ∧
      (0 < y → (∃ x ∈ l, 0 < x.s) → profile G (l.map Bin.prior) y < profile G (l.map Bin.prior) 0) := by
    intro l hl y hy
    unfold profile
    induction l with
    | nil => simp
    | cons x l ih =>
      obtain ⟨p1, p2, p3, -⟩ := hl x (by simp)
      obtain ⟨i1, i2⟩ := ih fun z hz => hl z (by simp [hz])
      obtain ⟨k1, k2⟩ := prior_best G p2 p3 (mul_nonneg hy p1)
      simp only [List.map_cons, List.sum_cons, Bin.prior, zero_mul] at i1 i2 ⊢
      refine ⟨by linarith, fun hy0 ⟨z, hz, hz1⟩ => ?_⟩
      rcases List.mem_cons.mp hz with rfl | hz
      · linarith [k2 (mul_pos hy0 hz1)]
      · linarith [i2 hy0 ⟨z, hz, hz1⟩]
  obtain ⟨best, hbest, h1, h2⟩ := h
  have hz : best = 0 := by
    by_contra hne
    have := (key bins hv.1 best hbest.1).2 (lt_of_le_of_ne hbest.1 (Ne.symm hne)) hv.2
    linarith [hbest.2.2 0 le_rfl (by norm_num)]
  subst hz
  have := (key bins hv.1 v hv0.le).2 hv0 hv.2
  rw [h1 hv0.le, max_eq_left (by linarith)]
  exact ⟨by linarith, rfl⟩

example : ∃ e, e = Expect.apriori ∨ ∀ x ∈ exBins, x.σ = 0 ∨ x.d = x.b := ⟨.apriori, .inl rfl⟩

/-! ## C144 to C147: what does not matter -/

section
variable {S S' : Solver} (hS : Exact S) (hT : Finds S) (hC : Interface.Constrained S) (hS' : Exact S') (hT' : Finds S') (hC' : Interface.Constrained S') {E : Ext}
  (draw draw' : Vec × List Vec → ℕ → List Vec) {bins bins' : List Bin} {m m' : Backend.Model} {N N' : ℕ} (h : Describes bins m N) (hv : Valid bins)
  (h' : Describes bins' m' N') (hv' : Valid bins') (g g' : Bool) (ntoys ntoys' : Size) (available : Calc → Bool) (percentile percentile' : List F → F → F)
include hS hT hC hS' hT' hC' h hv h' hv'

theorem same_levels (e : Expect) {c cA : ℝ} (h1 : ∀ mu, 0 ≤ mu → profile E.gammaln (seen e bins') mu = profile E.gammaln (seen e bins) mu + c)
    (h2 : ∀ mu, 0 ≤ mu → profile E.gammaln ((seen e bins').map (Bin.asimov 0)) mu = profile E.gammaln ((seen e bins).map (Bin.asimov 0)) mu + cA)
    {mu mu' : Mu} {v : ℝ} (hmu : mu.Is v) (hmu' : mu'.Is v) (hv0 : 0 ≤ v) (w w' : World) (hw : Plain N w) (hw' : Plain N' w') :
    (exclusion (modelMethods S (plugged E draw m) g none ntoys available percentile) mu e false .asymptotic w).1 =
      (exclusion (modelMethods S' (plugged E draw' m') g' none ntoys' available percentile') mu' e false .asymptotic w').1 := by
  obtain ⟨q, qA, a1, a2, a3⟩ := levels hS hT hC (E := E) draw g ntoys available percentile h hv e hmu hv0
  obtain ⟨q', qA', b1, b2, b3⟩ := levels hS' hT' hC' (E := E) draw' g' ntoys' available percentile' h' hv' e hmu' hv0
  have e1 : q = q' := stat_unique (profile_concave _ (seen_valid e hv').1) (stat_shift hv0 h1 a1) b1
  have e2 : qA = qA' := stat_unique (profile_concave _ (asimov_valid 0 (seen_valid e hv')).1) (stat_shift hv0 h2 a2) b2
  rw [a3 w hw, b3 w' hw', e1, e2]

theorem same_significance (e : Expect) {c cA : ℝ} (h1 : ∀ mu, 0 ≤ mu → profile E.gammaln (seen e bins') mu = profile E.gammaln (seen e bins) mu + c)
    (h2 : ∀ mu, 0 ≤ mu → profile E.gammaln ((seen e bins').map (Bin.asimov 1)) mu = profile E.gammaln ((seen e bins).map (Bin.asimov 1)) mu + cA)
    (w w' : World) (hw : Plain N w) (hw' : Plain N' w') :
    (significance (modelMethods S (plugged E draw m) g none ntoys available percentile) e w).1 =
      (significance (modelMethods S' (plugged E draw' m') g' none ntoys' available percentile') e w').1 := by
  obtain ⟨q, qA, a1, a2, a3⟩ := discoveries hS hT hC (E := E) draw g ntoys available percentile h hv e
  obtain ⟨q', qA', b1, b2, b3⟩ := discoveries hS' hT' hC' (E := E) draw' g' ntoys' available percentile' h' hv' e
  have e1 : q = q' := discovery_unique (discovery_shift h1 a1) b1
  have e2 : qA = qA' := discovery_unique (discovery_shift h2 a2) b2
  rw [a3 w hw, b3 w' hw', e1, e2]

omit hS hT hC hS' hT' hC' h hv h' hv' in
theorem seen_perm (e : Expect) (hp : bins.Perm bins') : (seen e bins).Perm (seen e bins') := by
  unfold seen
  split
  · exact hp.map _
  · exact hp

omit hS hT hC hS' hT' hC' h hv h' hv' in
theorem profile_perm (G : ℝ → ℝ) (hp : bins.Perm bins') (mu : ℝ) : profile G bins' mu = profile G bins mu + 0 := by
  unfold profile
  rw [_root_.add_zero]
  exact (hp.map _).sum_eq.symm

/-- C144. The order of the bins does not matter, for the levels of the exclusion and for the significance. (Nor do the minimisers, if they are exact, what they are given, and the
model's previous uses.) -/
theorem C144_levels (hp : bins.Perm bins') (e : Expect) {mu mu' : Mu} {v : ℝ} (hmu : mu.Is v) (hmu' : mu'.Is v) (hv0 : 0 ≤ v) (w w' : World) (hw : Plain N w) (hw' : Plain N' w') :
    (exclusion (modelMethods S (plugged E draw m) g none ntoys available percentile) mu e false .asymptotic w).1 =
      (exclusion (modelMethods S' (plugged E draw' m') g' none ntoys' available percentile') mu' e false .asymptotic w').1 :=
  same_levels hS hT hC hS' hT' hC' draw draw' h hv h' hv' g g' ntoys ntoys' available percentile percentile' e
    (fun _ _ => profile_perm _ (seen_perm e hp) _) (fun _ _ => profile_perm _ ((seen_perm e hp).map _) _) hmu hmu' hv0 w w' hw hw'

/-- C144, for the significance. -/
theorem C144_significance (hp : bins.Perm bins') (e : Expect) (w w' : World) (hw : Plain N w) (hw' : Plain N' w') :
    (significance (modelMethods S (plugged E draw m) g none ntoys available percentile) e w).1 =
      (significance (modelMethods S' (plugged E draw' m') g' none ntoys' available percentile') e w').1 :=
  same_significance hS hT hC hS' hT' hC' draw draw' h hv h' hv' g g' ntoys ntoys' available percentile percentile' e
    (fun _ _ => profile_perm _ (seen_perm e hp) _) (fun _ _ => profile_perm _ ((seen_perm e hp).map _) _) w w' hw hw'

omit hS hT hC hS' hT' hC' h hv h' hv' in
theorem profile_cons (G : ℝ → ℝ) (x : Bin) (l : List Bin) (hx : x.s = 0) (mu : ℝ) : profile G (x :: l) mu = profile G l mu + binLog G x.d x.b x.σ 0 := by
  simp [profile, hx, _root_.add_comm]

/-- C145. A bin without signal does not matter, wherever it is and whatever its background and its data are. -/
theorem C145_levels {x : Bin} (hx : x.s = 0) (hp : bins'.Perm (x :: bins)) (e : Expect) {mu mu' : Mu} {v : ℝ} (hmu : mu.Is v) (hmu' : mu'.Is v) (hv0 : 0 ≤ v)
    (w w' : World) (hw : Plain N w) (hw' : Plain N' w') :
    (exclusion (modelMethods S (plugged E draw m) g none ntoys available percentile) mu e false .asymptotic w).1 =
      (exclusion (modelMethods S' (plugged E draw' m') g' none ntoys' available percentile') mu' e false .asymptotic w').1 := by
  have hs : ∀ e, ∃ y : Bin, y.s = 0 ∧ seen e (x :: bins) = y :: seen e bins := by
    intro e
    unfold seen
    split
    · exact ⟨x.prior, hx, by simp⟩
    · exact ⟨x, hx, rfl⟩
  obtain ⟨y, hy, he⟩ := hs e
  have hp' := seen_perm e hp.symm
  rw [he] at hp'
  refine same_levels hS hT hC hS' hT' hC' draw draw' h hv h' hv' g g' ntoys ntoys' available percentile percentile' e
    (fun u _ => by rw [profile_perm _ hp', profile_cons _ _ _ hy, _root_.add_zero])
    (fun u _ => by rw [profile_perm _ (hp'.map _), List.map_cons, profile_cons _ _ _ (by exact hy), _root_.add_zero]) hmu hmu' hv0 w w' hw hw'

/-- C145, for the significance. -/
theorem C145_significance {x : Bin} (hx : x.s = 0) (hp : bins'.Perm (x :: bins)) (e : Expect) (w w' : World) (hw : Plain N w) (hw' : Plain N' w') :
    (significance (modelMethods S (plugged E draw m) g none ntoys available percentile) e w).1 =
      (significance (modelMethods S' (plugged E draw' m') g' none ntoys' available percentile') e w').1 := by
  have hs : ∀ e, ∃ y : Bin, y.s = 0 ∧ seen e (x :: bins) = y :: seen e bins := by
    intro e
    unfold seen
    split
    · exact ⟨x.prior, hx, by simp⟩
    · exact ⟨x, hx, rfl⟩
  obtain ⟨y, hy, he⟩ := hs e
  have hp' := seen_perm e hp.symm
  rw [he] at hp'
  refine same_significance hS hT hC hS' hT' hC' draw draw' h hv h' hv' g g' ntoys ntoys' available percentile percentile' e
    (fun u _ => by rw [profile_perm _ hp', profile_cons _ _ _ hy, _root_.add_zero])
    (fun u _ => by rw [profile_perm _ (hp'.map _), List.map_cons, profile_cons _ _ _ (by exact hy), _root_.add_zero]) w w' hw hw'

omit hS hT hC hS' hT' hC' h hv h' hv' in
theorem profile_merge (G : ℝ → ℝ) {x y : Bin} (l : List Bin) (hx : x.Proper) (hy : y.Proper) (hσ : x.σ = 0) (hσ' : y.σ = 0) (hr : x.s * y.b = y.s * x.b) {z : Bin}
    (hz : z = ⟨x.s + y.s, x.b + y.b, 0, x.d + y.d⟩) : ∃ c, ∀ mu, 0 ≤ mu → profile G (z :: l) mu = profile G (x :: y :: l) mu + c := by
  obtain ⟨x1, x2, -, -⟩ := hx
  obtain ⟨y1, y2, -, -⟩ := hy
  have hxb : (0 : ℝ) < x.b := lt_of_lt_of_le (by norm_num) x2
  have hyb : (0 : ℝ) < y.b := lt_of_lt_of_le (by norm_num) y2
  have key : ∀ {s b d mu : ℝ}, 0 ≤ s → 1 / 10 ^ 20 ≤ b → 0 ≤ mu → binLog G d b 0 (mu * s) = d * Real.log (mu * s + b) - (mu * s + b) - G (d + 1) + stdLog 0 := by
    intro s b d mu hs hb hmu
    unfold binLog
    rw [fitted_none hb (mul_nonneg hmu hs), div_zero]
    rfl
  refine ⟨-(x.d * Real.log (x.b / (x.b + y.b)) + y.d * Real.log (y.b / (x.b + y.b)) - G (x.d + 1) - G (y.d + 1) + stdLog 0) - G (x.d + y.d + 1), fun mu hmu => ?_⟩
  have hz1 : (1 / 10 ^ 20 : ℝ) ≤ x.b + y.b := by linarith
  simp only [profile, List.map_cons, List.sum_cons, hz, hσ, hσ']
  rw [key (add_nonneg x1 y1) hz1 hmu, key x1 x2 hmu, key y1 y2 hmu]
  have hR : 0 < mu * (x.s + y.s) + (x.b + y.b) := by nlinarith [mul_nonneg hmu x1, mul_nonneg hmu y1]
  have e1 : mu * x.s + x.b = x.b / (x.b + y.b) * (mu * (x.s + y.s) + (x.b + y.b)) := by
    field_simp
    linear_combination mu * hr
  have e2 : mu * y.s + y.b = y.b / (x.b + y.b) * (mu * (x.s + y.s) + (x.b + y.b)) := by
    field_simp
    linear_combination -mu * hr
  have l1 : Real.log (mu * x.s + x.b) = Real.log (x.b / (x.b + y.b)) + Real.log (mu * (x.s + y.s) + (x.b + y.b)) := by
    rw [e1, Real.log_mul (by positivity) hR.ne']
  have l2 : Real.log (mu * y.s + y.b) = Real.log (y.b / (x.b + y.b)) + Real.log (mu * (x.s + y.s) + (x.b + y.b)) := by
    rw [e2, Real.log_mul (by positivity) hR.ne']
  rw [l1, l2]
  ring

/-- C147. Two bins without uncertainties and with the same ratio of signal and background can be merged. -/
theorem C147_levels {x y z : Bin} {l : List Bin} (hl : bins = x :: y :: l) (hl' : bins' = z :: l) (hσ : x.σ = 0) (hσ' : y.σ = 0) (hr : x.s * y.b = y.s * x.b)
    (hz : z = ⟨x.s + y.s, x.b + y.b, 0, x.d + y.d⟩) (e : Expect) {mu mu' : Mu} {v : ℝ} (hmu : mu.Is v) (hmu' : mu'.Is v) (hv0 : 0 ≤ v)
    (w w' : World) (hw : Plain N w) (hw' : Plain N' w') :
    (exclusion (modelMethods S (plugged E draw m) g none ntoys available percentile) mu e false .asymptotic w).1 =
      (exclusion (modelMethods S' (plugged E draw' m') g' none ntoys' available percentile') mu' e false .asymptotic w').1 := by
  subst hl hl'
  have hx := hv.1 x (by simp)
  have hy := hv.1 y (by simp)
  have hxp : x.prior.Proper := ⟨hx.1, hx.2.1, hx.2.2.1, le_trans (by norm_num) hx.2.1⟩
  have hyp : y.prior.Proper := ⟨hy.1, hy.2.1, hy.2.2.1, le_trans (by norm_num) hy.2.1⟩
  have hb : (1 / 10 ^ 20 : ℝ) ≤ x.b + y.b := by
    have := lt_of_lt_of_le (by norm_num : (0 : ℝ) < 1 / 10 ^ 20) hy.2.1
    linarith [hx.2.1]
  have hzp : z.prior = ⟨x.prior.s + y.prior.s, x.prior.b + y.prior.b, 0, x.prior.d + y.prior.d⟩ := by subst hz; rfl
  have ax : x.asimov 0 = x.prior := by unfold Bin.asimov Bin.prior; rw [zero_mul, hσ, fitted_none hx.2.1 le_rfl, _root_.zero_add]
  have ay : y.asimov 0 = y.prior := by unfold Bin.asimov Bin.prior; rw [zero_mul, hσ', fitted_none hy.2.1 le_rfl, _root_.zero_add]
  have az : z.asimov 0 = z.prior := by subst hz; unfold Bin.asimov Bin.prior; simp only [zero_mul]; rw [fitted_none hb le_rfl, _root_.zero_add]
  have bx : x.prior.asimov 0 = x.prior := by unfold Bin.asimov Bin.prior; simp only [zero_mul]; rw [fitted_prior hx.2.1]
  have bY : y.prior.asimov 0 = y.prior := by unfold Bin.asimov Bin.prior; simp only [zero_mul]; rw [fitted_prior hy.2.1]
  have bz : z.prior.asimov 0 = z.prior := by subst hz; unfold Bin.asimov Bin.prior; simp only [zero_mul]; rw [fitted_prior hb]
  have key : ∀ e, (∃ c, ∀ u, 0 ≤ u → profile E.gammaln (seen e (z :: l)) u = profile E.gammaln (seen e (x :: y :: l)) u + c) ∧
      ∃ c, ∀ u, 0 ≤ u → profile E.gammaln ((seen e (z :: l)).map (Bin.asimov 0)) u = profile E.gammaln ((seen e (x :: y :: l)).map (Bin.asimov 0)) u + c := by
    intro e
    unfold seen
    split
    · simp only [List.map_cons, bx, bY, bz]
      exact ⟨profile_merge _ _ hxp hyp hσ hσ' hr hzp, profile_merge _ _ hxp hyp hσ hσ' hr hzp⟩
    · simp only [List.map_cons, ax, ay, az]
      exact ⟨profile_merge _ _ hx hy hσ hσ' hr hz, profile_merge _ _ hxp hyp hσ hσ' hr hzp⟩
  obtain ⟨⟨c, k1⟩, cA, k2⟩ := key e
  exact same_levels hS hT hC hS' hT' hC' draw draw' h hv h' hv' g g' ntoys ntoys' available percentile percentile' e k1 k2 hmu hmu' hv0 w w' hw hw'

/-- C147, for the significance. -/
theorem C147_significance {x y z : Bin} {l : List Bin} (hl : bins = x :: y :: l) (hl' : bins' = z :: l) (hσ : x.σ = 0) (hσ' : y.σ = 0) (hr : x.s * y.b = y.s * x.b)
    (hz : z = ⟨x.s + y.s, x.b + y.b, 0, x.d + y.d⟩) (e : Expect) (w w' : World) (hw : Plain N w) (hw' : Plain N' w') :
    (significance (modelMethods S (plugged E draw m) g none ntoys available percentile) e w).1 =
      (significance (modelMethods S' (plugged E draw' m') g' none ntoys' available percentile') e w').1 := by
  subst hl hl'
  have hx := hv.1 x (by simp)
  have hy := hv.1 y (by simp)
  have hxp : x.prior.Proper := ⟨hx.1, hx.2.1, hx.2.2.1, le_trans (by norm_num) hx.2.1⟩
  have hyp : y.prior.Proper := ⟨hy.1, hy.2.1, hy.2.2.1, le_trans (by norm_num) hy.2.1⟩
  have hb : (1 / 10 ^ 20 : ℝ) ≤ x.b + y.b := by
    have := lt_of_lt_of_le (by norm_num : (0 : ℝ) < 1 / 10 ^ 20) hy.2.1
    linarith [hx.2.1]
  have hzp : z.prior = ⟨x.prior.s + y.prior.s, x.prior.b + y.prior.b, 0, x.prior.d + y.prior.d⟩ := by subst hz; rfl
  -- the Asimov data, whatever the data are
  have am : ∀ u : Bin, 0 ≤ u.s → 1 / 10 ^ 20 ≤ u.b → u.σ = 0 → u.asimov 1 = ⟨u.s, u.b, 0, u.s + u.b⟩ := by
    intro u h1 h2 h3
    unfold Bin.asimov
    rw [one_mul, h3, fitted_none h2 h1]
  have key : ∀ x' y' z' : Bin, x'.Proper → y'.Proper → x'.σ = 0 → y'.σ = 0 → x'.s * y'.b = y'.s * x'.b → z' = ⟨x'.s + y'.s, x'.b + y'.b, 0, x'.d + y'.d⟩ → ∀ L,
      ∃ c, ∀ u, 0 ≤ u → profile E.gammaln (z'.asimov 1 :: L) u = profile E.gammaln (x'.asimov 1 :: y'.asimov 1 :: L) u + c := by
    intro x' y' z' p p' s s' r rz L
    have hb' : (1 / 10 ^ 20 : ℝ) ≤ x'.b + y'.b := by
      have := lt_of_lt_of_le (by norm_num : (0 : ℝ) < 1 / 10 ^ 20) p'.2.1
      linarith [p.2.1]
    have px : (x'.asimov 1).Proper := ⟨p.1, p.2.1, p.2.2.1, (fitted_pos _ _ _ _).le⟩
    have py : (y'.asimov 1).Proper := ⟨p'.1, p'.2.1, p'.2.2.1, (fitted_pos _ _ _ _).le⟩
    refine profile_merge _ L px py s s' r ?_
    rw [am z' (by rw [rz]; exact add_nonneg p.1 p'.1) (by rw [rz]; exact hb') (by rw [rz]), am x' p.1 p.2.1 s, am y' p'.1 p'.2.1 s', rz]
    simp only [Bin.mk.injEq, true_and]
    ring
  have key : ∀ e, (∃ c, ∀ u, 0 ≤ u → profile E.gammaln (seen e (z :: l)) u = profile E.gammaln (seen e (x :: y :: l)) u + c) ∧
      ∃ c, ∀ u, 0 ≤ u → profile E.gammaln ((seen e (z :: l)).map (Bin.asimov 1)) u = profile E.gammaln ((seen e (x :: y :: l)).map (Bin.asimov 1)) u + c := by
    intro e
    unfold seen
    split
    · simp only [List.map_cons]
      exact ⟨profile_merge _ _ hxp hyp hσ hσ' hr hzp, key _ _ _ hxp hyp hσ hσ' hr hzp _⟩
    · simp only [List.map_cons]
      exact ⟨profile_merge _ _ hx hy hσ hσ' hr hz, key _ _ _ hx hy hσ hσ' hr hz _⟩
  obtain ⟨⟨c, k1⟩, cA, k2⟩ := key e
  exact same_significance hS hT hC hS' hT' hC' draw draw' h hv h' hv' g g' ntoys ntoys' available percentile percentile' e k1 k2 w w' hw hw'

end

section
variable {S S' : Solver} (hS : Exact S) (hT : Finds S) (hC : Interface.Constrained S) (hS' : Exact S') (hT' : Finds S') (hC' : Interface.Constrained S') {E : Ext}
  (draw draw' : Vec × List Vec → ℕ → List Vec) {bins : List Bin} {m m' : Backend.Model} {N N' : ℕ} (h : Describes bins m N) (h' : Describes bins m' N') (hv : Valid bins)
  (g g' : Bool) (ntoys ntoys' : Size) (available : Calc → Bool) (percentile percentile' : List F → F → F)
include hS hT hC hS' hT' hC' h h' hv

/-- C146. Without uncertainties, `default.uncorrelated_background` and `default.poisson` give the same answers. -/
theorem C146_levels (e : Expect) {mu mu' : Mu} {v : ℝ} (hmu : mu.Is v) (hmu' : mu'.Is v) (hv0 : 0 ≤ v) (w w' : World) (hw : Plain N w) (hw' : Plain N' w') :
    (exclusion (modelMethods S (plugged E draw m) g none ntoys available percentile) mu e false .asymptotic w).1 =
      (exclusion (modelMethods S' (plugged E draw' m') g' none ntoys' available percentile') mu' e false .asymptotic w').1 :=
  C144_levels hS hT hC hS' hT' hC' draw draw' h hv h' hv g g' ntoys ntoys' available percentile percentile' (.refl _) e hmu hmu' hv0 w w' hw hw'

/-- C146, for the significance. -/
theorem C146_significance (e : Expect) (w w' : World) (hw : Plain N w) (hw' : Plain N' w') :
    (significance (modelMethods S (plugged E draw m) g none ntoys available percentile) e w).1 =
      (significance (modelMethods S' (plugged E draw' m') g' none ntoys' available percentile') e w').1 :=
  C144_significance hS hT hC hS' hT' hC' draw draw' h hv h' hv g g' ntoys ntoys' available percentile percentile' (.refl _) e w w' hw hw'

end

/-- C144 with the two bins exchanged. -/
example (E : Ext) (draw) : ∃ m m', ∀ w w', Plain 3 w → Plain 3 w' →
    (exclusion (modelMethods perfect (plugged E draw m) true none (.int 100) (fun _ => true) fun _ _ => nan) (.float 2) .observed false .asymptotic w).1 =
      (exclusion (modelMethods perfect (plugged E draw m') false none (.int 100) (fun _ => true) fun _ _ => nan) (.float 2) .observed false .asymptotic w').1 ∧
    Describes exBins m 3 ∧ Describes exBins.reverse m' 3 := by
  obtain ⟨m, hm⟩ := uncorrelated_exists exBins
  obtain ⟨m', hm'⟩ := uncorrelated_exists exBins.reverse
  have hp := List.reverse_perm exBins
  have hv' : Valid exBins.reverse := ⟨fun x hx => exBins_valid.1 x (by simpa using hx), by
    obtain ⟨x, hx, h⟩ := exBins_valid.2
    exact ⟨x, by simpa using hx, h⟩⟩
  refine ⟨m, m', fun w w' hw hw' => ⟨?_, hm, hm'⟩⟩
  exact C144_levels perfect_exact perfect_finds Interface.perfect_constrained perfect_exact perfect_finds Interface.perfect_constrained draw draw hm exBins_valid hm' hv' _ _ _ _ _ _ _
    hp.symm .observed (mu := .float 2) (mu' := .float 2) rfl rfl zero_le_two w w' hw hw'

/-- C145 with a control region, C146 for counts, C147 for halves of a bin: the hypotheses hold. -/
example : (∃ x : Bin, x.s = 0 ∧ Valid (x :: exBins) ∧ x.d = 98) ∧ (∃ m m', Describes exCounts m 3 ∧ Describes exCounts m' 1 ∧ Valid exCounts) ∧
    Valid [⟨5, 50, 0, 55⟩, ⟨5, 50, 0, 48⟩] ∧ Valid [⟨5 + 5, 50 + 50, 0, 55 + 48⟩] ∧ (5 : ℝ) * 50 = 5 * 50 := by
  refine ⟨⟨⟨0, 100, 10, 98⟩, rfl, ⟨fun x hx => ?_, ?_⟩, rfl⟩, ?_, ⟨fun x hx => ?_, ⟨5, 50, 0, 55⟩, by simp, by norm_num⟩, ⟨fun x hx => ?_, ⟨5 + 5, 50 + 50, 0, 55 + 48⟩, by simp, by norm_num⟩, rfl⟩
  · rcases List.mem_cons.mp hx with rfl | hx
    · norm_num [Bin.Proper]
    · exact exBins_valid.1 x hx
  · obtain ⟨x, hx, h⟩ := exBins_valid.2
    exact ⟨x, by simp [hx], h⟩
  · obtain ⟨m, hm⟩ := uncorrelated_exists exCounts
    obtain ⟨m', hm'⟩ := poisson_exists exCounts exCounts_sigma
    exact ⟨m, m', hm, hm', exCounts_valid⟩
  · simp only [List.mem_cons, List.not_mem_nil, or_false] at hx
    rcases hx with rfl | rfl <;> norm_num [Bin.Proper]
  · simp only [List.mem_cons, List.not_mem_nil, or_false] at hx
    rcases hx with rfl
    norm_num [Bin.Proper]

end Verif.Uncorrelated
