import Verif.Toys.Lemmas

/-!
# Toys of simplified likelihoods and of counts
-/

namespace Verif.Toys
open Verif.Py F Verif.Config Verif.Optimizer Verif.Hypotest Verif.Chain
open Verif.Interface (MuHat Data Toys World Size Plain Solver)
open Verif.Backend (Ext Vec Args Built at' poissonLog stdLog)
open Verif.Stats (Expect Calc Levels)
open Verif.Uncorrelated (seen seen_length seen_valid used_data Bin profile IsBest IsStat fit_stat bin bin_mem at_map argsOf argsOf_length argsOf_fits Describes Valid fitted counts counts_log counts_none counts_single counts_best
  counts_profile fitted_none profileOf profileOf_eq max_all max_at seen_data stat_shift level constraint)

/-- What is assumed of the random numbers: `draw (r, s) n` are `n` data sets; each begins with a number of events for each of the rates `r`, and has nothing else if
there are no auxiliary data. -/
def Samples (draw : Vec × List Vec → ℕ → List Vec) : Prop :=
  ∀ r s n, (draw (r, s) n).length = n ∧ ∀ D ∈ draw (r, s) n, r.length ≤ D.length ∧ (s = [] → D.length = r.length) ∧ ∀ i < r.length, ∃ k : ℕ, at' D i = k

/-- The bins with other data. -/
noncomputable def measured (bins : List Bin) (D : Vec) : List Bin := (List.range bins.length).map fun i => { bin bins i with d := at' D i }

theorem measured_length (bins : List Bin) (D : Vec) : (measured bins D).length = bins.length := by simp [measured]

theorem measured_bin (bins : List Bin) (D : Vec) {i : ℕ} (hi : i < bins.length) : bin (measured bins D) i = { bin bins i with d := at' D i } := by
  unfold bin
  rw [Uncorrelated.getD_get (by rw [measured_length]; exact hi)]
  simp [measured, bin]

theorem measured_mem {bins : List Bin} {D : Vec} {x : Bin} (h : x ∈ measured bins D) : ∃ i < bins.length, x = { bin bins i with d := at' D i } := by
  obtain ⟨i, hi, rfl⟩ := List.mem_map.mp h
  exact ⟨i, List.mem_range.mp hi, rfl⟩

theorem measured_valid {bins : List Bin} {D : Vec} (hv : Valid bins) (hD : ∀ i < bins.length, 0 ≤ at' D i) : Valid (measured bins D) := by
  constructor
  · intro x hx
    obtain ⟨i, hi, rfl⟩ := measured_mem hx
    obtain ⟨h1, h2, h3, -⟩ := hv.1 _ (bin_mem hi)
    exact ⟨h1, h2, h3, hD i hi⟩
  · obtain ⟨x, hx, h0⟩ := hv.2
    obtain ⟨i, hi, rfl⟩ := List.mem_iff_getElem.mp hx
    refine ⟨{ bin bins i with d := at' D i }, List.mem_map.mpr ⟨i, by simpa using hi, rfl⟩, ?_⟩
    have : bin bins i = bins[i] := Uncorrelated.getD_get hi
    simpa [this] using h0

section
variable {S : Solver} (hS : Exact S) (hT : Finds S) (hC : Interface.Constrained S)

/-- The largest value of profile likelihoods. -/
theorem global_profile {Θ : Type} {ok : Θ → Prop} {L : ℝ → Θ → ℝ} {P : ℝ → ℝ} (hP : ∀ v, 0 ≤ v → ∃ θ, ProfileMax ok L v (P v) θ) {best l : ℝ} (h : GlobalMax ok L 0 10 best l) :
    l = P best ∧ IsBest P best := by
  obtain ⟨h0, h10, ⟨θ, h1, h2⟩, h3⟩ := h
  obtain ⟨θ', k1, k2, k3⟩ := hP best h0
  have e : l = P best := le_antisymm (h2 ▸ k3 θ h1) (k2 ▸ h3 best θ' h0 h10 k1)
  refine ⟨e, h0, h10, fun mu a b => ?_⟩
  obtain ⟨θ'', j1, j2, -⟩ := hP mu a
  rw [← e, j2]
  exact h3 mu θ'' a b j1

section
variable {B : Interface.Backend} {n : ℕ} {γ : ℝ → ℝ} {s : ℕ → ℝ} {bin : ℕ → ℝ → ℝ} {pen : (ℕ → ℝ) → ℝ} {lo : ℝ} {dflt : Expect → Vec}
  (h : Binned B n γ s bin pen lo dflt)
include hS hT hC h

theorem binned_fitted {D : Vec} (hD : n ≤ D.length) {P : ℝ → ℝ} (hP : ∀ v, 0 ≤ v → ∃ θ, ProfileMax (Admissible n bin) (logLikelihood γ n s bin pen (at' D)) v (P v) θ) (g : Bool) (e : Expect) :
    Fitted S B (n + 1) g e P (some D) := by
  intro w hw
  constructor
  · obtain ⟨mu, l, h1, h2⟩ := h.fit hS hT hC false e hD g hw
    obtain ⟨rfl, h3⟩ := global_profile hP (by simpa using h1)
    exact ⟨mu, h3, h2⟩
  · intro v hv
    obtain ⟨l, ⟨θ, h1⟩, h2⟩ := h.at hS hT hC e hD (h.low.trans hv) g hw
    obtain ⟨θ', h3⟩ := hP v hv
    have : l = P v := le_antisymm (h1.2.1 ▸ h3.2.2 _ h1.1) (h3.2.1 ▸ h1.2.2 _ h3.1)
    rw [← this]
    exact h2

theorem binned_default (e : Expect) {P : ℝ → ℝ} (hP : ∀ v, 0 ≤ v → ∃ θ, ProfileMax (Admissible n bin) (logLikelihood γ n s bin pen (at' (dflt e))) v (P v) θ) (g : Bool) :
    Fitted S B (n + 1) g e P none := by
  intro w hw
  constructor
  · obtain ⟨mu, l, h1, h2⟩ := h.fit_default hS hT hC false e g hw
    obtain ⟨rfl, h3⟩ := global_profile hP (by simpa using h1)
    exact ⟨mu, h3, h2⟩
  · intro v hv
    obtain ⟨l, ⟨θ, h1⟩, h2⟩ := h.at_default hS hT hC e (h.low.trans hv) g hw
    obtain ⟨θ', h3⟩ := hP v hv
    have : l = P v := le_antisymm (h1.2.1 ▸ h3.2.2 _ h1.1) (h3.2.1 ▸ h1.2.2 _ h3.1)
    rw [← this]
    exact h2

end

/-- The sampler of a model, as a function. -/
def samplerOf (B : Interface.Backend) (x : List ℝ) : ℕ → List Data := match B.sampler x with
  | .ok f => f
  | .error _ => fun _ => []

/-- Samples of simplified likelihoods. -/
theorem simple_sampler {E : Ext} (draw) {a : Args} {m : Backend.Model} {y : Vec} {bin : ℕ → ℝ → ℝ} {pen : (ℕ → ℝ) → ℝ} {lo : ℝ} (h : Simple E a m y bin pen lo) {x : List ℝ}
    (hx : x.length = a.data.length + 1) : ∃ s, (plugged E draw m).sampler x =
      .ok (draw ((List.range a.data.length).map (expectedIn (at' y) bin (at' x 0) fun i => at' x (1 + i)), s)) ∧ s.length = 1 := by
  have hs := h.model.simplified h.fits
  have hsrc : Backend.Sources a [] := .inl ⟨h.modifiers, rfl⟩
  have hn : m.config.npar = a.data.length + 1 := by
    rw [(Backend.C51_partition a m bin hs h.fits [] hsrc).1, h.parameters]
    simp [Backend.sourceCount]
    omega
  obtain ⟨r, s, h1, h2, h4⟩ := Backend.C77_sampler_partial a m bin hs h.fits [] hsrc x (by rw [hx, hn]) true (fun _ => h.modifiers)
  obtain ⟨v, v1, v2, v3, -⟩ := Backend.C53_expected_data E a m bin hs h.fits [] hsrc x (by rw [hx, hn])
  rw [v1, Except.ok.injEq] at h2
  subst h2
  have hr : v = (List.range a.data.length).map (expectedIn (at' y) bin (at' x 0) fun i => at' x (1 + i)) := by
    apply List.ext_getElem
    · simp [v2]
    · intro i hi hi'
      have := v3 i (by omega)
      rw [show at' v i = v[i] from Uncorrelated.getD_get hi] at this
      rw [this]
      simp [expectedIn, Backend.signalAt, Backend.factorAt, h.signal, Synth.product, h.parameters]
  refine ⟨s, ?_, h4⟩
  rw [← hr]
  simp only [plugged, h1, Except.map, Except.mapError]

include hS hT hC in
/-- Toys of simplified likelihoods. -/
theorem simple_toys {E : Ext} {draw} (hd : Samples draw) (e : Expect) {a : Args} {m : Backend.Model} {y : Vec} {bin : ℕ → ℝ → ℝ} {pen : (ℕ → ℝ) → ℝ} {lo : ℝ} (h : Simple E a m y bin pen lo)
    {mu : Mu} {v : ℝ} (hmu : mu.Is v) (hv : 0 ≤ v) (g : Bool) {n : ℕ} (hn : 0 < n) {available : Calc → Bool} (hav : available .toy = true) {percentile : List F → F → F} (hM : e ≠ .observed → Linear percentile)
    {ok : (ℕ → ℝ) → Prop} (hok : ok = Admissible a.data.length bin) {L : (ℕ → ℝ) → ℝ → (ℕ → ℝ) → ℝ} (hL : L = logLikelihood E.gammaln a.data.length (at' y) bin pen)
    {P : Vec → ℝ → ℝ} (hP : ∀ D u, a.data.length ≤ D.length → (∀ i < a.data.length, 0 ≤ at' D i) ∨ D = used a e → 0 ≤ u → ∃ θ, ProfileMax ok (L (at' D)) u (P D u) θ) :
    ∃ l l0 θ θ0 s s0 q qs qb, ProfileMax ok (L (at' (used a e))) v l θ ∧ ProfileMax ok (L (at' (used a e))) 0 l0 θ0 ∧ IsStat (P (used a e)) v q ∧
      List.Forall₂ (fun D q => IsStat (P D) v q) (draw ((List.range a.data.length).map (expectedIn (at' y) bin v θ), s) n) qs ∧
      List.Forall₂ (fun D q => IsStat (P D) v q) (draw ((List.range a.data.length).map (expectedIn (at' y) bin 0 θ0), s0) n) qb ∧
      Ends (Plain (a.data.length + 1)) (exclusion (modelMethods S (plugged E draw m) g none (.int n) available percentile) mu e false .toy)
        (.ok (toyLevels e q qs qb)) := by
  subst hok hL
  have hB := h.binned draw
  have hf : ∀ x : List ℝ, x.length = a.data.length + 1 → (plugged E draw m).sampler x = .ok (samplerOf (plugged E draw m) x) := by
    intro x hx
    obtain ⟨s, hs, -⟩ := simple_sampler draw h hx
    unfold samplerOf
    rw [hs]
  have hf' : ∀ x : List ℝ, x.length = a.data.length + 1 → ∃ s, samplerOf (plugged E draw m) x =
      draw ((List.range a.data.length).map (expectedIn (at' y) bin (at' x 0) fun i => at' x (1 + i)), s) := by
    intro x hx
    obtain ⟨s, hs, -⟩ := simple_sampler draw h hx
    refine ⟨s, ?_⟩
    unfold samplerOf
    rw [hs]
  have hdata : a.data.length ≤ (used a e).length := hB.length e
  have hprof : ∀ u, ∃ x, Profile (plugged E draw m) (a.data.length + 1) 0 true (expectation e) none u x := fun u =>
    (hB.exists_profile true (expectation e) (hB.length e) u).imp fun _ hx => hB.default_profile.mpr hx
  obtain ⟨x, x0, q, qs, qb, hx, hx0, k1, k2, k3, k4⟩ := toy_level hS hT hC hB.usual hB.objective e hmu hv (fun u _ => hprof u) hf g hn
    (fun x hx => by obtain ⟨s, hs⟩ := hf' x hx; rw [hs]; exact (hd _ _ _).1)
    (P := P) (P0 := P (used a e)) (binned_default hS hT hC hB e (fun u hu => hP (used a e) u hdata (Or.inr rfl) hu) g)
    (fun x u _ hx D hD => by
      obtain ⟨s, hs⟩ := hf' x hx.1
      rw [hs] at hD
      obtain ⟨d1, -, d3⟩ := (hd _ _ _).2 D hD
      rw [List.length_map, List.length_range] at d1 d3
      exact binned_fitted hS hT hC hB d1 (fun u hu => hP D u d1 (Or.inl fun i hi => by obtain ⟨k, hk⟩ := d3 i hi; rw [hk]; positivity) hu) g e) hav hM
  have hat : ∀ (x : List ℝ) (u : ℝ), x[0]? = some u → at' x 0 = u := fun x u hx => by simp [at', hx]
  obtain ⟨l, hl⟩ := (hB.profile (hB.length e) hx.1 hx.2.1).mp (hB.default_profile.mp hx)
  obtain ⟨l0, hl0⟩ := (hB.profile (hB.length e) hx0.1 hx0.2.1).mp (hB.default_profile.mp hx0)
  obtain ⟨s, hs⟩ := hf' x hx.1
  obtain ⟨s0, hs0⟩ := hf' x0 hx0.1
  rw [hs, hat x v hx.2.1] at k2
  rw [hs0, hat x0 0 hx0.2.1] at k3
  exact ⟨l, l0, _, _, s, s0, q, qs, qb, hl, hl0, k1, k2, k3, k4⟩

/-- The yields that fit the data best for the strength `v`. -/
noncomputable def rates (bins : List Bin) (v : ℝ) : Vec := bins.map fun x => fitted x.d x.b x.σ (v * x.s)

include hS hT hC in
theorem uncorrelated_toys {E : Ext} {draw} (hd : Samples draw) (e : Expect) {bins : List Bin} {m : Backend.Model} (h : Backend.uncorrelated (argsOf bins) (bins.map Bin.σ) = .ok m) (hvd : Valid bins)
    {mu : Mu} {v : ℝ} (hmu : mu.Is v) (hv : 0 ≤ v) (g : Bool) {n : ℕ} (hn : 0 < n) {available : Calc → Bool} (hav : available .toy = true) {percentile : List F → F → F} (hM : e ≠ .observed → Linear percentile) :
    ∃ s s0 q qs qb, IsStat (profile E.gammaln (seen e bins)) v q ∧ List.Forall₂ (fun D q => IsStat (profile E.gammaln (measured bins D)) v q) (draw (rates (seen e bins) v, s) n) qs ∧
      List.Forall₂ (fun D q => IsStat (profile E.gammaln (measured bins D)) v q) (draw (rates (seen e bins) 0, s0) n) qb ∧
      Ends (Plain (bins.length + 1)) (exclusion (modelMethods S (plugged E draw m) g none (.int n) available percentile) mu e false .toy)
        (.ok (toyLevels e q qs qb)) := by
  obtain ⟨lo, hsim⟩ := Uncorrelated.simple (E := E) h hvd
  obtain ⟨hd0, e1⟩ := seen_data (E := E) hvd e
  have hP : ∀ (D : Vec) u, (argsOf bins).data.length ≤ D.length → (∀ i < (argsOf bins).data.length, 0 ≤ at' D i) ∨ D = used (argsOf bins) e → 0 ≤ u →
      ∃ θ, ProfileMax (Admissible (argsOf bins).data.length (level bins)) (logLikelihood E.gammaln (argsOf bins).data.length (at' (bins.map Bin.s)) (level bins) (constraint bins) (at' D)) u
        (profileOf E.gammaln bins (at' D) u) θ := by
    intro D u hD hD' hu
    rw [argsOf_length] at hD hD' ⊢
    obtain ⟨a1, a2, -⟩ := Uncorrelated.log_attained (G := E.gammaln) (D := at' D) hvd.1 hu
    refine ⟨_, a1, a2.symm, fun θ' hθ' => (Uncorrelated.log_best hvd.1 ?_ hu hθ').1⟩
    rcases hD' with hD' | rfl
    · exact hD'
    · exact hd0
  obtain ⟨l, l0, θ, θ0, s, s0, q, qs, qb, k1, k2, k3, k4, k5, k6⟩ := simple_toys hS hT hC hd e hsim hmu hv g hn hav hM rfl rfl hP
  rw [argsOf_length] at k1 k2 k4 k5 k6
  have hr : ∀ u l θ, 0 ≤ u → ProfileMax (Admissible bins.length (level bins)) (logLikelihood E.gammaln bins.length (at' (bins.map Bin.s)) (level bins) (constraint bins)
      (at' (used (argsOf bins) e))) u l θ → (List.range bins.length).map (expectedIn (at' (bins.map Bin.s)) (level bins) u θ) = rates (seen e bins) u := by
    intro u l θ hu hl
    have := (max_at hvd.1 hd0 hu hl).2
    apply List.ext_getElem
    · simp [rates, seen_length]
    · intro i hi hi'
      simp only [List.length_map, List.length_range] at hi
      have hb : bin (seen e bins) i = (seen e bins)[i]'(by rw [seen_length]; exact hi) := Uncorrelated.getD_get _
      simp only [rates, List.getElem_map, List.getElem_range, this i hi, ← hb, used_data e bins hi]
  rw [hr v l θ hv k1] at k4
  rw [hr 0 l0 θ0 le_rfl k2] at k5
  have e2 : ∀ D : Vec, profileOf E.gammaln bins (at' D) = profile E.gammaln (measured bins D) := fun D =>
    profileOf_eq _ _ _ _ (measured_length bins D) fun i hi => measured_bin bins D hi
  rw [e1] at k3
  simp only [e2] at k4 k5
  exact ⟨s, s0, q, qs, qb, k3, k4, k5, k6⟩

section
variable {E : Ext} {draw : Vec × List Vec → ℕ → List Vec} {bins : List Bin} {m : Backend.Model}
  (h : Backend.poisson (bins.map Bin.s) (bins.map Bin.b) (bins.map Bin.d) none = .ok m) (hσ : ∀ x ∈ bins, x.σ = 0) (hvd : Valid bins)
include h hσ hvd

omit hσ in
theorem counts_objective (g : Bool) (e d) : ∃ f g', Interface.getObjective (plugged E draw m) e d g = .ok (f, g') ∧ ∀ x, f x = neg ((plugged E draw m).logpdf e d x) := by
  obtain ⟨lo, hB⟩ := counts_single E draw h hvd
  obtain ⟨f, g', hf⟩ := hB.total g e d
  exact ⟨f, g', hf, hB.objective hf⟩

include hS hT in
theorem counts_fitted {D : Vec} (hl : D.length = bins.length) (hD : ∀ i < bins.length, 0 ≤ at' D i) (g : Bool) (e : Expect) :
    Fitted S (plugged E draw m) 1 g e (counts E.gammaln (measured bins D)) (some D) := by
  obtain ⟨lo, hB⟩ := counts_single E draw h hvd
  have hmap : (measured bins D).map Bin.d = D := by
    apply List.ext_getElem
    · simp [measured_length, hl]
    · intro i hi hi'
      simp only [measured, List.map_map, List.getElem_map, List.getElem_range, Function.comp_apply]
      exact Uncorrelated.getD_get hi'
  have hlog : ∀ y, (plugged E draw m).logpdf (expectation e) (some D) [y] = fin (counts E.gammaln (measured bins D) y) := by
    intro y
    have := counts_log E draw h e (measured bins D) (measured_length bins D) (fun i hi => by rw [measured_bin bins D hi]) y
    rwa [hmap] at this
  obtain ⟨x, hx⟩ := counts_best E.gammaln (measured_valid hvd hD)
  intro w hw
  refine ⟨⟨x, ⟨hx.1, hx.2.1, fun y k0 k10 => (hx.2.2 y k0 k10).1⟩, ?_⟩, fun v hv => ?_⟩
  · exact single_best hS hT hB hlog (by simpa using hx) g w hw
  · exact single_likelihood hB hlog v true g w hw

include hS hT in
theorem counts_default (g : Bool) (e : Expect) : Fitted S (plugged E draw m) 1 g e (counts E.gammaln (seen e bins)) none := by
  obtain ⟨lo, hB⟩ := counts_single E draw h hvd
  have hlog : ∀ y, (plugged E draw m).logpdf (expectation e) none [y] = fin (counts E.gammaln (seen e bins) y) := counts_none E draw h e
  obtain ⟨x, hx⟩ := counts_best E.gammaln (seen_valid e hvd)
  intro w hw
  refine ⟨⟨x, ⟨hx.1, hx.2.1, fun y k0 k10 => (hx.2.2 y k0 k10).1⟩, ?_⟩, fun v hv => ?_⟩
  · exact single_best hS hT hB hlog (by simpa using hx) g w hw
  · exact single_likelihood hB hlog v true g w hw

theorem counts_sampler {x : List ℝ} {v : ℝ} (hx : x = [v]) (hv : 0 ≤ v) : (plugged E draw m).sampler x = .ok (draw (rates bins v, [])) := by
  subst hx
  have hf := argsOf_fits bins
  obtain ⟨h1, h2, h3⟩ := (Backend.C51_simple_rate _ hf).2.2.1 _ m rfl h
  have he := (Backend.C53_expected_simple _ hf false).2.2.1 _ m rfl h [v] (by rw [h1]; rfl)
  unfold Backend.expectedData at he
  simp only [h2] at he
  have hr : (List.range (argsOf bins).data.length).map (fun i => max (at' [v] 0 * at' (bins.map Bin.s) i + at' (argsOf bins).background i) (1 / 10 ^ 20)) = rates bins v := by
    apply List.ext_getElem
    · simp [rates, argsOf_length]
    · intro i hi hi'
      simp only [List.length_map, List.length_range, argsOf_length] at hi
      have hb : bin bins i = bins[i] := Uncorrelated.getD_get hi
      obtain ⟨p1, p2, -, -⟩ := hvd.1 _ (bin_mem hi)
      have hx : (0 : ℝ) ≤ v * (bin bins i).s := mul_nonneg hv p1
      simp only [rates, List.getElem_map, List.getElem_range, ← hb, hσ _ (bin_mem hi)]
      rw [fitted_none p2 hx]
      show max (at' [v] 0 * at' (bins.map Bin.s) i + at' (bins.map Bin.b) i) _ = _
      rw [at_map _ hi, at_map _ hi, show at' [v] 0 = v from rfl, max_eq_left (by linarith)]
  rw [hr] at he
  have : Backend.sampler m [v] true = .ok (rates bins v, []) := by
    unfold Backend.sampler
    simp only [h2, he, Backend.ok_bind]
    rfl
  simp only [plugged, this, Except.map, Except.mapError]

include hS hT hC in
theorem poisson_toys (hd : Samples draw) (e : Expect) {mu : Mu} {v : ℝ} (hmu : mu.Is v) (hv : 0 ≤ v) (g : Bool) {n : ℕ} (hn : 0 < n) {available : Calc → Bool} (hav : available .toy = true)
    {percentile : List F → F → F} (hM : e ≠ .observed → Linear percentile) :
    ∃ s s0 q qs qb, IsStat (profile E.gammaln (seen e bins)) v q ∧ List.Forall₂ (fun D q => IsStat (profile E.gammaln (measured bins D)) v q) (draw (rates (seen e bins) v, s) n) qs ∧
      List.Forall₂ (fun D q => IsStat (profile E.gammaln (measured bins D)) v q) (draw (rates (seen e bins) 0, s0) n) qb ∧
      Ends (Plain 1) (exclusion (modelMethods S (plugged E draw m) g none (.int n) available percentile) mu e false .toy) (.ok (toyLevels e q qs qb)) := by
  obtain ⟨lo, hB⟩ := counts_single E draw h hvd
  have hsσ : ∀ x ∈ seen e bins, x.σ = 0 := by
    intro x hx
    unfold seen at hx
    split at hx
    · obtain ⟨y, hy, rfl⟩ := List.mem_map.mp hx
      exact hσ y hy
    · exact hσ x hx
  have hrates : ∀ u, 0 ≤ u → rates (seen e bins) u = rates bins u := by
    intro u hu
    apply List.ext_getElem
    · simp [rates, seen_length]
    · intro i hi hi'
      simp only [rates, List.length_map] at hi hi'
      have hb : bin (seen e bins) i = (seen e bins)[i] := Uncorrelated.getD_get _
      have hb' : bin bins i = bins[i] := Uncorrelated.getD_get _
      obtain ⟨p1, p2, -, -⟩ := hvd.1 _ (bin_mem hi')
      simp only [rates, List.getElem_map, ← hb, ← hb', used_data e bins hi', hσ _ (bin_mem hi')]
      rw [fitted_none p2 (mul_nonneg hu p1), fitted_none p2 (mul_nonneg hu p1)]
  rw [hrates v hv, hrates 0 le_rfl]
  have hone : ∀ (x : List ℝ) u, x.length = 1 → x[0]? = some u → x = [u] := by
    intro x u h1 h2
    obtain ⟨y, rfl⟩ := List.length_eq_one_iff.mp h1
    simpa using h2
  have hprof : ∀ u, 0 ≤ u → ∃ x, Profile (plugged E draw m) 1 0 true (expectation e) none u x := by
    intro u hu
    refine ⟨[u], rfl, rfl, ?_, ?_, ?_⟩
    · intro j b y hj hb hy
      rcases j with _ | j
      · exact absurd rfl hj
      · simp at hy
    · rw [hB.constraints]
      intro c hc
      simp at hc
    · intro x' k1 k2 _ _ hne
      rw [hone x' u k1 k2] at hne ⊢
      exact Interface.le_self hne
  have hany : ∀ x : List ℝ, x.length = 1 → ∃ r, (plugged E draw m).sampler x = .ok (draw (r, [])) := by
    intro x hx
    have hf := argsOf_fits bins
    obtain ⟨h1, h2, h3⟩ := (Backend.C51_simple_rate _ hf).2.2.1 _ m rfl h
    have he := (Backend.C53_expected_simple _ hf false).2.2.1 _ m rfl h x (by rw [h1, hx])
    unfold Backend.expectedData at he
    simp only [h2] at he
    generalize (List.range (argsOf bins).data.length).map _ = r at he
    refine ⟨r, ?_⟩
    have : Backend.sampler m x true = .ok (r, []) := by
      unfold Backend.sampler
      simp only [h2, he, Backend.ok_bind]
      rfl
    simp only [plugged, this, Except.map, Except.mapError]
  have hf : ∀ x : List ℝ, x.length = 1 → (plugged E draw m).sampler x = .ok (samplerOf (plugged E draw m) x) := by
    intro x hx
    obtain ⟨r, hr⟩ := hany x hx
    unfold samplerOf
    rw [hr]
  have hf' : ∀ (x : List ℝ) u, 0 ≤ u → x = [u] → samplerOf (plugged E draw m) x = draw (rates bins u, []) := by
    intro x u hu hx
    unfold samplerOf
    rw [counts_sampler h hσ hvd hx hu]
  obtain ⟨x, x0, q, qs, qb, hx, hx0, k1, k2, k3, k4⟩ := toy_level hS hT hC hB.usual (counts_objective h hvd) e hmu hv hprof hf g hn
    (fun x hx => by
      obtain ⟨r, hr⟩ := hany x hx
      rw [hf x hx, Except.ok.injEq] at hr
      rw [hr]; exact (hd _ _ _).1)
    (P := fun D => counts E.gammaln (measured bins D)) (P0 := counts E.gammaln (seen e bins)) (counts_default hS hT h hσ hvd g e)
    (fun x u hu hx D hD => by
      rw [hf' x u hu (hone x u hx.1 hx.2.1)] at hD
      obtain ⟨d1, d2, d3⟩ := (hd _ _ _).2 D hD
      have hl : (rates bins u).length = bins.length := by simp [rates]
      rw [hl] at d2 d3
      exact counts_fitted hS hT h hσ hvd (d2 rfl) (fun i hi => by obtain ⟨k, hk⟩ := d3 i hi; rw [hk]; positivity) g e) hav hM
  rw [hf' x v hv (hone x v hx.1 hx.2.1)] at k2
  rw [hf' x0 0 le_rfl (hone x0 0 hx0.1 hx0.2.1)] at k3
  have hsig : ∀ D, ∀ x ∈ measured bins D, x.σ = 0 := by
    intro D x hx
    obtain ⟨i, hi, rfl⟩ := measured_mem hx
    exact hσ (bin bins i) (bin_mem hi)
  have conv : ∀ (u : ℝ) (qs : List ℝ), List.Forall₂ (fun D q => IsStat (counts E.gammaln (measured bins D)) v q) (draw (rates bins u, []) n) qs →
      List.Forall₂ (fun D q => IsStat (profile E.gammaln (measured bins D)) v q) (draw (rates bins u, []) n) qs := by
    intro u qs hq
    have hmem : ∀ D ∈ draw (rates bins u, []) n, ∀ i < bins.length, 0 ≤ at' D i := by
      intro D hD i hi
      obtain ⟨-, -, d3⟩ := (hd _ _ _).2 D hD
      have hl : (rates bins u).length = bins.length := by simp [rates]
      rw [hl] at d3
      obtain ⟨k, hk⟩ := d3 i hi
      rw [hk]; positivity
    revert hmem
    generalize draw (rates bins u, []) n = ds at *
    intro hmem
    induction hq with
    | nil => exact .nil
    | cons h1 _ ih =>
      exact .cons (stat_shift hv (fun y hy => counts_profile _ (measured_valid hvd (hmem _ (by simp))).1 (hsig _) hy) h1) (ih fun D hD => hmem D (by simp [hD]))
  exact ⟨[], [], q, qs, qb, stat_shift hv (fun y hy => counts_profile _ (seen_valid e hvd).1 hsσ hy) k1, conv v qs k2, conv 0 qb k3, k4⟩

end

end

end Verif.Toys
