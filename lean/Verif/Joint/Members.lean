import Verif.Joint.Pieces
import Verif.Chain.ProfileProps
import Verif.Chain.LimitProps

/-!
# The models of spey as members of a combination
-/

namespace Verif.Joint
open Verif.Py F Verif.Hypotest Verif.Chain
open Verif.Interface (MuHat Data World Size Plain Solver InBounds Satisfies Allowed)
open Verif.Stats (Expect Calc)
open Verif.Backend (Ext Vec Args Built Fits at' poissonLog)

/-- The lists of all models have the right lengths. -/
def All (n : ℕ) (N : ℕ → ℕ) (s : ℕ → World) : Prop := ∀ i < n, Plain (N i) (s i)

theorem focus_ends {n : ℕ} {N : ℕ → ℕ} {i : ℕ} (hi : i < n) {α : Type} {c : Comp World α} {r} (h : Ends (Plain (N i)) c r) : Ends (All n N) (focus i c) r := by
  intro s hs
  obtain ⟨h1, h2⟩ := h (s i) (hs i hi)
  refine ⟨h1, fun j hj => ?_⟩
  unfold focus
  by_cases hji : j = i
  · subst hji
    simpa using h2
  · simp only [Function.update_of_ne hji]
    exact hs j hj

theorem focus_steady {n : ℕ} {N : ℕ → ℕ} {i : ℕ} (hi : i < n) {α : Type} {c : Comp World α} (h : Steady (Plain (N i)) c) : Steady (All n N) (focus i c) := by
  intro s s' hs hs'
  obtain ⟨h1, h2⟩ := h (s i) (s' i) (hs i hi) (hs' i hi)
  refine ⟨h1, fun j hj => ?_⟩
  unfold focus
  by_cases hji : j = i
  · subst hji
    simpa using h2
  · simp only [Function.update_of_ne hji]
    exact hs j hj

theorem asimov_steady {S : Solver} (hS : Exact S) {B : Interface.Backend} {N k : ℕ} (hB : Usual B N k) (e : Expect) (ts : String) (g : Bool) {w : World} (hw : Plain N w) {D : Data}
    (h : (Interface.generateAsimov S B (expectation e) ts g none w).1 = .ok D) : Ends (Plain N) (ofInterface (Interface.generateAsimov S B (expectation e) ts g none)) (.ok D) := by
  intro w' hw'
  obtain ⟨h1, h2⟩ := Interface.generateAsimov_free hS.free B hB.fixed (expectation e) ts g none hw' hw
  refine ⟨?_, h2⟩
  show (Interface.generateAsimov S B (expectation e) ts g none w').1.mapError _ = _
  rw [h1, h]
  rfl

theorem plain_exists (N : ℕ) : ∃ w : World, Plain N w := ⟨⟨List.replicate N 0, none, none⟩, rfl, rfl, by simp⟩

/-- The fit of a model whose only parameter is the signal strength. -/
theorem single_fit {S : Solver} (hS : Exact S) (hT : Finds S) (hC : Interface.Constrained S) {B : Interface.Backend} {lo : ℝ} (hB : Single B lo) (hlo : lo ≤ 0) {e : Expect} {L : ℝ → ℝ}
    (hL : Continuous L) (hd : ∀ u, B.logpdf (expectation e) none [u] = fin (L u)) (g : Bool) (ntoys : Size) (available : Calc → Bool) (percentile : List F → F → F) :
    ∃ mu r, lo ≤ mu ∧ mu ≤ 10 ∧ Ends (Plain 1) ((modelMethods S B g none ntoys available percentile).maximize e true none) (.ok (.one mu, r)) := by
  obtain ⟨w, hw⟩ := plain_exists 1
  obtain ⟨-, hmax, -⟩ := model_ends hS hB.usual g ntoys available percentile e w hw
  obtain ⟨y, hy, hmaxy⟩ := isCompact_Icc.exists_isMaxOn (s := Set.Icc lo 10) ⟨lo, le_rfl, by linarith⟩ hL.continuousOn
  have hin : ∀ u, InBounds (B.config true).bounds [u] ↔ lo ≤ u ∧ u ≤ 10 := by
    intro u
    rw [hB.bounds true, if_pos rfl]
    constructor
    · intro h
      have := h 0 _ _ rfl rfl
      exact ⟨this.1 _ rfl, this.2 _ rfl⟩
    · rintro ⟨h1, h2⟩ j b z hb hz
      rcases j with _ | j
      · simp only [List.getElem?_cons_zero, Option.some.injEq] at hb hz
        subst hb hz
        exact ⟨fun l hl => by simp only [Option.some.injEq] at hl; subst hl; exact h1, fun l hl => by simp only [Option.some.injEq] at hl; subst hl; exact h2⟩
      · simp at hb
  have hsat : ∀ u, Satisfies B.constraints u := by
    intro u
    rw [hB.constraints]
    simp [Satisfies]
  obtain ⟨z, m, h1, h2, h3⟩ := maximize_succeeds hS hT hC hB.usual (fun g e d => by
    obtain ⟨f, g', h⟩ := hB.total g e d
    exact ⟨f, g', h, hB.objective h⟩) (e := expectation e) (n := true) (d := none) (g := g) hw ⟨[y], rfl, (hin y).mpr hy, hsat _, fun x' h1 h2 h3 _ => by
      obtain ⟨u, rfl⟩ := List.length_eq_one_iff.mp h1
      rw [hd, hd]
      exact hmaxy ((hin u).mp h2)⟩
  obtain ⟨u, rfl⟩ := List.length_eq_one_iff.mp h1.1
  simp only [List.getElem?_cons_zero, Option.some.injEq] at h2
  subst h2
  exact ⟨u, _, ((hin u).mp h1.2.1).1, ((hin u).mp h1.2.1).2, hmax none true _ h3⟩

section
variable {S : Solver} (hS : Exact S) (hT : Finds S) (hC : Interface.Constrained S) {n : ℕ} {N : ℕ → ℕ} {i : ℕ} (hi : i < n) (name : String)
  (inv : List (List ℝ) → Except Interface.Err (List (List ℝ))) (g : Bool) (ntoys : Size) (available : Calc → Bool) (percentile : List F → F → F)
include hS hT hC hi

/-- The Poisson models with nuisance parameters. -/
theorem binned_piece {B : Interface.Backend} {k : ℕ} {γ : ℝ → ℝ} {s : ℕ → ℝ} {bin : ℕ → ℝ → ℝ} {pen : (ℕ → ℝ) → ℝ} {lo : ℝ} {dflt : Expect → Vec}
    (hB : Binned B k γ s bin pen lo dflt) (hN : N i = k + 1) (e : Expect) :
    Piece (All n N) (member i name S inv B g ntoys available percentile) e lo
      ⟨Admissible k bin, logLikelihood γ k s bin pen, at' (dflt e), expectedIn s bin⟩ := by
  obtain ⟨w, hw⟩ := plain_exists (k + 1)
  obtain ⟨hlik, hmax, -⟩ := model_ends hS hB.usual g ntoys available percentile e w hw
  refine ⟨hB.minimum true, hB.low, fun D => ?_, fun v hv => ?_, fun ts => ?_, ?_, fun v => ?_⟩
  · have : ∀ v, ∃ l θ, ProfileMax (Admissible k bin) (logLikelihood γ k s bin pen D) v l θ := fun v => profile_exists hB.tame γ s D v
    choose p hp using this
    exact ⟨p, profile_semicontinuous hB.tame γ s D hp, hp⟩
  · obtain ⟨l, ⟨θ, h1⟩, h2⟩ := hB.at_default hS hT hC e hv g hw
    exact ⟨l, θ, h1, focus_ends hi (hN ▸ hlik none v _ h2)⟩
  · obtain ⟨l, θ, D, h1, h2, h3, h4⟩ := hB.asimov hS hT hC e ts g hw
    refine ⟨l, θ, D, h1, focus_ends hi (hN ▸ asimov_steady hS hB.usual e ts g hw h4), fun v hv => ?_⟩
    obtain ⟨l', ⟨θ', h5⟩, h6⟩ := hB.at hS hT hC e h2 hv g hw
    refine ⟨l', θ', ?_, focus_ends hi (hN ▸ hlik (some D) v _ h6)⟩
    rw [logLikelihood_data h3] at h5
    exact h5
  · obtain ⟨mu, l, h1, h2⟩ := hB.fit_default hS hT hC true e g hw
    exact ⟨mu, _, h1.2.1, focus_ends hi (hN ▸ hmax none true _ h2)⟩
  · exact focus_steady hi (hN ▸ modelSigma_steady hS.free inv B hB.usual.fixed g ntoys available percentile (k + 1) e v)

/-- The models whose only parameter is the signal strength. -/
theorem single_piece {B : Interface.Backend} {lo : ℝ} (hB : Single B lo) (hlo : lo ≤ 0) (hN : N i = 1) (e : Expect) {L : (ℕ → ℝ) → ℝ → ℝ} (hL : ∀ D, Continuous (L D))
    {d : ℕ → ℝ} {x : ℝ → ℕ → ℝ} (hd : ∀ u, B.logpdf (expectation e) none [u] = fin (L d u))
    (hx : ∀ z, 0 ≤ z → ∃ D : Vec, B.expectedData [z] = .ok D ∧ ∀ u, B.logpdf (expectation e) (some D) [u] = fin (L (x z) u)) :
    Piece (All n N) (member i name S inv B g ntoys available percentile) e lo ⟨fun _ => True, fun D u _ => L D u, d, fun z _ => x z⟩ := by
  obtain ⟨w, hw⟩ := plain_exists 1
  obtain ⟨hlik, hmax, -⟩ := model_ends hS hB.usual g ntoys available percentile e w hw
  have triv : ∀ D v, ProfileMax (fun _ : ℕ → ℝ => True) (fun u (_ : ℕ → ℝ) => L D u) v (L D v) fun _ => 0 := fun D v => ⟨trivial, rfl, fun _ _ => le_rfl⟩
  refine ⟨hB.minimum true, hlo, fun D => ⟨L D, (hL D).upperSemicontinuous, fun v => ⟨_, triv D v⟩⟩, fun v hv => ?_, fun ts => ?_, ?_, fun v => ?_⟩
  · exact ⟨_, _, triv d v, focus_ends hi (hN ▸ hlik none v _ (single_likelihood hB hd v true g w hw))⟩
  · have hz : 0 ≤ strength ts := by unfold strength; split <;> norm_num
    obtain ⟨D, h1, h2⟩ := hx (strength ts) hz
    refine ⟨_, _, D, triv d _, focus_ends hi (hN ▸ asimov_steady hS hB.usual e ts g hw ?_), fun v hv => ?_⟩
    · rw [single_asimov hS hT hB hd ts g w hw]
      exact h1
    · exact ⟨_, _, triv _ v, focus_ends hi (hN ▸ hlik (some D) v _ (single_likelihood hB h2 v true g w hw))⟩
  · obtain ⟨m, r, -, h2, h3⟩ := single_fit hS hT hC hB hlo (hL d) hd g ntoys available percentile
    exact ⟨m, r, h2, focus_ends hi (hN ▸ h3)⟩
  · exact focus_steady hi (hN ▸ modelSigma_steady hS.free inv B hB.usual.fixed g ntoys available percentile 1 e v)

end

/-- A Poisson model without uncertainties: a signal without parameters, yields of the right lengths, non-negative backgrounds and at least one positive signal
yield. -/
structure Counting (a : Args) (m : Backend.Model) (y : Vec) : Prop where
  model : Backend.poisson y a.background a.data none = .ok m
  fits : Fits a
  modifiers : a.modifiers = none
  parameters : a.nsp = 0
  bounds : a.bounds = none
  signal : a.signal = .array y
  positive : ∃ i < a.data.length, 0 < at' y i
  background : ∀ i < a.data.length, 0 ≤ at' a.background i

/-- A model of spey (Poisson with simplified likelihoods, Gaussian, or Poisson without uncertainties) and its likelihood: the parameters allowed, the
log-likelihood, the data used, the expected data. `lo` is the smallest signal strength and `N` the number of parameters. -/
inductive Described (E : Ext) (e : Expect) (m : Backend.Model) : Part → ℝ → ℕ → Prop
  | simple {a : Args} {y : Vec} {bin : ℕ → ℝ → ℝ} {pen : (ℕ → ℝ) → ℝ} {lo : ℝ} (h : Simple E a m y bin pen lo) :
      Described E e m ⟨Admissible a.data.length bin, logLikelihood E.gammaln a.data.length (at' y) bin pen, at' (used a e), expectedIn (at' y) bin⟩ lo (a.data.length + 1)
  | gaussian {a : Args} {y : Vec} {P : ℕ → ℕ → ℝ} {lo K : ℝ} (h : Case E a m P y) (hlo : m.config.minimumPoi = fin lo)
      (hK : ∀ (D : Vec), D.length = a.data.length → ∀ u, Backend.logpdf E m (expectation e) (some D) [u] =
        .ok (K - form a.data.length P (fun i => at' D i - (u * at' y i + at' a.background i)) (fun i => at' D i - (u * at' y i + at' a.background i)) / 2)) :
      Described E e m ⟨fun _ => True, fun D mu _ => K - form a.data.length P (fun i => D i - (mu * at' y i + at' a.background i)) (fun i => D i - (mu * at' y i + at' a.background i)) / 2,
        at' (used a e), fun mu _ i => mu * at' y i + at' a.background i⟩ lo 1
  | counting {a : Args} {y : Vec} {lo : ℝ} (h : Counting a m y) (hlo : m.config.minimumPoi = fin lo) :
      Described E e m ⟨fun _ => True, fun D mu _ => ∑ i ∈ Finset.range a.data.length, poissonLog E.gammaln (D i) (max (mu * at' y i + at' a.background i) (1 / 10 ^ 20)),
        at' (used a e), fun mu _ i => max (mu * at' y i + at' a.background i) (1 / 10 ^ 20)⟩ lo 1

theorem at'_range {n : ℕ} (f : ℕ → ℝ) {i : ℕ} (hi : i < n) : at' ((List.range n).map f) i = f i := by simp [at', hi]

theorem Described.piece {S : Solver} (hS : Exact S) (hT : Finds S) (hC : Interface.Constrained S) {E : Ext} (draw) {e : Expect} {m : Backend.Model} {P : Part} {lo : ℝ} {k : ℕ}
    (h : Described E e m P lo k) {n : ℕ} {N : ℕ → ℕ} {i : ℕ} (hi : i < n) (hN : N i = k) (name : String)
    (inv : List (List ℝ) → Except Interface.Err (List (List ℝ))) (g : Bool) (ntoys : Size) (available : Calc → Bool) (percentile : List F → F → F) :
    Piece (All n N) (member i name S inv (plugged E draw m) g ntoys available percentile) e lo P := by
  cases h with
  | simple h => exact binned_piece hS hT hC hi name inv g ntoys available percentile (h.binned draw) hN e
  | @gaussian a y P lo K h hlo hK =>
    obtain ⟨lo', h1, h2, -⟩ := h.single draw
    have : lo = lo' := by
      have := h1.minimum true
      simp only [plugged, Backend.configOf, and_self, if_true, hlo, fin.injEq] at this
      exact this
    subst this
    refine single_piece hS hT hC hi name inv g ntoys available percentile h1 h2 hN e
      (L := fun D mu => K - form a.data.length P (fun i => D i - (mu * at' y i + at' a.background i)) (fun i => D i - (mu * at' y i + at' a.background i)) / 2)
      (d := at' (used a e)) (x := fun mu i => mu * at' y i + at' a.background i) (fun D => by unfold form; fun_prop) (fun u => ?_) fun z hz => ?_
    · rw [plugged_none E draw (measurement_built h.model h.modifiers) h.fits]
      simp only [plugged, hK _ (used_length h.fits e), value]
    · refine ⟨(List.range a.data.length).map fun i => z * at' y i + at' a.background i, ?_, fun u => ?_⟩
      · simp only [plugged, measurement_expected h.model h.fits h.parameters h.signal z, Except.mapError]
      · have := hK ((List.range a.data.length).map fun i => z * at' y i + at' a.background i) (by simp) u
        simp only [plugged, this, value, fin.injEq]
        congr 2
        unfold form
        exact Finset.sum_congr rfl fun i hi => Finset.sum_congr rfl fun j hj => by
          dsimp only
          rw [at'_range _ (Finset.mem_range.mp hi), at'_range _ (Finset.mem_range.mp hj)]
  | @counting a y lo h hlo =>
    have hB : Built a m := .poisson y none ⟨h.signal, h.modifiers, h.parameters, h.bounds⟩ h.model
    obtain ⟨h1, h2, h3⟩ := (Backend.C51_simple_rate a h.fits).2.2.1 y m h.signal h.model
    obtain ⟨c, hc, -, -, -, h6⟩ := Backend.poisson_ok h.model
    rcases h6 with ⟨-, h6, -, h7⟩ | ⟨s', h7, -⟩
    swap
    · simp at h7
    have hlog : ∀ D : Vec, D.length = a.data.length → ∀ u, (plugged E draw m).logpdf (expectation e) (some D) [u] =
        fin (∑ i ∈ Finset.range a.data.length, poissonLog E.gammaln (at' D i) (max (u * at' y i + at' a.background i) (1 / 10 ^ 20))) := by
      intro D hD u
      simp only [plugged]
      rw [Backend.poisson_loglik E m _ h6 h2 a.data.length _ [u] D (h3 [u] (by rw [h1]; rfl)) hD]
      rfl
    refine single_piece hS hT hC hi name inv g ntoys available percentile (plugged_single E draw hB h.fits h1 h7 hlo) ?_ hN e
      (L := fun D mu => ∑ i ∈ Finset.range a.data.length, poissonLog E.gammaln (D i) (max (mu * at' y i + at' a.background i) (1 / 10 ^ 20)))
      (d := at' (used a e)) (x := fun mu i => max (mu * at' y i + at' a.background i) (1 / 10 ^ 20)) (fun D => ?_) (fun u => ?_) fun z hz => ?_
    · obtain ⟨-, -, k3⟩ := Backend.C52_minimum a m hB h.fits y h.signal
      obtain ⟨m0, k4, -, k5⟩ := k3 h.positive
      rw [hlo, fin.injEq] at k4
      subst k4
      by_contra hlt
      obtain ⟨j, hj, -, k7⟩ := k5 0 (not_le.mp hlt)
      have := h.background j hj
      linarith
    · unfold poissonLog
      refine continuous_finsetSum _ fun j _ => ?_
      refine ((continuous_const.mul (Continuous.log (by fun_prop) fun u => ?_)).sub (by fun_prop)).sub continuous_const
      have : (0 : ℝ) < max (u * at' y j + at' a.background j) (1 / 10 ^ 20) := lt_max_of_lt_right (by norm_num)
      exact this.ne'
    · rw [plugged_none E draw hB h.fits, hlog _ (used_length h.fits e)]
    · refine ⟨(List.range a.data.length).map fun i => max (z * at' y i + at' a.background i) (1 / 10 ^ 20), ?_, fun u => ?_⟩
      · simp only [plugged]
        rw [(Backend.C53_expected_simple a h.fits true).2.2.1 y m h.signal h.model [z] (by rw [h1]; rfl)]
        rfl
      · rw [hlog _ (by simp), fin.injEq]
        exact Finset.sum_congr rfl fun j hj => by rw [at'_range _ (Finset.mem_range.mp hj)]

end Verif.Joint
