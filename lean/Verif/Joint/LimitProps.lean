import Verif.Joint.Props
import Verif.Hypotest.Within

/-!
# C156: the upper limit of a combination

`ex_combined` of `Verif/Uncorrelated/CombinedLimitProps.lean` is a combination of two models with a finite limit, from `C156_exists`; the example after it meets the hypotheses of `C156_limit`.
-/

namespace Verif.Joint
open Verif.Py F Verif.Config Verif.Optimizer Verif.Hypotest Verif.Chain
open Verif.Interface (Data World Size MuHat Plain Solver perfect)
open Verif.Backend (Ext Vec Args at')
open Verif.Stats (Expect Calc)
open Verif.UpperLimit (Expected Band Limit Entries Sound Succeeds Reaches)

section
variable {fit : Minimizer (ℕ → World)} (hfit : Reliable fit) {S : Solver} (hS : Exact S) (hT : Finds S) (hC : Interface.Constrained S) {E : Ext} (draw)
    {e : Expected} {n : ℕ} (hn : 0 < n) {m : ℕ → Backend.Model} {P : ℕ → Part} {lo : ℕ → ℝ} {N : ℕ → ℕ} (h : ∀ i < n, Described E e.toExpect (m i) (P i) (lo i) (N i))
    {name : ℕ → String} (hname : Distinct n name) (inv : List (List ℝ) → Except Interface.Err (List (List ℝ))) (g : Bool) (ntoys : Size) (available : ℕ → Calc → Bool)
    (hav : ∀ i < n, available i .asymptotic = true) (percentile percentile' : List F → F → F) {M : Methods (ℕ → World)}
    (hM : M = combined fit (members n name S inv E draw m g ntoys available percentile') percentile)
    {s : ℕ → World} (hs : All n N s) {start : ℝ} (hstart : (guess (members n name S inv E draw m g ntoys available percentile') e.toExpect s).1 = .ok (fin start))
include hfit hS hT hC hn h hname hM hs hstart

/-- All fits at strengths that are not negative. -/
theorem joint_from : ∃ (b l : ℝ) (L : ℝ → ℝ) (bA lA : ℝ) (LA : ℝ → ℝ), FitsFrom (All n N) M e.toExpect b (fin l) (fun v => fin (L v)) bA (fin lA) fun v => fin (LA v) := by
  subst hM
  have hp := fun i hi => (h i hi).piece hS hT hC draw hi rfl (name i) inv g ntoys (available i) percentile'
  obtain ⟨b, hmin, -⟩ := minimum_ends hn hp
  have hneg : Interface.mayBeNegative "qtilde" = false := by simp [Interface.mayBeNegative]
  have key : ∀ v : ℝ, ∃ best l lv bestA lA lvA : ℝ, 0 ≤ v →
      Ends (All n N) ((combined fit (members n name S inv E draw m g ntoys available percentile') percentile).maximize e.toExpect false none) (.ok (.one best, fin l)) ∧
      Ends (All n N) ((combined fit (members n name S inv E draw m g ntoys available percentile') percentile).likelihood e.toExpect none v) (.ok (fin lv)) ∧
      Ends (All n N) ((combined fit (members n name S inv E draw m g ntoys available percentile') percentile).maximizeAsimov e.toExpect "qtilde") (.ok (.one bestA, fin lA)) ∧
      Ends (All n N) ((combined fit (members n name S inv E draw m g ntoys available percentile') percentile).asimovLikelihood e.toExpect "qtilde" v) (.ok (fin lvA)) := by
    intro v
    by_cases hv : 0 ≤ v
    · obtain ⟨best, l, lv, l0, l1, θ, bestA, lA, lvA, l0A, -, -, -, -, -, -, -, f1, f2⟩ := joint_fits hfit hn hp hname.nodup hs hstart hmin "qtilde" hv percentile
      rw [hneg] at f1
      exact ⟨best, -l, -lv, bestA, -lA, -lvA, fun _ => ⟨f1.1, f1.tested, f2.1, f2.tested⟩⟩
    · exact ⟨0, 0, 0, 0, 0, 0, fun h => absurd h hv⟩
  choose best l lv bestA lA lvA hk using key
  exact ⟨best 0, l 0, lv, bestA 0, lA 0, lvA, (hk 0 le_rfl).1, fun v hv => (hk v hv).2.1, (hk 0 le_rfl).2.2.1, fun v hv => (hk v hv).2.2.2⟩

include hav

/-- C156. An upper limit that `poi_upper_limit` returns for a combination of models of spey is a strength at which the combination reaches the confidence level, up to the tolerance of the root
finder: within this tolerance `exclusion_confidence_level` reports at most the confidence level at some positive strength and at least the confidence level at another. An infinite limit means
that it is below the confidence level at some strength from `1e5`, or above at `1e-10`. Starting points may be given or not; `sigma_mu` is that of the code. -/
theorem C156_limit (fuel : ℕ) (T : Finder) (hstay : T.Stays) (tol : ℝ → ℝ) (hsound : Sound tol T.solver) (CL : ℝ) (low hig : Option ℝ)
    (hlow : low = none ∨ hig = none ∨ ∃ a b, low = some a ∧ hig = some b ∧ 1e-10 ≤ a ∧ 0 ≤ b) (band : Band) {s₀ : ℕ → World} (hs₀ : All n N s₀) (L : Limit)
    (hr : (poiUpperLimit fuel T M (fun e v => sigmaMu M none (.float v) e "qtilde") true e CL low hig band s₀).1 = .ok (some L)) :
    L.Shaped (Entries e band).length ∧ List.Forall₂ (fun i x =>
      (∃ mu, x = fin mu ∧ Reaches (fun x y => 1e-10 ≤ x ∧ Reported (All n N) M e i x y) CL (tol mu) mu) ∨
      (x = pinf ∧ ((∃ b r, 1e5 ≤ b ∧ Reported (All n N) M e i b (fin r) ∧ r < CL) ∨ ∃ r, Reported (All n N) M e i 1e-10 (fin r) ∧ CL < r)))
      (Entries e band) L.values := by
  obtain ⟨b, l, Lf, bA, lA, LA, hf⟩ := joint_from hfit hS hT hC draw hn h hname inv g ntoys available percentile percentile' hM hs hstart
  have hav' : M.available .asymptotic = true := by
    subst hM
    exact members_available hav
  have hst : ∃ c d, 1e-10 ≤ c ∧ 0 ≤ d ∧ Ends (All n N) (starts (fun v => sigmaMu M none (.float v) e.toExpect "qtilde") (.one b) low hig) (.ok (c, d)) := by
    have found : low = none ∨ hig = none → ∃ c d, 1e-10 ≤ c ∧ 0 ≤ d ∧ Ends (All n N) (starts (fun v => sigmaMu M none (.float v) e.toExpect "qtilde") (.one b) low hig) (.ok (c, d)) := by
      intro hn
      obtain ⟨c, d, h1, h2, h3⟩ := starts_found (I := All n N) (sigma := fun v => sigmaMu M none (.float v) e.toExpect "qtilde") (m := b) (fun hb => by
        obtain ⟨x, -, hx⟩ := sigma_from ⟨s, hs⟩ hf (le_trans (by norm_num) hb.le)
        exact ⟨x, hx⟩) hn
      exact ⟨c, d, h1, le_trans (by norm_num) h2, h3⟩
    rcases hlow with h | h | ⟨a, d, rfl, rfl, h1, h2⟩
    · exact found (.inl h)
    · exact found (.inr h)
    · exact ⟨a, d, h1, h2, starts_given _ _ _ _⟩
  obtain ⟨c, d, h1, h2, h3⟩ := hst
  exact limit_means ⟨s, hs⟩ hf hav' (sigma := fun e v => sigmaMu M none (.float v) e "qtilde") h3 h1 h2 hstay hsound hs₀ hr

/-- C156. It returns one, and a finite one, if the levels are at most the confidence level at `1e-10` and at least the confidence level at `1e5`, for given starting points between them. Equal starting points must not
be on the limit. -/
theorem C156_exists (T : Finder) (hstay : T.Stays) (tol : ℝ → ℝ) (hsound : Sound tol T.solver) (hok : Succeeds T.solver) (CL : ℝ) (h0 : 0 ≤ CL) (h1 : CL ≤ 1) (low hig : ℝ) (h2 : 1e-10 ≤ low)
    (h3 : low ≤ hig) (h4 : hig ≤ 1e5) (band : Band) (hb : band ≠ .unknown)
    (hne : low < hig ∨ ∀ i ∈ Entries e band, ∀ r, Reported (All n N) M e i low (fin r) → r ≠ CL) (hlow : ∀ i ∈ Entries e band, ∀ r, Reported (All n N) M e i 1e-10 (fin r) → r ≤ CL)
    (hhig : ∀ i ∈ Entries e band, ∀ r, Reported (All n N) M e i 1e5 (fin r) → CL ≤ r) :
    ∃ L : Limit, L.Shaped (Entries e band).length ∧
      List.Forall₂ (fun i x => ∃ mu, x = fin mu ∧ Reaches (fun x y => 1e-10 ≤ x ∧ Reported (All n N) M e i x y) CL (tol mu) mu) (Entries e band) L.values ∧
      ∃ N₀, ∀ k ≥ N₀, Ends (All n N) (poiUpperLimit k T M (fun e v => sigmaMu M none (.float v) e "qtilde") true e CL (some low) (some hig) band) (.ok (some L)) := by
  obtain ⟨b, l, Lf, bA, lA, LA, hf⟩ := joint_from hfit hS hT hC draw hn h hname inv g ntoys available percentile percentile' hM hs hstart
  have hav' : M.available .asymptotic = true := by
    subst hM
    exact members_available hav
  exact limit_exists_start hav' ⟨s, hs⟩ hf _ hsound hok hstay h0 h1 h2 h3 h4 band hb hne hlow hhig

end

end Verif.Joint
