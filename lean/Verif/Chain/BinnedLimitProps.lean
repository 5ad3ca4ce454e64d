import Verif.Chain.Exists
import Verif.Hypotest.LimitProps

/-!
# C163: upper limits of the simplified likelihoods

All of them: with independent or correlated uncertainties, with third moments, with asymmetric uncertainties. An example, with third moments, is in `Verif.Reach.Props`.
-/

namespace Verif.Chain
open Verif.Py F Verif.Config Verif.Optimizer Verif.Hypotest
open Verif.Interface (Data World Size Plain Solver StartFree)
open Verif.Backend (Ext Vec Args Built Fits at')
open Verif.Stats (Expect Calc)
open Verif.UpperLimit (Expected Band Limit Entries Sound Succeeds Reaches)

section
variable {E : Ext} {a : Args} {m : Backend.Model} {y : Vec} {bin : ℕ → ℝ → ℝ} {pen : (ℕ → ℝ) → ℝ} {lo : ℝ} (h : Simple E a m y bin pen lo)
  {S : Solver} (hS : Exact S) (hT : Finds S) (hC : Interface.Constrained S) (draw : Vec × List Vec → ℕ → List Vec)
  (g : Bool) (ntoys : Size) (available : Calc → Bool) (hav : available .asymptotic = true) (percentile : List F → F → F)
  (inv : List (List ℝ) → Except Interface.Err (List (List ℝ))) (e : Expected) (CL : ℝ) (T : Finder) (hstay : T.Stays) (tol : ℝ → ℝ) (hsound : Sound tol T.solver) (band : Band)
include h hS hT hC hav hstay hsound

/-- C163. An upper limit that `poi_upper_limit` returns for a simplified likelihood is a strength at which the model reaches the confidence level, up to the tolerance of the root finder: within this
tolerance `exclusion_confidence_level` reports at most the confidence level at some strength from `1e-10` and at least the confidence level at another. An infinite limit means that it is below the
confidence level at some strength from `1e5`, or above at `1e-10`. The starting points are given, or the estimate of the uncertainty of the strength on which they are based is a number. -/
theorem C163_limit (fuel : ℕ) (low hig : Option ℝ)
    (hlow : (∃ l u, low = some l ∧ hig = some u ∧ 1e-10 ≤ l ∧ 0 ≤ u) ∨ (low = none ∨ hig = none) ∧
      ∀ v, 1e-8 < v → ∃ s, Ends (Plain (a.data.length + 1)) (modelSigma S inv (plugged E draw m) g ntoys available percentile e.toExpect v) (.ok (fin s)))
    (w : World) (hw : Plain (a.data.length + 1) w) (L : Limit)
    (hr : (poiUpperLimit fuel T (modelMethods S (plugged E draw m) g none ntoys available percentile) (modelSigma S inv (plugged E draw m) g ntoys available percentile) true e CL low hig band w).1 =
      .ok (some L)) :
    L.Shaped (Entries e band).length ∧ List.Forall₂ (fun i x =>
      (∃ mu, x = fin mu ∧ Reaches (fun x y => 1e-10 ≤ x ∧ Reported (Plain (a.data.length + 1)) (modelMethods S (plugged E draw m) g none ntoys available percentile) e i x y) CL (tol mu) mu) ∨
      (x = pinf ∧ ((∃ b r, 1e5 ≤ b ∧ Reported (Plain (a.data.length + 1)) (modelMethods S (plugged E draw m) g none ntoys available percentile) e i b (fin r) ∧ r < CL) ∨
        ∃ r, Reported (Plain (a.data.length + 1)) (modelMethods S (plugged E draw m) g none ntoys available percentile) e i 1e-10 (fin r) ∧ CL < r)))
      (Entries e band) L.values := by
  obtain ⟨mu, l, Lf, mA, lA, LA, hf⟩ := (h.binned draw).fits_from hS hT hC e.toExpect g ntoys available percentile
  have hst : ∃ c d, 1e-10 ≤ c ∧ 0 ≤ d ∧
      Ends (Plain (a.data.length + 1)) (starts (modelSigma S inv (plugged E draw m) g ntoys available percentile e.toExpect) (.one mu) low hig) (.ok (c, d)) := by
    rcases hlow with ⟨c, d, rfl, rfl, h1, h2⟩ | ⟨hn, hs⟩
    · exact ⟨c, d, h1, h2, starts_given _ _ _ _⟩
    · obtain ⟨c, d, h1, h2, h3⟩ := starts_found (I := Plain (a.data.length + 1)) (sigma := modelSigma S inv (plugged E draw m) g ntoys available percentile e.toExpect) (m := mu)
        (fun hb => hs _ hb) hn
      exact ⟨c, d, h1, le_trans (by norm_num) h2, h3⟩
  obtain ⟨c, d, h1, h2, h3⟩ := hst
  exact limit_means ⟨w, hw⟩ hf hav h3 h1 h2 hstay hsound hw hr

/-- C163. It returns one, and a finite one, if the level is at most the confidence level at `1e-10` and at least the confidence level at `1e5`, for given starting
points between these values. Equal ones, as those of the defaults (1 and 1), must not be on the limit (see `C19_start_on_the_limit_fails`). -/
theorem C163_exists (hok : Succeeds T.solver) (h0 : 0 ≤ CL) (h1 : CL ≤ 1) (low hig : ℝ) (h2 : 1e-10 ≤ low) (h3 : low ≤ hig) (h4 : hig ≤ 1e5) (hb : band ≠ .unknown)
    (hne : low < hig ∨ ∀ i ∈ Entries e band, ∀ r, Reported (Plain (a.data.length + 1)) (modelMethods S (plugged E draw m) g none ntoys available percentile) e i low (fin r) → r ≠ CL)
    (hlow : ∀ i ∈ Entries e band, ∀ r, Reported (Plain (a.data.length + 1)) (modelMethods S (plugged E draw m) g none ntoys available percentile) e i 1e-10 (fin r) → r ≤ CL)
    (hhig : ∀ i ∈ Entries e band, ∀ r, Reported (Plain (a.data.length + 1)) (modelMethods S (plugged E draw m) g none ntoys available percentile) e i 1e5 (fin r) → CL ≤ r) :
    ∃ L : Limit, L.Shaped (Entries e band).length ∧
      List.Forall₂ (fun i x => ∃ mu, x = fin mu ∧
        Reaches (fun x y => 1e-10 ≤ x ∧ Reported (Plain (a.data.length + 1)) (modelMethods S (plugged E draw m) g none ntoys available percentile) e i x y) CL (tol mu) mu) (Entries e band) L.values ∧
      ∃ n₀, ∀ n ≥ n₀, Ends (Plain (a.data.length + 1)) (poiUpperLimit n T (modelMethods S (plugged E draw m) g none ntoys available percentile)
        (modelSigma S inv (plugged E draw m) g ntoys available percentile) true e CL (some low) (some hig) band) (.ok (some L)) := by
  obtain ⟨mu, l, Lf, mA, lA, LA, hf⟩ := (h.binned draw).fits_from hS hT hC e.toExpect g ntoys available percentile
  exact limit_exists_start hav ⟨⟨List.replicate (a.data.length + 1) 0, none, none⟩, rfl, rfl, by simp⟩ hf _ hsound hok hstay h0 h1 h2 h3 h4 band hb hne hlow hhig

end

end Verif.Chain
