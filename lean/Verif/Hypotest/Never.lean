import Verif.Hypotest.Within
import Verif.UpperLimit.Never

/-!
# Lemma: the upper limit of a model when the confidence level is never reached
-/

namespace Verif.Hypotest
open Verif.Py F Verif.Optimizer
open Verif.Stats (Expect Calc)
open Verif.UpperLimit (Expected Band Limit Entries)

variable {σ : Type} {I : σ → Prop} {M : Methods σ} {e : Expected} {m mA : ℝ}

/-- If the fits at signal strengths that are not negative succeed with finite likelihoods, and no strength reaches the confidence level, then the limits are infinite. -/
theorem limit_never (hav : M.available .asymptotic = true) (hI : ∃ s, I s) {l lA : ℝ} {L LA : ℝ → ℝ}
    (h : FitsFrom I M e.toExpect m (fin l) (fun v => fin (L v)) mA (fin lA) fun v => fin (LA v)) (sigma : Expect → ℝ → Comp σ F)
    {T : Finder} (hT : T.Stays) {CL : ℝ} (h0 : 0 ≤ CL) (h1 : CL ≤ 1) {low hig : ℝ} (h2 : 1e-10 ≤ low) (h3 : 0 < hig) (band : Band) (hb : band ≠ .unknown)
    (hn : ∀ i ∈ Entries e band, ∀ v r, 0 ≤ v → Reported I M e i v (fin r) → r < CL) :
    ∃ lim : Limit, (∀ x ∈ lim.values, x = pinf) ∧ ∃ N, ∀ n ≥ N, Ends I (poiUpperLimit n T M sigma true e CL (some low) (some hig) band) (.ok (some lim)) := by
  obtain ⟨lim, ⟨N, hN⟩, hinf⟩ := UpperLimit.limit_never T.solver
    ⟨true, fitted m (fin l) (fun v => fin (L v)) mA (fin lA) (fun v => fin (LA v)) M.available, m, fun _ => 1⟩ rfl hav
    (fun mu => ⟨⟨_, rfl⟩, ⟨_, rfl⟩, ⟨_, rfl⟩, ⟨_, rfl⟩, ⟨_, rfl⟩, ⟨_, rfl⟩⟩) e CL h0 h1 low hig h2 h3 band hb
    (fun i hi v r hv hr => hn i hi v r hv (h.reported hI hv hr))
  refine ⟨lim, hinf, N, fun n hn => ?_⟩
  have := agrees_started h (starts_given (sigma e.toExpect) (.one m) low hig) h2 h3.le n hT true CL band
  have hN := hN n hn
  dsimp only at hN
  rw [hN] at this
  exact this

end Verif.Hypotest
