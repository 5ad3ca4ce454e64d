import Verif.Chain.Existence

/-!
# Likelihoods that fall in all directions have a maximum
-/

namespace Verif.Uncertain
open Verif.Chain

/-- A likelihood of the signal strength and `N` other parameters in a closed region, where it falls at least as fast as a Gaussian. -/
structure Steady (N : ℕ) (ok : (ℕ → ℝ) → Prop) (L : ℝ → (ℕ → ℝ) → ℝ) : Prop where
  continuous : Continuous fun x : ℝ × (ℕ → ℝ) => L x.1 x.2
  closed : IsClosed {θ | ok θ}
  few : ∀ {θ θ' : ℕ → ℝ}, (∀ i < N, θ i = θ' i) → ∀ mu, L mu θ = L mu θ'
  same : ∀ {θ θ' : ℕ → ℝ}, (∀ i < N, θ i = θ' i) → ok θ → ok θ'
  feasible : ∃ θ, ok θ
  falls : ∃ K c : ℝ, 0 < c ∧ ∀ mu θ, ok θ → L mu θ ≤ K - c * ∑ i ∈ Finset.range N, θ i ^ 2

section
variable {N : ℕ} {ok : (ℕ → ℝ) → Prop} {L : ℝ → (ℕ → ℝ) → ℝ} (h : Steady N ok L)
include h

theorem Steady.profile (mu : ℝ) : ∃ l θ, ProfileMax ok L mu l θ := by
  obtain ⟨K, c, hc, hK⟩ := h.falls
  obtain ⟨θ0, h0⟩ := h.feasible
  obtain ⟨x, hx, hmax⟩ := exists_best (fun x : Fin N → ℝ => L mu (extend N x)) (h.continuous.comp (continuous_const.prodMk (extend_continuous N)))
    {x | ok (extend N x)} (h.closed.preimage (extend_continuous N)) ⟨fun j => θ0 j, h.same (fun i hi => (extend_restrict θ0 hi).symm) h0⟩ K c hc
    (fun x hx => by rw [← extend_sum]; exact hK _ _ hx)
  refine ⟨_, extend N x, hx, rfl, fun θ hθ => ?_⟩
  have := hmax (fun j => θ j) (h.same (fun i hi => (extend_restrict θ hi).symm) hθ)
  rwa [h.few (fun i hi => extend_restrict θ hi)] at this

theorem Steady.global {lo hi : ℝ} (hle : lo ≤ hi) : ∃ mu l, GlobalMax ok L lo hi mu l := by
  obtain ⟨K, c, hc, hK⟩ := h.falls
  obtain ⟨θ0, h0⟩ := h.feasible
  have htail : Continuous fun x : Fin (N + 1) → ℝ => extend N (fun j => x j.succ) :=
    (extend_continuous N).comp (continuous_pi fun j => continuous_apply _)
  have hbound : ∀ u, lo ≤ u → u ≤ hi → u ^ 2 ≤ lo ^ 2 + hi ^ 2 := by
    intro u h1 h2
    by_cases hu : 0 ≤ u
    · nlinarith [sq_nonneg lo]
    · nlinarith [sq_nonneg hi]
  obtain ⟨x, hx, hmax⟩ := exists_best (fun x : Fin (N + 1) → ℝ => L (x 0) (extend N (fun j => x j.succ)))
    (h.continuous.comp ((continuous_apply _).prodMk htail))
    ({x | ok (extend N (fun j => x j.succ))} ∩ ({x | lo ≤ x 0} ∩ {x | x 0 ≤ hi}))
    ((h.closed.preimage htail).inter ((isClosed_le continuous_const (continuous_apply _)).inter (isClosed_le (continuous_apply _) continuous_const)))
    ⟨Fin.cons lo fun j => θ0 j, by
      refine ⟨?_, ?_, ?_⟩
      · simp only [Set.mem_ofPred_eq, Fin.cons_succ]
        exact h.same (fun i hi => (extend_restrict θ0 hi).symm) h0
      · simp
      · simpa using hle⟩ (K + c * (lo ^ 2 + hi ^ 2)) c hc (fun x hx => by
        rw [Fin.sum_univ_succ, ← extend_sum fun j => x (Fin.succ j)]
        have h1 := hK (x 0) (extend N fun j => x j.succ) hx.1
        have h2 := mul_le_mul_of_nonneg_left (hbound _ hx.2.1 hx.2.2) hc.le
        linarith)
  refine ⟨x 0, _, hx.2.1, hx.2.2, ⟨extend N fun j => x j.succ, hx.1, rfl⟩, fun mu θ h1 h2 h3 => ?_⟩
  have := hmax (Fin.cons mu fun j => θ j) ⟨by
    simp only [Set.mem_ofPred_eq, Fin.cons_succ]
    exact h.same (fun i hi => (extend_restrict θ hi).symm) h3, by simpa using h1, by simpa using h2⟩
  simp only [Fin.cons_succ, Fin.cons_zero] at this
  rwa [h.few (fun i hi => extend_restrict θ hi)] at this

end

end Verif.Uncertain
