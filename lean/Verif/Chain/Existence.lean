import Verif.Chain.Fits
import Verif.Chain.ProfileSpec
import Mathlib.Topology.Order.Compact
import Mathlib.Topology.Algebra.Order.Field
import Mathlib.Analysis.SpecialFunctions.Log.Basic
import Mathlib.Topology.Algebra.InfiniteSum.Real

/-!
# Binned likelihoods with nuisance parameters have a maximum
-/

namespace Verif.Chain
open Verif.Py F Verif.Config Verif.Optimizer Verif.Hypotest
open Verif.Interface (MuHat Data Toys World Size Plain Solver Candidate Allowed InBounds Satisfies)
open Verif.Backend (Vec at' poissonLog stdLog mvnLog)

theorem exists_best {ι : Type} [Fintype ι] (f : (ι → ℝ) → ℝ) (hf : Continuous f) (C : Set (ι → ℝ)) (hC : IsClosed C) (hne : C.Nonempty) (K c : ℝ) (hc : 0 < c)
    (h : ∀ x ∈ C, f x ≤ K - c * ∑ j, x j ^ 2) : ∃ x ∈ C, ∀ y ∈ C, f y ≤ f x := by
  obtain ⟨x0, hx0⟩ := hne
  obtain ⟨r, hr⟩ : ∃ r, r = (K - f x0) / c := ⟨_, rfl⟩
  have hr0 : 0 ≤ r := by
    rw [hr]
    apply div_nonneg _ hc.le
    have h1 := h x0 hx0
    have h2 : 0 ≤ c * ∑ j, x0 j ^ 2 := mul_nonneg hc.le (Finset.sum_nonneg fun _ _ => sq_nonneg _)
    linarith
  have hbox : ∀ x ∈ C, f x0 ≤ f x → x ∈ Set.Icc (fun _ => -(r + 1)) (fun _ => r + 1 : ι → ℝ) := by
    intro x hx hle
    have h1 := h x hx
    have h2 : ∑ j, x j ^ 2 ≤ r := by
      rw [hr, le_div_iff₀ hc]
      linarith
    have h3 : ∀ j, |x j| ≤ r + 1 := by
      intro j
      have h4 : x j ^ 2 ≤ r := (Finset.single_le_sum (f := fun j => x j ^ 2) (fun i _ => sq_nonneg (x i)) (Finset.mem_univ j)).trans h2
      rw [← sq_abs] at h4
      by_contra hlt
      rw [not_le] at hlt
      nlinarith [abs_nonneg (x j)]
    exact ⟨fun j => (abs_le.mp (h3 j)).1, fun j => (abs_le.mp (h3 j)).2⟩
  have hcomp : IsCompact (C ∩ Set.Icc (fun _ => -(r + 1)) (fun _ => r + 1 : ι → ℝ)) := isCompact_Icc.inter_left hC
  obtain ⟨x, hx, hmax⟩ := hcomp.exists_isMaxOn ⟨x0, hx0, hbox x0 hx0 le_rfl⟩ hf.continuousOn
  refine ⟨x, hx.1, fun y hy => ?_⟩
  by_cases hle : f x0 ≤ f y
  · exact hmax ⟨hy, hbox y hy hle⟩
  · exact (not_le.mp hle).le.trans (hmax ⟨hx0, hbox x0 hx0 le_rfl⟩)

theorem poissonLog_bounded (γ : ℝ → ℝ) (d : ℝ) : ∃ K, ∀ l, 1 / 10 ^ 20 ≤ l → poissonLog γ d l ≤ K := by
  have he : (0 : ℝ) < 1 / 10 ^ 20 := by positivity
  by_cases hd : 0 ≤ d
  · refine ⟨d * Real.log (d + 1) - γ (d + 1), fun l hl => ?_⟩
    have hl0 : 0 < l := he.trans_le hl
    have hd1 : 0 < d + 1 := by linarith
    have h := Real.log_le_sub_one_of_pos (div_pos hl0 hd1)
    rw [Real.log_div hl0.ne' hd1.ne'] at h
    unfold poissonLog
    have h2 : d * (Real.log l - Real.log (d + 1)) ≤ d * (l / (d + 1) - 1) := mul_le_mul_of_nonneg_left h hd
    have h3 : d * (l / (d + 1)) ≤ l := by
      rw [← mul_div_assoc, div_le_iff₀ hd1]
      nlinarith
    nlinarith
  · refine ⟨d * Real.log (1 / 10 ^ 20) - γ (d + 1), fun l hl => ?_⟩
    have := mul_le_mul_of_nonpos_left (Real.log_le_log he hl) (not_le.mp hd).le
    unfold poissonLog
    linarith

/-- What the theorems about profile likelihoods need to know of the nuisance parameters: the background and the constraint term are continuous, the
latter falls at least as fast as a Gaussian, and some background is not negative. -/
structure Tame (n : ℕ) (bin : ℕ → ℝ → ℝ) (pen : (ℕ → ℝ) → ℝ) : Prop where
  background : ∀ i < n, Continuous (bin i)
  constraint : Continuous pen
  few : ∀ θ θ' : ℕ → ℝ, (∀ i < n, θ i = θ' i) → pen θ = pen θ'
  falls : ∃ K c : ℝ, 0 < c ∧ ∀ θ, pen θ ≤ K - c * ∑ i ∈ Finset.range n, θ i ^ 2
  feasible : ∃ θ, Admissible n bin θ

section
variable {n : ℕ} {bin : ℕ → ℝ → ℝ} {pen : (ℕ → ℝ) → ℝ} (h : Tame n bin pen) (γ : ℝ → ℝ) (s D : ℕ → ℝ)
include h

theorem logLikelihood_falls : ∃ K c : ℝ, 0 < c ∧ ∀ mu θ, logLikelihood γ n s bin pen D mu θ ≤ K - c * ∑ i ∈ Finset.range n, θ i ^ 2 := by
  obtain ⟨K, c, hc, hK⟩ := h.falls
  choose P hP using fun i => poissonLog_bounded γ (D i)
  refine ⟨∑ i ∈ Finset.range n, P i + K, c, hc, fun mu θ => ?_⟩
  unfold logLikelihood
  have h1 : ∑ i ∈ Finset.range n, poissonLog γ (D i) (expectedIn s bin mu θ i) ≤ ∑ i ∈ Finset.range n, P i :=
    Finset.sum_le_sum fun i _ => hP i _ (le_max_right _ _)
  linarith [hK θ]

theorem logLikelihood_continuous {X : Type} [TopologicalSpace X] {f : X → ℝ} {g : X → ℕ → ℝ} (hf : Continuous f) (hg : Continuous g) :
    Continuous fun x => logLikelihood γ n s bin pen D (f x) (g x) := by
  unfold logLikelihood
  refine (continuous_finsetSum _ fun i hi => ?_).add (h.constraint.comp hg)
  have h1 : Continuous fun x => expectedIn s bin (f x) (g x) i :=
    ((hf.mul continuous_const).add ((h.background i (Finset.mem_range.mp hi)).comp ((continuous_apply i).comp hg))).max continuous_const
  have h2 : ∀ x, expectedIn s bin (f x) (g x) i ≠ 0 := fun x => ne_of_gt (lt_of_lt_of_le (by positivity) (le_max_right _ _))
  unfold poissonLog
  exact ((continuous_const.mul (h1.log h2)).sub h1).sub continuous_const

end

/-- A list of parameters as a function, zero beyond the end. -/
def extend (n : ℕ) (x : Fin n → ℝ) (i : ℕ) : ℝ := if hi : i < n then x ⟨i, hi⟩ else 0

theorem extend_continuous (n : ℕ) : Continuous (extend n) := by
  refine continuous_pi fun i => ?_
  unfold extend
  split
  · exact continuous_apply _
  · exact continuous_const

theorem extend_sum {n : ℕ} (x : Fin n → ℝ) : ∑ i ∈ Finset.range n, extend n x i ^ 2 = ∑ j, x j ^ 2 := by
  rw [Finset.sum_range]
  refine Finset.sum_congr rfl fun j _ => ?_
  simp [extend]

theorem extend_restrict {n : ℕ} (θ : ℕ → ℝ) {i : ℕ} (hi : i < n) : extend n (fun j => θ j) i = θ i := by simp [extend, hi]

section
variable {n : ℕ} {bin : ℕ → ℝ → ℝ} {pen : (ℕ → ℝ) → ℝ} (h : Tame n bin pen) (γ : ℝ → ℝ) (s D : ℕ → ℝ)
include h

theorem admissible_congr {θ θ' : ℕ → ℝ} (he : ∀ i < n, θ i = θ' i) (ha : Admissible n bin θ) : Admissible n bin θ' := by
  intro i hi
  rw [← he i hi]
  exact ha i hi

theorem logLikelihood_congr {θ θ' : ℕ → ℝ} (he : ∀ i < n, θ i = θ' i) (mu : ℝ) :
    logLikelihood γ n s bin pen D mu θ = logLikelihood γ n s bin pen D mu θ' := by
  unfold logLikelihood
  rw [h.few θ θ' he]
  congr 1
  refine Finset.sum_congr rfl fun i hi => ?_
  unfold expectedIn
  rw [he i (Finset.mem_range.mp hi)]

theorem admissible_closed {X : Type} [TopologicalSpace X] {g : X → ℕ → ℝ} (hg : Continuous g) : IsClosed {x | Admissible n bin (g x)} := by
  have : {x | Admissible n bin (g x)} = ⋂ i, ⋂ (_ : i < n), {x | 0 ≤ bin i (g x i)} := by
    ext x
    simp [Admissible]
  rw [this]
  exact isClosed_iInter fun i => isClosed_iInter fun hi =>
    isClosed_le continuous_const ((h.background i hi).comp ((continuous_apply i).comp hg))

/-- For every signal strength there are best nuisance parameters. -/
theorem profile_exists (mu : ℝ) : ∃ l θ, ProfileMax (Admissible n bin) (logLikelihood γ n s bin pen D) mu l θ := by
  obtain ⟨K, c, hc, hK⟩ := logLikelihood_falls h γ s D
  obtain ⟨θ0, h0⟩ := h.feasible
  obtain ⟨x, hx, hmax⟩ := exists_best (fun x : Fin n → ℝ => logLikelihood γ n s bin pen D mu (extend n x))
    (logLikelihood_continuous h γ s D continuous_const (extend_continuous n)) {x | Admissible n bin (extend n x)} (admissible_closed h (extend_continuous n))
    ⟨fun j => θ0 j, admissible_congr h (fun i hi => (extend_restrict θ0 hi).symm) h0⟩ K c hc (fun x _ => by rw [← extend_sum]; exact hK _ _)
  refine ⟨_, extend n x, hx, rfl, fun θ hθ => ?_⟩
  have := hmax (fun j => θ j) (admissible_congr h (fun i hi => (extend_restrict θ hi).symm) hθ)
  rwa [logLikelihood_congr h γ s D (fun i hi => extend_restrict θ hi)] at this

/-- There is a best signal strength in every interval. -/
theorem global_exists {lo hi : ℝ} (hle : lo ≤ hi) : ∃ mu l, GlobalMax (Admissible n bin) (logLikelihood γ n s bin pen D) lo hi mu l := by
  obtain ⟨K, c, hc, hK⟩ := logLikelihood_falls h γ s D
  obtain ⟨θ0, h0⟩ := h.feasible
  have htail : Continuous fun x : Fin (n + 1) → ℝ => extend n (fun j => x j.succ) :=
    (extend_continuous n).comp (continuous_pi fun j => continuous_apply _)
  have hbound : ∀ u, lo ≤ u → u ≤ hi → u ^ 2 ≤ lo ^ 2 + hi ^ 2 := by
    intro u h1 h2
    by_cases hu : 0 ≤ u
    · nlinarith [sq_nonneg lo]
    · nlinarith [sq_nonneg hi]
  obtain ⟨x, hx, hmax⟩ := exists_best (fun x : Fin (n + 1) → ℝ => logLikelihood γ n s bin pen D (x 0) (extend n (fun j => x j.succ)))
    (logLikelihood_continuous h γ s D (continuous_apply _) htail)
    ({x | Admissible n bin (extend n (fun j => x j.succ))} ∩ ({x | lo ≤ x 0} ∩ {x | x 0 ≤ hi}))
    ((admissible_closed h htail).inter ((isClosed_le continuous_const (continuous_apply _)).inter (isClosed_le (continuous_apply _) continuous_const)))
    ⟨Fin.cons lo fun j => θ0 j, by
      refine ⟨?_, ?_, ?_⟩
      · simp only [Set.mem_ofPred_eq, Fin.cons_succ]
        exact admissible_congr h (fun i hi => (extend_restrict θ0 hi).symm) h0
      · simp
      · simpa using hle⟩ (K + c * (lo ^ 2 + hi ^ 2)) c hc (fun x hx => by
        rw [Fin.sum_univ_succ, ← extend_sum fun j => x (Fin.succ j)]
        have h1 := hK (x 0) (extend n fun j => x j.succ)
        have h2 := mul_le_mul_of_nonneg_left (hbound _ hx.2.1 hx.2.2) hc.le
        linarith)
  refine ⟨x 0, _, hx.2.1, hx.2.2, ⟨extend n fun j => x j.succ, hx.1, rfl⟩, fun mu θ h1 h2 h3 => ?_⟩
  have := hmax (Fin.cons mu fun j => θ j) ⟨by
    simp only [Set.mem_ofPred_eq, Fin.cons_succ]
    exact admissible_congr h (fun i hi => (extend_restrict θ hi).symm) h3, by simpa using h1, by simpa using h2⟩
  simp only [Fin.cons_succ, Fin.cons_zero] at this
  rwa [logLikelihood_congr h γ s D (fun i hi => extend_restrict θ hi)] at this

end

end Verif.Chain
