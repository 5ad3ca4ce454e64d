import Verif.Toys.Frequency
import Verif.Toys.GaussianProps

/-!
# Many toys of Gaussian models
-/

namespace Verif.Toys
open MeasureTheory ProbabilityTheory Filter Topology
open Verif.Py F Verif.Config Verif.Optimizer Verif.Hypotest Verif.Chain
open Verif.Interface (MuHat Data Toys World Size Plain Solver perfect)
open Verif.Backend (Ext Vec Args Built at')
open Verif.Stats (Expect Calc Levels gaussianLevel)
open scoped Function

theorem gaussian_cdf {σ : ℝ} (hσ : 0 < σ) (m t : ℝ) : (gaussianReal m (σ ^ 2).toNNReal).real (Set.Iic t) = Phi ((t - m) / σ) := by
  have e : gaussianReal m (σ ^ 2).toNNReal = (gaussianReal 0 1).map fun x => σ * x + m := by
    have h1 := gaussianReal_map_const_mul (μ := 0) (v := 1) σ
    have h2 := gaussianReal_map_add_const (μ := σ * 0) (v := .mk (σ ^ 2) (sq_nonneg _) * 1) m
    rw [← h1, Measure.map_map (by fun_prop) (by fun_prop)] at h2
    have h3 : (.mk (σ ^ 2) (sq_nonneg _) * 1 : NNReal) = (σ ^ 2).toNNReal := by
      rw [mul_one]
      ext
      simp [sq_nonneg]
    rw [h3] at h2
    simp only [mul_zero, _root_.zero_add] at h2
    rw [← h2]
    rfl
  rw [e, Phi_eq, map_measureReal_apply (by fun_prop) measurableSet_Iic]
  congr 1
  ext x
  simp only [Set.mem_preimage, Set.mem_Iic]
  rw [le_div_iff₀ hσ]
  constructor <;> intro h <;> linarith

/-- A linear combination of data. -/
noncomputable def combined (k : ℕ) (c : ℕ → ℝ) (D : Vec) : ℝ := ∑ i ∈ Finset.range k, c i * at' D i

/-- Toys with multivariate normal distribution: every linear combination is normal, with the mean of `r` and the variance of the covariance matrix `C`, and those of different toys are independent. -/
def NormalToys {Ω : Type} [MeasurableSpace Ω] (μ : Measure Ω) (C : ℕ → ℕ → ℝ) (r : Vec) (X : ℕ → Ω → Vec) : Prop := ∀ c : ℕ → ℝ,
  (∀ j, AEMeasurable (fun ω => combined r.length c (X j ω)) μ) ∧
  (∀ j, μ.map (fun ω => combined r.length c (X j ω)) = gaussianReal (combined r.length c r) (form r.length C c c).toNNReal) ∧
  Pairwise ((· ⟂ᵢ[μ] ·) on fun j ω => combined r.length c (X j ω))

/-- `C` is the covariance matrix if `P` is its inverse. -/
def Inverse (k : ℕ) (P C : ℕ → ℕ → ℝ) : Prop := ∀ i < k, ∀ l < k, ∑ j ∈ Finset.range k, P i j * C j l = if i = l then 1 else 0

/-- The weights of the bins in the measured strength. -/
noncomputable def weights (k : ℕ) (P : ℕ → ℕ → ℝ) (s : ℕ → ℝ) (j : ℕ) : ℝ := (∑ i ∈ Finset.range k, s i * P i j) / form k P s s

theorem estimate_combined (k : ℕ) (P : ℕ → ℕ → ℝ) (s : ℕ → ℝ) (b D : Vec) : estimate k P s (at' b) (at' D) = combined k (weights k P s) D - combined k (weights k P s) b := by
  unfold estimate combined weights form
  rw [← Finset.sum_sub_distrib, Finset.sum_comm, Finset.sum_div]
  refine Finset.sum_congr rfl fun j _ => ?_
  rw [Finset.sum_div, Finset.sum_div, Finset.sum_mul, Finset.sum_mul, ← Finset.sum_sub_distrib]
  refine Finset.sum_congr rfl fun i _ => ?_
  ring

theorem weights_variance {k : ℕ} {P C : ℕ → ℕ → ℝ} (hP : ∀ i j, P i j = P j i) (hC : Inverse k P C) {s : ℕ → ℝ} (hs : 0 < form k P s s) :
    form k C (weights k P s) (weights k P s) = 1 / form k P s s := by
  have h1 : ∀ l < k, ∑ j ∈ Finset.range k, weights k P s j * C j l = s l / form k P s s := by
    intro l hl
    unfold weights
    have : ∀ j, (∑ i ∈ Finset.range k, s i * P i j) / form k P s s * C j l = (∑ i ∈ Finset.range k, s i * (P i j * C j l)) / form k P s s := by
      intro j
      rw [div_mul_eq_mul_div, Finset.sum_mul]
      congr 1
      exact Finset.sum_congr rfl fun i _ => by ring
    simp only [this]
    rw [← Finset.sum_div, Finset.sum_comm]
    congr 1
    simp only [← Finset.mul_sum]
    rw [Finset.sum_eq_single l]
    · rw [hC l hl l hl, if_pos rfl, mul_one]
    · intro i hi hne
      rw [hC i (Finset.mem_range.mp hi) l hl, if_neg hne, mul_zero]
    · intro h
      exact absurd (Finset.mem_range.mpr hl) h
  have h2 : form k C (weights k P s) (weights k P s) = ∑ l ∈ Finset.range k, s l / form k P s s * weights k P s l := by
    unfold form
    rw [Finset.sum_comm]
    refine Finset.sum_congr rfl fun l hl => ?_
    have := h1 l (Finset.mem_range.mp hl)
    unfold form at this
    rw [← this, Finset.sum_mul]
  have h3 : ∑ l ∈ Finset.range k, s l * (∑ i ∈ Finset.range k, s i * P i l) = form k P s s := by
    unfold form
    rw [Finset.sum_comm]
    refine Finset.sum_congr rfl fun l _ => ?_
    rw [Finset.mul_sum]
    exact Finset.sum_congr rfl fun i _ => by ring
  rw [h2]
  have h4 : ∀ l, s l / form k P s s * weights k P s l = s l * (∑ i ∈ Finset.range k, s i * P i l) / (form k P s s * form k P s s) := by
    intro l
    unfold weights
    field_simp
  simp only [h4]
  rw [← Finset.sum_div, h3]
  field_simp

section
variable {Ω : Type} [MeasurableSpace Ω] {μ : Measure Ω} [IsProbabilityMeasure μ]

/-- The strengths that toys measure. -/
theorem strength_law {k : ℕ} {P C : ℕ → ℕ → ℝ} (hP : ∀ i j, P i j = P j i) (hC : Inverse k P C) {s : ℕ → ℝ} (hs : 0 < form k P s s) {b r : Vec} (hr : r.length = k) {X : ℕ → Ω → Vec}
    (hX : NormalToys μ C r X) (t : ℝ) :
    ∀ᵐ ω ∂μ, Tendsto (fun n : ℕ => (upTo (fun i => estimate k P s (at' b) (at' (X i ω))) t n : ℝ) / n) atTop (𝓝 (Phi ((t - estimate k P s (at' b) (at' r)) / deviation k P s))) := by
  subst hr
  obtain ⟨h1, h2, h3⟩ := hX (weights r.length P s)
  simp only [estimate_combined]
  obtain ⟨z, hz⟩ : ∃ z, z = combined r.length (weights r.length P s) b := ⟨_, rfl⟩
  rw [← hz]
  have hm : Measurable fun x : ℝ => x - z := by fun_prop
  have hσ : 0 < deviation r.length P s := deviation_pos hs
  have hv : form r.length C (weights r.length P s) (weights r.length P s) = deviation r.length P s ^ 2 := by
    rw [weights_variance hP hC hs, deviation, div_pow, Real.sq_sqrt hs.le, one_pow]
  rw [← gaussian_cdf hσ]
  refine upTo_tendsto (fun i => hm.comp_aemeasurable (h1 i)) (fun i => ?_) (fun i j hij => (h3 hij).comp hm hm) t
  have := AEMeasurable.map_map_of_aemeasurable hm.aemeasurable (h1 i)
  rw [h2 i, gaussianReal_map_sub_const, hv] at this
  exact this.symm

/-- The covariance matrix of independent bins. -/
noncomputable def diagonal (σ : ℕ → ℝ) (i j : ℕ) : ℝ := if i = j then σ i ^ 2 else 0

theorem diagonal_inverse {k : ℕ} {σ : ℕ → ℝ} (hσ : ∀ i < k, 0 < σ i) : Inverse k (independent σ) (diagonal σ) := by
  intro i hi l hl
  rw [Finset.sum_eq_single i]
  · by_cases h : i = l
    · subst h
      have := (hσ i hi).ne'
      simp only [independent, diagonal, if_true]
      field_simp
    · simp [diagonal, h]
  · intro j _ hj
    simp [independent, Ne.symm hj]
  · intro h
    exact absurd (Finset.mem_range.mpr hi) h

theorem form_diagonal (k : ℕ) (σ c : ℕ → ℝ) : form k (diagonal σ) c c = ∑ i ∈ Finset.range k, (c i * σ i) ^ 2 := by
  unfold form
  refine Finset.sum_congr rfl fun i hi => ?_
  rw [Finset.sum_eq_single i]
  · simp only [diagonal, if_true]
    ring
  · intro j _ hj
    simp [diagonal, Ne.symm hj]
  · intro h
    exact absurd hi h

/-- A linear combination of independent normal variables. -/
theorem sum_normal {Z : ℕ → Ω → ℝ} (hm : ∀ i, Measurable (Z i)) (hi : iIndepFun Z μ) {σ : ℕ → ℝ} {r : ℕ → ℝ} (c : ℕ → ℝ) (k : ℕ)
    (hl : ∀ i < k, μ.map (Z i) = gaussianReal (r i) (σ i ^ 2).toNNReal) :
    μ.map (fun ω => ∑ i ∈ Finset.range k, c i * Z i ω) = gaussianReal (∑ i ∈ Finset.range k, c i * r i) (∑ i ∈ Finset.range k, (c i * σ i) ^ 2).toNNReal := by
  have hcm : ∀ i, Measurable fun ω => c i * Z i ω := fun i => (hm i).const_mul _
  have hci : iIndepFun (fun i ω => c i * Z i ω) μ := hi.comp (fun i x => c i * x) fun i => by fun_prop
  have hcl : ∀ i < k, μ.map (fun ω => c i * Z i ω) = gaussianReal (c i * r i) ((c i * σ i) ^ 2).toNNReal := by
    intro i hik
    have h1 := gaussianReal_map_const_mul (μ := r i) (v := (σ i ^ 2).toNNReal) (c i)
    rw [← hl i hik, Measure.map_map (by fun_prop) (hm i)] at h1
    have e : (.mk (c i ^ 2) (sq_nonneg _) * (σ i ^ 2).toNNReal : NNReal) = ((c i * σ i) ^ 2).toNNReal := by
      ext
      simp [sq_nonneg, mul_pow, mul_nonneg]
    rw [e] at h1
    exact h1
  induction k with
  | zero => simp [gaussianReal_zero_var]
  | succ k ih =>
    have ih := ih (fun i hi => hl i (by omega)) fun i hi => hcl i (by omega)
    have hind : IndepFun (fun ω => ∑ i ∈ Finset.range k, c i * Z i ω) (fun ω => c k * Z k ω) μ := by
      have := hci.indepFun_finsetSum_of_notMem hcm (s := Finset.range k) (i := k) (by simp)
      convert this using 1
      ext ω
      simp
    have := gaussianReal_add_gaussianReal_of_indepFun hind ih (hcl k (by omega))
    rw [Finset.sum_range_succ, Finset.sum_range_succ, Real.toNNReal_add (Finset.sum_nonneg fun i _ => sq_nonneg _) (sq_nonneg _), ← this]
    congr 1
    ext ω
    simp [Finset.sum_range_succ]

/-- Toys with independent, normal bins. -/
theorem bins_normal {Z : ℕ × ℕ → Ω → ℝ} (hm : ∀ p, Measurable (Z p)) (hi : iIndepFun Z μ) {σ : ℕ → ℝ} {r : Vec} (hl : ∀ j, ∀ i < r.length, μ.map (Z (j, i)) = gaussianReal (at' r i) (σ i ^ 2).toNNReal)
    {X : ℕ → Ω → Vec} (hX : ∀ j ω, ∀ i < r.length, at' (X j ω) i = Z (j, i) ω) : NormalToys μ (diagonal σ) r X := by
  intro c
  have e : ∀ j, (fun ω => combined r.length c (X j ω)) = fun ω => ∑ i ∈ Finset.range r.length, c i * Z (j, i) ω := by
    intro j
    ext ω
    exact Finset.sum_congr rfl fun i hi => by rw [hX j ω i (Finset.mem_range.mp hi)]
  simp only [e, form_diagonal]
  have hmm : ∀ j, Measurable fun ω => ∑ i ∈ Finset.range r.length, c i * Z (j, i) ω := fun j => Finset.measurable_sum _ fun i _ => (hm (j, i)).const_mul _
  refine ⟨fun j => (hmm j).aemeasurable, fun j => ?_, fun j j' hjj => ?_⟩
  · have hinj : Function.Injective fun i : ℕ => (j, i) := fun a b h => (Prod.ext_iff.mp h).2
    exact sum_normal (fun i => hm (j, i)) (hi.precomp hinj) c r.length fun i hi => hl j i hi
  · have hdis : Disjoint ((Finset.range r.length).image fun i => (j, i)) ((Finset.range r.length).image fun i => (j', i)) := by
      rw [Finset.disjoint_left]
      intro p h1 h2
      obtain ⟨a, -, rfl⟩ := Finset.mem_image.mp h1
      obtain ⟨b, -, h3⟩ := Finset.mem_image.mp h2
      exact hjj (Prod.ext_iff.mp h3).1.symm
    have key := hi.indepFun_finset _ _ hdis hm
    have mk : ∀ j : ℕ, Measurable fun z : ((Finset.range r.length).image fun i => (j, i)) → ℝ => ∑ i : ((Finset.range r.length).image fun i => (j, i)), c i.1.2 * z i :=
      fun j => Finset.measurable_sum _ fun i _ => (measurable_pi_apply i).const_mul _
    have := key.comp (mk j) (mk j')
    have e2 : ∀ j, ((fun z : ((Finset.range r.length).image fun i => (j, i)) → ℝ => ∑ i : ((Finset.range r.length).image fun i => (j, i)), c i.1.2 * z i) ∘ fun a i => Z i a) =
        fun ω => ∑ i ∈ Finset.range r.length, c i * Z (j, i) ω := by
      intro j
      ext ω
      simp only [Function.comp]
      rw [Finset.sum_coe_sort ((Finset.range r.length).image fun i => (j, i)) fun p => c p.2 * Z p ω, Finset.sum_image fun a _ b _ h => (Prod.ext_iff.mp h).2]
    rw [e2, e2] at this
    show (fun ω => combined r.length c (X j ω)) ⟂ᵢ[μ] fun ω => combined r.length c (X j' ω)
    rw [e, e]
    exact this

end

end Verif.Toys
