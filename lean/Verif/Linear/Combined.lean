import Verif.Linear.LimitProps
import Verif.Joint.LimitProps

/-!
# Lemmas: the profile likelihoods of combinations are concave
-/

namespace Verif.Linear
open Verif.Py F Verif.Config Verif.Optimizer Verif.Hypotest Verif.Chain Verif.Joint
open Verif.Interface (Data World Size Plain Solver)
open Verif.Backend (Ext Vec Args Built Fits at' poissonLog)
open Verif.Stats (Expect Calc Levels levelsOf NotAbove)
open Verif.UpperLimit (Expected)
open Verif.Uncorrelated (Concave IsStat)

/-- The models of spey (with one strength and no uncertainties of the signal) whose profile likelihoods are known to be concave: backgrounds that are linear in the nuisance parameters, Gaussian models,
and Poisson models without uncertainties in which events are only measured where background is expected. -/
inductive Smooth (E : Ext) (e : Expect) (m : Backend.Model) : Part → ℝ → ℕ → Prop
  | regular {a : Args} {y : Vec} {σ : ℕ → ℝ} {pen : (ℕ → ℝ) → ℝ} {lo : ℝ} (h : Regular E a m y σ pen lo e) :
      Smooth E e m ⟨Admissible a.data.length (linear (at' a.background) σ), logLikelihood E.gammaln a.data.length (at' y) (linear (at' a.background) σ) pen, at' (used a e),
        expectedIn (at' y) (linear (at' a.background) σ)⟩ lo (a.data.length + 1)
  | gaussian {a : Args} {y : Vec} {P : ℕ → ℕ → ℝ} {lo K : ℝ} (h : Case E a m P y) (hlo : m.config.minimumPoi = fin lo)
      (hK : ∀ (D : Vec), D.length = a.data.length → ∀ u, Backend.logpdf E m (expectation e) (some D) [u] =
        .ok (K - form a.data.length P (fun i => at' D i - (u * at' y i + at' a.background i)) (fun i => at' D i - (u * at' y i + at' a.background i)) / 2)) :
      Smooth E e m ⟨fun _ => True, fun D mu _ => K - form a.data.length P (fun i => D i - (mu * at' y i + at' a.background i)) (fun i => D i - (mu * at' y i + at' a.background i)) / 2,
        at' (used a e), fun mu _ i => mu * at' y i + at' a.background i⟩ lo 1
  | counting {a : Args} {y : Vec} {lo : ℝ} (h : Counting a m y) (hlo : m.config.minimumPoi = fin lo) (hs : ∀ i < a.data.length, 0 ≤ at' y i) (hD : ∀ i < a.data.length, 0 ≤ at' (used a e) i)
      (hb : ∀ i < a.data.length, at' (used a e) i ≤ 1 / 10 ^ 20 ∨ 1 / 10 ^ 20 ≤ at' a.background i) :
      Smooth E e m ⟨fun _ => True, fun D mu _ => ∑ i ∈ Finset.range a.data.length, poissonLog E.gammaln (D i) (max (mu * at' y i + at' a.background i) (1 / 10 ^ 20)),
        at' (used a e), fun mu _ i => max (mu * at' y i + at' a.background i) (1 / 10 ^ 20)⟩ lo 1

theorem Smooth.described {E : Ext} {e : Expect} {m : Backend.Model} {P : Part} {lo : ℝ} {N : ℕ} (h : Smooth E e m P lo N) : Described E e m P lo N := by
  cases h with
  | regular h => exact .simple h.model
  | gaussian h hlo hK => exact .gaussian h hlo hK
  | counting h hlo hs hD hb => exact .counting h hlo

/-- The profile likelihoods of a measurement. -/
def PartCurves (Q : Part) (P PA : ℝ → ℝ) : Prop := Curves Q.ok (Q.log Q.data) (fun θ => Q.log (Q.expected 0 θ)) P PA

/-- Without nuisance parameters. -/
theorem free_profile {f : ℝ → ℝ} : Profile (fun _ : ℕ → ℝ => True) (fun mu _ => f mu) f := fun _ _ => ⟨fun _ => 0, trivial, rfl, fun _ _ => le_rfl⟩

theorem form_line (n : ℕ) (P : ℕ → ℕ → ℝ) (x y : ℕ → ℝ) {p p' : ℝ} (u u' : ℝ) (he : p + p' = 1) :
    form n P (fun i => x i - (p * u + p' * u') * y i) (fun i => x i - (p * u + p' * u') * y i) =
      p * form n P (fun i => x i - u * y i) (fun i => x i - u * y i) + p' * form n P (fun i => x i - u' * y i) (fun i => x i - u' * y i) - p * p' * (u - u') ^ 2 * form n P y y := by
  unfold form
  simp only [Finset.mul_sum]
  rw [← Finset.sum_add_distrib, ← Finset.sum_sub_distrib]
  refine Finset.sum_congr rfl fun i _ => ?_
  rw [← Finset.sum_add_distrib, ← Finset.sum_sub_distrib]
  refine Finset.sum_congr rfl fun j _ => ?_
  obtain rfl : p' = 1 - p := by linarith
  ring

theorem gaussian_concave {n : ℕ} {P : ℕ → ℕ → ℝ} {y : ℕ → ℝ} (hp : 0 ≤ form n P y y) (K : ℝ) (D b : ℕ → ℝ) :
    Concave fun mu => K - form n P (fun i => D i - (mu * y i + b i)) (fun i => D i - (mu * y i + b i)) / 2 := by
  intro u u' p p' _ _ k1 k2 he
  have e : ∀ v : ℝ, (fun i => D i - (v * y i + b i)) = fun i => (D i - b i) - v * y i := fun v => funext fun i => by ring
  dsimp only
  rw [e u, e u', e, form_line n P _ y u u' he]
  have : p * K + p' * K = K := by rw [← add_mul, he, one_mul]
  have := mul_nonneg (mul_nonneg (mul_nonneg k1 k2) (sq_nonneg (u - u'))) hp
  linarith

theorem counting_concave (γ : ℝ → ℝ) {n : ℕ} {s b D : ℕ → ℝ} (hs : ∀ i < n, 0 ≤ s i) (hD : ∀ i < n, 0 ≤ D i) (hb : ∀ i < n, D i ≤ 1 / 10 ^ 20 ∨ 1 / 10 ^ 20 ≤ b i) :
    Concave fun mu => ∑ i ∈ Finset.range n, poissonLog γ (D i) (max (mu * s i + b i) (1 / 10 ^ 20)) := by
  intro u u' p p' h0 h0' k1 k2 he
  dsimp only
  rw [Finset.mul_sum, Finset.mul_sum, ← Finset.sum_add_distrib]
  refine Finset.sum_le_sum fun i hi => ?_
  have hi := Finset.mem_range.mp hi
  have := rate_concave γ (r := u * s i + b i) (r' := u' * s i + b i) (hD i hi) k1 k2 he ((hb i hi).imp_right fun h => ⟨by linarith [mul_nonneg h0 (hs i hi)], by linarith [mul_nonneg h0' (hs i hi)]⟩)
  have e : p * (u * s i + b i) + p' * (u' * s i + b i) = (p * u + p' * u') * s i + b i := by
    obtain rfl : p' = 1 - p := by linarith
    ring
  rwa [e] at this

theorem Smooth.curves {E : Ext} {e : Expect} {m : Backend.Model} {Q : Part} {lo : ℝ} {N : ℕ} (h : Smooth E e m Q lo N) : ∃ P PA, PartCurves Q P PA := by
  cases h with
  | regular h => exact regular_curves h
  | @gaussian a y P lo K h hlo hK =>
    exact ⟨_, _, free_profile, fun _ _ _ => free_profile (f := fun mu => K - form a.data.length P (fun i => (0 * at' y i + at' a.background i) - (mu * at' y i + at' a.background i))
      (fun i => (0 * at' y i + at' a.background i) - (mu * at' y i + at' a.background i)) / 2), gaussian_concave h.informative.le K _ _, gaussian_concave h.informative.le K _ _⟩
  | @counting a y lo h hlo hs hD hb =>
    refine ⟨_, _, free_profile, fun _ _ _ => free_profile (f := fun mu => ∑ i ∈ Finset.range a.data.length, poissonLog E.gammaln (max (0 * at' y i + at' a.background i) (1 / 10 ^ 20))
      (max (mu * at' y i + at' a.background i) (1 / 10 ^ 20))), counting_concave E.gammaln hs hD hb, counting_concave E.gammaln hs (fun i hi => le_trans (by norm_num) (le_max_right _ _)) fun i hi => ?_⟩
    rw [zero_mul, _root_.zero_add]
    rcases _root_.le_total (at' a.background i) (1 / 10 ^ 20) with h | h
    · exact .inl (max_le h le_rfl)
    · exact .inr h

section
variable {n : ℕ} {Q : ℕ → Part}

/-- The profile likelihood of independent measurements is the sum of their profile likelihoods. -/
theorem joint_profile_sum {D : ℕ → ℕ → ℝ} {P : ℕ → ℝ → ℝ} (h : ∀ i < n, Profile (Q i).ok ((Q i).log (D i)) (P i)) : Profile (jointOk n Q) (jointLog n Q D) fun mu => ∑ i ∈ Finset.range n, P i mu := by
  intro mu hmu
  have : ∀ i, ∃ θ : ℕ → ℝ, i < n → ProfileMax (Q i).ok ((Q i).log (D i)) mu (P i mu) θ := by
    intro i
    by_cases hi : i < n
    · obtain ⟨θ, hθ⟩ := h i hi mu hmu
      exact ⟨θ, fun _ => hθ⟩
    · exact ⟨fun _ => 0, fun h => absurd h hi⟩
  choose θ hθ using this
  exact ⟨θ, fun i hi => (hθ i hi).1, Finset.sum_congr rfl fun i hi => (hθ i (Finset.mem_range.mp hi)).2.1,
    fun θ' h' => Finset.sum_le_sum fun i hi => (hθ i (Finset.mem_range.mp hi)).2.2 _ (h' i (Finset.mem_range.mp hi))⟩

/-- What fits best together fits best separately. -/
theorem joint_parts {D : ℕ → ℕ → ℝ} {mu l : ℝ} {θ : ℕ → ℕ → ℝ} (h : ProfileMax (jointOk n Q) (jointLog n Q D) mu l θ) {i : ℕ} (hi : i < n) :
    ProfileMax (Q i).ok ((Q i).log (D i)) mu ((Q i).log (D i) mu (θ i)) (θ i) := by
  refine ⟨h.1 i hi, rfl, fun t ht => ?_⟩
  have := h.2.2 (Function.update θ i t) fun j hj => by
    by_cases hj' : j = i
    · subst hj'
      rwa [Function.update_self]
    · rw [Function.update_of_ne hj']
      exact h.1 j hj
  rw [h.2.1] at this
  unfold jointLog at this
  rw [← Finset.add_sum_erase _ _ (Finset.mem_range.mpr hi), ← Finset.add_sum_erase _ _ (Finset.mem_range.mpr hi), Function.update_self] at this
  have e : ∑ j ∈ (Finset.range n).erase i, (Q j).log (D j) mu (Function.update θ i t j) = ∑ j ∈ (Finset.range n).erase i, (Q j).log (D j) mu (θ j) :=
    Finset.sum_congr rfl fun j hj => by rw [Function.update_of_ne (Finset.ne_of_mem_erase hj)]
  linarith

theorem concave_sum {P : ℕ → ℝ → ℝ} (h : ∀ i < n, Concave (P i)) : Concave fun mu => ∑ i ∈ Finset.range n, P i mu := by
  intro u u' p p' h0 h0' k1 k2 he
  dsimp only
  rw [Finset.mul_sum, Finset.mul_sum, ← Finset.sum_add_distrib]
  exact Finset.sum_le_sum fun i hi => h i (Finset.mem_range.mp hi) u u' p p' h0 h0' k1 k2 he

theorem joint_curves {P PA : ℕ → ℝ → ℝ} (h : ∀ i < n, PartCurves (Q i) (P i) (PA i)) :
    Curves (jointOk n Q) (jointLog n Q fun i => (Q i).data) (fun θ => jointLog n Q fun i => (Q i).expected 0 (θ i)) (fun mu => ∑ i ∈ Finset.range n, P i mu) fun mu => ∑ i ∈ Finset.range n, PA i mu :=
  ⟨joint_profile_sum fun i hi => (h i hi).data, fun _ θ hθ => joint_profile_sum fun i hi => (h i hi).asimov _ _ (joint_parts hθ hi), concave_sum fun i hi => (h i hi).concave,
    concave_sum fun i hi => (h i hi).concaveA⟩

theorem choose_curves (h : ∀ i < n, ∃ P PA, PartCurves (Q i) P PA) : ∃ P PA : ℕ → ℝ → ℝ, ∀ i < n, PartCurves (Q i) (P i) (PA i) := by
  have : ∀ i, ∃ P PA, i < n → PartCurves (Q i) P PA := by
    intro i
    by_cases hi : i < n
    · obtain ⟨P, PA, h⟩ := h i hi
      exact ⟨P, PA, fun _ => h⟩
    · exact ⟨fun _ => 0, fun _ => 0, fun h => absurd h hi⟩
  choose P PA h using this
  exact ⟨P, PA, h⟩

end

end Verif.Linear
