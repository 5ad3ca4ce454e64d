import Verif.Interval.JointProps
import Verif.Joint.CoverageProps

/-!
# Property C193: how often the intervals of a combination contain the true strength
-/

namespace Verif.Interval
open MeasureTheory ProbabilityTheory
open Verif.Py F Verif.Hypotest Verif.Chi2 Verif.Chain
open Verif.Interface (World Size Plain Solver perfect)
open Verif.Backend (Ext Vec Args at')
open Verif.Stats (Expect Calc gaussianLog)
open Verif.UpperLimit (Sound Succeeds)
open Verif.Joint (combined members member Reliable Distinct All pooled pooledDeviation Together measuredBy deviationOf)

/-- C193. How often the interval of a combination misses the true signal strength `u`, if the data of the experiments are independent and follow their models: the probability that `chi2_test` is used in the conditions of
`C189_interval` and that its interval does not contain `u` up to the tolerance of the root finder is at most `1 - CL`. -/
theorem C193_interval {Ω : Type} [MeasurableSpace Ω] {μ : Measure Ω} [IsProbabilityMeasure μ] {n : ℕ} (hn : 0 < n) {E : Ext} {a : ℕ → Args} {P C : ℕ → ℕ → ℕ → ℝ} {y : ℕ → Vec} {u : ℝ} {X : ℕ → Ω → Vec}
    {m : ℕ → Ω → Backend.Model} (hx : Together μ n E a P C y u X m) {fit : Joint.Minimizer (ℕ → World)} (hfit : Reliable fit) {S : Solver} (hS : Exact S) (hT : Finds S)
    (draw : Vec × List Vec → ℕ → List Vec) {name : ℕ → String} (hname : Distinct n name) {inv : List (List ℝ) → Except Interface.Err (List (List ℝ))} (hinv : InvertsNumbers inv) (g : Bool) (ntoys : Size)
    (available : ℕ → Calc → Bool) (percentile percentile' : List F → F → F) {σ CL z δ : ℝ} (hσ : σ = pooledDeviation n (deviationOf a P y)) (hz : Central CL z) (hCL : 0 ≤ CL) {isf : ℝ → F}
    (hisf : ChiSquared isf) {tol : ℝ → ℝ} (h0 : ∀ x, 0 ≤ tol x) {toms : UpperLimit.Solver} (ht : Sound tol toms) (hs : Succeeds toms) (brent : UpperLimit.Solver) (minimize : Minimizer)
    (hδ : ∀ x, |x| ≤ 1e5 → tol x ≤ δ) (hd : δ + 1e-3 ≤ z * σ) (fuel nMulti : ℕ) (negative : Bool) :
    μ.real {ω | ∃ x s, x = pooled n (measuredBy a P y X ω) (deviationOf a P y) ∧ s = span (if 0 < x then σ else 1) ∧
      (x < 0 → ∀ i < n, ∀ j < (a i).background.length, 0 < at' (y i) j → 0 ≤ x * at' (y i) j + at' (a i).background j) ∧ x ≤ 10 ∧ z * σ < s ∧ |x| + s ≤ 1e5 ∧
      ¬ ∃ x₁ x₂, x₁ ≤ u + tol x₁ ∧ u ≤ x₂ + tol x₂ ∧
        Ends (All n fun _ => 1) (chi2Interval fuel toms brent minimize isf (combined fit (members n name S inv E draw (fun i => m i ω) g ntoys available percentile') percentile)
          (jointSigma (combined fit (members n name S inv E draw (fun i => m i ω) g ntoys available percentile') percentile)) .observed CL .twoSided negative 3 nMulti)
          (.ok (some [fin x₁, fin x₂]))} ≤ 1 - CL := by
  have hσ0 : 0 < σ := hσ ▸ Joint.pooledDeviation_pos hn fun i hi => hx.positive hi
  have hup := (hx.strength hn (u + z * σ)).2
  have hdown := (hx.strength hn (u - z * σ)).1
  rw [← hσ] at hup hdown
  have e1 : (u - (u + z * σ)) / σ = -z := by field_simp; ring
  have e2 : (u - z * σ - u) / σ = -z := by field_simp; ring
  rw [e1] at hup
  rw [e2] at hdown
  refine (measureReal_mono (s₂ := {ω | u + z * σ ≤ pooled n (measuredBy a P y X ω) (deviationOf a P y)} ∪ {ω | pooled n (measuredBy a P y X ω) (deviationOf a P y) ≤ u - z * σ}) ?_).trans
    ((measureReal_union_le _ _).trans (le_of_eq (by rw [hup, hdown, ← hz.2]; ring)))
  rintro ω ⟨x, s, hxx, hss, q1, q2, q5, q3, q4⟩
  have hk : ∀ i < n, ({ a i with data := X i ω } : Args).data.length = (a i).background.length := fun i hi => (hx.each i hi).length ω
  have hg : δ + max 1e-10 (1e-8 * (|x| + s)) ≤ z * σ := by
    refine le_trans (add_le_add le_rfl (max_le (by norm_num) ?_)) hd
    calc (1e-8 : ℝ) * (|x| + s) ≤ 1e-8 * 1e5 := mul_le_mul_of_nonneg_left q3 (by norm_num)
      _ ≤ 1e-3 := by norm_num
  have hw : ∀ v, |v - x| ≤ s → tol v ≤ δ := by
    intro v hv
    refine hδ v (le_trans ?_ q3)
    calc |v| = |(v - x) + x| := by rw [sub_add_cancel]
      _ ≤ |v - x| + |x| := abs_add_le _ _
      _ ≤ |x| + s := by linarith
  obtain ⟨x₁, x₂, j1, j2, j3⟩ := C189_interval hfit hS hT draw hn (a := fun i => { a i with data := X i ω }) (m := fun i => m i ω) (Q := P) (y := y) (fun i hi => (hx.each i hi).models ω) hname hinv g ntoys
    available percentile percentile' .observed (est := measuredBy a P y X ω) (dev := deviationOf a P y) (fun i hi => by rw [hk i hi]; rfl) (fun i hi => by rw [hk i hi]; rfl) hxx hσ
    (fun k i hi => by rw [hk i hi]; exact q1 k i hi) q2 hz hisf h0 ht hs brent minimize hss hCL q5 q3 hw hg nMulti negative
  rw [abs_le] at j1 j2
  rw [hxx] at j1 j2
  by_contra hn'
  rw [Set.mem_union, not_or, Set.mem_ofPred_eq, Set.mem_ofPred_eq, not_le, not_le] at hn'
  exact q4 ⟨x₁, x₂, by linarith, by linarith, j3 fuel⟩

/-- The intervals of two experiments with two standard deviations, for a signal of strength 2. -/
example (E : Ext) (draw : Vec × List Vec → ℕ → List Vec) (brent : UpperLimit.Solver) (minimize : Minimizer) (g : Bool) (ntoys : Size) (fuel nMulti : ℕ) :
    ∃ (X : ℕ → (ℕ → ℕ × ℕ → ℝ) → Vec) (m : ℕ → (ℕ → ℕ × ℕ → ℝ) → Backend.Model) (isf : ℝ → F), (Measure.infinitePi fun _ : ℕ => Measure.infinitePi fun _ : ℕ × ℕ => gaussianReal 0 1).real {ω | ∃ x s,
      x = pooled 2 (measuredBy (fun _ => exGaussArgs) (fun _ => independent (at' [1, 1])) (fun _ => [2, 1]) X ω) (deviationOf (fun _ => exGaussArgs) (fun _ => independent (at' [1, 1])) fun _ => [2, 1]) ∧
      s = span (if 0 < x then 1 / √10 else 1) ∧ (x < 0 → ∀ i < 2, ∀ j < 2, 0 < at' [2, 1] j → 0 ≤ x * at' [2, 1] j + at' [5, 5] j) ∧ x ≤ 10 ∧ 2 * (1 / √10) < s ∧ |x| + s ≤ 1e5 ∧
      ¬ ∃ x₁ x₂, x₁ ≤ 2 + 1 / 1000 ∧ 2 ≤ x₂ + 1 / 1000 ∧ Ends (All 2 fun _ => 1) (chi2Interval fuel (bisection (1 / 1000)).solver brent minimize isf
        (combined Joint.ideal (members 2 (fun i => if i = 0 then "a" else "b") perfect Joint.exInverse E draw (fun i => m i ω) g ntoys (fun _ _ => true) fun _ _ => nan) fun _ _ => nan)
        (jointSigma (combined Joint.ideal (members 2 (fun i => if i = 0 then "a" else "b") perfect Joint.exInverse E draw (fun i => m i ω) g ntoys (fun _ _ => true) fun _ _ => nan) fun _ _ => nan)) .observed
        (1 - 2 * Phi (-2)) .twoSided false 3 nMulti) (.ok (some [fin x₁, fin x₂]))} ≤ 1 - (1 - 2 * Phi (-2)) := by
  obtain ⟨X, m, h⟩ := Joint.exTogether E 2
  obtain ⟨isf, hisf⟩ := chiSquared_exists
  obtain ⟨-, -, -, -, -, -, -, h4, -⟩ := exDeficit E
  have hdev : pooledDeviation 2 (deviationOf (fun _ => exGaussArgs) (fun _ => independent (at' [1, 1])) fun _ => [2, 1]) = 1 / √10 := by
    rw [← h4]
    congr 1
    funext i
    show deviation 2 (independent (at' [1, 1])) (at' [2, 1]) = 1 / √5
    unfold deviation
    rw [form_independent]
    norm_num [Finset.sum_range_succ, at']
  have hs : (1 / 4 : ℝ) ≤ 1 / √10 := by
    refine one_div_le_one_div_of_le (by positivity) ?_
    rw [Real.sqrt_le_left (by norm_num)]
    norm_num
  exact ⟨X, m, isf, C193_interval two_pos h Joint.ideal_reliable perfect_exact perfect_finds draw Joint.exNames (inv := Joint.exInverse) (fun _ _ => rfl) g ntoys (fun _ _ => true) (fun _ _ => nan) (fun _ _ => nan)
    (σ := 1 / √10) (δ := 1 / 1000) hdev.symm (exInterval_central two_pos).1 (exInterval_central two_pos).2 hisf (tol := fun _ => 1 / 1000) (fun _ => by norm_num) (bisection_sound (tol := 1 / 1000) (by norm_num))
    (bisection_succeeds (tol := 1 / 1000) (by norm_num)) brent minimize (fun _ _ => le_rfl) (by
      calc (1 / 1000 : ℝ) + 1e-3 ≤ 2 * (1 / 4) := by norm_num
        _ ≤ _ := by linarith) fuel nMulti false⟩

end Verif.Interval
