import Verif.Stats.Lemmas

/-!
# C141: the statistic for lower limits
-/

namespace Verif.Stats
open Verif.Py F
open Classical

theorem neg_neg_F (a : F) : neg (neg a) = a := by cases a <;> simp [neg]

theorem lt_neg_F (a b : F) : lt (neg b) (neg a) ↔ lt a b := by cases a <;> cases b <;> simp [neg, lt]

/-- C141: `qmu_left` is the mirror image of `q`: the statistic of the model in which the signal strength has the other sign. -/
theorem C141_mirror (mu muhat maxLogpdf : F) (logpdf : F → F) : qmuLeft mu muhat maxLogpdf logpdf = qmu (neg mu) (neg muhat) maxLogpdf (fun x => logpdf (neg x)) := by
  simp only [qmuLeft, qmu, lt_neg_F, neg_neg_F]

/-- C141: the shift of `qmu_left` is that of `q` for the mirrored model as long as the statistic is not above that of the Asimov data. -/
theorem C141_shift_partial (mu : F) (maxLik maxLikA : F × F) (logpdf logpdfA : F → F)
    (h : le (sqrt (qmuLeft mu maxLik.1 (neg maxLik.2) logpdf)) (sqrt (qmuLeft mu maxLikA.1 (neg maxLikA.2) logpdfA))) :
    computeTeststatistics mu maxLik logpdf maxLikA logpdfA "qmu_left" =
      computeTeststatistics (neg mu) (neg maxLik.1, maxLik.2) (fun x => logpdf (neg x)) (neg maxLikA.1, maxLikA.2) (fun x => logpdfA (neg x)) "q" := by
  simp only [computeTeststatistics, get_qmu_left, get_q, ← C141_mirror]
  simp [shiftOf, h]

/-- The log-likelihood of a measurement `m ± 1`. -/
noncomputable def gauss (m : ℝ) : F → F
  | fin x => fin (-(x - m) ^ 2 / 2)
  | _ => ninf

-- the measurement 0.5 ± 1, the Asimov data 2 ± 1 and the signal strength -1
example : le (sqrt (qmuLeft (fin (-1)) (fin (1 / 2)) (neg (fin 0)) (gauss (1 / 2)))) (sqrt (qmuLeft (fin (-1)) (fin 2) (neg (fin 0)) (gauss 2))) := by
  have h1 : qmuLeft (fin (-1)) (fin (1 / 2)) (neg (fin 0)) (gauss (1 / 2)) = fin (9 / 4) := by
    simp only [qmuLeft, gauss, lt, neg, sub, add, scale, clip0]
    norm_num
  have h2 : qmuLeft (fin (-1)) (fin 2) (neg (fin 0)) (gauss 2) = fin 9 := by
    simp only [qmuLeft, gauss, lt, neg, sub, add, scale, clip0]
    norm_num
  rw [h1, h2]
  simp only [sqrt]
  rw [if_neg (by norm_num), if_neg (by norm_num)]
  exact Real.sqrt_le_sqrt (by norm_num)

/-- C141 is false for the shift: for the measurement 1 ± 1, background-only Asimov data and the signal strength -1 the shift of `qmu_left` is 3/2, that of `q` for the mirrored model is 1. -/
theorem C141_shift_fails :
    computeTeststatistics (fin (-1)) (fin 1, fin 0) (gauss 1) (fin 0, fin 0) (gauss 0) "qmu_left" = .ok (fin 2, fin 1, fin (3 / 2)) ∧
    computeTeststatistics (neg (fin (-1))) (neg (fin 1), fin 0) (fun x => gauss 1 (neg x)) (neg (fin 0), fin 0) (fun x => gauss 0 (neg x)) "q" = .ok (fin 2, fin 1, fin 1) := by
  have h1 : qmuLeft (fin (-1)) (fin 1) (neg (fin 0)) (gauss 1) = fin 4 := by
    simp only [qmuLeft, gauss, lt, neg, sub, add, scale, clip0]
    norm_num
  have h2 : qmuLeft (fin (-1)) (fin 0) (neg (fin 0)) (gauss 0) = fin 1 := by
    simp only [qmuLeft, gauss, lt, neg, sub, add, scale, clip0]
    norm_num
  have s4 : Real.sqrt 4 = 2 := by rw [show (4 : ℝ) = 2 ^ 2 by norm_num, Real.sqrt_sq (by norm_num)]
  have e4 : sqrt (fin 4) = fin 2 := by simp only [sqrt, s4]; norm_num
  have e1 : sqrt (fin 1) = fin 1 := by simp only [sqrt, Real.sqrt_one]; norm_num
  constructor
  · simp only [computeTeststatistics, get_qmu_left, h1, h2, shiftOf, e4, e1]
    norm_num [le, eq, sub, add, neg, scale, div]
    decide
  · simp only [computeTeststatistics, get_q, ← C141_mirror, h1, h2, shiftOf, e4, e1]
    norm_num [sub, add, neg]

/-- C141 is false for signal strengths above the best fit of the Asimov data, that is for all positive ones with background-only Asimov data: no data exclude them. Either the calculation stops
with `AsimovTestStatZero`, or the level is 1/2 for signal and background as for background alone. -/
theorem C141_positive_fails (mu muhat muhatA : ℝ) (nll nllA : F) (logpdf logpdfA : F → F) (h : muhatA < mu) :
    (muhat < mu → computeTeststatistics (fin mu) (fin muhat, nll) logpdf (fin muhatA, nllA) logpdfA "qmu_left" = .ok (fin 0, fin 0, fin 0)) ∧
    (∀ r, qmuLeft (fin mu) (fin muhat) (neg nll) logpdf = fin r → 0 < r →
      computeTeststatistics (fin mu) (fin muhat, nll) logpdf (fin muhatA, nllA) logpdfA "qmu_left" = .error .asimovTestStatZero) ∧
    (asymptoticLevel (fin 0) (fin 0) "qmu_left").1 = [fin 1] := by
  have hA : qmuLeft (fin mu) (fin muhatA) (neg nllA) logpdfA = fin 0 := by simp [qmuLeft, lt, h]
  have e0 : sqrt (fin 0) = fin 0 := by simp [sqrt]
  refine ⟨fun h' => ?_, fun r hr h0 => ?_, ?_⟩
  · have h1 : qmuLeft (fin mu) (fin muhat) (neg nll) logpdf = fin 0 := by simp [qmuLeft, lt, h']
    simp only [computeTeststatistics, get_qmu_left, h1, hA, shiftOf, e0]
    simp [le, sub, add, neg]
  · simp only [computeTeststatistics, get_qmu_left, hr, hA, shiftOf, e0]
    have hs : sqrt (fin r) = fin (Real.sqrt r) := by simp only [sqrt]; rw [if_neg (by linarith)]
    rw [hs]
    have hp : ¬ Real.sqrt r ≤ 0 := not_le.2 (Real.sqrt_pos.2 h0)
    simp [le, hp, eq]
  · simp only [asymptoticLevel, pvalues, asymptoticDist, neg, sub, add, cdf]
    simp [le, eq, div, Phi_zero]

end Verif.Stats
