import Verif.Region.Radial

/-!
# Property C161: the points of the radial search are next to the level of the profile NLL

A case that meets the hypotheses is at the end of `Examples.lean`.
-/

namespace Verif.Region
open Verif.Py F Verif.Optimizer
open Verif.Config (Bound)
open Verif.Contour (Num Vec Target Bounds Minimiser Setup Gen Result Choice insertPoi assemble signalIndices Embedded Partition)
open Verif.Interface (Backend Solver World Allowed Satisfies InBounds Plain)
open Verif.Hypotest (Exact Usual)
open Classical

/-- C161: with exact minimisers, an accurate root finder, no constraints and a continuous profile NLL, each point that the radial search finds is, along a
line, within the accuracy of the root finder of a point where the profile NLL is above the smallest NLL by the quantile. -/
theorem C161_radial {S : Solver} (B : Backend) (N p : ℕ) (hB : Usual B N p) (hpoi : (B.config true).poiIndex = p) (hcs : B.constraints = []) (L : Lib)
    (hk : Solves L) (hg : L.garbage.length = N) (G : (k : ℕ) → Gen k) (cl : ℝ) (given : Option (List ℤ)) (hgiven : ∀ l, given = some l → l.Nodup)
    (bounds : Option (List Bound)) (w : World) (hw : Plain N w) (s : (k : ℕ) → (G k).State) (k : ℕ) (hb : Contour.BrentAccurate (L.setup k).brent)
    (g : Vec k → ℝ) (hcont : Continuous g) (hprof : ∀ t, ProfileNll B N p (Contour.contourIndices N p given) t (g t)) (res : Result k)
    (h : (findContour S B L G cl given bounds w s).1 = .ok ⟨k, res⟩) (j : ℕ) (hj : res.fromRadial[j]? = some true) :
    ∃ (anchor : Vec k) (M : Matrix (Fin k) (Fin k) ℝ) (e : Vec k) (r z : ℝ), (L.setup k).whiten anchor = .ok M ∧ Contour.norm e = 1 ∧ res.points[j]? = some (some (anchor + M.mulVec (r • e))) ∧
      |r - z| ≤ 1e-12 + 1e-12 * |r| ∧
      ProfileNll B N p (Contour.contourIndices N p given) (anchor + M.mulVec (z • e)) (res.nllMin + (L.setup k).quantile) := by
  have hp : p < N := by
    have h1 := hB.poi true
    rw [hpoi] at h1
    by_contra hn
    simp [slot] at h1
    omega
  obtain ⟨c, all, v, w', θ, init, pb, res', -, hc, hm, hsp, hpb, hf, he⟩ := find_parts h
  rw [hpoi, Int.toNat_natCast] at hc hm hsp hf
  rw [hw.2.2] at hc hm hsp
  cases he
  obtain ⟨c1, -⟩ := Contour.choose_ok _ _ _ _ _ _ _ hc
  rw [← c1] at hprof ⊢
  have hi : init.length = c.profile.length := by
    obtain ⟨hpart, -⟩ := Contour.C66_partition_partial N p hp _ _ given hgiven bounds c hc
    obtain ⟨cp, pp, s1, -, s3, -⟩ := Contour.C66_split N p c.contour c.profile hpart all L.garbage (by rw [mle_length hm]; exact signal_length hp) hg
    rw [hsp] at s1
    simp only [Except.ok.injEq, Prod.mk.injEq] at s1
    rw [s1.2, s3]
  have hF : ∀ t, (target L (B.logpdf .observed none) (decide (B.constraints ≠ [])) p c pb init).nll (some t) = .ok (some (g t)) :=
    fun t => target_profile hcs hk hp hg hgiven hc hpb hi t _ (hprof t)
  obtain ⟨anchor, M, s1, s2, pts, t, e, k1, k2, k3, k4⟩ := find_radial _ _ _ _ _ hf j hj
  obtain ⟨r, z, r1, r2, r3⟩ := Contour.C91_radial _ _ hb g hF hcont _ _ _ _ k2 _ k3
  obtain ⟨-, hmem⟩ := Contour.radialSearch_mem _ _ _ _ _ _ k2
  have hthr := (Contour.C61_level_partial _ _ _ _ _ hf).2
  refine ⟨anchor, M, e, r, z, k1, ?_, ?_, r3, ?_⟩
  · obtain ⟨y, -, -, -, y1, y2, -⟩ := hmem _ k3
    rw [show e = _ from y2]
    exact Contour.norm_smul_inv y (lt_of_lt_of_le (by norm_num) y1)
  · rw [k4, show t = _ from r1]; rfl
  · have hq : res'.nllMin + (L.setup c.contour.length).quantile = g (anchor + M.mulVec (z • e)) := by
      rw [show g (anchor + M.mulVec (z • e)) = _ from r2]
      exact hthr.symm
    rw [hq]
    exact hprof _

end Verif.Region
