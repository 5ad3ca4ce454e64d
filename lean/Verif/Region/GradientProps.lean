import Verif.Region.Radial
import Mathlib.Analysis.Calculus.LocalExtr.Basic
import Mathlib.Analysis.Calculus.Deriv.Comp
import Mathlib.Analysis.Calculus.Deriv.Add
import Mathlib.Analysis.Calculus.Deriv.Mul

/-!
# Property C162: the gradient of the profile likelihood

A case that meets the hypotheses is in `GradientExample.lean`.
-/

namespace Verif.Region
open Verif.Py F Verif.Optimizer
open Verif.Config (Bound)
open Verif.Contour (Num Vec Target Bounds Minimiser Setup Gen Result Choice insertPoi assemble signalIndices Embedded Partition)
open Verif.Interface (Backend Solver World Allowed Satisfies InBounds Plain)
open Verif.Hypotest (Exact Usual)
open Classical

/-- C162: with an exact inner minimiser and exact automatic differentiation, `grad_nll` is the gradient of the profile NLL, which `nll_scalar` is, wherever the
profile NLL and, at its best points, the likelihood are differentiable; with profile parameters because only their best values matter (the bounds of
the profile parameters may be active). -/
theorem C162_gradient (B : Backend) (N p : ℕ) (hp : p < N) (hcs : B.constraints = []) (L : Lib) (hk : Solves L) (hd : Differentiates L)
    (hg : L.garbage.length = N) (given : Option (List ℤ)) (hgiven : ∀ l, given = some l → l.Nodup) (bounds : Option (List Bound)) (c : Choice Bound)
    (hc : Contour.choose N p (B.config true).bounds (B.config true).names given bounds = .ok c) (pb : List Bound)
    (hpb : Contour.pyGets (B.config true).bounds c.profile = .ok pb) (init : List ℝ) (hi : init.length = c.profile.length)
    (g : Vec c.contour.length → ℝ) (hprof : ∀ t, ProfileNll B N p c.contour t (g t)) (t : Vec c.contour.length) (G : Vec c.contour.length →L[ℝ] ℝ)
    (hG : HasFDerivAt g G t) (hs : ∀ x, Profiles B N p c.contour t x → nll B x = fin (g t) → Smooth B x) :
    (target L (B.logpdf .observed none) (decide (B.constraints ≠ [])) p c pb init).nll (some t) = .ok (some (g t)) ∧
      (target L (B.logpdf .observed none) (decide (B.constraints ≠ [])) p c pb init).grad (some t) = .ok (some fun j => G (Pi.single j 1)) := by
  refine ⟨target_profile hcs hk hp hg hgiven hc hpb hi t _ (hprof t), ?_⟩
  by_cases h0 : c.profile = []
  · have hf : ∀ z : Vec c.contour.length, neg (B.logpdf .observed none (insertPoi p (List.ofFn z))) = fin (g z) := fun z => by
      obtain ⟨x, h1, -, h2⟩ := fullPoint_profile hcs hk hp hg hgiven hc hpb hi z _ (hprof z)
      simp only [fullPoint, if_pos h0, Except.ok.injEq] at h1
      rw [h1]; exact h2
    have := hd _ (fun pars => neg (B.logpdf .observed none (insertPoi p pars))) g t G (Filter.Eventually.of_forall hf) hG
    simp only [target, gradNll, if_pos h0, this]
    congr 2
    funext j
    simp
  · obtain ⟨x, h1, h2, h3⟩ := fullPoint_profile hcs hk hp hg hgiven hc hpb hi t _ (hprof t)
    obtain ⟨n, y, φ, rfl, hφ, hdiff⟩ := hs x h2 h3
    have hn : n = N := by simpa using h2.length
    subst hn
    have := hd _ _ φ y (fderiv ℝ φ y) hφ hdiff.hasFDerivAt
    simp only [target, gradNll, if_neg h0, h1, this]
    congr 2
    funext j
    obtain ⟨hpart, -⟩ := Contour.C66_partition_partial n p hp _ _ given hgiven bounds c hc
    obtain ⟨f1, f2, f3, f4, f5, f6⟩ := Contour.partition_facts hpart
    have hm : c.contour.getD j 0 ∈ c.contour := by rw [List.getD_eq_getElem _ _ j.2]; exact List.getElem_mem _
    have hr := f1 _ (List.mem_append_left _ hm)
    obtain ⟨i, hi'⟩ : ∃ i : Fin n, (i : ℕ) = (c.contour.getD j 0).toNat := ⟨⟨(c.contour.getD j 0).toNat, by omega⟩, rfl⟩
    have hval : (c.contour.map fun i => -((List.ofFn fun j => (fderiv ℝ φ y) (Pi.single j 1)).getD i.toNat 0)).getD j 0 = -(fderiv ℝ φ y) (Pi.single i 1) := by
      have e : c.contour[(j : ℕ)].toNat = i := by rw [hi', List.getD_eq_getElem _ _ j.2]
      rw [List.getD_eq_getElem _ _ (by simp), List.getElem_map, e, List.getD_eq_getElem _ _ (by simp)]
      simp
    rw [hval]
    -- along the line in which contour parameter `j` moves and the others stay, the NLL is at least the profile NLL
    have hline : ∀ s : ℝ, Profiles B n p c.contour (t + s • Pi.single j 1) (List.ofFn (y + s • Pi.single i 1)) := by
      intro s
      have hother : ∀ m : ℕ, m ≠ i → (List.ofFn (y + s • Pi.single i 1))[m]? = (List.ofFn y)[m]? := by
        intro m hmi
        rw [List.getElem?_ofFn, List.getElem?_ofFn]
        split
        · rename_i h
          have : (⟨m, h⟩ : Fin n) ≠ i := fun e => hmi (by rw [← e])
          simp [this]
        · rfl
      refine ⟨List.length_ofFn, ?_, ⟨rfl, fun j' => ?_⟩, fun m b v hm1 hm2 hb hv => ?_⟩
      · rw [hother p (by omega)]; exact h2.one
      · by_cases hjj : j' = j
        · subst hjj
          have a := h2.coordinates.2 j'
          rw [← hi', List.getElem?_ofFn, dif_pos i.2] at a ⊢
          simp only [Option.some.injEq, Pi.add_apply, Pi.smul_apply, Pi.single_eq_same, smul_eq_mul, mul_one] at a ⊢
          rw [← a]
        · have hne : c.contour.getD j' 0 ≠ c.contour.getD j 0 := by
            rw [List.getD_eq_getElem _ _ j'.2, List.getD_eq_getElem _ _ j.2]
            exact fun e => hjj (Fin.ext ((f2.getElem_inj_iff).mp e))
          have hm' : c.contour.getD j' 0 ∈ c.contour := by rw [List.getD_eq_getElem _ _ j'.2]; exact List.getElem_mem _
          have hr' := f1 _ (List.mem_append_left _ hm')
          rw [hother _ (by omega), h2.coordinates.2 j']
          simp [hjj]
      · refine h2.inside m b v hm1 hm2 hb ?_
        rw [← hother m fun e => hm2 ?_]
        · exact hv
        · have : ((m : ℕ) : ℤ) = c.contour.getD j 0 := by omega
          rw [this]; exact hm
    have hy0 : -φ y = g t := by
      have := hφ.self_of_nhds
      unfold nll at h3
      rw [this] at h3
      simpa [neg] using h3
    have c1 : HasDerivAt (fun s : ℝ => y + s • (Pi.single i 1 : Fin n → ℝ)) (Pi.single i 1) 0 := by
      simpa using ((hasDerivAt_id (0 : ℝ)).smul_const (Pi.single i 1 : Fin n → ℝ)).const_add y
    have c2 : HasDerivAt (fun s : ℝ => t + s • (Pi.single j 1 : Vec c.contour.length)) (Pi.single j 1) 0 := by
      simpa using ((hasDerivAt_id (0 : ℝ)).smul_const (Pi.single j 1 : Vec c.contour.length)).const_add t
    have d1 : HasDerivAt (fun s : ℝ => φ (y + s • (Pi.single i 1 : Fin n → ℝ))) ((fderiv ℝ φ y) (Pi.single i 1)) 0 :=
      HasFDerivAt.comp_hasDerivAt (0 : ℝ) (by simpa using hdiff.hasFDerivAt) c1
    have d2 : HasDerivAt (fun s : ℝ => g (t + s • (Pi.single j 1 : Vec c.contour.length))) (G (Pi.single j 1)) 0 :=
      HasFDerivAt.comp_hasDerivAt (0 : ℝ) (by simpa using hG) c2
    have hmin : IsLocalMin (fun s : ℝ => -φ (y + s • (Pi.single i 1 : Fin n → ℝ)) - g (t + s • (Pi.single j 1 : Vec c.contour.length))) 0 := by
      have hev : ∀ᶠ s : ℝ in nhds 0, B.logpdf .observed none (List.ofFn (y + s • (Pi.single i 1 : Fin n → ℝ))) = fin (φ (y + s • (Pi.single i 1 : Fin n → ℝ))) :=
        c1.continuousAt.eventually (by simpa using hφ)
      refine hev.mono fun s hs => ?_
      have hle := (hprof (t + s • Pi.single j 1)).2 _ (hline s) (by unfold nll; rw [hs]; simp [neg])
      unfold nll at hle
      rw [hs] at hle
      simp only [neg, le] at hle
      simp only [zero_smul, _root_.add_zero]
      linarith
    have := hmin.hasDerivAt_eq_zero (d1.neg.sub d2)
    linarith

end Verif.Region
