import Verif.Region.Exists

/-!
# Property C160: the primary fit succeeds; constraints
-/

namespace Verif.Region
open Verif.Py F Verif.Optimizer
open Verif.Config (Bound)
open Verif.Contour (Num Vec Target Bounds Minimiser Setup Gen Result Choice insertPoi assemble signalIndices Embedded Partition)
open Verif.Interface (Backend Solver World Allowed Satisfies InBounds Plain)
open Verif.Hypotest (Exact Usual)
open Verif.Chain (Finds Profile Binned Simple plugged)
open Verif.Backend (Ext Args at')
open Classical

open Verif.Uncorrelated (argsOf Bin)

/-- C160: for every simplified likelihood of spey with a constant signal (C117) the primary fit succeeds: there is a best point with the strength at one. -/
theorem C160_exists {S : Solver} (hS : Exact S) (hT : Finds S) (hC : Interface.Constrained S) {E : Ext} (draw) {a : Args} {m : Backend.Model} {y : Backend.Vec} {bin pen} {lo : ℝ}
    (h : Simple E a m y bin pen lo) (w : World) (hw : Plain (a.data.length + 1) w) :
    ∃ θ v w', findMle S (plugged E draw m) (signalIndices (a.data.length + 1) 0) w = (.ok (θ, v), w') ∧
      Best (plugged E draw m) (a.data.length + 1) 0 (1 :: θ) v := by
  have hbin := h.binned draw
  have hlog : ∀ x, (plugged E draw m).logpdf .observed none x = _ := hbin.default .observed
  obtain ⟨x, hx⟩ := hbin.exists_profile true .observed (hbin.length .observed) 1
  obtain ⟨θ, v, w', hm⟩ := mle_exists hS hT hC hbin.usual hbin.objective hw ⟨x, (hbin.default_profile (e := .observed)).mpr hx⟩ fun x hx => by
    rw [hlog, hbin.logpdf _ _ (hbin.length _) x hx]
    exact ⟨_, rfl⟩
  obtain ⟨-, hbest⟩ := mle_point hS hC hbin.usual (Nat.succ_pos _) hw hm
  refine ⟨θ, v, w', hm, ?_⟩
  simpa [insertPoi] using hbest

example (E : Ext) : ∃ m lo, Backend.uncorrelated (argsOf [⟨10, 1, 2, 0⟩]) [2] = .ok m ∧ Simple E (argsOf [⟨10, 1, 2, 0⟩]) m [10] (Uncorrelated.level [⟨10, 1, 2, 0⟩])
    (Uncorrelated.constraint [⟨10, 1, 2, 0⟩]) lo := by
  obtain ⟨m, hm⟩ : ∃ m, Backend.uncorrelated (argsOf [⟨10, 1, 2, 0⟩]) [2] = .ok m :=
    Backend.simplified_accepts _ (Uncorrelated.argsOf_fits _) _ (.inl ⟨rfl, rfl⟩) rfl _ _ _
  obtain ⟨lo, h⟩ := Uncorrelated.simple (E := E) hm ⟨by simp [Bin.Proper]; norm_num, by simp⟩
  exact ⟨m, lo, hm, h⟩

/-- C160 fails: with profile parameters, and constraints that are objects of scipy, as those of all built-in models with constraints are, there is never a
result: the constraints are taken to be dictionaries. -/
theorem C160_profile_fails (S : Solver) (B : Backend) (hB : B.constraints ≠ []) (L : Lib) (G : (k : ℕ) → Gen k) (cl : ℝ) (given : List ℤ) (bounds : Option (List Bound))
    (w : World) (s : (k : ℕ) → (G k).State) (j : ℤ) (hj : j ∈ signalIndices w.start.length (B.config true).poiIndex.toNat) (hn : j ∉ given) :
    ∀ r, (findContour S B L G cl (some given) bounds w s).1 ≠ .ok r := by
  intro r h
  obtain ⟨c, all, v, w', θ, init, pb, res, -, hc, -, -, -, hf, -⟩ := find_parts h
  obtain ⟨c1, c2, -⟩ := Contour.choose_ok _ _ _ _ _ _ _ hc
  have hp : c.profile ≠ [] := by
    have : j ∈ c.profile := by
      rw [c2]
      unfold Contour.profileIndices
      refine List.mem_filter.mpr ⟨hj, ?_⟩
      rw [c1]
      simp [Contour.contourIndices, hn]
    exact List.ne_nil_of_mem this
  obtain ⟨t, u, hu⟩ := find_evaluates _ _ _ _ _ hf
  simp [search, target, nllScalar, fullPoint, hp, hB] at hu

/-- Two bins with uncertain background: there is a constraint, and the second nuisance parameter is profiled. -/
example (E : Ext) (draw) : ∃ m, Backend.uncorrelated (argsOf [⟨10, 1, 2, 0⟩, ⟨5, 3, 1, 4⟩]) [2, 1] = .ok m ∧ (plugged E draw m).constraints ≠ [] ∧
    2 ∈ signalIndices 3 ((plugged E draw m).config true).poiIndex.toNat ∧ (2 : ℤ) ∉ [(1 : ℤ)] := by
  obtain ⟨m, hm⟩ : ∃ m, Backend.uncorrelated (argsOf [⟨10, 1, 2, 0⟩, ⟨5, 3, 1, 4⟩]) [2, 1] = .ok m :=
    Backend.simplified_accepts _ (Uncorrelated.argsOf_fits _) _ (.inl ⟨rfl, rfl⟩) rfl _ _ _
  obtain ⟨lo, h⟩ := Uncorrelated.simple (E := E) hm ⟨by simp [Bin.Proper]; norm_num, by simp⟩
  have hs := h.model.simplified h.fits
  have hpoi := ((Backend.C51_sizes _ m (.simplified _ hs) h.fits).2.2.2.2 true 10).2.2.2.1
  obtain ⟨n, g, pdf, hsm, -⟩ := hs.shape h.fits
  obtain ⟨unc, c, -, -, -, -, -, -, hpos, -⟩ := Backend.simplified_ok hsm
  refine ⟨m, hm, by simp [plugged, hpos], ?_, by simp⟩
  simp only [plugged, hpoi]
  simp [signalIndices, List.range, List.range.loop]

/-- C160 fails: the basins are searched inside the bounds only, without the constraints. For this model every search that finds a minimum gives, as the
minimum, a number below the NLL of every point that satisfies the constraint. -/
theorem C160_constraints_fails {S : Solver} {E : Ext} (draw) {m : Backend.Model} (h : Backend.uncorrelated (argsOf [⟨10, 1, 2, 0⟩]) [2] = .ok m) (L : Lib)
    (hL : Finishes L) (hn : 2 ≤ (L.setup 1).nMultistart) (G : (k : ℕ) → Gen k) (cl : ℝ) (w : World) (hw : Plain 2 w) (s : (k : ℕ) → (G k).State) (k : ℕ)
    (res : Result k) (hr : (findContour S (plugged E draw m) L G cl none none w s).1 = .ok ⟨k, res⟩) :
    ∀ x, Admissible (plugged E draw m) 2 0 x → ∃ v, nll (plugged E draw m) x = fin v ∧ res.nllMin < v := by
  obtain ⟨⟨C, hC⟩, hadm, hfree⟩ := one_bin (E := E) draw h
  obtain ⟨c, all, v, w', θ, init, pb, res', -, hc, -, -, -, hf, he⟩ := find_parts hr
  have hv : Uncorrelated.Valid [⟨10, 1, 2, 0⟩] := ⟨by simp [Bin.Proper]; norm_num, by simp⟩
  obtain ⟨lo, hs⟩ := Uncorrelated.simple (E := E) h hv
  have hpoi : ((plugged E draw m).config true).poiIndex.toNat = 0 := by
    have := (hs.binned draw).usual.poi true
    simp only [slot] at this
    split at this <;> simp_all <;> omega
  rw [hpoi] at hc hf
  rw [hw.2.2] at hc
  cases he
  obtain ⟨c1, c2, -⟩ := Contour.choose_ok _ _ _ _ _ _ _ hc
  have hcon : c.contour = [1] := by rw [c1]; simp [Contour.contourIndices, signalIndices, List.range, List.range.loop]
  have hpro : c.profile = [] := by rw [c2, hcon]; simp [Contour.profileIndices, signalIndices, List.range, List.range.loop]
  have hlen : c.contour.length = 1 := by rw [hcon]; rfl
  obtain ⟨b1, b2⟩ := Contour.C66_bounds _ _ _ _ _ _ hc
  have hin : ∀ t, Contour.Inside (box c.contour.length c.bounds) t := by
    intro t j
    have hj := b2 j j.2
    have hone : c.contour.getD j 0 = 1 := by
      have : (j : ℕ) = 0 := by have := j.2; omega
      rw [this, hcon]; rfl
    rw [hone] at hj
    have hb : c.bounds.getD j (none, none) = (none, none) := by
      rw [List.getD_eq_getElem?_getD, hj]
      cases hbb : ((plugged E draw m).config true).bounds[(1 : ℤ).toNat]? with
      | none => rfl
      | some b => exact hfree b hbb
    rw [box]
    simp only [hb, side]
    exact ⟨fun _ h => by simp at h, fun _ h => by simp at h⟩
  have hnll : ∀ t : Vec c.contour.length, ∃ y, List.ofFn t = [y] ∧
      (target L ((plugged E draw m).logpdf .observed none) (decide ((plugged E draw m).constraints ≠ [])) 0 c pb init).nll (some t) =
        .ok (some (max (11 + 2 * y) (1 / 10 ^ 20) + y ^ 2 / 2 + C)) := by
    intro t
    obtain ⟨y, hy⟩ : ∃ y, List.ofFn t = [y] := List.length_eq_one_iff.mp (by rw [List.length_ofFn, hlen])
    refine ⟨y, hy, ?_⟩
    have := hC y
    simp only [nll] at this
    simp only [target, nllScalar, fullPoint, hpro, if_true, hy, insertPoi, List.take_zero, List.nil_append, List.drop_zero, List.singleton_append, this, num]
  have hsq : ∀ y : ℝ, 9 + C ≤ max (11 + 2 * y) (1 / 10 ^ 20) + y ^ 2 / 2 + C := fun y => by
    have := le_max_left (11 + 2 * y) (1 / 10 ^ 20 : ℝ)
    nlinarith [sq_nonneg (y + 2)]
  have hmin : ∀ t : Vec c.contour.length, List.ofFn t = [-2] →
      (target L ((plugged E draw m).logpdf .observed none) (decide ((plugged E draw m).constraints ≠ [])) 0 c pb init).nll (some t) = .ok (some (9 + C)) := by
    intro t ht
    obtain ⟨y, hy, e⟩ := hnll t
    rw [ht] at hy
    obtain rfl : -2 = y := by simpa using hy
    rw [e, max_eq_left (by norm_num)]
    norm_num
  have htwo : List.ofFn (fun _ : Fin c.contour.length => (-2 : ℝ)) = [-2] := by
    rw [List.ofFn_const, hlen]; rfl
  obtain ⟨starts, hst, -, hle⟩ := Contour.C97_minimum _ _ _ _ _ hf
  have hst' : starts.length = max 1 (L.setup c.contour.length).nMultistart - 1 := hst
  have hms : (L.setup c.contour.length).nMultistart = (L.setup 1).nMultistart := by rw [hlen]
  rw [hms] at hst'
  obtain ⟨x0, hx0⟩ : ∃ x0, x0 ∈ starts := List.exists_mem_of_length_pos (by omega)
  obtain ⟨t, u, ht, hu⟩ := hL _ (target L ((plugged E draw m).logpdf .observed none) (decide ((plugged E draw m).constraints ≠ [])) 0 c pb init)
    (box c.contour.length c.bounds) x0 ⟨fun _ => -2, 9 + C, hin _, hmin _ htwo, fun t' v' _ e => by
      obtain ⟨y, -, e'⟩ := hnll t'
      rw [e'] at e
      simp only [Except.ok.injEq, Option.some.injEq] at e
      rw [← e]
      exact hsq y⟩
  have h1 := hle (t, u) (.inr ⟨x0, hx0, ht⟩)
  have h2 := hu _ _ (hin _) (hmin _ htwo)
  intro x hx
  obtain ⟨y, rfl, hy⟩ := hadm x hx
  refine ⟨_, hC y, lt_of_le_of_lt (h1.trans h2) ?_⟩
  have := le_max_left (11 + 2 * y) (1 / 10 ^ 20 : ℝ)
  nlinarith

/-- A search as in `C160_constraints_fails`, with an exact minimiser, gives a result. -/
example (E : Ext) (draw) (G : (k : ℕ) → Gen k) (s : (k : ℕ) → (G k).State) (w : World) (hw : Plain 2 w) :
    ∃ m, Backend.uncorrelated (argsOf [⟨10, 1, 2, 0⟩]) [2] = .ok m ∧ Finishes (calm 2) ∧ 2 ≤ ((calm 2).setup 1).nMultistart ∧
      ∃ k res, (findContour Interface.perfect (plugged E draw m) (calm 2) G (95 / 100) none none w s).1 = .ok ⟨k, res⟩ := by
  have hv : Uncorrelated.Valid [⟨10, 1, 2, 0⟩] := ⟨by simp [Bin.Proper]; norm_num, by simp⟩
  obtain ⟨m, hm⟩ : ∃ m, Backend.uncorrelated (argsOf [⟨10, 1, 2, 0⟩]) [2] = .ok m :=
    Backend.simplified_accepts _ (Uncorrelated.argsOf_fits _) _ (.inl ⟨rfl, rfl⟩) rfl _ _ _
  refine ⟨m, hm, calm_finishes 2, le_refl 2, ?_⟩
  obtain ⟨lo, hs⟩ := Uncorrelated.simple (E := E) hm hv
  have hbin := hs.binned draw
  have hb : Backend.Built (argsOf [⟨10, 1, 2, 0⟩]) m := .simplified _ (hs.model.simplified hs.fits)
  have hsz := Backend.C51_sizes _ m hb hs.fits
  obtain ⟨θ, v, w', h1, -⟩ := C160_exists Hypotest.perfect_exact Chain.perfect_finds Interface.perfect_constrained draw hs w hw
  have hl : (argsOf [⟨10, 1, 2, 0⟩]).data.length = 1 := by simp [argsOf]
  rw [hl] at hbin h1
  have hal : θ.length + 1 = 2 := (mle_point Hypotest.perfect_exact Interface.perfect_constrained hbin.usual (by norm_num) hw h1).1
  have hnp : m.config.npar = 2 := by
    rw [← (hsz.2.2.2.2 true 10).2.1]
    exact hbin.usual.length true
  obtain ⟨k, res, h2, -⟩ := find_exists (fun _ _ => True) (S := Interface.perfect) (B := plugged E draw m) (N := 2) (p := 0) (L := calm 2) (G := G) (cl := 95 / 100)
    (given := none) (s := s) (by norm_num) (hsz.2.2.2.2 true 10).2.2.2.1 (hbin.usual.length true) (fun n hn => by
      rw [← hnp]
      exact hsz.2.2.2.1 n (by rw [← (hsz.2.2.2.2 true 10).2.2.1]; exact hn)) (by simp [calm]) (by norm_num) (by simp)
    (by simp [Contour.contourIndices, signalIndices, List.range, List.range.loop]) (fun i hi => hi) hw hal h1 (fun c θ init pb hc _ _ => by
      obtain ⟨c1, c2, -⟩ := Contour.choose_ok _ _ _ _ _ _ _ hc
      have hcon : c.contour = signalIndices 2 0 := c1
      have hpro : c.profile = [] := by rw [c2, hcon]; simp [Contour.profileIndices, signalIndices, List.range, List.range.loop]
      obtain ⟨res, hres⟩ := calm_result (G c.contour.length) (search (calm 2) (target (calm 2) ((plugged E draw m).logpdf .observed none)
        (decide ((plugged E draw m).constraints ≠ [])) 0 c pb init) (box c.contour.length c.bounds)) (fun _ => rfl) rfl (fun t =>
          target_total (N := 2) (by norm_num) hcon hpro (fun x hx => by
            have := hbin.default .observed x
            rw [hbin.logpdf _ _ (hbin.length _) x hx] at this
            exact ⟨_, this⟩) t) (fun j => θ.getD j 0, v) (s c.contour.length)
      exact ⟨res, hres, trivial⟩)
  exact ⟨k, res, h2⟩

end Verif.Region
