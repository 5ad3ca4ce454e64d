import Verif.Region.Lemmas

/-!
# Property C160: contours of a statistical model

A case that meets the hypotheses is at the end of `Examples.lean`.
-/

namespace Verif.Region
open Verif.Py F Verif.Optimizer
open Verif.Config (Bound)
open Verif.Contour (Num Vec Target Bounds Minimiser Setup Gen Result Choice insertPoi assemble signalIndices Embedded Partition)
open Verif.Interface (Backend Solver World Allowed Satisfies InBounds Plain)
open Verif.Hypotest (Exact Usual)
open Classical

/-- C160: the primary fit gives the smallest NLL with the strength at one, inside bounds and constraints, and the parameters there, in the order of their
indices. -/
theorem C160_primary {S : Solver} (hS : Exact S) (hC : Interface.Constrained S) (B : Backend) (N p : ℕ) (hB : Usual B N p) (hp : p < N) (w w' : World)
    (hw : Plain N w) (θ : List ℝ) (v : ℝ) (h : findMle S B (signalIndices N p) w = (.ok (θ, v), w')) :
    θ.length + 1 = N ∧ Best B N p (insertPoi p θ) v := mle_point hS hC hB hp hw h

/-- Where the search evaluates the NLL, inside its bounds, all parameters are admissible. -/
theorem target_point {B : Backend} {N p : ℕ} (hB : Usual B N p) (hs : Sane B) (hcs : B.constraints = []) {L : Lib} (hk : Keeps L) (hp : p < N)
    (hg : L.garbage.length = N) {given : Option (List ℤ)} (hgiven : ∀ l, given = some l → l.Nodup) {c : Choice Bound}
    (hc : Contour.choose N p (B.config true).bounds (B.config true).names given none = .ok c) {pb : List Bound}
    (hpb : Contour.pyGets (B.config true).bounds c.profile = .ok pb) {init : List ℝ} (hi : init.length = c.profile.length) (hib : InBounds pb init)
    {t : Vec c.contour.length} (ht : Contour.Inside (box c.contour.length c.bounds) t) {v : ℝ}
    (h : (target L (B.logpdf .observed none) (decide (B.constraints ≠ [])) p c pb init).nll (some t) = .ok (some v)) :
    ∃ x, Admissible B N p x ∧ nll B x = fin v ∧ Coordinates c.contour x t := by
  obtain ⟨hpart, -⟩ := Contour.C66_partition_partial N p hp _ _ given hgiven none c hc
  obtain ⟨c1, c2, c3, c4, -, -⟩ := Contour.choose_ok _ _ _ _ _ _ _ hc
  obtain ⟨b1, b2⟩ := Contour.C66_bounds _ _ _ _ _ _ hc
  have hp0 : ∀ i ∈ c.profile, 0 ≤ i := fun i hi => by
    rw [c2] at hi
    exact ((Contour.mem_signal _ _ _).mp (List.mem_filter.mp hi).1).1
  obtain ⟨p1, p2⟩ := pyGets_of _ _ _ hp0 hpb
  simp only [target, nllScalar] at h
  split at h
  · simp at h
  rename_i x hx
  simp only [Except.ok.injEq] at h
  have hall : c.profile = [] → c.contour = signalIndices N p := fun h0 => by
    rw [c1] at hpart ⊢
    exact contour_all hpart h0 hp
  obtain ⟨pp, e1, e2, e3⟩ := fullPoint_ok hk hp hg hpart hi hib (List.length_ofFn) hall hx
  have hval : nll B x = fin v := by
    unfold nll
    cases hv : neg (B.logpdf .observed none x) <;> rw [hv] at h <;> simp_all [num]
  have hlen := hB.length true
  refine ⟨x, ⟨e1.length, e1.poi, fun j b y hj hb hy => ?_, by rw [hcs]; intro c hc; simp at hc⟩, hval, rfl, fun j => ?_⟩
  · have hjN : j < N := by rw [← e1.length]; exact (List.getElem?_eq_some_iff.mp hy).1
    obtain ⟨-, -, -, -, -, hcase⟩ := Contour.partition_facts hpart
    rcases hcase j hjN with h1 | h1 | h1
    · exact absurd h1 hj
    · obtain ⟨i, hi', he⟩ := List.getElem_of_mem h1
      have a := e1.contour i hi'
      rw [List.getD_eq_getElem _ _ hi', he, Int.toNat_natCast, hy, List.getElem?_ofFn] at a
      simp only [hi', dif_pos, Option.some.injEq] at a
      have bb := b2 i hi'
      rw [List.getD_eq_getElem _ _ hi', he, Int.toNat_natCast, hb] at bb
      have := ht ⟨i, hi'⟩
      simp only [box, List.getD_eq_getElem?_getD, bb, Option.getD_some] at this
      rw [a]
      exact allowed_side (hs b (List.mem_of_getElem? hb)) this.1 this.2
    · obtain ⟨i, hi', he⟩ := List.getElem_of_mem h1
      have a := e1.profile i hi'
      have bb := p2 i hi'
      rw [List.getD_eq_getElem _ _ hi', he, Int.toNat_natCast] at a bb
      exact e3 i b y (by rw [bb, hb]) (by rw [← a, hy])
  · have := e1.contour j j.2
    rw [this, List.getElem?_ofFn]
    simp

/-- C160: without constraints, and with the bounds of the model, the minimum in the result is the smallest NLL with the strength at one, whichever parameters
are profiled; the point in the result are the contour parameters of a best point, and the level is the quantile above the minimum. -/
theorem C160_minimum_partial {S : Solver} (hS : Exact S) (hC : Interface.Constrained S) (B : Backend) (N p : ℕ) (hB : Usual B N p) (hs : Sane B)
    (hpoi : (B.config true).poiIndex = p) (hcs : B.constraints = []) (L : Lib) (ht : Truthful L) (hk : Keeps L) (hg : L.garbage.length = N)
    (G : (k : ℕ) → Gen k) (cl : ℝ) (given : Option (List ℤ)) (hgiven : ∀ l, given = some l → l.Nodup) (w : World) (hw : Plain N w)
    (s : (k : ℕ) → (G k).State) (k : ℕ) (res : Result k) (h : (findContour S B L G cl given none w s).1 = .ok ⟨k, res⟩) :
    ∃ x, Best B N p x res.nllMin ∧ Coordinates (Contour.contourIndices N p given) x res.thetaMle ∧
      res.threshold = res.nllMin + (L.setup k).quantile := by
  have hp : p < N := by
    have h1 := hB.poi true
    rw [hpoi] at h1
    by_contra hn
    simp [slot] at h1
    omega
  obtain ⟨c, all, v, w', θ, init, pb, res', -, hc, hm, hsp, hpb, hf, he⟩ := find_parts h
  rw [hpoi, Int.toNat_natCast] at hc hm hsp hf
  rw [hw.2.2] at hc hm hsp
  cases he
  obtain ⟨hl, hbest⟩ := mle_point hS hC hB hp hw hm
  obtain ⟨hpart, -⟩ := Contour.C66_partition_partial N p hp _ _ given hgiven none c hc
  obtain ⟨c1, c2, c3, c4, -, -⟩ := Contour.choose_ok _ _ _ _ _ _ _ hc
  have hp0 : ∀ i ∈ c.profile, 0 ≤ i := fun i hi => by
    rw [c2] at hi
    exact ((Contour.mem_signal _ _ _).mp (List.mem_filter.mp hi).1).1
  obtain ⟨p1, p2⟩ := pyGets_of _ _ _ hp0 hpb
  obtain ⟨cp, pp, s1, s2, s3, s4⟩ := Contour.C66_split N p c.contour c.profile hpart all L.garbage hl hg
  rw [hsp] at s1
  simp only [Except.ok.injEq, Prod.mk.injEq] at s1
  obtain ⟨rfl, rfl⟩ := s1
  have hemb := Contour.C66_assemble N p c.contour c.profile hpart L.garbage θ init hg s2 s3
  rw [s4] at hemb
  obtain ⟨-, -, -, -, hd, -⟩ := Contour.partition_facts hpart
  have hprof : ∀ i ∈ c.profile, i.toNat ≠ p := fun i hi => by
    rw [c2] at hi
    have := (Contour.mem_signal _ _ _).mp (List.mem_filter.mp hi).1
    omega
  have hib : InBounds pb init := by
    intro j b y hb hy
    have hj : j < c.profile.length := by rw [← p1]; exact (List.getElem?_eq_some_iff.mp hb).1
    refine hbest.admissible.inside (c.profile.getD j 0).toNat b y (hprof _ ?_) (by rw [← p2 j hj]; exact hb) (by rw [hemb.profile j hj]; exact hy)
    rw [List.getD_eq_getElem _ _ hj]
    exact List.getElem_mem _
  have hthr := (Contour.C61_level_partial _ _ _ _ _ hf)
  obtain ⟨starts, -, hcand, hmin⟩ := Contour.C97_minimum _ _ _ _ _ hf
  have hthr' : res'.threshold = res'.nllMin + (L.setup c.contour.length).quantile := by
    rw [hthr.2]; rfl
  have hle := hmin _ (Or.inl rfl)
  rcases hcand with h1 | ⟨x0, -, h1⟩
  · simp only [Prod.mk.injEq] at h1
    refine ⟨insertPoi p all, by rw [h1.2]; exact hbest, ⟨by rw [c1], fun j => ?_⟩, hthr'⟩
    rw [← c1, hemb.contour j j.2, h1.1]
    have hj : (j : ℕ) < θ.length := by rw [s2]; exact j.2
    simp [hj]
  · obtain ⟨t1, t2⟩ := ht _ _ _ _ _ _ h1
    obtain ⟨x, a1, a2, a3⟩ := target_point hB hs hcs hk hp hg hgiven hc hpb s3 hib t2 t1
    have hge := hbest.least x a1 (by rw [a2]; simp)
    rw [a2] at hge
    have hv : res'.nllMin = v := le_antisymm hle (by simpa [le] using hge)
    rw [hv] at a2
    exact ⟨x, ⟨a1, by rw [a2, hv], fun x' b1 b2 => by rw [hv]; exact hbest.least x' b1 b2⟩, c1 ▸ a3, hthr'⟩

end Verif.Region
