import Verif.Region.Props

/-!
# Lemmas for property C161: the profile NLL and the radial search
-/

namespace Verif.Region
open Verif.Py F Verif.Optimizer
open Verif.Config (Bound)
open Verif.Contour (Num Vec Target Bounds Minimiser Setup Gen Result Choice insertPoi assemble signalIndices Embedded Partition)
open Verif.Interface (Backend Solver World Allowed Satisfies InBounds Plain)
open Verif.Hypotest (Exact Usual)
open Classical

theorem le_antisymm_fin {v : ℝ} {y : F} (h1 : le (fin v) y) (h2 : le y (fin v)) : y = fin v := by
  cases y with
  | fin u => simp only [le] at h1 h2; rw [le_antisymm h2 h1]
  | nan => simp [le] at h1
  | pinf => simp [le] at h2
  | ninf => simp [le] at h1

/-- With an exact inner minimiser the NLL is taken at a best point for the contour parameters. -/
theorem fullPoint_profile {B : Backend} {N p : ℕ} (hcs : B.constraints = []) {L : Lib} (hk : Solves L) (hp : p < N)
    (hg : L.garbage.length = N) {given : Option (List ℤ)} (hgiven : ∀ l, given = some l → l.Nodup) {bounds : Option (List Bound)} {c : Choice Bound}
    (hc : Contour.choose N p (B.config true).bounds (B.config true).names given bounds = .ok c) {pb : List Bound}
    (hpb : Contour.pyGets (B.config true).bounds c.profile = .ok pb) {init : List ℝ} (hi : init.length = c.profile.length)
    (t : Vec c.contour.length) (v : ℝ) (hv : ProfileNll B N p c.contour t v) :
    ∃ x, fullPoint L (B.logpdf .observed none) (decide (B.constraints ≠ [])) p c pb init (List.ofFn t) = .ok x ∧ Profiles B N p c.contour t x ∧
      nll B x = fin v := by
  obtain ⟨hpart, -⟩ := Contour.C66_partition_partial N p hp _ _ given hgiven bounds c hc
  obtain ⟨c1, c2, c3, c4, -, -⟩ := Contour.choose_ok _ _ _ _ _ _ _ hc
  obtain ⟨f1, f2, f3, f4, f5, f6⟩ := Contour.partition_facts hpart
  have hp0 : ∀ i ∈ c.profile, 0 ≤ i := fun i hi => by
    rw [c2] at hi
    exact ((Contour.mem_signal _ _ _).mp (List.mem_filter.mp hi).1).1
  have hmem : ∀ i ∈ c.profile, i ∈ signalIndices N p ∧ i ∉ c.contour := fun i hi => by
    rw [c2] at hi
    obtain ⟨a, b⟩ := List.mem_filter.mp hi
    exact ⟨a, by simpa using b⟩
  obtain ⟨p1, p2⟩ := pyGets_of _ _ _ hp0 hpb
  obtain ⟨⟨x, hx, hxv⟩, hleast⟩ := hv
  -- the vectors of the profile parameters and the vectors of all parameters
  have hto : ∀ x : List ℝ, Profiles B N p c.contour t x → ∃ pp : List ℝ, pp.length = c.profile.length ∧ InBounds pb pp ∧ Embedded N p c.contour c.profile (List.ofFn t) pp x := by
    intro x hx
    have hget : ∀ j < c.profile.length, x[(c.profile.getD j 0).toNat]? = some (x.getD (c.profile.getD j 0).toNat 0) := fun j hj => by
      have hm : c.profile.getD j 0 ∈ c.profile := by rw [List.getD_eq_getElem _ _ hj]; exact List.getElem_mem _
      have := (Contour.mem_signal _ _ _).mp (hmem _ hm).1
      have hlt : (c.profile.getD j 0).toNat < x.length := by rw [hx.length]; omega
      rw [List.getD_eq_getElem _ _ hlt, List.getElem?_eq_getElem hlt]
    refine ⟨c.profile.map fun i => x.getD i.toNat 0, by simp, fun j b y hb hy => ?_, hx.length, hx.one, fun j hj => ?_, fun j hj => ?_⟩
    · have hj : j < c.profile.length := by rw [← p1]; exact (List.getElem?_eq_some_iff.mp hb).1
      have hm : c.profile.getD j 0 ∈ c.profile := by rw [List.getD_eq_getElem _ _ hj]; exact List.getElem_mem _
      obtain ⟨a1, a2⟩ := hmem _ hm
      have a3 := (Contour.mem_signal _ _ _).mp a1
      have a4 : ((c.profile.getD j 0).toNat : ℤ) = c.profile.getD j 0 := Int.toNat_of_nonneg a3.1
      refine hx.inside (c.profile.getD j 0).toNat b y (by omega) (by rw [a4]; exact a2) (by rw [← p2 j hj]; exact hb) ?_
      rw [hget j hj, ← hy]
      simp [hj]
    · rw [hx.coordinates.2 ⟨j, hj⟩, List.getElem?_ofFn]
      simp [hj]
    · rw [hget j hj]
      simp [hj]
  have hof : ∀ (pp x : List ℝ), pp.length = c.profile.length → InBounds pb pp → Embedded N p c.contour c.profile (List.ofFn t) pp x → Profiles B N p c.contour t x := by
    intro pp x hl hin he
    refine ⟨he.length, he.poi, ⟨rfl, fun j => ?_⟩, fun j b y hj hn hb hy => ?_⟩
    · rw [he.contour j j.2, List.getElem?_ofFn]
      simp
    · have hjN : j < N := by rw [← he.length]; exact (List.getElem?_eq_some_iff.mp hy).1
      rcases f6 j hjN with h1 | h1 | h1
      · exact absurd h1 hj
      · exact absurd h1 hn
      · obtain ⟨i, hi', e⟩ := List.getElem_of_mem h1
        have a := he.profile i hi'
        have bb := p2 i hi'
        rw [List.getD_eq_getElem _ _ hi', e, Int.toNat_natCast] at a bb
        exact hin i b y (by rw [bb, hb]) (by rw [← a, hy])
  obtain ⟨pp, q1, q2, q3⟩ := hto x hx
  by_cases h0 : c.profile = []
  · have hall : c.contour = signalIndices N p := by
      rw [c1] at hpart ⊢
      exact contour_all (h0 ▸ hpart) rfl hp
    have hins : insertPoi p (List.ofFn t) = x := by
      refine Contour.C66_unique N p _ _ hpart _ _ _ _ ?_ q3
      obtain rfl : pp = [] := by rw [h0] at q1; simpa using q1
      have := Contour.C66_insert N p hp (List.ofFn t) (by rw [List.length_ofFn, hall]; exact signal_length hp)
      rw [← hall] at this
      rw [h0]
      exact this
    exact ⟨x, by simp only [fullPoint, if_pos h0, hins], hx, hxv⟩
  · have hasm : ∀ pp : List ℝ, pp.length = c.profile.length → Embedded N p c.contour c.profile (List.ofFn t) pp (assemble p c.contour c.profile L.garbage (List.ofFn t) pp) :=
      fun pp hl => Contour.C66_assemble N p _ _ hpart L.garbage _ _ hg List.length_ofFn hl
    have hxa : assemble p c.contour c.profile L.garbage (List.ofFn t) pp = x := Contour.C66_unique N p _ _ hpart _ _ _ _ (hasm pp q1) q3
    obtain ⟨x0, e1, e2⟩ := hk (fun pp => neg (B.logpdf .observed none (assemble p c.contour c.profile L.garbage (List.ofFn t) pp))) init pb
      ⟨pp, by rw [q1, hi], q2, by
        show nll B _ ≠ nan
        rw [hxa, hxv]; simp, fun x' l1 l2 l3 => by
        show le (nll B _) (nll B _)
        rw [hxa, hxv]
        exact hleast _ (hof x' _ (by rw [l1, hi]) l2 (hasm x' (by rw [l1, hi]))) l3⟩
    have hv0 : nll B (assemble p c.contour c.profile L.garbage (List.ofFn t) x0) = fin v := by
      refine le_antisymm_fin (hleast _ (hof x0 _ (by rw [e2.length, hi]) e2.inside (hasm x0 (by rw [e2.length, hi]))) e2.number) ?_
      have := e2.least pp (by rw [q1, hi]) q2 (by show nll B _ ≠ nan; rw [hxa, hxv]; simp)
      simp only [hxa] at this
      rw [← hxv]
      exact this
    refine ⟨_, ?_, hof x0 _ (by rw [e2.length, hi]) e2.inside (hasm x0 (by rw [e2.length, hi])), hv0⟩
    simp only [fullPoint, if_neg h0, hcs, ne_eq, not_true_eq_false, decide_false, Bool.false_eq_true, if_false, e1, if_true]

/-- Where the NLL of the search is defined by an exact inner minimiser, it is the profile NLL. -/
theorem target_profile {B : Backend} {N p : ℕ} (hcs : B.constraints = []) {L : Lib} (hk : Solves L) (hp : p < N)
    (hg : L.garbage.length = N) {given : Option (List ℤ)} (hgiven : ∀ l, given = some l → l.Nodup) {bounds : Option (List Bound)} {c : Choice Bound}
    (hc : Contour.choose N p (B.config true).bounds (B.config true).names given bounds = .ok c) {pb : List Bound}
    (hpb : Contour.pyGets (B.config true).bounds c.profile = .ok pb) {init : List ℝ} (hi : init.length = c.profile.length)
    (t : Vec c.contour.length) (v : ℝ) (hv : ProfileNll B N p c.contour t v) :
    (target L (B.logpdf .observed none) (decide (B.constraints ≠ [])) p c pb init).nll (some t) = .ok (some v) := by
  obtain ⟨x, h1, -, h2⟩ := fullPoint_profile hcs hk hp hg hgiven hc hpb hi t v hv
  unfold nll at h2
  simp only [target, nllScalar, h1, h2]
  rfl

/-- The points that a basin found along rays. -/
theorem allBasins_radial {k : ℕ} (G : Gen k) (P : Setup k) (T : ℝ) (l : List (Vec k × ℝ)) :
    ∀ (c : ℕ) (s : G.State) (parts : List (Contour.Part k)), Contour.allBasins G P T l c s = .ok parts → ∀ part ∈ parts, ∀ t ∈ part.radial,
      ∃ b ∈ l, ∃ M s s' pts e, P.whiten b.1 = .ok M ∧ Contour.radialSearch G (P.rays T b.1 M) P.nRadial s = .ok (pts, s') ∧ (t, e) ∈ pts := by
  induction l with
  | nil => intro c s parts h; simp only [Contour.allBasins, Except.ok.injEq] at h; subst h; simp
  | cons b l ih =>
    intro c s parts h
    simp only [Contour.allBasins] at h
    cases hb : Contour.basin G P T b.1 c s with
    | error e => rw [hb] at h; simp at h
    | ok r =>
      obtain ⟨part, c1, s1⟩ := r
      rw [hb] at h
      simp only at h
      cases hr : Contour.allBasins G P T l c1 s1 with
      | error e => rw [hr] at h; simp at h
      | ok ps =>
        rw [hr] at h
        simp only [Except.ok.injEq] at h
        subst h
        intro p' hp' t ht
        rcases List.mem_cons.mp hp' with rfl | hp'
        · refine ⟨b, List.mem_cons_self .., ?_⟩
          unfold Contour.basin at hb
          cases hw : P.whiten b.1 with
          | error e => rw [hw] at hb; simp at hb
          | ok M =>
            rw [hw] at hb
            simp only at hb
            cases hrad : Contour.radialSearch G (P.rays T b.1 M) P.nRadial s with
            | error e => rw [hrad] at hb; simp at hb
            | ok r =>
              obtain ⟨pts, s2⟩ := r
              rw [hrad] at hb
              have hpr : p'.radial = pts.map Prod.fst := by
                simp only at hb
                split at hb
                · simp only [Except.ok.injEq, Prod.mk.injEq] at hb
                  rw [← hb.1]
                · split at hb
                  · simp at hb
                  · split at hb
                    · simp at hb
                    · split at hb
                      · simp at hb
                      · simp only [Except.ok.injEq, Prod.mk.injEq] at hb
                        rw [← hb.1]
              rw [hpr] at ht
              obtain ⟨⟨t', e⟩, he, rfl⟩ := List.mem_map.mp ht
              exact ⟨M, s, s2, pts, e, rfl, hrad, he⟩
        · obtain ⟨b', hb', r⟩ := ih c1 s1 ps hr p' hp' t ht
          exact ⟨b', List.mem_cons_of_mem _ hb', r⟩

theorem mle_length {S : Solver} {B : Backend} {signal : List ℤ} {w w' : World} {θ : List ℝ} {v : ℝ} (h : findMle S B signal w = (.ok (θ, v), w')) :
    θ.length = signal.length := by
  unfold findMle at h
  split at h
  · simp at h
  · simp at h
  · rename_i d l w1 _
    simp only [Prod.mk.injEq] at h
    cases hr : readSignal d signal with
    | error e => rw [hr] at h; simp at h
    | ok θ' =>
      rw [hr] at h
      cases l <;> simp at h
      rw [← h.1.1]
      exact (readSignal_ok _ _ hr).1

/-- The points of a result that are marked as radial. -/
theorem find_radial {k : ℕ} (G : Gen k) (P : Setup k) (primary : Vec k × ℝ) (s : G.State) (res : Result k) (h : Contour.findContour G P primary s = .ok res)
    (j : ℕ) (hj : res.fromRadial[j]? = some true) :
    ∃ anchor M s s' pts t e, P.whiten anchor = .ok M ∧ Contour.radialSearch G (P.rays res.threshold anchor M) P.nRadial s = .ok (pts, s') ∧ (t, e) ∈ pts ∧
      res.points[j]? = some (some t) := by
  obtain ⟨starts, s', best, rest, parts, -, -, hall, -, -, h3, -, h5, h6⟩ := Contour.find_ok G P primary s res h
  have hlt : j < (parts.map Contour.Part.radial).flatten.length := by
    rw [h6] at hj
    by_contra hn
    rw [List.getElem?_append_right (by rw [List.length_replicate]; omega)] at hj
    have := List.mem_of_getElem? hj
    simp at this
  obtain ⟨t, ht⟩ : ∃ t, t = (parts.map Contour.Part.radial).flatten[j] := ⟨_, rfl⟩
  have hmem : t ∈ (parts.map Contour.Part.radial).flatten := by rw [ht]; exact List.getElem_mem _
  obtain ⟨l, hl, htl⟩ := List.mem_flatten.mp hmem
  obtain ⟨part, hpart, rfl⟩ := List.mem_map.mp hl
  obtain ⟨b, -, M, s1, s2, pts, e, w1, w2, w3⟩ := allBasins_radial G P _ _ _ _ _ hall part hpart t htl
  rw [← h3] at w2
  refine ⟨b.1, M, s1, s2, pts, t, e, w1, w2, w3, ?_⟩
  rw [h5, List.getElem?_append_left (by rw [List.length_map]; exact hlt), List.getElem?_map, List.getElem?_eq_getElem hlt, ← ht]
  rfl

end Verif.Region
