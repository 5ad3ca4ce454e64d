import Verif.Contour.RayProps
import Verif.Contour.BasinProps
import Verif.Contour.ChainProps
import Mathlib.Analysis.SpecialFunctions.Exp
import Mathlib.Topology.Order.IntermediateValue
import Mathlib.Data.List.GetD

/-!
# Properties C61, C62, C92, C93 and C97: the whole search
-/

namespace Verif.Contour

open Matrix

/-! ### What a result consists of -/

theorem find_ok {k : ℕ} (G : Gen k) (S : Setup k) (primary : Vec k × ℝ) (s : G.State) (res : Result k)
    (h : findContour G S primary s = .ok res) :
    ∃ starts s' best rest parts, startPoints G S.bounds primary.1 5 (max 1 S.nMultistart - 1) s = (starts, s') ∧
      basins S.minimise S.dedupTol primary starts = best :: rest ∧
      allBasins G S (best.2 + S.quantile) (activeBasins (best.2 + S.quantile) best (best :: rest)) 0 s' = .ok parts ∧
      res.thetaMle = best.1 ∧ res.nllMin = best.2 ∧ res.threshold = best.2 + S.quantile ∧ res.delta = S.quantile ∧
      res.points = (parts.map Part.radial).flatten.map some ++ (parts.map Part.chain).flatten ∧
      res.fromRadial = List.replicate (parts.map Part.radial).flatten.length true ++
        List.replicate (parts.map Part.chain).flatten.length false := by
  unfold findContour at h
  cases hst : startPoints G S.bounds primary.1 5 (max 1 S.nMultistart - 1) s with
  | mk starts s' =>
    rw [hst] at h
    simp only at h
    cases hb : basins S.minimise S.dedupTol primary starts with
    | nil => rw [hb] at h; simp at h
    | cons best rest =>
      rw [hb] at h
      simp only [threshold] at h
      cases ha : allBasins G S (best.2 + S.quantile) (activeBasins (best.2 + S.quantile) best (best :: rest)) 0 s' with
      | error e => rw [ha] at h; simp at h
      | ok parts =>
        rw [ha] at h
        simp only [Except.ok.injEq] at h
        subst h
        exact ⟨starts, s', best, rest, parts, rfl, hb, ha, rfl, rfl, rfl, rfl, rfl, rfl⟩

/-! ## C61: the level -/

/-- C61, what holds: the level is the smallest NLL plus the quantile. The documentation has half of the quantile. -/
theorem C61_level_partial {k : ℕ} (G : Gen k) (S : Setup k) (primary : Vec k × ℝ) (s : G.State) (res : Result k)
    (h : findContour G S primary s = .ok res) : res.delta = S.quantile ∧ res.threshold = res.nllMin + S.quantile := by
  obtain ⟨_, _, best, _, _, _, _, _, _, h2, h3, h4, _⟩ := find_ok G S primary s res h
  exact ⟨h4, by rw [h3, h2]⟩

/-- C61 fails: on the level, `2 (NLL - NLL_min)` is twice the quantile, not the quantile. -/
theorem C61_level_fails {k : ℕ} (G : Gen k) (S : Setup k) (hq : 0 < S.quantile) (primary : Vec k × ℝ) (s : G.State) (res : Result k)
    (h : findContour G S primary s = .ok res) :
    res.threshold ≠ res.nllMin + res.delta / 2 ∧ 2 * (res.threshold - res.nllMin) = 2 * res.delta := by
  obtain ⟨h1, h2⟩ := C61_level_partial G S primary s res h
  rw [h2, h1]
  exact ⟨by intro h; linarith, by ring⟩

/-- C61 fails: if the quantile is that of a strictly increasing distribution function at the confidence level, then the region inside
the contour has a larger confidence level. -/
theorem C61_coverage_fails {k : ℕ} (G : Gen k) (S : Setup k) (cdf : ℝ → ℝ) (hcdf : StrictMonoOn cdf (Set.Ici 0)) (cl : ℝ)
    (hq : 0 < S.quantile) (hcl : cdf S.quantile = cl) (primary : Vec k × ℝ) (s : G.State) (res : Result k)
    (h : findContour G S primary s = .ok res) : cl < cdf (2 * (res.threshold - res.nllMin)) := by
  rw [(C61_level_fails G S hq primary s res h).2, ← hcl, (C61_level_partial G S primary s res h).1]
  exact hcdf (Set.mem_Ici.mpr hq.le) (Set.mem_Ici.mpr (by linarith)) (by linarith)

/-- C61 fails for two contour parameters: the chi-square distribution is `1 - exp (-x / 2)`, and a contour that is asked for at the
confidence level `cl` has `1 - (1 - cl)²`: 90 % instead of 68 %, 99.75 % instead of 95 %. -/
theorem C61_two_fails (G : Gen 2) (S : Setup 2) (cl : ℝ) (hcl : 1 - Real.exp (-S.quantile / 2) = cl) (primary : Vec 2 × ℝ) (s : G.State)
    (res : Result 2) (h : findContour G S primary s = .ok res) :
    1 - Real.exp (-(2 * (res.threshold - res.nllMin)) / 2) = 1 - (1 - cl) ^ 2 := by
  rw [(C61_level_partial G S primary s res h).2, ← hcl]
  rw [show -(2 * (res.nllMin + S.quantile - res.nllMin)) / 2 = -S.quantile / 2 + -S.quantile / 2 by ring, Real.exp_add]
  ring

/-! ## C97: the result is consistent -/

/-- C97. The mask has an entry for every point; the points of the radial search come first. -/
theorem C97_mask {k : ℕ} (G : Gen k) (S : Setup k) (primary : Vec k × ℝ) (s : G.State) (res : Result k)
    (h : findContour G S primary s = .ok res) :
    res.points.length = res.fromRadial.length ∧
      ∀ j : ℕ, res.fromRadial[j]? = some true → ∃ t, res.points[j]? = some (some t) := by
  obtain ⟨_, _, best, _, parts, _, _, _, _, _, _, _, h5, h6⟩ := find_ok G S primary s res h
  rw [h5, h6]
  refine ⟨by rw [List.length_append, List.length_map, List.length_append, List.length_replicate, List.length_replicate], fun j hj => ?_⟩
  by_cases hlt : j < (parts.map Part.radial).flatten.length
  · rw [List.getElem?_append_left (show _ < _ by first | (rw [List.length_map]; exact hlt) | (rw [List.length_replicate]; exact hlt)), List.getElem?_map, List.getElem?_eq_getElem hlt]
    exact ⟨_, rfl⟩
  · rw [List.getElem?_append_right (show _ ≤ _ by first | (rw [List.length_map]; exact not_lt.mp hlt) | (rw [List.length_replicate]; exact not_lt.mp hlt))] at hj
    rw [List.getElem?_replicate] at hj
    split at hj <;> simp at hj

/-- C97. The minimum in the result is the smallest of the values found, and the point belongs to it. -/
theorem C97_minimum {k : ℕ} (G : Gen k) (S : Setup k) (primary : Vec k × ℝ) (s : G.State) (res : Result k)
    (h : findContour G S primary s = .ok res) :
    ∃ starts, starts.length = max 1 S.nMultistart - 1 ∧ Candidate S.minimise primary starts (res.thetaMle, res.nllMin) ∧
      ∀ c, Candidate S.minimise primary starts c → res.nllMin ≤ c.2 := by
  obtain ⟨starts, s', best, rest, parts, hst, hb, _, h1, h2, _⟩ := find_ok G S primary s res h
  obtain ⟨b, r, hb', hc, hmin⟩ := C64_best S.minimise S.dedupTol primary starts
  rw [hb] at hb'
  simp only [List.cons.injEq] at hb'
  refine ⟨starts, ?_, ?_, ?_⟩
  · have := (startPoints_mem G S.bounds primary.1 5 (max 1 S.nMultistart - 1) s).1
    rw [hst] at this; exact this
  · rw [h1, h2, hb'.1]; exact hc
  · rw [h2, hb'.1]; exact hmin

/-- C97. The basins that take part are exactly those whose NLL is at most the level, up to `1e-6`, and the best one is among them: the
branch for an empty list is never taken. -/
theorem C97_active {k : ℕ} (T : ℝ) (best : Vec k × ℝ) (rest : List (Vec k × ℝ)) (hT : best.2 ≤ T) :
    best ∈ activeBasins T best (best :: rest) ∧ ∀ b, b ∈ activeBasins T best (best :: rest) ↔ b ∈ best :: rest ∧ b.2 ≤ T + 1e-6 := by
  have hb : best.2 ≤ T + 1e-6 := by have : (0:ℝ) ≤ 1e-6 := by norm_num
                                    linarith
  have he : activeBasins T best (best :: rest) = (best :: rest).filter fun b => decide (b.2 ≤ T + 1e-6) := by
    rw [activeBasins, List.filter_cons_of_pos (by simpa using hb)]
  rw [he]
  refine ⟨List.mem_filter.mpr ⟨List.mem_cons_self .., by simpa using hb⟩, fun b => ?_⟩
  simp [List.mem_filter]

example : activeBasins 2 ((![0] : Vec 1), 0) [(![0], 0), (![3], 1), (![7], 5)] = [(![0], 0), (![3], 1)] := by
  have h1 : (0 : ℝ) ≤ 2 + 1e-6 := by norm_num
  have h2 : (1 : ℝ) ≤ 2 + 1e-6 := by norm_num
  have h3 : ¬ (5 : ℝ) ≤ 2 + 1e-6 := by norm_num
  simp [activeBasins, List.filter, h1, h2, h3]

/-! ## C62: bounds -/

/-- Where a point of the result can come from: a search along a ray (inside the bounds up to the slack), a step of a walk (inside the
bounds), or the projection of such a point to the level at the start of a walk. -/
inductive Origin {k : ℕ} (S : Setup k) (T : ℝ) : Vec k → Prop
  | search (anchor : Vec k) (M : Matrix (Fin k) (Fin k) ℝ) (e t : Vec k) : S.whiten anchor = .ok M →
      InsideUpTo S.bounds (fun i => 1e-8 * |(M.mulVec e) i| + 1e-30 * S.maxBracket) t → Origin S T t
  | walk (t : Vec k) : Inside S.bounds t → Origin S T t
  | start (t t' : Vec k) : Origin S T t → project S.F T S.newtonTol S.newtonMaxIter (some t) = .ok (some t') → Origin S T t'

theorem sequential_mem {R : Type} (job : ℕ → Except Err R) (l : List ℕ) (rs : List R) (h : sequential job l = .ok rs) :
    ∀ r ∈ rs, ∃ i, job i = .ok r := by
  induction l generalizing rs with
  | nil => simp only [sequential, Except.ok.injEq] at h; subst h; simp
  | cons i l ih =>
    rw [sequential] at h
    cases hj : job i with
    | error e => rw [hj] at h; simp at h
    | ok r =>
      rw [hj] at h
      simp only at h
      cases hs : sequential job l with
      | error e => rw [hs] at h; simp at h
      | ok rs' =>
        rw [hs] at h
        simp only [Except.ok.injEq] at h
        subst h
        intro x hx
        rcases List.mem_cons.mp hx with rfl | hx
        · exact ⟨i, hj⟩
        · exact ih rs' hs x hx

theorem chains_origin {k : ℕ} (G : Gen k) (S : Setup k) (T : ℝ) (schedule : Option (List ℕ)) (starts : List (Vec k))
    (hst : ∀ t ∈ starts, Origin S T t) (s s' : G.State) (l : List (Option (Vec k)))
    (h : runChains G S.F (S.walk T) S.stream schedule (starts.map some) s = .ok (l, s')) : ∀ t, some t ∈ l → Origin S T t := by
  unfold runChains at h
  split at h
  · simp only [Except.ok.injEq, Prod.mk.injEq] at h
    rw [← h.1]; simp
  · rw [C65_pool] at h
    cases hs : sequential (oneChain S.F (S.walk T) S.stream (starts.map some) (seeds G (starts.map some).length s).1)
        (List.range (starts.map some).length) with
    | error e => rw [hs] at h; simp at h
    | ok ts =>
      rw [hs] at h
      simp only [Except.ok.injEq, Prod.mk.injEq] at h
      rw [← h.1]
      intro t ht
      obtain ⟨tr, htr, ht⟩ := List.mem_flatten.mp ht
      obtain ⟨i, hi⟩ := sequential_mem _ _ _ hs tr htr
      unfold oneChain at hi
      split at hi
      · rename_i start seed h1 h2
        obtain ⟨θ, l', rfl, hp, _, hin⟩ := C62_walk_partial _ _ _ _ _ hi
        rcases List.mem_cons.mp ht with rfl | ht
        · rw [List.getElem?_map] at h1
          cases hx : starts[i]? with
          | none => rw [hx] at h1; simp at h1
          | some x =>
            rw [hx] at h1
            simp only [Option.map_some, Option.some.injEq] at h1
            subst h1
            exact .start x t (hst x (List.mem_of_getElem? hx)) hp
        · exact .walk t (hin t ht)
      · simp at hi

theorem allSome_mem {α : Type} (l : List (Option α)) (r : List α) (h : allSome l = some r) : l = r.map some := by
  induction l generalizing r with
  | nil => simp only [allSome, Option.some.injEq] at h; subst h; rfl
  | cons a l ih =>
    cases a with
    | none => simp [allSome] at h
    | some a =>
      rw [allSome] at h
      cases hl : allSome l with
      | none => rw [hl] at h; simp at h
      | some r' =>
        rw [hl] at h
        simp only [Option.some.injEq] at h
        subst h
        rw [ih r' hl]; rfl

theorem sparse_mem {k : ℕ} (argsort : List ℝ → List ℕ) (points : List (Option (Vec k))) (n knn : ℕ) (l : List (Vec k))
    (h : sparseSeeds argsort points n knn = .ok (some l)) : ∀ t ∈ l, some t ∈ points := by
  unfold sparseSeeds at h
  split at h
  · simp at h
  · cases ha : allSome points with
    | none => rw [ha] at h; simp at h
    | some ps =>
      rw [ha] at h
      simp only [Except.ok.injEq, Option.some.injEq] at h
      subst h
      intro t ht
      obtain ⟨i, _, hi⟩ := List.mem_filterMap.mp ht
      rw [allSome_mem points ps ha]
      exact List.mem_map.mpr ⟨t, List.mem_of_getElem? hi, rfl⟩

theorem passes_origin {k : ℕ} (G : Gen k) (S : Setup k) (T : ℝ) (n : ℕ) :
    ∀ c col s l c' s', (∀ t, some t ∈ col → Origin S T t) → passes G S T n c col s = .ok (l, c', s') → ∀ t, some t ∈ l → Origin S T t := by
  induction n with
  | zero =>
    intro c col s l c' s' _ h
    simp only [passes, Except.ok.injEq, Prod.mk.injEq] at h
    rw [← h.1]; simp
  | succ n ih =>
    intro c col s l c' s' hcol h
    rw [passes] at h
    cases hs : sparseSeeds S.argsort col S.nChains (max 1 S.knn) with
    | error e => rw [hs] at h; simp at h
    | ok o =>
      rw [hs] at h
      cases o with
      | none =>
        simp only [Except.ok.injEq, Prod.mk.injEq] at h
        rw [← h.1]; simp
      | some st =>
        cases st with
        | nil =>
          simp only [Except.ok.injEq, Prod.mk.injEq] at h
          rw [← h.1]; simp
        | cons a st =>
          simp only at h
          cases hr : runChains G S.F (S.walk T) S.stream (S.schedule c) ((a :: st).map some) s with
          | error e => rw [hr] at h; simp at h
          | ok r =>
            obtain ⟨new, s1⟩ := r
            rw [hr] at h
            simp only at h
            have hnew := chains_origin G S T _ (a :: st) (fun t ht => hcol t (sparse_mem _ _ _ _ _ hs t ht)) s s1 new hr
            cases hp : passes G S T n (c + 1) (col ++ new) s1 with
            | error e => rw [hp] at h; simp at h
            | ok r =>
              obtain ⟨l', c2, s2⟩ := r
              rw [hp] at h
              simp only [Except.ok.injEq, Prod.mk.injEq] at h
              rw [← h.1]
              intro t ht
              rcases List.mem_append.mp ht with ht | ht
              · exact hnew t ht
              · refine ih _ _ _ _ _ _ (fun t ht => ?_) hp t ht
                rcases List.mem_append.mp ht with ht | ht
                · exact hcol t ht
                · exact hnew t ht

theorem basin_origin {k : ℕ} (G : Gen k) (S : Setup k) (hbr : BrentInBracket S.brent) (T : ℝ) (anchor : Vec k)
    (ha : Inside S.bounds anchor) (c c' : ℕ) (s s' : G.State) (p : Part k) (h : basin G S T anchor c s = .ok (p, c', s')) :
    (∃ M, S.whiten anchor = .ok M ∧ ∀ t ∈ p.radial, ∃ e, InsideUpTo S.bounds (fun i => 1e-8 * |(M.mulVec e) i| + 1e-30 * S.maxBracket) t) ∧
      ∀ t, some t ∈ p.chain → Origin S T t := by
  unfold basin at h
  cases hw : S.whiten anchor with
  | error e => rw [hw] at h; simp at h
  | ok M =>
    rw [hw] at h
    simp only at h
    cases hr : radialSearch G (S.rays T anchor M) S.nRadial s with
    | error e => rw [hr] at h; simp at h
    | ok r =>
      obtain ⟨radial, s1⟩ := r
      rw [hr] at h
      simp only at h
      obtain ⟨_, hrad⟩ := C62_radial_partial G (S.rays T anchor M) hbr ha _ _ _ _ hr
      have hrad' : ∀ t ∈ radial.map Prod.fst,
          ∃ e, InsideUpTo S.bounds (fun i => 1e-8 * |(M.mulVec e) i| + 1e-30 * S.maxBracket) t := by
        intro t ht
        obtain ⟨x, hx, rfl⟩ := List.mem_map.mp ht
        exact ⟨x.2, hrad x hx⟩
      have hradO : ∀ x ∈ radial, Origin S T x.1 := fun x hx => .search anchor M x.2 x.1 hw (hrad x hx)
      split at h
      · simp only [Except.ok.injEq, Prod.mk.injEq] at h
        rw [← h.1]
        exact ⟨⟨M, rfl, hrad'⟩, by simp⟩
      · cases hv : atAnchor S.F anchor with
        | error e => rw [hv] at h; simp at h
        | ok v =>
          rw [hv] at h
          simp only at h
          obtain ⟨starts, hstarts⟩ : ∃ l, l = gapStarts (S.rays T anchor M) (rInit T v) radial
            (gapDirections S.argsort (radial.map Prod.snd) (candidates G S.nCandidates s1).1 S.nChains) := ⟨_, rfl⟩
          rw [← hstarts] at h
          have hst : ∀ t ∈ starts, Origin S T t := by
            intro t ht
            rw [hstarts] at ht
            rcases C62_gap_partial (S.rays T anchor M) hbr ha _ (rInit_pos T v) radial _ t ht with ⟨e, _, hin⟩ | ⟨x, hx, rfl⟩
            · exact .search anchor M e t hw hin
            · exact hradO x hx
          cases hc : runChains G S.F (S.walk T) S.stream (S.schedule c) (starts.map some) (candidates G S.nCandidates s1).2 with
          | error e => rw [hc] at h; simp at h
          | ok r =>
            obtain ⟨pts, s2⟩ := r
            rw [hc] at h
            simp only at h
            have hpts := chains_origin G S T _ starts hst _ _ _ hc
            cases hp : passes G S T (S.nPasses - 1) (c + 1) (radial.map (fun x => some x.1) ++ pts) s2 with
            | error e => rw [hp] at h; simp at h
            | ok r =>
              obtain ⟨more, c3, s3⟩ := r
              rw [hp] at h
              simp only [Except.ok.injEq, Prod.mk.injEq] at h
              rw [← h.1]
              refine ⟨⟨M, rfl, hrad'⟩, fun t ht => ?_⟩
              rcases List.mem_append.mp ht with ht | ht
              · exact hpts t ht
              · refine passes_origin G S T _ _ _ _ _ _ _ (fun t ht => ?_) hp t ht
                rcases List.mem_append.mp ht with ht | ht
                · obtain ⟨x, hx, hxt⟩ := List.mem_map.mp ht
                  simp only [Option.some.injEq] at hxt
                  rw [← hxt]; exact hradO x hx
                · exact hpts t ht

theorem allBasins_origin {k : ℕ} (G : Gen k) (S : Setup k) (hbr : BrentInBracket S.brent) (T : ℝ) (l : List (Vec k × ℝ))
    (ha : ∀ b ∈ l, Inside S.bounds b.1) : ∀ c s ps, allBasins G S T l c s = .ok ps → ∀ p ∈ ps,
      (∀ t ∈ p.radial, ∃ b ∈ l, ∃ M e, S.whiten b.1 = .ok M ∧
        InsideUpTo S.bounds (fun i => 1e-8 * |(M.mulVec e) i| + 1e-30 * S.maxBracket) t) ∧ ∀ t, some t ∈ p.chain → Origin S T t := by
  induction l with
  | nil =>
    intro c s ps h
    simp only [allBasins, Except.ok.injEq] at h
    subst h; simp
  | cons b l ih =>
    intro c s ps h
    rw [allBasins] at h
    cases hb : basin G S T b.1 c s with
    | error e => rw [hb] at h; simp at h
    | ok r =>
      obtain ⟨p, c1, s1⟩ := r
      rw [hb] at h
      simp only at h
      cases hr : allBasins G S T l c1 s1 with
      | error e => rw [hr] at h; simp at h
      | ok ps' =>
        rw [hr] at h
        simp only [Except.ok.injEq] at h
        subst h
        intro q hq
        rcases List.mem_cons.mp hq with rfl | hq
        · obtain ⟨⟨M, hM, h1⟩, h2⟩ := basin_origin G S hbr T b.1 (ha b (List.mem_cons_self ..)) _ _ _ _ _ hb
          refine ⟨fun t ht => ?_, h2⟩
          obtain ⟨e, he⟩ := h1 t ht
          exact ⟨b, List.mem_cons_self .., M, e, hM, he⟩
        · obtain ⟨h1, h2⟩ := ih (fun b hb => ha b (List.mem_cons_of_mem _ hb)) c1 s1 ps' hr q hq
          refine ⟨fun t ht => ?_, h2⟩
          obtain ⟨b', hb', rest⟩ := h1 t ht
          exact ⟨b', List.mem_cons_of_mem _ hb', rest⟩

theorem active_sub {k : ℕ} (T : ℝ) (best : Vec k × ℝ) (rest : List (Vec k × ℝ)) :
    ∀ b ∈ activeBasins T best (best :: rest), b ∈ best :: rest := by
  intro b hb
  unfold activeBasins at hb
  split at hb
  · rw [List.mem_singleton.mp hb]; exact List.mem_cons_self ..
  · exact List.mem_of_mem_filter hb

/-- C62, where it holds: if the primary minimum is inside the bounds, and the minimiser keeps to them, then the points of the radial
search are inside the bounds up to the slack, and a point of a chain is inside the bounds, or the projection to the level of a point
that was found before, or `nan`. Missing: the last two, and a primary minimum outside the bounds. -/
theorem C62_find_partial {k : ℕ} (G : Gen k) (S : Setup k) (hbr : BrentInBracket S.brent)
    (hG : ∀ s, 0 ≤ (G.uniform s).1 ∧ (G.uniform s).1 < 1)
    (hm : ∀ x t v, Inside S.bounds x → S.minimise x = .ok (t, v) → Inside S.bounds t)
    (hb : ∀ j lo hi, (S.bounds j).1 = some lo → (S.bounds j).2 = some hi → lo ≤ hi)
    (primary : Vec k × ℝ) (hp : Inside S.bounds primary.1) (s : G.State) (res : Result k) (h : findContour G S primary s = .ok res) (j : ℕ)
    (t : Vec k) (ht : res.points[j]? = some (some t)) :
    (res.fromRadial[j]? = some true → ∃ anchor M e, S.whiten anchor = .ok M ∧
      InsideUpTo S.bounds (fun i => 1e-8 * |(M.mulVec e) i| + 1e-30 * S.maxBracket) t) ∧
    (res.fromRadial[j]? = some false → Origin S res.threshold t) := by
  obtain ⟨starts, s', best, rest, parts, hst, hbs, ha, _, _, h3, _, h5, h6⟩ := find_ok G S primary s res h
  have hinside : ∀ b ∈ best :: rest, Inside S.bounds b.1 := by
    intro b hb'
    have := C64_inside S.bounds S.minimise hm G hG 5 (by norm_num) hb S.dedupTol primary (max 1 S.nMultistart - 1) s b
    rw [hst, hbs] at this
    rcases this hb' with rfl | h
    · exact hp
    · exact h
  have hall := allBasins_origin G S hbr (best.2 + S.quantile) _ (fun b hb' => hinside b (active_sub _ _ _ b hb')) 0 s' parts ha
  rw [h5] at ht
  rw [h6, h3]
  by_cases hlt : j < (parts.map Part.radial).flatten.length
  · rw [List.getElem?_append_left (show _ < _ by first | (rw [List.length_map]; exact hlt) | (rw [List.length_replicate]; exact hlt)), List.getElem?_map] at ht
    rw [List.getElem?_append_left (show _ < _ by first | (rw [List.length_map]; exact hlt) | (rw [List.length_replicate]; exact hlt)), List.getElem?_replicate, if_pos hlt]
    refine ⟨fun _ => ?_, by simp⟩
    rw [List.getElem?_eq_getElem hlt] at ht
    simp only [Option.map_some, Option.some.injEq] at ht
    have hmem : t ∈ (parts.map Part.radial).flatten := ht ▸ List.getElem_mem _
    obtain ⟨l, hl, htl⟩ := List.mem_flatten.mp hmem
    obtain ⟨p, hp', rfl⟩ := List.mem_map.mp hl
    obtain ⟨b, _, M, e, hM, hin⟩ := (hall p hp').1 t htl
    exact ⟨b.1, M, e, hM, hin⟩
  · rw [List.getElem?_append_right (show _ ≤ _ by first | (rw [List.length_map]; exact not_lt.mp hlt) | (rw [List.length_replicate]; exact not_lt.mp hlt))] at ht ⊢
    refine ⟨fun hf => ?_, fun _ => ?_⟩
    · rw [List.getElem?_replicate] at hf; split at hf <;> simp at hf
    · obtain ⟨l, hl, htl⟩ := List.mem_flatten.mp (List.mem_of_getElem? ht)
      obtain ⟨p, hp', rfl⟩ := List.mem_map.mp hl
      exact (hall p hp').2 t htl

/-! ### A primary minimum outside the bounds -/

/-- An ideal root finder: an exact root in the bracket, if there is one. -/
noncomputable def idealBrent : Brent := fun f lo hi =>
  open scoped Classical in
  if h : ∃ r, min lo hi ≤ r ∧ r ≤ max lo hi ∧ f r = .ok (some 0) then .ok (h.choose, true) else .error .value

theorem ideal_bracket : BrentInBracket idealBrent := by
  intro f lo hi r h
  unfold idealBrent at h
  split at h
  · rename_i hx
    simp only [Except.ok.injEq, Prod.mk.injEq, and_true] at h
    rw [← h]; exact ⟨hx.choose_spec.1, hx.choose_spec.2.1⟩
  · simp at h

theorem ideal_accurate : BrentAccurate idealBrent := by
  intro f g lo hi r hf _ _ h
  unfold idealBrent at h
  split at h
  · rename_i hx
    simp only [Except.ok.injEq, Prod.mk.injEq, and_true] at h
    refine ⟨r, ?_, by rw [sub_self, abs_zero]; positivity⟩
    have := hx.choose_spec.2.2
    rw [h, hf] at this
    simpa using this
  · simp at h

/-- A bell that is never below zero, in one dimension. -/
noncomputable def exBell : Target 1 := ⟨fun θ => .ok (θ.map fun t => t 0 ^ 2 / 2), fun θ => .ok (θ.map fun t => t)⟩

/-- A search for the contour of the bell. -/
noncomputable def exSetup (brent : Brent) (lo : ℝ) : Setup 1 :=
  { F := exBell, bounds := fun _ => (some lo, some 10), quantile := 2, nRadial := 1, nChains := 5, nCandidates := 10, maxBracket := 30,
    nPasses := 1, knn := 5, nMultistart := 1, dedupTol := 0.05, nSteps := 10, stepSize := 0.05, newtonTol := 1e-9, newtonMaxIter := 100,
    brent := brent, argsort := fun l => List.range l.length, minimise := fun _ => .error .value, whiten := fun _ => .ok 1,
    stream := fun _ _ => 0, schedule := fun _ => none }

/-- A generator whose Gaussian numbers are all one. -/
def exGen : Gen 1 := ⟨Unit, fun s => (![1], s), fun s => (0, s), fun s => (0, s)⟩

theorem exNorm : norm (![1] : Vec 1) = 1 := by
  simp [norm, dotProduct]

/-- The radial search: one point, next to 2. -/
theorem ex_search (brent : Brent) (lo : ℝ) (h1 : BrentInBracket brent) (h2 : BrentAccurate brent)
    (h3 : ∀ f g lo hi, (∀ x, f x = .ok (some (g x))) → Continuous g → g lo * g hi < 0 → ∃ r, brent f lo hi = .ok (r, true)) :
    ∃ r, radialSearch exGen ((exSetup brent lo).rays 2 ![0] 1) 1 () = .ok ([(![r], ![1])], ()) ∧ r < 3 := by
  obtain ⟨R, hR⟩ : ∃ R, R = (exSetup brent lo).rays 2 ![0] 1 := ⟨_, rfl⟩
  have hat : ∀ r, R.at ![1] r = ![r] := by
    intro r
    rw [hR]
    funext i
    fin_cases i
    simp [Rays.at, toTheta, Setup.rays]
  have hf : ∀ r, R.f ![1] r = .ok (some (r ^ 2 / 2 - 2)) := by
    intro r
    have hh := hat r
    simp only [Rays.at] at hh
    rw [Rays.f, along, hh, hR]
    simp [Setup.rays, exSetup, exBell]
  have heff : R.eff ![1] = 10 := by
    have e1 : (1e-30 : ℝ) < 1 := by norm_num
    have e2 : ¬ ((1 : ℝ) < -1e-30) := by norm_num
    rw [hR]
    simp only [Rays.eff, maxR, Setup.rays, exSetup, List.finRange_succ, List.finRange_zero, List.map_nil, List.foldl_cons, List.foldl_nil,
      capAt, one_mulVec, cons_val_zero, if_pos e1, if_neg e2, minR, effectiveMax]
    norm_num
  have hray : ∃ r, ray R.brent (R.f ![1]) (rInit 2 0) (R.eff ![1]) = .ok (some r) ∧ r < 3 := by
    have hr0 : rInit 2 0 = 2 := by
      unfold rInit
      rw [show max ((2 : ℝ) - 0) 1 * 2 = 2 * 2 by norm_num]
      exact Real.sqrt_mul_self (by norm_num)
    have hgrow : grow (R.f ![1]) 10 (rounds (min 2 10) 10) (min 2 10) = .ok (some 4) := by
      have hm : min (2 : ℝ) 10 = 2 := min_eq_left (by norm_num)
      have hround : rounds 2 10 = 4 + 1 + 1 := by
        unfold rounds
        rw [show (10 : ℝ) / 2 = (5 : ℕ) by norm_num, Nat.ceil_natCast]
      rw [hm, hround, grow_on _ (fun r => r ^ 2 / 2 - 2) hf 10 _ 2 4 (by norm_num) (by norm_num) (by norm_num)]
      simp only [grow, hf]
      rw [if_neg]
      rintro ⟨h, _⟩
      have : (4 : ℝ) ^ 2 / 2 - 2 ≤ 0 := h
      norm_num at this
    have hRb : R.brent = brent := by rw [hR]; rfl
    have hsign : ((1e-8 : ℝ) ^ 2 / 2 - 2) * ((4 : ℝ) ^ 2 / 2 - 2) < 0 := by norm_num
    have hcont : Continuous fun r : ℝ => r ^ 2 / 2 - 2 := by fun_prop
    obtain ⟨r, hr⟩ := h3 (R.f ![1]) (fun r => r ^ 2 / 2 - 2) 1e-8 4 hf hcont hsign
    obtain ⟨b1, b2⟩ := h1 _ _ _ _ hr
    obtain ⟨z, hz, hd⟩ := h2 _ _ _ _ _ hf hcont hsign hr
    rw [max_eq_right (by norm_num)] at b2
    rw [min_eq_left (by norm_num)] at b1
    refine ⟨r, ?_, ?_⟩
    · rw [heff, hr0, ray, if_neg (by norm_num), hf]
      simp only
      rw [if_neg (show ¬ Num.Le (some 0) (some ((1e-8 : ℝ) ^ 2 / 2 - 2)) from by show ¬ (0 : ℝ) ≤ _; norm_num), hgrow]
      simp only [hf]
      rw [if_neg (show ¬ Num.Le (some ((4 : ℝ) ^ 2 / 2 - 2)) (some 0) from by show ¬ (_ : ℝ) ≤ 0; norm_num), hRb, hr]
      rfl
    · have hz2 : z ^ 2 = 4 := by linarith
      have hz3 : z ≤ 2 := by nlinarith
      have hr4 : |r| ≤ 4 := abs_le.mpr ⟨by linarith [show (0 : ℝ) < 1e-8 by norm_num], b2⟩
      have := (abs_le.mp hd).2
      have hsmall : (1e-12 : ℝ) + 1e-12 * |r| ≤ 1 / 2 := by nlinarith
      linarith
  obtain ⟨r, hr, hlt⟩ := hray
  have hsearch : radialSearch exGen R 1 () = .ok ([(R.at ![1] r, ![1])], ()) := by
    have hn : ¬ norm (![1] : Vec 1) < 1e-15 := by rw [exNorm]; norm_num
    have hu : (norm (![1] : Vec 1))⁻¹ • (![1] : Vec 1) = ![1] := by rw [exNorm]; simp
    have ha : atAnchor R.F R.anchor = .ok 0 := by rw [hR]; simp [atAnchor, Setup.rays, exSetup, exBell]
    have hT : R.T = 2 := by rw [hR]; rfl
    unfold radialSearch
    rw [ha]
    simp only [hT]
    rw [if_neg (by norm_num)]
    have hnorm : exGen.normal () = (![1], ()) := rfl
    simp only [radialLoop, hnorm]
    rw [if_neg hn, hu, hr]
  rw [hat, hR] at hsearch
  exact ⟨r, hsearch, hlt⟩

/-- The result of that search. -/
theorem ex_find (brent : Brent) (lo : ℝ) (h1 : BrentInBracket brent) (h2 : BrentAccurate brent)
    (h3 : ∀ f g lo hi, (∀ x, f x = .ok (some (g x))) → Continuous g → g lo * g hi < 0 → ∃ r, brent f lo hi = .ok (r, true)) :
    ∃ res r, findContour exGen (exSetup brent lo) (![0], 0) () = .ok res ∧ res.points = [some ![r]] ∧ r < 3 := by
  obtain ⟨r, hsearch, hlt⟩ := ex_search brent lo h1 h2 h3
  have hbasin : basin exGen (exSetup brent lo) 2 ![0] 0 () = .ok (⟨[![r]], []⟩, 0, ()) := by
    unfold basin
    have hw : (exSetup brent lo).whiten ![0] = .ok 1 := rfl
    have hN : (exSetup brent lo).nRadial = 1 := rfl
    rw [hw]
    simp only [hN]
    rw [hsearch]
    simp
  have hbs : basins (exSetup brent lo).minimise (exSetup brent lo).dedupTol ((![0] : Vec 1), (0 : ℝ)) [] = [(![0], 0)] := by
    simp [basins, polish, dedup]
  have hst : startPoints exGen (exSetup brent lo).bounds (![0] : Vec 1) 5 (max 1 (exSetup brent lo).nMultistart - 1) () = ([], ()) := rfl
  have hact : activeBasins (0 + (exSetup brent lo).quantile) ((![0] : Vec 1), (0 : ℝ)) [(![0], 0)] = [(![0], 0)] := by
    have : (0 : ℝ) ≤ 0 + 2 + 1e-6 := by norm_num
    rw [activeBasins, List.filter_cons_of_pos (by simpa [exSetup] using this), List.filter_nil]
  have hab : allBasins exGen (exSetup brent lo) 2 [(![0], 0)] 0 () = .ok [⟨[![r]], []⟩] := by simp only [allBasins, hbasin]
  have hres : ∃ res, findContour exGen (exSetup brent lo) (![0], 0) () = .ok res ∧ res.points = [some ![r]] := by
    unfold findContour
    simp only [hst, hbs, threshold]
    rw [hact]
    have hq : (0 : ℝ) + (exSetup brent lo).quantile = 2 := by show (0 : ℝ) + 2 = 2; norm_num
    rw [hq, hab]
    exact ⟨_, rfl, rfl⟩
  obtain ⟨res, hres, hpts⟩ := hres
  exact ⟨res, r, hres, hpts, hlt⟩

/-- C62 fails: the primary fit is made before the bounds given by the user are known, here 3 and 10, and its minimum is the anchor, here
at 0. The largest radius only stops the points from leaving through the far side: for every accurate root finder, the result has a
point outside the bounds. -/
theorem C62_anchor_fails (brent : Brent) (h1 : BrentInBracket brent) (h2 : BrentAccurate brent)
    (h3 : ∀ f g lo hi, (∀ x, f x = .ok (some (g x))) → Continuous g → g lo * g hi < 0 → ∃ r, brent f lo hi = .ok (r, true)) :
    ∃ res, findContour exGen (exSetup brent 3) (![0], 0) () = .ok res ∧ ∃ t, some t ∈ res.points ∧ ¬ Inside (exSetup brent 3).bounds t := by
  obtain ⟨res, r, hres, hpts, hlt⟩ := ex_find brent 3 h1 h2 h3
  refine ⟨res, hres, ![r], by rw [hpts]; simp, fun hin => ?_⟩
  have := (hin 0).1 3 rfl
  simp at this
  linarith

/-- The ideal root finder meets the hypotheses. -/
theorem ideal_converges : ∀ (f : ℝ → Except Err Num) g lo hi, (∀ x, f x = .ok (some (g x))) → Continuous g → g lo * g hi < 0 →
    ∃ r, idealBrent f lo hi = .ok (r, true) := by
  intro f g lo hi hf hc hs
  have hroot : ∃ r, min lo hi ≤ r ∧ r ≤ max lo hi ∧ f r = .ok (some 0) := by
    have h0 : (0 : ℝ) ∈ g '' Set.uIcc lo hi := by
      refine intermediate_value_uIcc hc.continuousOn ?_
      rcases mul_neg_iff.mp hs with ⟨a, b⟩ | ⟨a, b⟩
      · exact Set.mem_uIcc.mpr (.inr ⟨b.le, a.le⟩)
      · exact Set.mem_uIcc.mpr (.inl ⟨a.le, b.le⟩)
    obtain ⟨r, hr, hz⟩ := h0
    exact ⟨r, hr.1, hr.2, by rw [hf, hz]⟩
  unfold idealBrent
  rw [dif_pos hroot]
  exact ⟨_, rfl⟩

/-- The hypotheses of `C62_anchor_fails`. -/
example : BrentInBracket idealBrent ∧ BrentAccurate idealBrent ∧
    ∀ f g lo hi, (∀ x, f x = .ok (some (g x))) → Continuous g → g lo * g hi < 0 → ∃ r, idealBrent f lo hi = .ok (r, true) :=
  ⟨ideal_bracket, ideal_accurate, ideal_converges⟩

/-- The hypotheses of `C62_radial_partial` and `C91_radial`: a search with one point. -/
example : (∃ r, radialSearch exGen ((exSetup idealBrent (-10)).rays 2 ![0] 1) 1 () = .ok ([(![r], ![1])], ())) ∧
    Continuous (fun t : Vec 1 => t 0 ^ 2 / 2) ∧ ∀ t, exBell.nll (some t) = .ok (some (t 0 ^ 2 / 2)) := by
  obtain ⟨r, h, _⟩ := ex_search idealBrent (-10) ideal_bracket ideal_accurate ideal_converges
  exact ⟨⟨r, h⟩, by fun_prop, fun _ => rfl⟩

/-- The hypotheses of `C62_find_partial`, and of `C61_level_fails`: with the bounds -10 and 10 the anchor is inside. -/
example : BrentInBracket (exSetup idealBrent (-10)).brent ∧ (∀ s, 0 ≤ (exGen.uniform s).1 ∧ (exGen.uniform s).1 < 1) ∧
    (∀ x t v, Inside (exSetup idealBrent (-10)).bounds x → (exSetup idealBrent (-10)).minimise x = .ok (t, v) →
      Inside (exSetup idealBrent (-10)).bounds t) ∧
    Inside (exSetup idealBrent (-10)).bounds (![0] : Vec 1) ∧ 0 < (exSetup idealBrent (-10)).quantile ∧
    ∃ res r, findContour exGen (exSetup idealBrent (-10)) (![0], 0) () = .ok res ∧ res.points = [some ![r]] := by
  refine ⟨ideal_bracket, fun s => by simp [exGen], fun x t v _ h => by simp [exSetup] at h, fun i => ?_, by simp [exSetup], ?_⟩
  · fin_cases i
    simp [exSetup]
  · obtain ⟨res, r, a, b, _⟩ := ex_find idealBrent (-10) ideal_bracket ideal_accurate ideal_converges
    exact ⟨res, r, a, b⟩

/-- C62 fails: a largest radius between `1e-10` and `1e-8` gives a bracket with its ends exchanged, and a point between the bound and
`1e-8`. The anchor is inside the bounds. -/
theorem C62_bracket_fails : ∃ (R : Rays 1) (e : Vec 1) (r : ℝ), norm e = 1 ∧ Inside R.bounds R.anchor ∧ NoTiny R.M e ∧
    BrentInBracket R.brent ∧ ray R.brent (R.f e) (rInit R.T 0) (R.eff e) = .ok (some r) ∧ ¬ Inside R.bounds (R.at e r) := by
  -- the function rises to the level at 7e-9, stays below it from there on, and jumps at the bound
  let g : ℝ → ℝ := fun x => if x = 5e-9 then 1 else if x = 7e-9 then 0 else -1
  let F : Target 1 := ⟨fun θ => .ok (θ.map fun t => 2 + g (t 0)), fun θ => .ok (θ.map fun _ => ![1])⟩
  let R : Rays 1 := ⟨F, ![0], 1, 2, 30, fun _ => (none, some 5e-9), idealBrent⟩
  have hat : ∀ r, R.at ![1] r = ![r] := by
    intro r
    funext i
    fin_cases i
    simp [Rays.at, toTheta, R]
  have hf : ∀ r, R.f ![1] r = .ok (some (g r)) := by
    intro r
    have hh := hat r
    simp only [Rays.at] at hh
    rw [Rays.f, along, hh]
    simp [R, F]
  have heff : R.eff ![1] = 5e-9 := by
    have e1 : (1e-30 : ℝ) < 1 := by norm_num
    have e2 : ¬ ((1 : ℝ) < -1e-30) := by norm_num
    simp only [Rays.eff, maxR, R, List.finRange_succ, List.finRange_zero, List.map_nil, List.foldl_cons, List.foldl_nil,
      capAt, one_mulVec, cons_val_zero, if_pos e1, minR, effectiveMax]
    norm_num
  have hmin : min (rInit 2 0) (5e-9 : ℝ) = 5e-9 := by
    refine min_eq_right ?_
    unfold rInit
    rw [show max ((2 : ℝ) - 0) 1 * 2 = 2 * 2 by norm_num, Real.sqrt_mul_self (by norm_num)]
    norm_num
  have g1 : g 1e-8 = -1 := by simp only [g]; rw [if_neg (by norm_num), if_neg (by norm_num)]
  have g2 : g 5e-9 = 1 := by simp only [g]; rw [if_pos trivial]
  have hroot : ∃ r, min (1e-8 : ℝ) 5e-9 ≤ r ∧ r ≤ max (1e-8 : ℝ) 5e-9 ∧ R.f ![1] r = .ok (some 0) := by
    refine ⟨7e-9, by norm_num, by norm_num, ?_⟩
    rw [hf]
    have : g 7e-9 = 0 := by simp only [g]; rw [if_neg (by norm_num), if_pos trivial]
    rw [this]
  have hbrent : idealBrent (R.f ![1]) 1e-8 5e-9 = .ok (hroot.choose, true) := by
    unfold idealBrent
    rw [dif_pos hroot]
  have hval : hroot.choose = 7e-9 := by
    have := hroot.choose_spec.2.2
    rw [hf] at this
    simp only [Except.ok.injEq, Option.some.injEq] at this
    simp only [g] at this
    split at this
    · norm_num at this
    · split at this
      · assumption
      · norm_num at this
  refine ⟨R, ![1], 7e-9, exNorm, fun i => ⟨by simp [R], fun hi hh => ?_⟩, fun i hi => ?_, ideal_bracket, ?_, fun hin => ?_⟩
  · fin_cases i
    simp [R] at hh ⊢
    rw [← hh]; norm_num
  · fin_cases i
    simp [R] at hi
    norm_num at hi
  · have hRb : R.brent = idealBrent := rfl
    have hRT : R.T = 2 := rfl
    rw [hRT, heff, ray, if_neg (by norm_num), hf, g1]
    simp only
    rw [if_neg (show ¬ Num.Le (some 0) (some (-1)) from by show ¬ (0 : ℝ) ≤ -1; norm_num), hmin]
    have hgrow : grow (R.f ![1]) 5e-9 (rounds 5e-9 5e-9) 5e-9 = .ok (some 5e-9) := by
      rw [rounds, grow, hf, g2]
      simp only
      rw [if_neg]
      rintro ⟨_, h⟩
      exact lt_irrefl _ h
    rw [hgrow]
    simp only [hf, g2]
    rw [if_neg (show ¬ Num.Le (some 1) (some 0) from by show ¬ (1 : ℝ) ≤ 0; norm_num), hRb, hbrent, hval]
    rfl
  · have := (hin 0).2 5e-9 rfl
    rw [hat] at this
    simp at this
    norm_num at this

/-! ## C92: gaps -/

/-- C92. The coverage of a candidate is the largest cosine with a direction found. -/
theorem C92_coverage {k : ℕ} (c : Vec k) (found : List (Vec k)) (hf : found ≠ []) :
    (∀ d ∈ found, c ⬝ᵥ d ≤ coverage c found) ∧ ∃ d ∈ found, coverage c found = c ⬝ᵥ d := by
  induction found with
  | nil => exact absurd rfl hf
  | cons d l ih =>
    cases l with
    | nil => simp [coverage]
    | cons d' l =>
      obtain ⟨h1, x, hx, h2⟩ := ih (by simp)
      rw [coverage]
      · refine ⟨fun y hy => ?_, ?_⟩
        · rcases List.mem_cons.mp hy with rfl | hy
          · exact le_max_left _ _
          · exact le_trans (h1 y hy) (le_max_right _ _)
        · rcases max_choice (c ⬝ᵥ d) (coverage c (d' :: l)) with h | h
          · exact ⟨d, List.mem_cons_self .., h⟩
          · exact ⟨x, List.mem_cons_of_mem _ hx, by rw [h, h2]⟩
      · simp

theorem filterMap_get {α : Type} (l : List α) (idx : List ℕ) (h : ∀ i ∈ idx, i < l.length) :
    idx.filterMap (fun i => l[i]?) = idx.attach.map fun i => l[i.1]'(h i.1 i.2) := by
  induction idx with
  | nil => rfl
  | cons i r ih =>
    rw [List.filterMap_cons, List.getElem?_eq_getElem (h i (List.mem_cons_self ..))]
    simp only [List.attach_cons, List.map_cons, List.map_map]
    rw [ih fun j hj => h j (List.mem_cons_of_mem _ hj)]
    rfl

/-- `out` are the entries of `l` at `n` different indices, and the score of each of these is at most that of every other entry. -/
def Lowest {α : Type} (score : α → ℝ) (l : List α) (n : ℕ) (out : List α) : Prop :=
  ∃ idx : List ℕ, idx.Nodup ∧ idx.length = n ∧ (∀ i ∈ idx, i < l.length) ∧ idx.map (fun i => l[i]?) = out.map some ∧
    ∀ i ∈ idx, ∀ j, j ∉ idx → ∀ a b, l[i]? = some a → l[j]? = some b → score a ≤ score b

/-- As `Lowest`, with the largest scores. -/
def Highest {α : Type} (score : α → ℝ) (l : List α) (n : ℕ) (out : List α) : Prop := Lowest (fun a => -score a) l n out

theorem argsort_facts (argsort : List ℝ → List ℕ) (h : IsArgsort argsort) (l : List ℝ) :
    (argsort l).Nodup ∧ (argsort l).length = l.length ∧ ∀ i, i ∈ argsort l ↔ i < l.length := by
  refine ⟨(h.perm l).nodup_iff.mpr List.nodup_range, by simpa using (h.perm l).length_eq, fun i => ?_⟩
  rw [(h.perm l).mem_iff, List.mem_range]

theorem map_get {α : Type} (l : List α) (idx : List ℕ) (h : ∀ i ∈ idx, i < l.length) :
    idx.map (fun i => l[i]?) = (idx.filterMap fun i => l[i]?).map some := by
  induction idx with
  | nil => rfl
  | cons i r ih =>
    rw [List.filterMap_cons, List.map_cons, List.getElem?_eq_getElem (h i (List.mem_cons_self ..))]
    simp only [List.map_cons]
    rw [ih fun j hj => h j (List.mem_cons_of_mem _ hj)]

/-- C92. The directions with gaps are those of the candidates that are covered least. -/
theorem C92_gaps {k : ℕ} (argsort : List ℝ → List ℕ) (ha : IsArgsort argsort) (found cands : List (Vec k)) (hf : found ≠ []) (n : ℕ) :
    Lowest (fun c => coverage c found) cands (min n cands.length) (gapDirections argsort found cands n) := by
  obtain ⟨h1, h2, h3⟩ := argsort_facts argsort ha (cands.map fun c => coverage c found)
  rw [List.length_map] at h2 h3
  obtain ⟨srt, hsrt⟩ : ∃ s, s = argsort (cands.map fun c => coverage c found) := ⟨_, rfl⟩
  have hs := ha.sorted (cands.map fun c => coverage c found)
  rw [← hsrt] at h1 h2 h3 hs
  have hlt : ∀ i ∈ srt.take n, i < cands.length := fun i hi => (h3 i).mp (List.mem_of_mem_take hi)
  refine ⟨srt.take n, h1.sublist (List.take_sublist _ _), by rw [List.length_take, h2], hlt, ?_, ?_⟩
  · rw [map_get _ _ hlt]
    congr 1
    cases found with
    | nil => exact absurd rfl hf
    | cons d l => rw [gapDirections, hsrt]; simp
  · intro i hi j hj a b hA hB
    have hjlt : j < cands.length := (List.getElem?_eq_some_iff.mp hB).1
    have hjd : j ∈ srt.drop n := by
      have : j ∈ srt.take n ++ srt.drop n := by rw [List.take_append_drop]; exact (h3 j).mpr hjlt
      rcases List.mem_append.mp this with h | h
      · exact absurd h hj
      · exact h
    have hpair := hs
    rw [← List.take_append_drop n srt] at hpair
    have := (List.pairwise_append.mp hpair).2.2 i hi j hjd
    simpa [List.getD_eq_getElem?_getD, List.getElem?_map, hA, hB] using this

/-- C92. Without directions found, the first candidates are taken. -/
theorem C92_none {k : ℕ} (argsort : List ℝ → List ℕ) (cands : List (Vec k)) (n : ℕ) :
    gapDirections argsort [] cands n = cands.take n := rfl

/-- A sorting of indices: `np.argsort` exists. -/
noncomputable def exArgsort (l : List ℝ) : List ℕ :=
  (List.range l.length).mergeSort fun i j => decide (l.getD i 0 ≤ l.getD j 0)

theorem exArgsort_ok : IsArgsort exArgsort := by
  refine ⟨fun l => List.mergeSort_perm _ _, fun l => ?_⟩
  have := List.pairwise_mergeSort (le := fun i j : ℕ => decide (l.getD i 0 ≤ l.getD j 0))
    (fun a b c h1 h2 => by simp only [decide_eq_true_eq] at *; exact le_trans h1 h2)
    (fun a b => by simp only [Bool.or_eq_true, decide_eq_true_eq]; exact le_total _ _) (List.range l.length)
  exact this.imp fun h => by simpa using h

example : IsArgsort exArgsort ∧ coverage (![0, 1] : Vec 2) [![1, 0], ![0, -1]] = 0 := by
  refine ⟨exArgsort_ok, ?_⟩
  simp [coverage, dotProduct]

/-! ## C93: sparse regions -/

theorem lastSlice_pos {α : Type} (n : ℕ) (l : List α) (hn : n ≠ 0) : lastSlice n l = l.drop (l.length - n) := by
  rw [lastSlice, if_neg hn]

/-- C93. If at least one seed is asked for, there are as many as asked for, or as many as points; they are those whose neighbours are
farthest. -/
theorem C93_seeds_partial {k : ℕ} (argsort : List ℝ → List ℕ) (ha : IsArgsort argsort) (ps : List (Vec k)) (n knn : ℕ) (hn : n ≠ 0)
    (hp : 2 ≤ ps.length) :
    ∃ seeds, sparseSeeds argsort (ps.map some) n knn = .ok (some seeds) ∧
      Highest (neighbourDistance ps (min knn (ps.length - 1))) ps (min n ps.length) seeds := by
  obtain ⟨score, hscore⟩ : ∃ f, f = neighbourDistance ps (min knn (ps.length - 1)) := ⟨_, rfl⟩
  obtain ⟨h1, h2, h3⟩ := argsort_facts argsort ha (ps.map score)
  have hs := ha.sorted (ps.map score)
  obtain ⟨srt, hsrt⟩ : ∃ s, s = argsort (ps.map score) := ⟨_, rfl⟩
  rw [List.length_map] at h2 h3
  rw [← hsrt] at h1 h2 h3 hs
  have hall : allSome (ps.map some) = some ps := by
    clear * -
    induction ps with
    | nil => rfl
    | cons a l ih => rw [List.map_cons, allSome, ih]
  have hm : min n ps.length ≠ 0 := by omega
  have hlt : ∀ i ∈ srt.drop (srt.length - min n ps.length), i < ps.length := fun i hi => (h3 i).mp (List.mem_of_mem_drop hi)
  refine ⟨(srt.drop (srt.length - min n ps.length)).filterMap fun i => ps[i]?, ?_, ?_⟩
  · unfold sparseSeeds
    rw [if_neg (by rw [List.length_map]; omega), hall]
    simp only
    rw [← hscore, ← hsrt, lastSlice_pos _ _ hm]
  · rw [← hscore]
    refine ⟨srt.drop (srt.length - min n ps.length), h1.sublist (List.drop_sublist _ _), ?_, hlt, map_get _ _ hlt, ?_⟩
    · rw [List.length_drop, h2]; omega
    · intro i hi j hj a b hA hB
      have hjlt : j < ps.length := (List.getElem?_eq_some_iff.mp hB).1
      have hjt : j ∈ srt.take (srt.length - min n ps.length) := by
        have : j ∈ srt.take (srt.length - min n ps.length) ++ srt.drop (srt.length - min n ps.length) := by
          rw [List.take_append_drop]; exact (h3 j).mpr hjlt
        rcases List.mem_append.mp this with h | h
        · exact h
        · exact absurd h hj
      have hpair := hs
      rw [← List.take_append_drop (srt.length - min n ps.length) srt] at hpair
      have := (List.pairwise_append.mp hpair).2.2 j hjt i hi
      simpa [List.getD_eq_getElem?_getD, List.getElem?_map, hA, hB] using this

/-- C93 fails for no seeds: `[-0:]` is the whole list. With `n_hmc_chains = 0` and more than one pass, chains start from every point. -/
theorem C93_zero_fails {k : ℕ} (argsort : List ℝ → List ℕ) (ha : IsArgsort argsort) (ps : List (Vec k)) (knn : ℕ) (hp : 2 ≤ ps.length) :
    ∃ seeds, sparseSeeds argsort (ps.map some) 0 knn = .ok (some seeds) ∧ seeds.Perm ps := by
  have hall : allSome (ps.map some) = some ps := by
    clear * -
    induction ps with
    | nil => rfl
    | cons a l ih => rw [List.map_cons, allSome, ih]
  unfold sparseSeeds
  rw [if_neg (by rw [List.length_map]; omega), hall]
  refine ⟨_, rfl, ?_⟩
  rw [Nat.zero_min, lastSlice, if_pos rfl]
  have := (ha.perm (ps.map (neighbourDistance ps (min knn (ps.length - 1))))).filterMap fun i => ps[i]?
  refine this.trans ?_
  rw [List.length_map]
  have hr : (List.range ps.length).filterMap (fun i => ps[i]?) = ps := by
    clear * -
    induction ps with
    | nil => rfl
    | cons a l ih =>
      rw [List.length_cons, List.range_succ_eq_map, List.filterMap_cons]
      simp only [List.getElem?_cons_zero, List.filterMap_map]
      congr 1
  rw [hr]

example : 2 ≤ [(![0] : Vec 1), ![1], ![5]].length := by decide

/-- C93 fails with `nan`: a single point that is `nan` makes the tree of points raise `ValueError`, and with it the whole search. -/
theorem C93_nan_fails {k : ℕ} (argsort : List ℝ → List ℕ) (points : List (Option (Vec k))) (n knn : ℕ) (hn : none ∈ points)
    (hp : 2 ≤ points.length) : sparseSeeds argsort points n knn = .error .value := by
  have hall : allSome points = none := by
    cases h : allSome points with
    | none => rfl
    | some r =>
      rw [allSome_mem _ _ h] at hn
      simp at hn
  unfold sparseSeeds
  rw [if_neg (by omega), hall]

example : none ∈ [some (![0] : Vec 1), none] ∧ 2 ≤ [some (![0] : Vec 1), none].length := by simp

end Verif.Contour
