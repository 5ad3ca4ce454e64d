import Verif.Contour.Spec

/-!
# Property C65: the chains do not depend on the workers
-/

namespace Verif.Contour

/-! ### The pool -/

theorem fill_slot {R : Type} (job : ℕ → Except Err R) (order : List ℕ) :
    ∀ t t', fill job order t = .ok t' →
      (∀ i ∈ order, ∃ r, job i = .ok r ∧ t' i = some r) ∧ ∀ i, i ∉ order → t' i = t i := by
  induction order with
  | nil => intro t t' h; simp only [fill, Except.ok.injEq] at h; subst h; simp
  | cons a l ih =>
    intro t t' h
    rw [fill] at h
    cases hj : job a with
    | error e => rw [hj] at h; simp at h
    | ok r =>
      rw [hj] at h
      obtain ⟨h1, h2⟩ := ih _ _ h
      refine ⟨fun i hi => ?_, fun i hi => ?_⟩
      · rcases List.mem_cons.mp hi with rfl | hi
        · by_cases hm : i ∈ l
          · exact h1 i hm
          · exact ⟨r, hj, by rw [h2 i hm]; simp⟩
        · exact h1 i hi
      · simp only [List.mem_cons, not_or] at hi
        rw [h2 i hi.2, Function.update_of_ne hi.1]

theorem collect_sequential {R : Type} (job : ℕ → Except Err R) (t : ℕ → Option R) (l : List ℕ) (rs : List R)
    (ht : ∀ i r, t i = some r → job i = .ok r) (h : collect t l = .ok rs) : sequential job l = .ok rs := by
  induction l generalizing rs with
  | nil => simpa [collect, sequential] using h
  | cons i l ih =>
    rw [collect] at h
    cases hi : t i with
    | none => rw [hi] at h; simp at h
    | some r =>
      rw [hi] at h
      simp only at h
      cases hc : collect t l with
      | error e => rw [hc] at h; simp at h
      | ok rs' =>
        rw [hc] at h
        simp only [Except.ok.injEq] at h
        subst h
        rw [sequential, ht i r hi]
        simp only [ih rs' hc]

/-- C65. Whatever the pool does (the order in which the jobs finish, the jobs it forgets or repeats, and whether it fails), the
trajectories are those computed one after the other. -/
theorem C65_pool {R : Type} (n : ℕ) (schedule : Option (List ℕ)) (job : ℕ → Except Err R) :
    trajectories n schedule job = sequential job (List.range n) := by
  unfold trajectories
  cases h : parallel n schedule job with
  | error e => rfl
  | ok l =>
    unfold parallel at h
    cases schedule with
    | none => simp at h
    | some order =>
      simp only at h
      cases hf : fill job order fun _ => none with
      | error e => rw [hf] at h; simp at h
      | ok t =>
        rw [hf] at h
        refine (collect_sequential job t _ l (fun i r hi => ?_) h).symm
        obtain ⟨h1, h2⟩ := fill_slot job order _ _ hf
        by_cases hm : i ∈ order
        · obtain ⟨r', hj, hr'⟩ := h1 i hm
          rw [hi, Option.some.injEq] at hr'
          rw [hj, hr']
        · have := h2 i hm; rw [hi] at this; simp at this

/-- C65. If every job succeeds and the schedule finishes all of them, then the pool itself has the results: the computation is not
repeated. -/
theorem C65_parallel {R : Type} (n : ℕ) (order : List ℕ) (hv : Valid n (some order)) (f : ℕ → R) (job : ℕ → Except Err R)
    (hjob : ∀ i, job i = .ok (f i)) : parallel n (some order) job = .ok ((List.range n).map f) := by
  have hfill : ∀ order t, ∃ t', fill job order t = .ok t' := by
    intro order
    induction order with
    | nil => intro t; exact ⟨t, rfl⟩
    | cons a l ih => intro t; rw [fill, hjob]; exact ih _
  obtain ⟨t, ht⟩ := hfill order fun _ => none
  obtain ⟨h1, _⟩ := fill_slot job order _ _ ht
  have hcol : ∀ l : List ℕ, (∀ i ∈ l, i < n) → collect t l = .ok (l.map f) := by
    intro l
    induction l with
    | nil => intro _; rfl
    | cons i l ih =>
      intro hl
      obtain ⟨r, hr, hti⟩ := h1 i (hv i (hl i (List.mem_cons_self ..)))
      rw [hjob, Except.ok.injEq] at hr
      rw [collect, hti]
      simp only [ih fun j hj => hl j (List.mem_cons_of_mem _ hj), hr, List.map_cons]
  simp only [parallel, ht]
  exact hcol _ fun i hi => List.mem_range.mp hi

example : Valid 3 (some [2, 0, 1]) ∧ parallel 3 (some [2, 0, 1]) (fun i => .ok (10 * i)) = .ok [0, 10, 20] := by
  have hv : Valid 3 (some [2, 0, 1]) := by 
    intro i hi
    have : i = 0 ∨ i = 1 ∨ i = 2 := by omega
    rcases this with rfl | rfl | rfl <;> simp
  exact ⟨hv, C65_parallel 3 _ hv (fun i => 10 * i) _ fun _ => rfl⟩

/-- C65. The points of the chains and the state of the generator afterwards do not depend on the pool. -/
theorem C65_chains {k : ℕ} (G : Gen k) (F : Target k) (w : Walk k) (stream : ℕ → ℕ → Vec k) (sch sch' : Option (List ℕ))
    (starts : List (Option (Vec k))) (s : G.State) :
    runChains G F w stream sch starts s = runChains G F w stream sch' starts s := by
  unfold runChains
  simp only [C65_pool]

theorem passes_schedule {k : ℕ} (G : Gen k) (S S' : Setup k) (h : ∃ sch, S' = { S with schedule := sch }) (T : ℝ) (n : ℕ) :
    ∀ c col s, passes G S T n c col s = passes G S' T n c col s := by
  obtain ⟨sch, rfl⟩ := h
  induction n with
  | zero => intro c col s; rfl
  | succ n ih =>
    intro c col s
    simp only [passes]
    cases hs : sparseSeeds S.argsort col S.nChains (max 1 S.knn) with
    | error e => rfl
    | ok o =>
      cases o with
      | none => rfl
      | some st =>
        cases st with
        | nil => rfl
        | cons a l =>
          simp only
          rw [C65_chains G S.F (S.walk T) S.stream (S.schedule c) (sch c)]
          show (match runChains G S.F (S.walk T) S.stream (sch c) _ s with | .error e => _ | .ok (new, s) => _) =
            (match runChains G S.F (S.walk T) S.stream (sch c) _ s with | .error e => _ | .ok (new, s) => _)
          cases runChains G S.F (S.walk T) S.stream (sch c) (List.map some (a :: l)) s with
          | error e => rfl
          | ok r => simp only [ih]

theorem basin_schedule {k : ℕ} (G : Gen k) (S : Setup k) (sch : ℕ → Option (List ℕ)) (T : ℝ) (a : Vec k) (c : ℕ) (s : G.State) :
    basin G S T a c s = basin G { S with schedule := sch } T a c s := by
  simp only [basin]
  cases hw : S.whiten a with
  | error e => rfl
  | ok M =>
    simp only
    rw [show (S.rays T a M) = Setup.rays { S with schedule := sch } T a M from rfl]
    cases hr : radialSearch G (Setup.rays { S with schedule := sch } T a M) S.nRadial s with
    | error e => rfl
    | ok r =>
      obtain ⟨radial, s1⟩ := r
      simp only
      split
      · rfl
      · cases hv : atAnchor S.F a with
        | error e => rfl
        | ok v =>
          simp only
          rw [C65_chains G S.F (S.walk T) S.stream (S.schedule c) (sch c),
            show (S.walk T) = Setup.walk { S with schedule := sch } T from rfl]
          cases runChains G S.F (Setup.walk { S with schedule := sch } T) S.stream (sch c) _ _ with
          | error e => rfl
          | ok r => simp only [passes_schedule G S { S with schedule := sch } ⟨sch, rfl⟩]

theorem allBasins_schedule {k : ℕ} (G : Gen k) (S : Setup k) (sch : ℕ → Option (List ℕ)) (T : ℝ) (l : List (Vec k × ℝ)) :
    ∀ c s, allBasins G S T l c s = allBasins G { S with schedule := sch } T l c s := by
  induction l with
  | nil => intro c s; rfl
  | cons b l ih =>
    intro c s
    simp only [allBasins]
    rw [basin_schedule G S sch]
    cases basin G { S with schedule := sch } T b.1 c s with
    | error e => rfl
    | ok r => simp only [ih]

/-- C65. The whole result does not depend on the pool. -/
theorem C65_find {k : ℕ} (G : Gen k) (S : Setup k) (sch : ℕ → Option (List ℕ)) (primary : Vec k × ℝ) (s : G.State) :
    findContour G S primary s = findContour G { S with schedule := sch } primary s := by
  simp only [findContour]
  cases basins S.minimise S.dedupTol primary (startPoints G S.bounds primary.1 5 (max 1 S.nMultistart - 1) s).1 with
  | nil => rfl
  | cons b l => simp only [allBasins_schedule G S sch]

end Verif.Contour
