import Verif.Contour.FindProps
import Verif.Contour.IndexProps
import Verif.Contour.WhitenProps

/-!
# Properties C65, C66, C92-C95 and C97, continued
-/

namespace Verif.Contour

open Matrix

/-! ## C65: seeds -/

/-- The state of the generator after so many seeds have been drawn. -/
def afterSeeds {k : ℕ} (G : Gen k) (i : ℕ) (s : G.State) : G.State := (fun s => (G.seed s).2)^[i] s

theorem seeds_spec {k : ℕ} (G : Gen k) (n : ℕ) : ∀ s, (seeds G n s).2 = afterSeeds G n s ∧
    ∀ i < n, (seeds G n s).1[i]? = some (G.seed (afterSeeds G i s)).1 := by
  induction n with
  | zero => intro s; exact ⟨rfl, fun i hi => absurd hi (Nat.not_lt_zero i)⟩
  | succ n ih =>
    intro s
    obtain ⟨h1, h2⟩ := ih (G.seed s).2
    refine ⟨by rw [seeds]; exact h1, fun i hi => ?_⟩
    rw [seeds]
    cases i with
    | zero => rfl
    | succ i => exact h2 i (by omega)

theorem sequential_ok {R : Type} (job : ℕ → Except Err R) (l : List ℕ) :
    ∀ rs, sequential job l = .ok rs → rs.length = l.length ∧ ∀ j i : ℕ, l[j]? = some i → ∃ r, rs[j]? = some r ∧ job i = .ok r := by
  induction l with
  | nil => intro rs h; simp only [sequential, Except.ok.injEq] at h; subst h; simp
  | cons a l ih =>
    intro rs h
    rw [sequential] at h
    cases ha : job a with
    | error e => rw [ha] at h; simp at h
    | ok r =>
      rw [ha] at h
      simp only at h
      cases hl : sequential job l with
      | error e => rw [hl] at h; simp at h
      | ok rs' =>
        rw [hl] at h
        simp only [Except.ok.injEq] at h
        subst h
        obtain ⟨h1, h2⟩ := ih rs' hl
        refine ⟨by simp [h1], fun j i hj => ?_⟩
        cases j with
        | zero => simp only [List.getElem?_cons_zero, Option.some.injEq] at hj; subst hj; exact ⟨r, rfl, ha⟩
        | succ j => exact h2 j i (by simpa using hj)

/-- C65. The `i`-th chain is the walk from the `i`-th starting point with the generator of the `i`-th seed drawn from the main
generator; that generator is left as after drawing one seed for each chain. -/
theorem C65_seeds {k : ℕ} (G : Gen k) (F : Target k) (w : Walk k) (stream : ℕ → ℕ → Vec k) (sch : Option (List ℕ))
    (starts : List (Option (Vec k))) (s s' : G.State) (l : List (Option (Vec k)))
    (h : runChains G F w stream sch starts s = .ok (l, s')) :
    s' = afterSeeds G starts.length s ∧ ∃ ts : List (List (Option (Vec k))), l = ts.flatten ∧ ts.length = starts.length ∧
      ∀ i start, starts[i]? = some start → ∃ t, ts[i]? = some t ∧ rattleWalk F w (stream (G.seed (afterSeeds G i s)).1) start = .ok t := by
  unfold runChains at h
  split at h
  · rename_i h0
    simp only [Except.ok.injEq, Prod.mk.injEq] at h
    obtain ⟨rfl, rfl⟩ := h
    rw [List.length_eq_zero_iff.mp h0]
    exact ⟨rfl, [], rfl, rfl, by simp⟩
  · rw [C65_pool] at h
    obtain ⟨h1, h2⟩ := seeds_spec G starts.length s
    split at h
    · simp at h
    · rename_i ts hts
      simp only [Except.ok.injEq, Prod.mk.injEq] at h
      obtain ⟨rfl, rfl⟩ := h
      obtain ⟨h3, h4⟩ := sequential_ok _ _ _ hts
      refine ⟨h1, ts, rfl, by simpa using h3, fun i start hi => ?_⟩
      have hlt := (List.getElem?_eq_some_iff.mp hi).1
      obtain ⟨t, ht, hjob⟩ := h4 i i (by simp [hlt])
      refine ⟨t, ht, ?_⟩
      rw [oneChain, hi, h2 i hlt] at hjob
      exact hjob

/-- A generator that counts: its seeds are 5, 6, 7, … -/
noncomputable def exCount : Gen 1 := ⟨ℕ, fun n => (fun _ => n, n + 1), fun n => (n, n + 1), fun n => (1 / 2, n + 1)⟩

example : (exCount.seed (afterSeeds exCount 2 (5 : ℕ))).1 = 7 ∧
    runChains exCount ⟨fun _ => .ok (some 0), fun _ => .ok (some 0)⟩ ⟨0, 0, 1, 1, 1, fun _ => (none, none)⟩ (fun _ _ => 0) (some [1, 0])
      [some ![3], some ![4]] (5 : ℕ) = .ok ([some ![3], some ![4]], (7 : ℕ)) := by
  refine ⟨rfl, ?_⟩
  have hp : ∀ x : Vec 1, rattleWalk ⟨fun _ => .ok (some 0), fun _ => .ok (some 0)⟩ ⟨0, 0, 1, 1, 1, fun _ => (none, none)⟩
      (fun _ => 0) (some x) = .ok [some x] := by
    intro x
    have : Num.Lt ((some (0 : ℝ)).map fun x => |x - 0|) (some 1) := by show |(0 : ℝ) - 0| < 1; norm_num
    simp only [rattleWalk, project, if_pos this, tangentMomentum, walkLoop]
  simp only [runChains, List.length_cons, List.length_nil, C65_pool, sequential, oneChain, seeds, List.range, List.range.loop]
  simp [hp]
  rfl

/-! ## C66: the fit is divided as it is put together -/

theorem positions_of {signal : List ℤ} (idx : List ℤ) : ∀ pos, positions signal idx = .ok pos →
    pos = idx.map signal.idxOf ∧ ∀ i ∈ idx, i ∈ signal := by
  induction idx with
  | nil => intro pos h; simp only [positions, Except.ok.injEq] at h; subst h; simp
  | cons i r ih =>
    intro pos h
    rw [positions] at h
    split at h
    · rename_i hi
      cases hr : positions signal r with
      | error e => rw [hr] at h; simp at h
      | ok as =>
        rw [hr] at h
        simp only [Except.ok.injEq] at h
        subst h
        obtain ⟨h1, h2⟩ := ih as hr
        exact ⟨by rw [h1]; rfl, fun j hj => by rcases List.mem_cons.mp hj with rfl | hj; exacts [hi, h2 j hj]⟩
    · simp at h

theorem positions_total {signal : List ℤ} (idx : List ℤ) (h : ∀ i ∈ idx, i ∈ signal) : positions signal idx = .ok (idx.map signal.idxOf) := by
  induction idx with
  | nil => rfl
  | cons i r ih =>
    rw [positions, if_pos (h i (List.mem_cons_self ..)), ih fun j hj => h j (List.mem_cons_of_mem _ hj)]
    rfl

theorem pick_eq (a : List ℝ) (pos : List ℕ) (h : ∀ j ∈ pos, j < a.length) : pick a pos = pos.map fun j => a.getD j 0 := by
  induction pos with
  | nil => rfl
  | cons j r ih =>
    rw [pick, List.filterMap_cons, List.getElem?_eq_getElem (h j (List.mem_cons_self ..))]
    simp only [List.map_cons]
    rw [List.getD_eq_getElem _ _ (h j (List.mem_cons_self ..))]
    congr 1
    exact ih fun i hi => h i (List.mem_cons_of_mem _ hi)

/-- C66. The fit over all parameters but the POI is divided so that putting the two parts together again gives the fit, with the POI
at one. -/
theorem C66_split (kTotal poi : ℕ) (contour profile : List ℤ) (h : Partition kTotal poi contour profile) (all garbage : List ℝ)
    (hl : all.length + 1 = kTotal) (hg : garbage.length = kTotal) :
    ∃ cp pp, splitFit kTotal poi contour profile all = .ok (cp, pp) ∧ cp.length = contour.length ∧ pp.length = profile.length ∧
      assemble poi contour profile garbage cp pp = insertPoi poi all := by
  obtain ⟨h1, h2, h3, h4, h5, h6⟩ := partition_facts h
  have hs : ∀ i ∈ contour ++ profile, i ∈ signalIndices kTotal poi := fun i hi => (mem_signal _ _ _).mpr (h1 i hi)
  have hc := positions_total contour fun i hi => hs i (List.mem_append_left _ hi)
  have hp := positions_total profile fun i hi => hs i (List.mem_append_right _ hi)
  have hins := C66_insert kTotal poi h5 all hl
  have hlen : (signalIndices kTotal poi).length = all.length := by
    obtain ⟨n, rfl⟩ : ∃ n, kTotal = poi + 1 + n := ⟨kTotal - poi - 1, by omega⟩
    rw [signal_split]; simp; omega
  have hidx : ∀ i ∈ contour ++ profile, (signalIndices kTotal poi).idxOf i < all.length := fun i hi => by
    rw [← hlen]; exact List.idxOf_lt_length_iff.mpr (hs i hi)
  have hval : ∀ i ∈ contour ++ profile, (insertPoi poi all)[i.toNat]? = some (all.getD ((signalIndices kTotal poi).idxOf i) 0) := by
    intro i hi
    have hj := hidx i hi
    have := hins.contour ((signalIndices kTotal poi).idxOf i) (by rw [hlen]; exact hj)
    rw [List.getD_eq_getElem _ _ (by rw [hlen]; exact hj), List.getElem_idxOf] at this
    rw [this, List.getD_eq_getElem _ _ hj, List.getElem?_eq_getElem hj]
  have hpc := pick_eq all (contour.map (signalIndices kTotal poi).idxOf) (by
    intro j hj; obtain ⟨i, hi, rfl⟩ := List.mem_map.mp hj; exact hidx i (List.mem_append_left _ hi))
  have hpp := pick_eq all (profile.map (signalIndices kTotal poi).idxOf) (by
    intro j hj; obtain ⟨i, hi, rfl⟩ := List.mem_map.mp hj; exact hidx i (List.mem_append_right _ hi))
  have hcl : (pick all (contour.map (signalIndices kTotal poi).idxOf)).length = contour.length := by rw [hpc]; simp
  have hpl : (pick all (profile.map (signalIndices kTotal poi).idxOf)).length = profile.length := by rw [hpp]; simp
  refine ⟨_, _, by simp only [splitFit, hc, hp], hcl, hpl, ?_⟩
  refine C66_unique kTotal poi contour profile h _ _ _ _ (C66_assemble kTotal poi contour profile h garbage _ _ hg hcl hpl)
    ⟨hins.length, hins.poi, fun j hj => ?_, fun j hj => ?_⟩
  · rw [List.getD_eq_getElem _ _ hj, hval _ (List.mem_append_left _ (List.getElem_mem hj)), hpc]
    simp [hj]
  · rw [List.getD_eq_getElem _ _ hj, hval _ (List.mem_append_right _ (List.getElem_mem hj)), hpp]
    simp [hj]

example : splitFit 4 1 [0, 3] [2] [10, 12, 13] = .ok ([10, 13], [12]) ∧ insertPoi 1 [10, 12, 13] = [10, 1, 12, 13] := by
  refine ⟨?_, rfl⟩
  have : signalIndices 4 1 = [0, 2, 3] := by decide
  simp [splitFit, this, positions, pick]

/-- C66. A negative index, though it means a parameter for the list of bounds and names, is refused with `KeyError`; so is one that is too
large if the bounds are given and there are no names. -/
theorem C66_outside {β : Type} (kTotal poi : ℕ) (cfgBounds : List β) (names : Option (List String)) (given : List ℤ)
    (bounds : Option (List β)) (hc : cfgBounds.length = kTotal) (hn : ∀ n, names = some n → n.length = kTotal)
    (hb : ∀ b, bounds = some b → b.length = (given.filter fun i => i ≠ (poi : ℤ)).length)
    (hi : ∀ i ∈ given, -(kTotal : ℤ) ≤ i ∧ i < kTotal) (hneg : ∃ i ∈ given, i < 0) :
    choose kTotal poi cfgBounds names (some given) bounds = .error .key := by
  have hperm : (contourIndices kTotal poi (some given)).Perm (given.filter fun i => i ≠ (poi : ℤ)) := List.mergeSort_perm _ _
  obtain ⟨i, hig, hi0⟩ := hneg
  have hic : i ∈ contourIndices kTotal poi (some given) := hperm.mem_iff.mpr (List.mem_filter.mpr ⟨hig, by simp; omega⟩)
  have hrange : ∀ i ∈ contourIndices kTotal poi (some given), -(kTotal : ℤ) ≤ i ∧ i < kTotal := fun i h =>
    hi i (List.mem_filter.mp (hperm.mem_iff.mp h)).1
  have gets : ∀ {γ : Type} (l : List γ), l.length = kTotal → ∀ idx : List ℤ, (∀ i ∈ idx, -(kTotal : ℤ) ≤ i ∧ i < kTotal) →
      ∃ r, pyGets l idx = .ok r := by
    intro γ l hl idx
    induction idx with
    | nil => intro _; exact ⟨[], rfl⟩
    | cons j r ih =>
      intro h
      obtain ⟨r', hr'⟩ := ih fun k hk => h k (List.mem_cons_of_mem _ hk)
      obtain ⟨ha, hb⟩ := h j (List.mem_cons_self ..)
      have : ∃ a, pyGet l j = .ok a := by
        unfold pyGet
        by_cases hj : 0 ≤ j
        · rw [if_pos hj, List.getElem?_eq_getElem (by omega)]; exact ⟨_, rfl⟩
        · rw [if_neg hj, if_pos (by omega), List.getElem?_eq_getElem (by omega)]; exact ⟨_, rfl⟩
      obtain ⟨a, ha⟩ := this
      exact ⟨a :: r', by simp only [pyGets, ha, hr']⟩
  have hpos : ∀ idx : List ℤ, i ∈ idx → positions (signalIndices kTotal poi) idx = .error .key := by
    intro idx
    induction idx with
    | nil => simp
    | cons j r ih =>
      intro hm
      rw [positions]
      by_cases hj : j ∈ signalIndices kTotal poi
      · rw [if_pos hj]
        rcases List.mem_cons.mp hm with rfl | hm
        · have := (mem_signal _ _ _).mp hj; omega
        · rw [ih hm]
      · rw [if_neg hj]
  have hlen : ¬ (contourIndices kTotal poi (some given)).length < 1 := by have := List.length_pos_of_mem hic; omega
  obtain ⟨cb, hcb⟩ := gets cfgBounds hc _ hrange
  have hnames : ∀ n, names = some n → ∃ r, pyGets n (contourIndices kTotal poi (some given)) = .ok r := fun n h => gets n (hn n h) _ hrange
  unfold choose
  cases bounds with
  | none =>
    cases names with
    | none => simp only [if_neg hlen, hcb, hpos _ hic]
    | some n =>
      obtain ⟨r, hr⟩ := hnames n rfl
      simp only [if_neg hlen, hcb, hr, hpos _ hic]
  | some b =>
    have hbl : ¬ b.length ≠ (contourIndices kTotal poi (some given)).length := by rw [hperm.length_eq, hb b rfl]; simp
    cases names with
    | none => simp only [if_neg hlen, if_neg hbl, hpos _ hic]
    | some n =>
      obtain ⟨r, hr⟩ := hnames n rfl
      simp only [if_neg hlen, if_neg hbl, hr, hpos _ hic]

example : choose 3 0 ["a", "b", "c"] (some ["mu", "x", "y"]) (some [1, -1]) none = .error .key :=
  C66_outside 3 0 _ _ [1, -1] none rfl (by simp) (by simp) (by simp) ⟨-1, by simp⟩

/-! ## C92: candidates, and the point for a direction without crossing -/

theorem norm_smul_inv {k : ℕ} (z : Vec k) (hz : 0 < norm z) : norm ((norm z)⁻¹ • z) = 1 := by
  unfold norm at *
  rw [smul_dotProduct, dotProduct_smul, smul_eq_mul, smul_eq_mul]
  have h := Real.sqrt_pos.mp hz
  have : (√(z ⬝ᵥ z))⁻¹ * ((√(z ⬝ᵥ z))⁻¹ * (z ⬝ᵥ z)) = 1 := by
    field_simp
    exact (Real.sq_sqrt h.le).symm
  rw [this, Real.sqrt_one]

/-- The state of the generator after so many Gaussian vectors. -/
def afterNormals {k : ℕ} (G : Gen k) (i : ℕ) (s : G.State) : G.State := (fun s => (G.normal s).2)^[i] s

/-- C92. The candidates are as many as asked for, each a new Gaussian vector divided by its length. -/
theorem C92_candidates {k : ℕ} (G : Gen k) (n : ℕ) : ∀ s, (candidates G n s).1.length = n ∧ (candidates G n s).2 = afterNormals G n s ∧
    ∀ i < n, 1e-15 ≤ norm (G.normal (afterNormals G i s)).1 → ∃ (e : Vec k) (c : ℝ), (candidates G n s).1[i]? = some e ∧ 0 < c ∧ norm e = 1 ∧
      (G.normal (afterNormals G i s)).1 = c • e := by
  induction n with
  | zero => intro s; exact ⟨rfl, rfl, fun i hi => absurd hi (Nat.not_lt_zero i)⟩
  | succ n ih =>
    intro s
    obtain ⟨h1, h2, h3⟩ := ih (G.normal s).2
    refine ⟨by rw [candidates]; simp [h1], by rw [candidates]; exact h2, fun i hi => ?_⟩
    cases i with
    | zero =>
      intro hz
      have hz' : 1e-15 ≤ norm (G.normal s).1 := hz
      have hpos : 0 < norm (G.normal s).1 := lt_of_lt_of_le (by norm_num) hz'
      rw [candidates, max_eq_left hz']
      refine ⟨_, norm (G.normal s).1, rfl, hpos, norm_smul_inv _ hpos, ?_⟩
      show (G.normal s).1 = _
      rw [smul_smul, mul_inv_cancel₀ hpos.ne', one_smul]
    | succ i => exact h3 i (by omega)

example : candidates (⟨ℕ, fun n => (![3, 4], n + 1), fun n => (n, n + 1), fun n => (0, n)⟩ : Gen 2) 1 (0 : ℕ) = ([![3 / 5, 4 / 5]], (1 : ℕ)) := by
  have h : norm (![3, 4] : Vec 2) = 5 := by
    rw [norm, show (![3, 4] : Vec 2) ⬝ᵥ ![3, 4] = 5 * 5 by simp [dotProduct]; norm_num]
    exact Real.sqrt_mul_self (by norm_num)
  have h' : max (5 : ℝ) 1e-15 = 5 := max_eq_left (by norm_num)
  simp only [candidates, h, h']
  congr 2
  ext i
  fin_cases i <;> simp <;> norm_num

theorem argmax_spec (l : List ℝ) (hl : l ≠ []) : argmax l < l.length ∧ ∀ x ∈ l, x ≤ l.getD (argmax l) 0 := by
  induction l with
  | nil => exact absurd rfl hl
  | cons a l ih =>
    cases l with
    | nil => simp [argmax]
    | cons b l =>
      obtain ⟨h1, h2⟩ := ih (by simp)
      rw [argmax]
      · split
        · rename_i h
          refine ⟨by simp, fun x hx => ?_⟩
          rcases List.mem_cons.mp hx with rfl | hx
          · simp
          · simpa using le_trans (h2 x hx) h
        · rename_i h
          refine ⟨by simpa using h1, fun x hx => ?_⟩
          rw [List.getD_cons_succ]
          rcases List.mem_cons.mp hx with rfl | hx
          · exact (not_le.mp h).le
          · exact h2 x hx
      · simp

/-- C92. In a direction without a crossing the chain starts from the point found whose direction has the largest cosine with it. -/
theorem C92_nearest {k : ℕ} (R : Rays k) (r0 : ℝ) (radial : List (Vec k × Vec k)) (hr : radial ≠ []) (e : Vec k) (l : List (Vec k))
    (hg : gapRay R.brent (R.f e) r0 (R.eff e) = none) :
    ∃ x ∈ radial, gapStarts R r0 radial (e :: l) = x.1 :: gapStarts R r0 radial l ∧ ∀ y ∈ radial, y.2 ⬝ᵥ e ≤ x.2 ⬝ᵥ e := by
  obtain ⟨h1, h2⟩ := argmax_spec (radial.map fun x => x.2 ⬝ᵥ e) (by simpa using hr)
  have h1' : argmax (radial.map fun x => x.2 ⬝ᵥ e) < radial.length := by simpa using h1
  refine ⟨_, List.getElem_mem h1', ?_, fun y hy => ?_⟩
  · simp only [gapStarts, hg, List.getElem?_eq_getElem h1']
  · have := h2 _ (List.mem_map.mpr ⟨y, hy, rfl⟩)
    rw [List.getD_eq_getElem _ _ h1, List.getElem_map] at this
    exact this

example : gapRay (fun _ _ _ => .error .value) (fun _ => .ok (some 1)) 1 30 = none ∧ argmax [1, 3, 2] = 1 := by
  constructor
  · have : ¬ Num.Lt (some (1 : ℝ)) (some 0) := by show ¬ (1 : ℝ) < 0; norm_num
    simp [gapRay, this]
  · norm_num [argmax]

/-- C92. Every direction gives one starting point, in the order of the directions. -/
theorem C92_starts {k : ℕ} (R : Rays k) (r0 : ℝ) (radial : List (Vec k × Vec k)) (hr : radial ≠ []) (dirs : List (Vec k)) :
    (gapStarts R r0 radial dirs).length = dirs.length := by
  induction dirs with
  | nil => rfl
  | cons e l ih =>
    cases hg : gapRay R.brent (R.f e) r0 (R.eff e) with
    | some r => simp only [gapStarts, hg, List.length_cons, ih]
    | none =>
      obtain ⟨x, -, h, -⟩ := C92_nearest R r0 radial hr e l hg
      rw [h, List.length_cons, List.length_cons, ih]

/-! ## C93: the distance to a neighbour -/

/-- C93. The score is the distance to the `j`-th neighbour: fewer than `j + 1` points are nearer (the point itself is one of them), and
at least `j + 1` are not farther. -/
theorem C93_distance {k : ℕ} (ps : List (Vec k)) (j : ℕ) (hj : j < ps.length) (p : Vec k) :
    (ps.filter fun q => decide (Real.sqrt ((p - q) ⬝ᵥ (p - q)) < neighbourDistance ps j p)).length ≤ j ∧
      j < (ps.filter fun q => decide (Real.sqrt ((p - q) ⬝ᵥ (p - q)) ≤ neighbourDistance ps j p)).length := by
  obtain ⟨ds, hds⟩ : ∃ ds, ds = (ps.map fun q => norm (p - q)).mergeSort fun a b => decide (a ≤ b) := ⟨_, rfl⟩
  have hperm : ds.Perm (ps.map fun q => norm (p - q)) := by rw [hds]; exact List.mergeSort_perm _ _
  have hsort : ds.Pairwise (· ≤ ·) := by
    have := List.pairwise_mergeSort (le := fun a b : ℝ => decide (a ≤ b))
      (fun a b c h1 h2 => by simp only [decide_eq_true_eq] at *; exact le_trans h1 h2)
      (fun a b => by simp only [Bool.or_eq_true, decide_eq_true_eq]; exact le_total _ _) (ps.map fun q => norm (p - q))
    rw [hds]
    exact this.imp fun h => by simpa using h
  have hlen : ds.length = ps.length := by simpa using hperm.length_eq
  have hjd : j < ds.length := by omega
  have hd : neighbourDistance ps j p = ds[j] := by
    rw [neighbourDistance, ← hds, List.getD_eq_getElem _ _ hjd]
  have hcount : ∀ P : ℝ → Bool, (ps.filter fun q => P (Real.sqrt ((p - q) ⬝ᵥ (p - q)))).length = (ds.filter P).length := by
    intro P
    rw [(hperm.filter P).length_eq, List.filter_map, List.length_map]
    rfl
  rw [hcount fun x => decide (x < neighbourDistance ps j p), hcount fun x => decide (x ≤ neighbourDistance ps j p), hd]
  constructor
  · have hsplit : (ds.filter fun x => decide (x < ds[j])).length =
        ((ds.take j).filter fun x => decide (x < ds[j])).length + ((ds.drop j).filter fun x => decide (x < ds[j])).length := by
      rw [← List.length_append, ← List.filter_append, List.take_append_drop]
    have hz : (ds.drop j).filter (fun x => decide (x < ds[j])) = [] := by
      refine List.filter_eq_nil_iff.mpr fun x hx => ?_
      obtain ⟨m, hm, rfl⟩ := List.getElem_of_mem hx
      rw [List.getElem_drop]
      have hml : j + m < ds.length := by rw [List.length_drop] at hm; omega
      have : ds[j] ≤ ds[j + m] := by
        rcases Nat.eq_zero_or_pos m with rfl | h
        · exact le_refl _
        · exact List.pairwise_iff_getElem.mp hsort j (j + m) hjd hml (by omega)
      simpa using this
    rw [hsplit, hz]
    have := List.length_filter_le (fun x => decide (x < ds[j])) (ds.take j)
    have h2 : (ds.take j).length ≤ j := List.length_take_le _ _
    simp only [List.length_nil]
    omega
  · have hall : (ds.take (j + 1)).filter (fun x => decide (x ≤ ds[j])) = ds.take (j + 1) := by
      refine List.filter_eq_self.mpr fun x hx => ?_
      obtain ⟨m, hm, rfl⟩ := List.getElem_of_mem hx
      rw [List.getElem_take]
      have hml : m < j + 1 := by rw [List.length_take] at hm; omega
      have : ds[m] ≤ ds[j] := by
        rcases Nat.lt_or_ge m j with h | h
        · exact List.pairwise_iff_getElem.mp hsort m j (by omega) hjd h
        · have : m = j := by omega
          subst this; exact le_refl _
      simpa using this
    have hsub : ((ds.take (j + 1)).filter fun x => decide (x ≤ ds[j])).length ≤ (ds.filter fun x => decide (x ≤ ds[j])).length :=
      ((List.take_sublist _ _).filter _).length_le
    rw [hall, List.length_take] at hsub
    omega

/-- The nearest neighbour of 0 among 0, 1 and 4 is 1. -/
example : neighbourDistance ([![0], ![1], ![4]] : List (Vec 1)) 1 ![0] = 1 := by
  have h : ([![0], ![1], ![4]] : List (Vec 1)).map (fun q => norm (![0] - q)) = [0, 1, 4] := by
    have h4 : √(4 * 4 : ℝ) = 4 := Real.sqrt_mul_self (by norm_num)
    simp [norm, dotProduct, h4]
  rw [neighbourDistance, h]
  simp [List.mergeSort, List.MergeSort.Internal.splitInTwo]

/-- C93. With fewer than two points there are no seeds. -/
theorem C93_few {k : ℕ} (argsort : List ℝ → List ℕ) (points : List (Option (Vec k))) (n knn : ℕ) (h : points.length < 2) :
    sparseSeeds argsort points n knn = .ok none := if_pos h

/-! ## C94: without profile parameters -/

/-- C94. Without profile parameters the curvature is that of the negative logarithm of the likelihood. -/
theorem C94_block {n k : ℕ} (H : Matrix (Fin n) (Fin n) ℝ) (c : Fin k → Fin n) (p : Fin 0 → Fin n) (x : Vec k) :
    quadratic (information H c p) x = -∑ i, ∑ j, x i * H (c i) (c j) * x j := by
  unfold information quadratic
  rw [if_pos rfl, Matrix.neg_mulVec, dotProduct_neg]
  congr 1
  simp only [dotProduct, Matrix.mulVec, Matrix.submatrix_apply, Finset.mul_sum]
  exact Finset.sum_congr rfl fun i _ => Finset.sum_congr rfl fun j _ => by ring

example : quadratic (information (!![-4, 1; 1, -3] : Matrix (Fin 2) (Fin 2) ℝ) ![1] (Fin.elim0 : Fin 0 → Fin 2)) ![2] = 12 := by
  rw [C94_block]
  simp
  norm_num

/-! ## C95: the start of the search, and exceptions -/

/-- C95. A basin at or above the level has no points, and nothing is drawn for it. -/
theorem C95_above {k : ℕ} (G : Gen k) (R : Rays k) (n : ℕ) (s : G.State) (v : ℝ) (hv : R.F.nll (some R.anchor) = .ok (some v)) (h : R.T ≤ v) :
    radialSearch G R n s = .ok ([], s) := by
  simp only [radialSearch, atAnchor, hv, if_pos h]

/-- C95. An exception of the root finder other than `ValueError` ends the search along a direction, and is not taken for "no crossing". -/
theorem C95_raises (brent : Brent) (f : ℝ → Except Err Num) (g : ℝ → ℝ) (hf : ∀ x, f x = .ok (some (g x))) (r0 eff : ℝ) (h0 : 0 < r0)
    (heff : 1e-10 ≤ eff) (hlo : g 1e-8 < 0) (hhi : 0 < g eff) (e : Err) (he : e ≠ .value) (hb : ∀ hi, brent f 1e-8 hi = .error e) :
    ray brent f r0 eff = .error e := by
  have heff0 : 0 < eff := lt_of_lt_of_le (by norm_num) heff
  have hr := lt_min h0 heff0
  unfold ray
  rw [if_neg (not_lt.mpr heff), hf]
  simp only
  rw [if_neg (show ¬ Num.Le (some 0) (some (g 1e-8)) from not_le.mpr hlo)]
  have hends := grow_ends f eff _ hr (min_le_right r0 eff)
  have hnoerr : ∀ n r e, grow f eff n r ≠ .error e := by
    intro n
    induction n with
    | zero => intro r e h; simp [grow] at h
    | succ n ih =>
      intro r e h
      simp only [grow, hf] at h
      split at h
      · exact ih _ _ h
      · simp at h
  cases hg : grow f eff (rounds (min r0 eff) eff) (min r0 eff) with
  | error e => exact absurd hg (hnoerr _ _ _)
  | ok o =>
    cases o with
    | none => exact absurd hg hends
    | some hi =>
      have hpos : 0 < g hi := by
        rcases grow_last f eff _ _ hi hg (min_le_right _ _) with rfl | ⟨v, hv, hn⟩
        · exact hhi
        · rw [hf] at hv
          simp only [Except.ok.injEq] at hv
          subst hv
          exact not_le.mp hn
      simp only [hf]
      rw [if_neg (show ¬ Num.Le (some (g hi)) (some 0) from not_le.mpr hpos), hb]
      cases e <;> first | rfl | exact absurd rfl he

example : ray (fun _ _ _ => .error .runtime) (fun r => .ok (some (r ^ 2 / 2 - 2))) 1 30 = .error .runtime :=
  C95_raises _ _ (fun r => r ^ 2 / 2 - 2) (fun _ => rfl) 1 30 one_pos (by norm_num) (by norm_num) (by norm_num) _ (by simp) fun _ => rfl

/-! ## C97: the number of points -/

theorem walkLoop_length {k : ℕ} (F : Target k) (w : Walk k) (raw : ℕ → Vec k) (n : ℕ) :
    ∀ step θ p d l, walkLoop F w raw n step θ p d = .ok l → l.length ≤ n := by
  induction n with
  | zero => intro step θ p d l h; simp only [walkLoop, Except.ok.injEq] at h; subst h; simp
  | succ n ih =>
    intro step θ p d l h
    simp only [walkLoop] at h
    split at h
    · simp at h
    · split at h
      · simp only [Except.ok.injEq] at h; subst h; simp
      · split at h
        · simp only [Except.ok.injEq] at h; subst h; simp
        · split at h
          · simp at h
          · rename_i l' hl'
            simp only [Except.ok.injEq] at h
            subst h
            simpa using ih _ _ _ _ _ hl'

theorem rattleWalk_length {k : ℕ} (F : Target k) (w : Walk k) (raw : ℕ → Vec k) (start : Option (Vec k)) (l : List (Option (Vec k)))
    (h : rattleWalk F w raw start = .ok l) : 1 ≤ l.length ∧ l.length ≤ w.nSteps + 1 := by
  unfold rattleWalk at h
  split at h
  · simp at h
  · split at h
    · simp at h
    · split at h
      · simp at h
      · rename_i l' hl'
        simp only [Except.ok.injEq] at h
        subst h
        have := walkLoop_length F w raw _ _ _ _ _ _ hl'
        simp only [List.length_cons]
        omega

theorem flatten_length_le {α : Type} (m : ℕ) (ts : List (List α)) (h : ∀ t ∈ ts, t.length ≤ m) : ts.flatten.length ≤ ts.length * m := by
  induction ts with
  | nil => simp
  | cons t ts ih =>
    have h1 := h t (List.mem_cons_self ..)
    have h2 := ih fun t ht => h t (List.mem_cons_of_mem _ ht)
    rw [List.flatten_cons, List.length_append, List.length_cons, Nat.add_mul, Nat.one_mul]
    omega

theorem runChains_length {k : ℕ} (G : Gen k) (F : Target k) (w : Walk k) (stream : ℕ → ℕ → Vec k) (sch : Option (List ℕ))
    (starts : List (Option (Vec k))) (s s' : G.State) (l : List (Option (Vec k)))
    (h : runChains G F w stream sch starts s = .ok (l, s')) : l.length ≤ starts.length * (w.nSteps + 1) := by
  obtain ⟨-, ts, rfl, hlen, hts⟩ := C65_seeds G F w stream sch starts s s' l h
  rw [← hlen]
  refine flatten_length_le _ _ fun t ht => ?_
  obtain ⟨i, hi, rfl⟩ := List.getElem_of_mem ht
  obtain ⟨t, ht, hw⟩ := hts i _ (List.getElem?_eq_getElem (by omega))
  rw [List.getElem?_eq_getElem hi, Option.some.injEq] at ht
  rw [ht]
  exact (rattleWalk_length F w _ _ _ hw).2

theorem sparseSeeds_length {k : ℕ} (argsort : List ℝ → List ℕ) (points : List (Option (Vec k))) (n knn : ℕ) (hn : n ≠ 0)
    (l : List (Vec k)) (h : sparseSeeds argsort points n knn = .ok (some l)) : l.length ≤ n := by
  unfold sparseSeeds at h
  split at h
  · simp at h
  · rename_i h2
    split at h
    · simp at h
    · rename_i ps hps
      simp only [Except.ok.injEq, Option.some.injEq] at h
      subst h
      refine (List.length_filterMap_le _ _).trans ?_
      have hne : ps ≠ [] := by
        rintro rfl
        cases points with
        | nil => simp at h2
        | cons a r =>
          cases a with
          | none => simp [allSome] at hps
          | some a => rw [allSome] at hps; split at hps <;> simp at hps
      have hps0 : 0 < ps.length := List.length_pos_of_ne_nil hne
      rw [lastSlice_pos _ _ (by omega), List.length_drop]
      omega

theorem passes_length {k : ℕ} (G : Gen k) (S : Setup k) (hn : S.nChains ≠ 0) (T : ℝ) (n : ℕ) :
    ∀ c col s r, passes G S T n c col s = .ok r → r.1.length ≤ n * (S.nChains * (S.nSteps + 1)) := by
  induction n with
  | zero => intro c col s r h; simp only [passes, Except.ok.injEq] at h; subst h; simp
  | succ n ih =>
    intro c col s r h
    simp only [passes] at h
    split at h
    · simp at h
    · simp only [Except.ok.injEq] at h; subst h; simp
    · simp only [Except.ok.injEq] at h; subst h; simp
    · rename_i starts _ hs
      split at h
      · simp at h
      · rename_i new s1 hr
        split at h
        · simp at h
        · rename_i l c' s2 hp
          simp only [Except.ok.injEq] at h
          subst h
          have h1 := runChains_length G S.F _ _ _ _ _ _ _ hr
          have h2 := sparseSeeds_length _ _ _ _ hn _ hs
          have h3 := ih _ _ _ _ hp
          rw [List.length_map] at h1
          have h4 : starts.length * ((S.walk T).nSteps + 1) ≤ S.nChains * (S.nSteps + 1) := Nat.mul_le_mul_right _ h2
          simp only [List.length_append, Nat.add_mul, Nat.one_mul] at *
          omega

theorem radialLoop_length {k : ℕ} (G : Gen k) (R : Rays k) (r0 : ℝ) (n : ℕ) :
    ∀ s r, radialLoop G R r0 n s = .ok r → r.1.length ≤ n := by
  induction n with
  | zero => intro s r h; simp only [radialLoop, Except.ok.injEq] at h; subst h; simp
  | succ n ih =>
    intro s r h
    simp only [radialLoop] at h
    split at h
    · exact (ih _ _ h).trans (Nat.le_succ n)
    · split at h
      · simp at h
      · exact (ih _ _ h).trans (Nat.le_succ n)
      · split at h
        · simp at h
        · rename_i l s' hl
          simp only [Except.ok.injEq] at h
          subst h
          simpa using ih _ _ hl

theorem radialSearch_length {k : ℕ} (G : Gen k) (R : Rays k) (n : ℕ) (s : G.State) (r : List (Vec k × Vec k) × G.State)
    (h : radialSearch G R n s = .ok r) : r.1.length ≤ n := by
  unfold radialSearch at h
  split at h
  · simp at h
  · split at h
    · simp only [Except.ok.injEq] at h; subst h; simp
    · exact radialLoop_length G R _ n s r h

theorem gapDirections_length {k : ℕ} (argsort : List ℝ → List ℕ) (found cands : List (Vec k)) (n : ℕ) :
    (gapDirections argsort found cands n).length ≤ n := by
  unfold gapDirections
  split
  · exact List.length_take_le _ _
  · exact (List.length_filterMap_le _ _).trans (List.length_take_le _ _)

theorem basin_length {k : ℕ} (G : Gen k) (S : Setup k) (hn : S.nChains ≠ 0) (T : ℝ) (a : Vec k) (c : ℕ) (s : G.State) (r : Part k × ℕ × G.State)
    (h : basin G S T a c s = .ok r) :
    r.1.radial.length ≤ S.nRadial ∧ r.1.chain.length ≤ max 1 S.nPasses * (S.nChains * (S.nSteps + 1)) := by
  unfold basin at h
  split at h
  · simp at h
  · split at h
    · simp at h
    · rename_i M _ radial s1 hr
      have h0 := radialSearch_length G _ _ _ _ hr
      split at h
      · simp only [Except.ok.injEq] at h; subst h; simpa using h0
      · rename_i hk
        simp only [not_or] at hk
        split at h
        rename_i cands s2 hcand
        split at h
        · simp at h
        · dsimp only at h
          split at h
          · simp at h
          · rename_i pts s3 hc
            split at h
            · simp at h
            · rename_i more c' s4 hp
              simp only [Except.ok.injEq] at h
              subst h
              have h1 := runChains_length G S.F _ _ _ _ _ _ _ hc
              have h2 := passes_length G S hn T _ _ _ _ _ hp
              rw [List.length_map, C92_starts _ _ _ (fun he => hk.2 (by rw [he]; rfl))] at h1
              have h3 := Nat.mul_le_mul_right ((S.walk T).nSteps + 1) (gapDirections_length S.argsort (radial.map Prod.snd) cands S.nChains)
              refine ⟨by simpa using h0, ?_⟩
              have h4 := h1.trans h3
              have h5 : max 1 S.nPasses = (S.nPasses - 1) + 1 := by omega
              rw [h5, Nat.add_mul, Nat.one_mul, List.length_append]
              have h6 : S.nChains * ((S.walk T).nSteps + 1) = S.nChains * (S.nSteps + 1) := rfl
              have h7 : more.length ≤ (S.nPasses - 1) * (S.nChains * (S.nSteps + 1)) := h2
              omega

theorem allBasins_length {k : ℕ} (G : Gen k) (S : Setup k) (hn : S.nChains ≠ 0) (T : ℝ) (l : List (Vec k × ℝ)) :
    ∀ c s ps, allBasins G S T l c s = .ok ps → ps.length = l.length ∧
      ∀ p ∈ ps, p.radial.length ≤ S.nRadial ∧ p.chain.length ≤ max 1 S.nPasses * (S.nChains * (S.nSteps + 1)) := by
  induction l with
  | nil => intro c s ps h; simp only [allBasins, Except.ok.injEq] at h; subst h; simp
  | cons b l ih =>
    intro c s ps h
    simp only [allBasins] at h
    split at h
    · simp at h
    · rename_i p c' s' hb
      split at h
      · simp at h
      · rename_i ps' hps
        simp only [Except.ok.injEq] at h
        subst h
        obtain ⟨h1, h2⟩ := ih _ _ _ hps
        refine ⟨by simp [h1], fun q hq => ?_⟩
        rcases List.mem_cons.mp hq with rfl | hq
        · exact basin_length G S hn T _ _ _ _ hb
        · exact h2 q hq

/-- C97. There are at most as many points as the settings allow: for each of at most `n_multistart` basins `n_radial` points of rays, and
for each pass `n_hmc_chains` walks of `n_steps` steps and the point they start from. (For no chains see C93.) -/
theorem C97_count {k : ℕ} (G : Gen k) (S : Setup k) (hn : S.nChains ≠ 0) (primary : Vec k × ℝ) (s : G.State) (res : Result k)
    (h : findContour G S primary s = .ok res) :
    res.points.length ≤ max 1 S.nMultistart * (S.nRadial + max 1 S.nPasses * (S.nChains * (S.nSteps + 1))) ∧
      res.fromRadial.count true ≤ max 1 S.nMultistart * S.nRadial := by
  obtain ⟨starts, s', best, rest, parts, hst, hb, ha, _, _, _, _, h5, h6⟩ := find_ok G S primary s res h
  obtain ⟨h1, h2⟩ := allBasins_length G S hn _ _ _ _ _ ha
  have hlen : (best :: rest).length ≤ max 1 S.nMultistart := by
    rw [← hb]
    obtain ⟨r, hr, hsub⟩ := dedup_append S.dedupTol
      ((primary :: polish S.minimise starts).mergeSort fun a b => decide (a.2 ≤ b.2)) []
    rw [basins, hr, List.nil_append]
    have hp : ∀ l : List (Vec k), (polish S.minimise l).length ≤ l.length := by
      intro l
      induction l with
      | nil => simp [polish]
      | cons x l ih => rw [polish]; split <;> simp <;> omega
    have h8 := hsub.length_le
    rw [List.length_mergeSort, List.length_cons] at h8
    have h9 := hp starts
    have h10 : starts.length = max 1 S.nMultistart - 1 := by
      have := (startPoints_mem G S.bounds primary.1 5 (max 1 S.nMultistart - 1) s).1
      rw [hst] at this; exact this
    omega
  have hact : (activeBasins (best.2 + S.quantile) best (best :: rest)).length ≤ max 1 S.nMultistart := by
    unfold activeBasins
    split
    · simp
    · exact (List.length_filter_le _ _).trans hlen
  have hrad := flatten_length_le S.nRadial (parts.map Part.radial) (by
    intro t ht; obtain ⟨p, hp, rfl⟩ := List.mem_map.mp ht; exact (h2 p hp).1)
  have hch := flatten_length_le (max 1 S.nPasses * (S.nChains * (S.nSteps + 1))) (parts.map Part.chain) (by
    intro t ht; obtain ⟨p, hp, rfl⟩ := List.mem_map.mp ht; exact (h2 p hp).2)
  rw [List.length_map, h1] at hrad hch
  have hrad' := hrad.trans (Nat.mul_le_mul_right _ hact)
  have hch' := hch.trans (Nat.mul_le_mul_right _ hact)
  constructor
  · rw [h5, List.length_append, List.length_map, Nat.mul_add]
    omega
  · rw [h6, List.count_append, List.count_replicate, List.count_replicate]
    simpa using hrad'

example : ∃ res r, findContour exGen (exSetup idealBrent (-10)) (![0], 0) () = .ok res ∧ res.points = [some ![r]] ∧
    res.points.length ≤ max 1 (exSetup idealBrent (-10)).nMultistart * ((exSetup idealBrent (-10)).nRadial +
      max 1 (exSetup idealBrent (-10)).nPasses * ((exSetup idealBrent (-10)).nChains * ((exSetup idealBrent (-10)).nSteps + 1))) := by
  obtain ⟨res, r, h, hp, -⟩ := ex_find idealBrent (-10) ideal_bracket ideal_accurate ideal_converges
  exact ⟨res, r, h, hp, (C97_count _ _ (by simp [exSetup]) _ _ _ h).1⟩

end Verif.Contour
