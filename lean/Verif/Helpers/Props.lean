import Verif.Helpers.Lemmas

/-!
# C44-C46: covariance matrices and merged bins
-/

namespace Verif.Helpers
open Verif.Py F

/-! ## C44 -/

/-- The covariance matrix of the documentation. -/
def cov2 : ℕ → ℕ → ℝ := fun i j => if i = j then (if i = 0 then 4 else 16) else 2

theorem cov2_pos : ∀ k, k < 2 → 0 < cov2 k k := by
  intro k _
  simp only [cov2, if_true]
  split <;> norm_num

theorem cov2_sym : Sym 2 cov2 := by
  intro i j hi hj
  simp only [cov2]
  by_cases h : i = j
  · subst h; rfl
  · simp [h, Ne.symm h]

theorem cov2_psd : PSD 2 cov2 := by
  intro x
  simp only [Finset.sum_range_succ, Finset.sum_range_zero, cov2]
  norm_num
  nlinarith [sq_nonneg (x 0 + x 1), sq_nonneg (x 0), sq_nonneg (x 1)]

/-- C44: with positive variances, `covariance_to_correlation` divides every entry by the two standard deviations, and
`correlation_to_covariance` multiplies by them. -/
theorem C44_entries (n : ℕ) (S : ℕ → ℕ → ℝ) (s : ℕ → ℝ) (i j : ℕ) (hi : i < n) (hj : j < n) :
    ((∀ k, k < n → 0 < S k k) → covToCorr n (fl S) i j = fin (S i j / (Real.sqrt (S i i) * Real.sqrt (S j j)))) ∧
    corrToCov n (fl S) (fun k => fin (s k)) i j = fin (s i * S i j * s j) :=
  ⟨fun h => covToCorr_fin (fun _ _ _ _ => rfl) h hi hj, corrToCov_fin (fun _ _ _ _ => rfl) (fun _ _ => rfl) hi hj⟩

example : covToCorr 2 (fl cov2) 0 1 = fin (2 / (Real.sqrt 4 * Real.sqrt 16)) :=
  ((C44_entries 2 cov2 (fun _ => 1) 0 1 (by norm_num) (by norm_num)).1 cov2_pos).trans (by norm_num [cov2])

/-- C44: the result for a symmetric positive semi-definite matrix with positive variances is a correlation matrix: symmetric,
with unit diagonal, all entries in [-1, 1], and again positive semi-definite. -/
theorem C44_correlations (n : ℕ) (S : ℕ → ℕ → ℝ) (hs : Sym n S) (h : PSD n S) (hd : ∀ k, k < n → 0 < S k k) :
    ∃ R : ℕ → ℕ → ℝ, (∀ i j, i < n → j < n → covToCorr n (fl S) i j = fin (R i j)) ∧ Sym n R ∧ PSD n R ∧
      (∀ i, i < n → R i i = 1) ∧ ∀ i j, i < n → j < n → -1 ≤ R i j ∧ R i j ≤ 1 := by
  refine ⟨fun i j => S i j / (Real.sqrt (S i i) * Real.sqrt (S j j)), fun i j hi hj => (C44_entries n S (fun _ => 1) i j hi hj).1 hd,
    ?_, ?_, ?_, ?_⟩
  · intro i j hi hj
    simp only [hs i j hi hj, mul_comm]
  · intro x
    have := h fun i => x i / Real.sqrt (S i i)
    refine le_of_le_of_eq this (Finset.sum_congr rfl fun i _ => Finset.sum_congr rfl fun j _ => ?_)
    rw [div_mul_eq_mul_div, div_mul_div_comm, mul_div_assoc']
    rw [div_mul_eq_mul_div]
  · intro i hi
    simp only
    rw [Real.mul_self_sqrt (hd i hi).le, div_self (hd i hi).ne']
  · intro i j hi hj
    have h1 := Real.sqrt_pos.mpr (hd i hi)
    have h2 := Real.sqrt_pos.mpr (hd j hj)
    have h3 : |S i j| ≤ Real.sqrt (S i i) * Real.sqrt (S j j) := by
      rw [← Real.sqrt_mul (hd i hi).le]
      exact Real.abs_le_sqrt (psd_minor hs h hi hj (hd j hj))
    rw [← abs_le, abs_div, abs_of_pos (mul_pos h1 h2)]
    exact (div_le_one (mul_pos h1 h2)).mpr h3

example : ∃ R : ℕ → ℕ → ℝ, (∀ i j, i < 2 → j < 2 → covToCorr 2 (fl cov2) i j = fin (R i j)) ∧ R 0 0 = 1 := by
  obtain ⟨R, h1, _, _, h2, _⟩ := C44_correlations 2 cov2 cov2_sym cov2_psd cov2_pos
  exact ⟨R, h1, h2 0 (by norm_num)⟩

/-- C44: the conversions are inverse to each other. For positive standard deviations and a matrix of unit diagonal, the
correlations of the covariance matrix are those given; for positive variances, the covariance matrix made of the correlations
and the standard deviations is the given one. -/
theorem C44_inverse (n : ℕ) (i j : ℕ) (hi : i < n) (hj : j < n) :
    (∀ (R : ℕ → ℕ → ℝ) (s : ℕ → ℝ), (∀ k, k < n → R k k = 1) → (∀ k, k < n → 0 < s k) →
      covToCorr n (corrToCov n (fl R) fun k => fin (s k)) i j = fin (R i j)) ∧
    (∀ S : ℕ → ℕ → ℝ, (∀ k, k < n → 0 < S k k) →
      corrToCov n (covToCorr n (fl S)) (fun k => fin (Real.sqrt (S k k))) i j = fin (S i j)) := by
  constructor
  · intro R s hR hs
    have h1 : ∀ a b, a < n → b < n → corrToCov n (fl R) (fun k => fin (s k)) a b = fin (s a * R a b * s b) :=
      fun a b ha hb => (C44_entries n R s a b ha hb).2
    rw [covToCorr_fin h1 (fun k hk => by rw [hR k hk, mul_one]; exact mul_pos (hs k hk) (hs k hk)) hi hj]
    rw [hR i hi, hR j hj, mul_one, mul_one, Real.sqrt_mul_self (hs i hi).le, Real.sqrt_mul_self (hs j hj).le]
    congr 1
    have := (hs i hi).ne'
    have := (hs j hj).ne'
    field_simp
  · intro S hS
    have h1 : ∀ a b, a < n → b < n → covToCorr n (fl S) a b = fin (S a b / (Real.sqrt (S a a) * Real.sqrt (S b b))) :=
      fun a b ha hb => (C44_entries n S (fun _ => 1) a b ha hb).1 hS
    rw [corrToCov_fin h1 (fun k _ => rfl) hi hj]
    congr 1
    have := (Real.sqrt_pos.mpr (hS i hi)).ne'
    have := (Real.sqrt_pos.mpr (hS j hj)).ne'
    field_simp

example : corrToCov 2 (covToCorr 2 (fl cov2)) (fun k => fin (Real.sqrt (cov2 k k))) 0 1 = fin 2 :=
  ((C44_inverse 2 0 1 (by norm_num) (by norm_num)).2 cov2 cov2_pos).trans (by norm_num [cov2])

/-- C44, what is not true: a bin without variance (a valid covariance matrix may have one) makes its row nan. -/
theorem C44_zero_variance_fails (n : ℕ) (S : ℕ → ℕ → ℝ) (i : ℕ) (hi : i < n) (h : S i i = 0) (j : ℕ) :
    covToCorr n (fl S) i j = nan := by
  have hinv : sigmaInv (fl S) i = pinf := by
    simp [sigmaInv, fl, h, sqrt, div, infOf]
  have hin : matmul n (diag (sigmaInv (fl S))) (fl S) i i = nan := by
    refine dot_nan hi ?_
    simp [diag, hinv, fl, h, mul]
  refine dot_nan hi ?_
  rw [hin]
  cases (diag (sigmaInv (fl S)) i j) <;> rfl

example : PSD 2 (fun _ _ => 0) ∧ covToCorr 2 (fl fun _ _ => 0) 1 0 = nan :=
  ⟨fun x => by simp, C44_zero_variance_fails 2 _ 1 (by norm_num) rfl 0⟩

/-! ## C45 -/

/-- The example of the documentation, with the last bin left alone. -/
noncomputable def doc : Input where
  background := [10, 20, 30, 40]
  data := [12, 22, 32, 42]
  rows := 4
  cols := 4
  cov := fun i j => if i = j then 4 else 1 / 2
  groups := [[2, 0]]
  signal := none

theorem doc_fits : Fits doc where
  pos := by norm_num [doc]
  square := rfl
  background := rfl
  data := rfl
  signal := by simp [doc]

/-- C45: the function succeeds exactly if all lengths agree, there is a bin, and every index of a group is a valid index of
an array of that length. -/
theorem C45_succeeds (x : Input) :
    (∃ m, merge x = .ok m) ↔ Fits x ∧ ∀ g ∈ x.groups, ∀ z ∈ g, -(x.rows : ℤ) ≤ z ∧ z < x.rows := by
  constructor
  · rintro ⟨m, h⟩
    obtain ⟨hf, pos, hp, _⟩ := merge_ok h
    exact ⟨hf, (fullGroups_inRange _ _).mp (resolveAll_ok.mp ⟨pos, hp⟩)⟩
  · rintro ⟨hf, hr⟩
    obtain ⟨pos, hp⟩ := resolveAll_ok.mpr ((fullGroups_inRange x.rows x.groups).mpr hr)
    exact ⟨_, by rw [merge_fits hf, hp]⟩

example : ∃ m, merge doc = .ok m :=
  (C45_succeeds doc).mpr ⟨doc_fits, by
    intro g hg z hz
    simp only [doc, List.mem_singleton] at hg
    subst hg
    simp only [List.mem_cons, List.not_mem_nil, or_false] at hz
    rcases hz with rfl | rfl <;> norm_num [doc]⟩

/-- C45: the new bins. First one for every given group, in the given order, then one for every bin that no group names, in
ascending order. The yields of a new bin are the sums over its group, the covariance of two new bins is the sum over all pairs. -/
theorem C45_bins (x : Input) (m : Merged) (h : merge x = .ok m) :
    m.groups = x.groups ++ ((List.range x.rows).filter fun (i : ℕ) => (i : ℤ) ∉ x.groups.flatten).map (fun (i : ℕ) => [(i : ℤ)]) ∧
    m.background.length = m.groups.length ∧ m.data.length = m.groups.length ∧
    (∀ s, x.signal = some s → ∃ s', m.signal = some s' ∧ s'.length = m.groups.length) ∧
    ∀ k g, m.groups[k]? = some g → ∃ p : List ℕ, resolve x.rows g = .ok p ∧
      m.background[k]? = some (p.map fun a => x.background.getD a 0).sum ∧
      m.data[k]? = some (p.map fun a => x.data.getD a 0).sum ∧
      (∀ s, x.signal = some s → ∃ s', m.signal = some s' ∧ s'[k]? = some (p.map fun a => s.getD a 0).sum) ∧
      ∀ l g', m.groups[l]? = some g' → ∃ p' : List ℕ, resolve x.rows g' = .ok p' ∧
        m.cov k l = (p.map fun a => (p'.map fun b => x.cov a b).sum).sum := by
  obtain ⟨hf, pos, hp, rfl⟩ := merge_ok h
  have hl := resolveAll_length hp
  have hget : ∀ (gs : List (List ℤ)) (ps : List (List ℕ)), resolveAll x.rows gs = .ok ps → ∀ (k : ℕ) g, gs[k]? = some g →
      ∃ p, ps[k]? = some p ∧ resolve x.rows g = .ok p := by
    intro gs
    induction gs with
    | nil => intro ps _ k g hk; simp at hk
    | cons g0 gs ih =>
      intro ps hps k g hk
      obtain ⟨p0, ps', h1, h2, rfl⟩ := resolveAll_cons hps
      cases k with
      | zero =>
        simp only [List.getElem?_cons_zero, Option.some.injEq] at hk
        subst hk
        exact ⟨p0, by simp, h1⟩
      | succ k =>
        simp only [List.getElem?_cons_succ] at hk
        obtain ⟨p, hp1, hp2⟩ := ih ps' h2 k g hk
        exact ⟨p, by simpa using hp1, hp2⟩
  refine ⟨by simp [mergeGroups, fullGroups, mergedIndices], by simp [mergeGroups, hl], by simp [mergeGroups, hl], ?_, ?_⟩
  · intro s hs
    exact ⟨pos.map (pick s), by simp [mergeGroups, hs], by simp [mergeGroups, hl]⟩
  · intro k g hk
    obtain ⟨p, h1, h2⟩ := hget _ _ hp k g hk
    refine ⟨p, h2, ?_, ?_, ?_, ?_⟩
    · simp [mergeGroups, h1, pick]
    · simp [mergeGroups, h1, pick]
    · intro s hs
      exact ⟨pos.map (pick s), by simp [mergeGroups, hs], by simp [h1, pick]⟩
    · intro l g' hl'
      obtain ⟨p', h1', h2'⟩ := hget _ _ hp l g' hl'
      refine ⟨p', h2', ?_⟩
      simp only [mergeGroups, List.getD_eq_getElem?_getD, h1, h1', Option.getD_some, block]

example : ∀ m, merge doc = .ok m → m.groups = [[2, 0], [1], [3]] := by
  intro m h
  rw [(C45_bins doc m h).1]
  simp only [doc]
  decide

/-- C45, what holds for all groupings: in the total of the new bins, every original bin counts as often as it is referred to
(once, if no group names it); in the sum of the covariance matrix, every pair counts with the product. -/
theorem C45_totals (x : Input) (m : Merged) (h : merge x = .ok m) :
    m.data.sum = ∑ a ∈ Finset.range x.rows, (mult x.rows x.groups a : ℝ) * x.data.getD a 0 ∧
    m.background.sum = ∑ a ∈ Finset.range x.rows, (mult x.rows x.groups a : ℝ) * x.background.getD a 0 ∧
    (∀ s s', x.signal = some s → m.signal = some s' →
      s'.sum = ∑ a ∈ Finset.range x.rows, (mult x.rows x.groups a : ℝ) * s.getD a 0) ∧
    ∑ i ∈ Finset.range m.groups.length, ∑ j ∈ Finset.range m.groups.length, m.cov i j =
      ∑ a ∈ Finset.range x.rows, ∑ b ∈ Finset.range x.rows,
        (mult x.rows x.groups a : ℝ) * x.cov a b * (mult x.rows x.groups b : ℝ) := by
  obtain ⟨hf, pos, hp, rfl⟩ := merge_ok h
  have hlt := resolveAll_lt hp
  have hc : ∀ a, a < x.rows → pos.flatten.count a = mult x.rows x.groups a := by
    intro a ha
    rw [resolveAll_count hp a ha, fullGroups_count x.rows a ha]
  have hsum : ∀ v : List ℝ, (pos.map (pick v)).sum = ∑ a ∈ Finset.range x.rows, (mult x.rows x.groups a : ℝ) * v.getD a 0 := by
    intro v
    have := sum_picks x.rows (fun a => v.getD a 0) pos hlt
    rw [show (pos.map (pick v)).sum = (pos.map fun g => (g.map fun a => v.getD a 0).sum).sum from rfl, this]
    exact Finset.sum_congr rfl fun a ha => by rw [hc a (Finset.mem_range.mp ha)]
  refine ⟨hsum _, hsum _, ?_, ?_⟩
  · intro s s' hs hs'
    simp only [mergeGroups, hs, Option.map_some, Option.some.injEq] at hs'
    subst hs'
    exact hsum s
  · have hf := merged_form x.rows x.cov pos hlt (fun _ => 1)
    simp only [one_mul, mul_one] at hf
    have hlen : (mergeGroups x (fullGroups x.rows x.groups) pos).groups.length = pos.length := by
      simp [mergeGroups, resolveAll_length hp]
    rw [hlen]
    refine Eq.trans hf (Finset.sum_congr rfl fun a ha => Finset.sum_congr rfl fun b hb => ?_)
    rw [sum_getD_count, sum_getD_count, hc a (Finset.mem_range.mp ha), hc b (Finset.mem_range.mp hb)]

example : mult 4 [[0, 1, 1], [1, -4]] 0 = 2 ∧ mult 4 [[0, 1, 1], [1, -4]] 1 = 3 ∧ mult 4 [[0, 1, 1], [1, -4]] 3 = 1 := by
  decide

/-- C45: for disjoint groups every original bin belongs to exactly one new bin, and the totals of data, background, signal and
covariance are conserved. -/
theorem C45_conserved_partial (x : Input) (hf : Fits x) (hd : Disjoint x.rows x.groups) :
    ∃ m, merge x = .ok m ∧ m.groups.flatten.Perm ((List.range x.rows).map fun (i : ℕ) => (i : ℤ)) ∧
      m.data.sum = x.data.sum ∧ m.background.sum = x.background.sum ∧
      (∀ s, x.signal = some s → ∃ s', m.signal = some s' ∧ s'.sum = s.sum) ∧
      ∑ i ∈ Finset.range m.groups.length, ∑ j ∈ Finset.range m.groups.length, m.cov i j =
        ∑ a ∈ Finset.range x.rows, ∑ b ∈ Finset.range x.rows, x.cov a b := by
  obtain ⟨m, hm⟩ := (C45_succeeds x).mpr ⟨hf, fun g hg z hz => ⟨by have := hd.inRange g hg z hz; omega, (hd.inRange g hg z hz).2⟩⟩
  obtain ⟨h1, h2, h3, h4⟩ := C45_totals x m hm
  have hmult : ∀ a, a < x.rows → mult x.rows x.groups a = 1 := by
    intro a ha
    have hcount : (x.groups.flatten.countP fun z : ℤ => z = (a : ℤ) ∨ z = (a : ℤ) - x.rows) = x.groups.flatten.count (a : ℤ) := by
      rw [List.count]
      apply List.countP_congr
      intro z hz
      obtain ⟨g, hg, hz⟩ := List.mem_flatten.mp hz
      have := hd.inRange g hg z hz
      simp only [decide_eq_true_eq, beq_iff_eq]
      omega
    rw [mult, hcount]
    by_cases h : (a : ℤ) ∈ x.groups.flatten
    · rw [if_pos h, List.count_eq_one_of_mem hd.once h]
    · rw [if_neg h, List.count_eq_zero_of_not_mem h]
  have hs : ∀ v : List ℝ, v.length = x.rows →
      ∑ a ∈ Finset.range x.rows, (mult x.rows x.groups a : ℝ) * v.getD a 0 = v.sum := by
    intro v hv
    rw [getD_lt hv]
    exact Finset.sum_congr rfl fun a ha => by rw [hmult a (Finset.mem_range.mp ha)]; simp
  refine ⟨m, hm, ?_, h1.trans (hs _ hf.data), h2.trans (hs _ hf.background), ?_, ?_⟩
  · rw [(C45_bins x m hm).1, List.flatten_append]
    have hflat : ∀ l : List ℕ, (l.map fun (i : ℕ) => [(i : ℤ)]).flatten = l.map fun (i : ℕ) => (i : ℤ) := by
      intro l; induction l with
      | nil => rfl
      | cons x l ih => simp [ih]
    rw [hflat]
    refine (List.perm_ext_iff_of_nodup ?_ ?_).mpr ?_
    · rw [List.nodup_append]
      refine ⟨hd.once, ?_, ?_⟩
      · exact (List.nodup_range.filter _).map (fun a b h => by exact_mod_cast h)
      · intro a ha b hb
        rw [List.mem_map] at hb
        obtain ⟨i, hi, rfl⟩ := hb
        have := of_decide_eq_true (List.mem_filter.mp hi).2
        rintro rfl
        exact this ha
    · exact List.nodup_range.map (fun a b h => by exact_mod_cast h)
    · intro z
      rw [List.mem_append, List.mem_map, List.mem_map]
      constructor
      · rintro (hz | ⟨i, hi, rfl⟩)
        · obtain ⟨g, hg, hz⟩ := List.mem_flatten.mp hz
          have := hd.inRange g hg z hz
          exact ⟨z.toNat, List.mem_range.mpr (by omega), by omega⟩
        · exact ⟨i, (List.mem_filter.mp hi).1, rfl⟩
      · rintro ⟨i, hi, rfl⟩
        by_cases h : (i : ℤ) ∈ x.groups.flatten
        · exact Or.inl h
        · exact Or.inr ⟨i, List.mem_filter.mpr ⟨hi, decide_eq_true h⟩, rfl⟩
  · intro s hs'
    obtain ⟨s', hs'', _⟩ := (C45_bins x m hm).2.2.2.1 s hs'
    exact ⟨s', hs'', (h3 s s' hs' hs'').trans (hs s (hf.signal s hs'))⟩
  · rw [h4]
    refine Finset.sum_congr rfl fun a ha => Finset.sum_congr rfl fun b hb => ?_
    rw [hmult a (Finset.mem_range.mp ha), hmult b (Finset.mem_range.mp hb)]
    simp

theorem doc_disjoint : Disjoint doc.rows doc.groups where
  inRange := by
    intro g hg z hz
    simp only [doc, List.mem_singleton] at hg
    subst hg
    simp only [List.mem_cons, List.not_mem_nil, or_false] at hz
    rcases hz with rfl | rfl <;> norm_num [doc]
  once := by simp [doc]

example : ∃ m, merge doc = .ok m ∧ m.data.sum = 108 := by
  obtain ⟨m, h, _, hd, _⟩ := C45_conserved_partial doc doc_fits doc_disjoint
  exact ⟨m, h, by rw [hd]; norm_num [doc]⟩

/-- C45, what is not true: overlapping groups are not rejected, whatever they are, as the check compares a list without
repetitions with itself. Then yields are counted twice: here both groups contain bin 1, whose 22 events appear twice. -/
theorem C45_overlap_accepted_fails :
    (∀ x : Input, Fits x → (∀ g ∈ x.groups, ∀ z ∈ g, -(x.rows : ℤ) ≤ z ∧ z < x.rows) → ∃ m, merge x = .ok m) ∧
    ∃ m, merge { doc with groups := [[0, 1], [1, 2]] } = .ok m ∧ m.data = [34, 54, 42] ∧ m.data.sum = doc.data.sum + 22 := by
  refine ⟨fun x hf hr => (C45_succeeds x).mpr ⟨hf, hr⟩, ?_⟩
  have hf : Fits { doc with groups := [[0, 1], [1, 2]] } := ⟨doc_fits.1, doc_fits.2, doc_fits.3, doc_fits.4, doc_fits.5⟩
  refine ⟨_, by rw [merge_fits hf]; rfl, ?_, ?_⟩
  · simp [mergeGroups, pick, doc]; norm_num
  · simp [mergeGroups, pick, doc]; norm_num

/-- C45, what is not true: a negative index is accepted as well, but the bin it means is kept as a bin of its own, too. Here
the last bin is counted twice. -/
theorem C45_negative_index_fails :
    ∃ m, merge { doc with groups := [[0, -1]] } = .ok m ∧ m.data = [54, 22, 32, 42] ∧ m.data.sum = doc.data.sum + 42 := by
  have hf : Fits { doc with groups := [[0, -1]] } := ⟨doc_fits.1, doc_fits.2, doc_fits.3, doc_fits.4, doc_fits.5⟩
  refine ⟨_, by rw [merge_fits hf]; rfl, ?_, ?_⟩
  · simp [mergeGroups, pick, doc]; norm_num
  · simp [mergeGroups, pick, doc]; norm_num

/-! ## C46 -/

/-- C46: the merged matrix is symmetric and positive semi-definite if the given one is; for all groupings, also overlapping
ones. -/
theorem C46_covariance (x : Input) (m : Merged) (h : merge x = .ok m) :
    (Sym x.rows x.cov → Sym m.groups.length m.cov) ∧ (PSD x.rows x.cov → PSD m.groups.length m.cov) := by
  obtain ⟨hf, pos, hp, rfl⟩ := merge_ok h
  have hlt := resolveAll_lt hp
  have hlen : (mergeGroups x (fullGroups x.rows x.groups) pos).groups.length = pos.length := by
    simp [mergeGroups, resolveAll_length hp]
  rw [hlen]
  constructor
  · intro hs i j hi hj
    have hmem : ∀ i, i < pos.length → ∀ a ∈ pos.getD i [], a < x.rows := by
      intro i hi a ha
      refine hlt _ ?_ a ha
      rw [List.getD_eq_getElem?_getD, List.getElem?_eq_getElem hi]
      exact List.getElem_mem hi
    simp only [mergeGroups]
    rw [block_count x.rows x.cov _ _ (hmem i hi) (hmem j hj), block_count x.rows x.cov _ _ (hmem j hj) (hmem i hi),
      Finset.sum_comm]
    refine Finset.sum_congr rfl fun a ha => Finset.sum_congr rfl fun b hb => ?_
    rw [hs b a (Finset.mem_range.mp hb) (Finset.mem_range.mp ha)]
    ring
  · intro hs y
    have := merged_form x.rows x.cov pos hlt y
    simp only [mergeGroups]
    rw [this]
    exact hs _

/-- C46: the correlations between merged bins of positive variance lie in [-1, 1]. -/
theorem C46_correlations (x : Input) (m : Merged) (h : merge x = .ok m) (hs : Sym x.rows x.cov) (hp : PSD x.rows x.cov)
    (hd : ∀ k, k < m.groups.length → 0 < m.cov k k) (i j : ℕ) (hi : i < m.groups.length) (hj : j < m.groups.length) :
    ∃ r, covToCorr m.groups.length (fl m.cov) i j = fin r ∧ -1 ≤ r ∧ r ≤ 1 := by
  obtain ⟨R, h1, _, _, _, h2⟩ := C44_correlations m.groups.length m.cov ((C46_covariance x m h).1 hs) ((C46_covariance x m h).2 hp) hd
  exact ⟨R i j, h1 i j hi hj, h2 i j hi hj⟩

theorem doc_cov : Sym 4 doc.cov ∧ PSD 4 doc.cov := by
  constructor
  · intro i j _ _
    simp only [doc]
    by_cases h : i = j
    · subst h; rfl
    · simp [h, Ne.symm h]
  · intro x
    simp only [Finset.sum_range_succ, Finset.sum_range_zero, doc]
    norm_num
    nlinarith [sq_nonneg (x 0 + x 1 + x 2 + x 3), sq_nonneg (x 0), sq_nonneg (x 1), sq_nonneg (x 2), sq_nonneg (x 3)]

example : ∃ m, merge doc = .ok m ∧ PSD m.groups.length m.cov ∧ (∀ k, k < m.groups.length → 0 < m.cov k k) ∧
    m.groups.length = 3 := by
  have he : merge doc = .ok (mergeGroups doc [[2, 0], [1], [3]] [[2, 0], [1], [3]]) := by rw [merge_fits doc_fits]; rfl
  refine ⟨_, he, (C46_covariance doc _ he).2 doc_cov.2, ?_, rfl⟩
  intro k hk
  simp only [mergeGroups, List.length_cons, List.length_nil] at hk
  interval_cases k <;> norm_num [mergeGroups, block, doc]

example : ∃ m r, merge doc = .ok m ∧ covToCorr m.groups.length (fl m.cov) 0 1 = fin r ∧ -1 ≤ r ∧ r ≤ 1 := by
  have he : merge doc = .ok (mergeGroups doc [[2, 0], [1], [3]] [[2, 0], [1], [3]]) := by rw [merge_fits doc_fits]; rfl
  obtain ⟨r, h⟩ := C46_correlations doc _ he doc_cov.1 doc_cov.2 (by
    intro k hk
    simp only [mergeGroups, List.length_cons, List.length_nil] at hk
    interval_cases k <;> norm_num [mergeGroups, block, doc]) 0 1 (by simp [mergeGroups]) (by simp [mergeGroups])
  exact ⟨_, r, he, h⟩

end Verif.Helpers
