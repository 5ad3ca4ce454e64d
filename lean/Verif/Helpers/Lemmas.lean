import Verif.Helpers.Spec
import Mathlib.Algebra.BigOperators.Ring.Finset
import Mathlib.Algebra.BigOperators.Intervals
import Mathlib.Tactic.Ring
import Mathlib.Tactic.FieldSimp

/-!
# Lemmas on the helper functions
-/

namespace Verif.Helpers
open Verif.Py F

/-! ### Matrix products -/

theorem dot_congr {n : ℕ} {f g : ℕ → F} (h : ∀ k, k < n → f k = g k) : dot n f = dot n g := by
  induction n with
  | zero => rfl
  | succ n ih => rw [dot, dot, ih (fun k hk => h k (by omega)), h n (by omega)]

theorem dot_fin (n : ℕ) (g : ℕ → ℝ) : dot n (fun k => fin (g k)) = fin (∑ k ∈ Finset.range n, g k) := by
  induction n with
  | zero => simp [dot]
  | succ n ih => rw [dot, ih, Finset.sum_range_succ]; rfl

theorem dot_nan {n k : ℕ} (hk : k < n) {f : ℕ → F} (h : f k = nan) : dot n f = nan := by
  induction n with
  | zero => omega
  | succ n ih =>
    rw [dot]
    by_cases hkn : k = n
    · subst hkn; rw [h, add_nan]
    · rw [ih (by omega), nan_add]

theorem diag_mul {n i j : ℕ} (hi : i < n) {d : ℕ → ℝ} {v : ℕ → F} (hv : ∀ k, k < n → v k = fin (d k))
    {A : ℕ → ℕ → F} {B : ℕ → ℕ → ℝ} (hA : ∀ k, k < n → A k j = fin (B k j)) :
    matmul n (diag v) A i j = fin (d i * B i j) := by
  have : matmul n (diag v) A i j = dot n (fun k => fin ((if i = k then d i else 0) * B k j)) := by
    refine dot_congr fun k hk => ?_
    simp only [diag]
    split
    · rename_i h; subst h; rw [hv i hk, hA i hk]; rfl
    · rw [hA k hk]; rfl
  rw [this, dot_fin]
  simp [Finset.sum_ite_eq, hi]

theorem mul_diag {n i j : ℕ} (hj : j < n) {d : ℕ → ℝ} {v : ℕ → F} (hv : ∀ k, k < n → v k = fin (d k))
    {A : ℕ → ℕ → F} {B : ℕ → ℕ → ℝ} (hA : ∀ k, k < n → A i k = fin (B i k)) :
    matmul n A (diag v) i j = fin (B i j * d j) := by
  have : matmul n A (diag v) i j = dot n (fun k => fin (B i k * (if k = j then d k else 0))) := by
    refine dot_congr fun k hk => ?_
    simp only [diag]
    split
    · rw [hv k hk, hA k hk]; rfl
    · rw [hA k hk]; rfl
  rw [this, dot_fin]
  simp [Finset.sum_ite_eq', hj]

theorem sandwich {n i j : ℕ} (hi : i < n) (hj : j < n) {d : ℕ → ℝ} {v : ℕ → F} (hv : ∀ k, k < n → v k = fin (d k))
    {A : ℕ → ℕ → F} {B : ℕ → ℕ → ℝ} (hA : ∀ a b, a < n → b < n → A a b = fin (B a b)) :
    matmul n (matmul n (diag v) A) (diag v) i j = fin (d i * B i j * d j) := by
  refine mul_diag (B := fun a b => d a * B a b) hj hv fun k hk => ?_
  exact diag_mul hi hv fun a ha => hA a k ha hk

theorem sigmaInv_fin {n : ℕ} {S : ℕ → ℕ → F} {T : ℕ → ℕ → ℝ} (hS : ∀ a b, a < n → b < n → S a b = fin (T a b))
    (hd : ∀ k, k < n → 0 < T k k) (k : ℕ) (hk : k < n) : sigmaInv S k = fin (1 / Real.sqrt (T k k)) := by
  have h := hd k hk
  have hs : Real.sqrt (T k k) ≠ 0 := (Real.sqrt_pos.mpr h).ne'
  simp only [sigmaInv, hS k k hk hk, sqrt, div]
  rw [if_neg (not_lt.mpr h.le)]
  simp only
  rw [if_neg hs]

theorem covToCorr_fin {n : ℕ} {S : ℕ → ℕ → F} {T : ℕ → ℕ → ℝ} (hS : ∀ a b, a < n → b < n → S a b = fin (T a b))
    (hd : ∀ k, k < n → 0 < T k k) {i j : ℕ} (hi : i < n) (hj : j < n) :
    covToCorr n S i j = fin (T i j / (Real.sqrt (T i i) * Real.sqrt (T j j))) := by
  rw [covToCorr, sandwich hi hj (sigmaInv_fin hS hd) hS]
  congr 1
  rw [div_mul_eq_mul_div, one_mul, mul_one_div, div_div]

theorem corrToCov_fin {n : ℕ} {R : ℕ → ℕ → F} {T : ℕ → ℕ → ℝ} {s : ℕ → ℝ} {v : ℕ → F}
    (hR : ∀ a b, a < n → b < n → R a b = fin (T a b)) (hv : ∀ k, k < n → v k = fin (s k)) {i j : ℕ} (hi : i < n) (hj : j < n) :
    corrToCov n R v i j = fin (s i * T i j * s j) := sandwich hi hj hv hR

/-- The quadratic form at a vector supported on two indices. -/
theorem psd_two {n : ℕ} {S : ℕ → ℕ → ℝ} (h : PSD n S) {i j : ℕ} (hi : i < n) (hj : j < n) (hij : i ≠ j) (a b : ℝ) :
    0 ≤ a * S i i * a + a * S i j * b + (b * S j i * a + b * S j j * b) := by
  have hx := h (fun k => if k = i then a else if k = j then b else 0)
  have inner : ∀ k, ∑ l ∈ Finset.range n, (if k = i then a else if k = j then b else 0) * S k l *
      (if l = i then a else if l = j then b else 0) =
      (if k = i then a else if k = j then b else 0) * S k i * a + (if k = i then a else if k = j then b else 0) * S k j * b := by
    intro k
    have : ∀ l, (if k = i then a else if k = j then b else 0) * S k l * (if l = i then a else if l = j then b else 0) =
        (if l = i then (if k = i then a else if k = j then b else 0) * S k l * a else 0) +
        (if l = j then (if k = i then a else if k = j then b else 0) * S k l * b else 0) := by
      intro l
      by_cases h1 : l = i
      · have h2 : l ≠ j := by rintro rfl; exact hij h1.symm
        simp [h1, h1 ▸ h2]
      · simp [h1]
    rw [Finset.sum_congr rfl (fun l _ => this l), Finset.sum_add_distrib]
    simp [hi, hj]
  rw [Finset.sum_congr rfl (fun k _ => inner k)] at hx
  have outer : ∀ k, (if k = i then a else if k = j then b else 0) * S k i * a +
      (if k = i then a else if k = j then b else 0) * S k j * b =
      (if k = i then a * S k i * a + a * S k j * b else 0) + (if k = j then b * S k i * a + b * S k j * b else 0) := by
    intro k
    by_cases h1 : k = i
    · have h2 : k ≠ j := by rintro rfl; exact hij h1.symm
      simp [h1, h1 ▸ h2]
    · by_cases h2 : k = j
      · simp [h2, Ne.symm hij]
      · simp [h1, h2]
  rw [Finset.sum_congr rfl (fun k _ => outer k), Finset.sum_add_distrib] at hx
  simpa [hi, hj] using hx

theorem psd_diag {n : ℕ} {S : ℕ → ℕ → ℝ} (h : PSD n S) {i : ℕ} (hi : i < n) : 0 ≤ S i i := by
  have hx := h (fun k => if k = i then 1 else 0)
  simpa [hi] using hx

/-- Cauchy-Schwarz for a symmetric positive semi-definite matrix. -/
theorem psd_minor {n : ℕ} {S : ℕ → ℕ → ℝ} (hs : Sym n S) (h : PSD n S) {i j : ℕ} (hi : i < n) (hj : j < n)
    (hp : 0 < S j j) : S i j ^ 2 ≤ S i i * S j j := by
  by_cases hij : i = j
  · subst hij; nlinarith
  · have := psd_two h hi hj hij (S j j) (-(S i j))
    rw [hs j i hj hi] at this
    by_contra hc
    push Not at hc
    nlinarith [mul_pos hp (sub_pos.mpr hc)]

/-! ### Merging -/

theorem resolve_ok {n : ℕ} {l : List ℤ} : (∃ r, resolve n l = .ok r) ↔ ∀ z ∈ l, -(n : ℤ) ≤ z ∧ z < n := by
  induction l with
  | nil => simp [resolve]
  | cons z l ih =>
    simp only [resolve, List.mem_cons, forall_eq_or_imp]
    rw [← ih]
    have hz : (∃ k, slot n z = some k) ↔ -(n : ℤ) ≤ z ∧ z < n := by
      unfold slot
      split
      · split
        · constructor
          · intro _; constructor <;> omega
          · intro _; exact ⟨_, rfl⟩
        · simp only [reduceCtorEq, exists_false, false_iff]; omega
      · split
        · constructor
          · intro _; constructor <;> omega
          · intro _; exact ⟨_, rfl⟩
        · simp only [reduceCtorEq, exists_false, false_iff]; omega
    rw [← hz]
    constructor
    · rintro ⟨r, h⟩
      split at h
      · rename_i k r' h1 h2; exact ⟨⟨k, h1⟩, ⟨r', h2⟩⟩
      · simp at h
    · rintro ⟨⟨k, h1⟩, ⟨r, h2⟩⟩
      simp [h1, h2]

theorem resolveAll_ok {n : ℕ} {gs : List (List ℤ)} :
    (∃ r, resolveAll n gs = .ok r) ↔ ∀ g ∈ gs, ∀ z ∈ g, -(n : ℤ) ≤ z ∧ z < n := by
  induction gs with
  | nil => simp [resolveAll]
  | cons g gs ih =>
    simp only [List.mem_cons, forall_eq_or_imp]
    rw [← ih, ← resolve_ok, resolveAll]
    constructor
    · rintro ⟨r, h⟩
      split at h
      · rename_i r rs h1 h2; exact ⟨⟨r, h1⟩, ⟨rs, h2⟩⟩
      · simp at h
    · rintro ⟨⟨k, h1⟩, ⟨r, h2⟩⟩
      simp [h1, h2]

theorem resolve_cons {n : ℕ} {z : ℤ} {l : List ℤ} {r : List ℕ} (h : resolve n (z :: l) = .ok r) :
    ∃ k r', slot n z = some k ∧ resolve n l = .ok r' ∧ r = k :: r' := by
  rw [resolve] at h
  split at h
  · rename_i k r' h1 h2
    simp only [Except.ok.injEq] at h
    exact ⟨k, r', h1, h2, h.symm⟩
  · simp at h

theorem resolveAll_cons {n : ℕ} {g : List ℤ} {l : List (List ℤ)} {r : List (List ℕ)} (h : resolveAll n (g :: l) = .ok r) :
    ∃ k r', resolve n g = .ok k ∧ resolveAll n l = .ok r' ∧ r = k :: r' := by
  rw [resolveAll] at h
  split at h
  · rename_i k r' h1 h2
    simp only [Except.ok.injEq] at h
    exact ⟨k, r', h1, h2, h.symm⟩
  · simp at h

theorem resolve_lt {n : ℕ} {l : List ℤ} {r : List ℕ} (h : resolve n l = .ok r) : ∀ a ∈ r, a < n := by
  induction l generalizing r with
  | nil => simp only [resolve, Except.ok.injEq] at h; subst h; simp
  | cons z l ih =>
    obtain ⟨k, r', h1, h2, rfl⟩ := resolve_cons h
    intro a ha
    rcases List.mem_cons.mp ha with rfl | ha
    · exact slot_lt h1
    · exact ih h2 a ha

theorem resolveAll_lt {n : ℕ} {l : List (List ℤ)} {r : List (List ℕ)} (h : resolveAll n l = .ok r) :
    ∀ g ∈ r, ∀ a ∈ g, a < n := by
  induction l generalizing r with
  | nil => simp only [resolveAll, Except.ok.injEq] at h; subst h; simp
  | cons z l ih =>
    obtain ⟨k, r', h1, h2, rfl⟩ := resolveAll_cons h
    intro g hg
    rcases List.mem_cons.mp hg with rfl | hg
    · exact resolve_lt h1
    · exact ih h2 g hg

theorem resolveAll_length {n : ℕ} {l : List (List ℤ)} {r : List (List ℕ)} (h : resolveAll n l = .ok r) :
    r.length = l.length := by
  induction l generalizing r with
  | nil => simp only [resolveAll, Except.ok.injEq] at h; subst h; simp
  | cons z l ih =>
    obtain ⟨k, r', h1, h2, rfl⟩ := resolveAll_cons h
    simp [ih h2]

theorem slot_means {n : ℕ} {z : ℤ} {k : ℕ} (h : slot n z = some k) (a : ℕ) (ha : a < n) :
    k = a ↔ (z = (a : ℤ) ∨ z = (a : ℤ) - n) := by
  unfold slot at h
  split at h
  · split at h
    · simp only [Option.some.injEq] at h; omega
    · simp at h
  · split at h
    · simp only [Option.some.injEq] at h; omega
    · simp at h

theorem resolve_count {n : ℕ} {l : List ℤ} {r : List ℕ} (h : resolve n l = .ok r) (a : ℕ) (ha : a < n) :
    r.count a = l.countP fun z : ℤ => z = (a : ℤ) ∨ z = (a : ℤ) - n := by
  induction l generalizing r with
  | nil => simp only [resolve, Except.ok.injEq] at h; subst h; simp
  | cons z l ih =>
    obtain ⟨k, r', h1, h2, rfl⟩ := resolve_cons h
    rw [List.count_cons, List.countP_cons, ih h2]
    congr 1
    have := slot_means h1 a ha
    simp only [beq_iff_eq, this, decide_eq_true_eq]

theorem resolveAll_count {n : ℕ} {l : List (List ℤ)} {r : List (List ℕ)} (h : resolveAll n l = .ok r) (a : ℕ) (ha : a < n) :
    r.flatten.count a = l.flatten.countP fun z : ℤ => z = (a : ℤ) ∨ z = (a : ℤ) - n := by
  induction l generalizing r with
  | nil => simp only [resolveAll, Except.ok.injEq] at h; subst h; simp
  | cons z l ih =>
    obtain ⟨k, r', h1, h2, rfl⟩ := resolveAll_cons h
    simp only [List.flatten_cons, List.count_append, List.countP_append]
    rw [ih h2, resolve_count h1 a ha]

/-- The bins that no group names. -/
theorem countP_singletons (n a : ℕ) (ha : a < n) (P : ℕ → Bool) :
    ((((List.range n).filter P).map fun (i : ℕ) => [(i : ℤ)]).flatten.countP fun z : ℤ => z = (a : ℤ) ∨ z = (a : ℤ) - n) =
      if P a then 1 else 0 := by
  have hflat : ∀ l : List ℕ, (l.map fun (i : ℕ) => [(i : ℤ)]).flatten = l.map fun (i : ℕ) => (i : ℤ) := by
    intro l; induction l with
    | nil => rfl
    | cons x l ih => simp [ih]
  rw [hflat, List.countP_map]
  have hc : ((List.range n).filter P).countP ((fun z : ℤ => decide (z = (a : ℤ) ∨ z = (a : ℤ) - n)) ∘ fun (i : ℕ) => (i : ℤ)) =
      ((List.range n).filter P).count a := by
    rw [List.count]
    apply List.countP_congr
    intro x hx
    rw [List.mem_filter, List.mem_range] at hx
    simp only [Function.comp, decide_eq_true_eq, beq_iff_eq]
    omega
  rw [hc]
  by_cases hP : P a = true
  · rw [List.count_filter hP, List.count_eq_one_of_mem List.nodup_range (List.mem_range.mpr ha), if_pos hP]
  · rw [if_neg hP]
    apply List.count_eq_zero_of_not_mem
    intro h
    exact hP (List.mem_filter.mp h).2

theorem fullGroups_count (n a : ℕ) (ha : a < n) (groups : List (List ℤ)) :
    ((fullGroups n groups).flatten.countP fun z : ℤ => z = (a : ℤ) ∨ z = (a : ℤ) - n) = mult n groups a := by
  rw [fullGroups, List.flatten_append, List.countP_append, countP_singletons n a ha, mult]
  congr 1
  simp only [mergedIndices, List.mem_dedup, decide_not, Bool.not_eq_true', decide_eq_false_iff_not]
  by_cases h : (a : ℤ) ∈ groups.flatten <;> simp [h]

theorem sum_count (n : ℕ) (f : ℕ → ℝ) (g : List ℕ) (hg : ∀ a ∈ g, a < n) :
    (g.map f).sum = ∑ a ∈ Finset.range n, (g.count a : ℝ) * f a := by
  induction g with
  | nil => simp
  | cons x g ih =>
    rw [List.map_cons, List.sum_cons, ih (fun a ha => hg a (List.mem_cons_of_mem _ ha))]
    have : ∀ a, (((x :: g).count a : ℕ) : ℝ) * f a = (if a = x then f a else 0) + (g.count a : ℝ) * f a := by
      intro a
      rw [List.count_cons]
      by_cases h : a = x
      · subst h; simp; ring
      · have h' : ¬ x = a := fun e => h e.symm
        simp [h, h']
    rw [Finset.sum_congr rfl (fun a _ => this a), Finset.sum_add_distrib]
    simp [hg x List.mem_cons_self]

theorem sum_picks (n : ℕ) (f : ℕ → ℝ) (gs : List (List ℕ)) (hg : ∀ g ∈ gs, ∀ a ∈ g, a < n) :
    (gs.map fun g => (g.map f).sum).sum = ∑ a ∈ Finset.range n, (gs.flatten.count a : ℝ) * f a := by
  rw [← sum_count n f gs.flatten (fun a ha => by
    obtain ⟨g, h1, h2⟩ := List.mem_flatten.mp ha
    exact hg g h1 a h2)]
  rw [List.map_flatten, List.sum_flatten, List.map_map]
  rfl

theorem block_count (n : ℕ) (C : ℕ → ℕ → ℝ) (gi gj : List ℕ) (hi : ∀ a ∈ gi, a < n) (hj : ∀ a ∈ gj, a < n) :
    block C gi gj = ∑ a ∈ Finset.range n, ∑ b ∈ Finset.range n, (gi.count a : ℝ) * C a b * (gj.count b : ℝ) := by
  rw [block, sum_count n _ gi hi]
  refine Finset.sum_congr rfl fun a _ => ?_
  rw [sum_count n _ gj hj, Finset.mul_sum]
  refine Finset.sum_congr rfl fun b _ => ?_
  ring

/-- The quadratic form of the merged matrix is the quadratic form of the original one at another vector. -/
theorem merged_form (n : ℕ) (C : ℕ → ℕ → ℝ) (pos : List (List ℕ)) (hp : ∀ g ∈ pos, ∀ a ∈ g, a < n) (y : ℕ → ℝ) :
    ∑ i ∈ Finset.range pos.length, ∑ j ∈ Finset.range pos.length,
      y i * block C (pos.getD i []) (pos.getD j []) * y j =
    ∑ a ∈ Finset.range n, ∑ b ∈ Finset.range n,
      (∑ i ∈ Finset.range pos.length, y i * ((pos.getD i []).count a : ℝ)) * C a b *
      (∑ j ∈ Finset.range pos.length, y j * ((pos.getD j []).count b : ℝ)) := by
  have hmem : ∀ i, i < pos.length → ∀ a ∈ pos.getD i [], a < n := by
    intro i hi a ha
    refine hp _ ?_ a ha
    rw [List.getD_eq_getElem?_getD, List.getElem?_eq_getElem hi]
    exact List.getElem_mem hi
  have h1 : ∀ i ∈ Finset.range pos.length, ∀ j ∈ Finset.range pos.length,
      y i * block C (pos.getD i []) (pos.getD j []) * y j =
      ∑ a ∈ Finset.range n, ∑ b ∈ Finset.range n,
        (y i * ((pos.getD i []).count a : ℝ)) * C a b * (y j * ((pos.getD j []).count b : ℝ)) := by
    intro i hi j hj
    rw [block_count n C _ _ (hmem i (Finset.mem_range.mp hi)) (hmem j (Finset.mem_range.mp hj)), Finset.mul_sum, Finset.sum_mul]
    refine Finset.sum_congr rfl fun a _ => ?_
    rw [Finset.mul_sum, Finset.sum_mul]
    exact Finset.sum_congr rfl fun b _ => by ring
  rw [Finset.sum_congr rfl fun i hi => Finset.sum_congr rfl (h1 i hi)]
  have h2 : ∀ i, ∑ j ∈ Finset.range pos.length, ∑ a ∈ Finset.range n, ∑ b ∈ Finset.range n,
        (y i * ((pos.getD i []).count a : ℝ)) * C a b * (y j * ((pos.getD j []).count b : ℝ)) =
      ∑ a ∈ Finset.range n, ∑ b ∈ Finset.range n, (y i * ((pos.getD i []).count a : ℝ)) * C a b *
        ∑ j ∈ Finset.range pos.length, y j * ((pos.getD j []).count b : ℝ) := by
    intro i
    rw [Finset.sum_comm]
    refine Finset.sum_congr rfl fun a _ => ?_
    rw [Finset.sum_comm]
    exact Finset.sum_congr rfl fun b _ => by rw [Finset.mul_sum]
  rw [Finset.sum_congr rfl fun i _ => h2 i, Finset.sum_comm]
  refine Finset.sum_congr rfl fun a _ => ?_
  rw [Finset.sum_comm]
  refine Finset.sum_congr rfl fun b _ => ?_
  rw [Finset.sum_mul, Finset.sum_mul]

theorem sum_getD_count (pos : List (List ℕ)) (a : ℕ) :
    ∑ i ∈ Finset.range pos.length, ((pos.getD i []).count a : ℝ) = (pos.flatten.count a : ℝ) := by
  induction pos with
  | nil => simp
  | cons g pos ih =>
    rw [List.length_cons, Finset.sum_range_succ']
    simp only [List.getD_cons_succ, List.getD_cons_zero, List.flatten_cons, List.count_append, Nat.cast_add]
    rw [ih]; ring

theorem getD_lt {v : List ℝ} {n : ℕ} (h : v.length = n) : v.sum = ∑ a ∈ Finset.range n, v.getD a 0 := by
  subst h
  induction v with
  | nil => simp
  | cons x v ih =>
    rw [List.length_cons, Finset.sum_range_succ', List.sum_cons, ih]
    simp only [List.getD_cons_succ, List.getD_cons_zero]
    ring

theorem dedup_check (groups : List (List ℤ)) :
    (mergedIndices groups).dedup.length = (mergedIndices groups).length := by
  unfold mergedIndices
  rw [(List.nodup_dedup _).dedup]

theorem merge_fits {x : Input} (h : Fits x) :
    merge x = match resolveAll x.rows (fullGroups x.rows x.groups) with
      | .error e => .error e
      | .ok pos => .ok (mergeGroups x (fullGroups x.rows x.groups) pos) := by
  unfold merge
  have hs : ¬ ∃ s ∈ x.signal, x.data.length ≠ s.length := by
    rintro ⟨s, hs, hl⟩
    exact hl (h.data.trans (h.signal s hs).symm)
  rw [if_neg (not_not.mpr (h.data.trans h.background.symm)), if_neg (not_not.mpr h.data), if_neg hs, if_neg h.pos.ne',
    if_neg (not_not.mpr h.square), if_neg (not_not.mpr (dedup_check _))]
  cases resolveAll x.rows (fullGroups x.rows x.groups) <;> rfl

theorem merge_ok {x : Input} {m : Merged} (h : merge x = .ok m) :
    Fits x ∧ ∃ pos, resolveAll x.rows (fullGroups x.rows x.groups) = .ok pos ∧
      m = mergeGroups x (fullGroups x.rows x.groups) pos := by
  have hf : Fits x := by
    unfold merge at h
    split at h
    · simp at h
    · rename_i h1
      split at h
      · simp at h
      · rename_i h2
        split at h
        · simp at h
        · rename_i h3
          split at h
          · simp at h
          · rename_i h4
            split at h
            · simp at h
            · rename_i h5
              simp only [ne_eq, not_not] at h1 h2 h5
              refine ⟨Nat.pos_of_ne_zero h4, h5, h1.symm.trans h2, h2, fun s hs => ?_⟩
              by_contra hc
              exact h3 ⟨s, hs, fun e => hc (e.symm.trans h2)⟩
  refine ⟨hf, ?_⟩
  rw [merge_fits hf] at h
  split at h
  · simp at h
  · rename_i pos hp
    simp only [Except.ok.injEq] at h
    exact ⟨pos, hp, h.symm⟩

theorem fullGroups_inRange (n : ℕ) (groups : List (List ℤ)) :
    (∀ g ∈ fullGroups n groups, ∀ z ∈ g, -(n : ℤ) ≤ z ∧ z < n) ↔ ∀ g ∈ groups, ∀ z ∈ g, -(n : ℤ) ≤ z ∧ z < n := by
  constructor
  · intro h g hg
    exact h g (by rw [fullGroups]; exact List.mem_append_left _ hg)
  · intro h g hg z hz
    rw [fullGroups, List.mem_append] at hg
    rcases hg with hg | hg
    · exact h g hg z hz
    · rw [List.mem_map] at hg
      obtain ⟨i, hi, rfl⟩ := hg
      rw [List.mem_filter, List.mem_range] at hi
      simp only [List.mem_singleton] at hz
      subst hz
      omega

end Verif.Helpers
