import Mathlib.Data.List.Sort
import Mathlib.Data.Real.Archimedean
import Mathlib.Algebra.Order.Floor.Semiring
import Mathlib.Tactic.Linarith
import Mathlib.Tactic.Positivity
import Mathlib.Tactic.Ring

/-!
# Percentiles of samples
-/

namespace Verif.Toys

/-- `numpy.percentile(l, 100 * p, method="linear")` (distributions.py L100-112 of `/repo/src/spey/hypothesis_testing`): between the two entries of the sorted samples next to the position
`p * (n - 1)`. -/
noncomputable def quantile (l : List ℝ) (p : ℝ) : ℝ :=
  let x := l.insertionSort (· ≤ ·)
  let h := p * (l.length - 1 : ℕ)
  let i := ⌊h⌋₊
  x.getD i 0 + (h - i) * (x.getD (min (i + 1) (l.length - 1)) 0 - x.getD i 0)

theorem getD_getElem (x : List ℝ) {i : ℕ} (h : i < x.length) : x.getD i 0 = x[i] := by simp [List.getD_eq_getElem?_getD, h]

theorem sorted_getD {x : List ℝ} (hx : x.Pairwise (· ≤ ·)) {i j : ℕ} (hij : i ≤ j) (hj : j < x.length) : x.getD i 0 ≤ x.getD j 0 := by
  rw [getD_getElem x (hij.trans_lt hj), getD_getElem x hj]
  rcases hij.eq_or_lt with rfl | h
  · exact le_rfl
  · exact List.pairwise_iff_getElem.mp hx i j _ hj h

/-- The entries next to the quantile. -/
theorem quantile_between {l : List ℝ} (hl : l ≠ []) {p : ℝ} (h0 : 0 ≤ p) (h1 : p ≤ 1) :
    (l.insertionSort (· ≤ ·)).getD ⌊p * (l.length - 1 : ℕ)⌋₊ 0 ≤ quantile l p ∧ quantile l p ≤ (l.insertionSort (· ≤ ·)).getD ⌈p * (l.length - 1 : ℕ)⌉₊ 0 ∧
      ⌈p * (l.length - 1 : ℕ)⌉₊ ≤ l.length - 1 := by
  have hn : 0 < l.length := List.length_pos_iff.mpr hl
  obtain ⟨x, hx⟩ : ∃ x, x = l.insertionSort (· ≤ ·) := ⟨_, rfl⟩
  have hs : x.Pairwise (· ≤ ·) := hx ▸ List.pairwise_insertionSort _ l
  have hlen : x.length = l.length := by rw [hx, List.length_insertionSort]
  unfold quantile
  rw [← hx]
  obtain ⟨N, hN⟩ : ∃ N, N = l.length - 1 := ⟨_, rfl⟩
  rw [← hN]
  obtain ⟨h, hh⟩ : ∃ h, h = p * (N : ℝ) := ⟨_, rfl⟩
  simp only [← hh]
  have hh0 : 0 ≤ h := hh ▸ by positivity
  have hhN : h ≤ N := by rw [hh]; nlinarith [Nat.cast_nonneg (α := ℝ) N]
  have hc : ⌈h⌉₊ ≤ N := Nat.ceil_le.mpr hhN
  have hf : (⌊h⌋₊ : ℝ) ≤ h := Nat.floor_le hh0
  have hf' : h < ⌊h⌋₊ + 1 := Nat.lt_floor_add_one h
  have hfN : ⌊h⌋₊ ≤ N := (Nat.floor_le_ceil h).trans hc
  have hle : x.getD ⌊h⌋₊ 0 ≤ x.getD (min (⌊h⌋₊ + 1) N) 0 := sorted_getD hs (by omega) (by omega)
  refine ⟨by nlinarith, ?_, hc⟩
  rcases hf.eq_or_lt with e | hlt
  · rw [← e]
    simp
  · have hce : ⌈h⌉₊ = ⌊h⌋₊ + 1 := by
      apply le_antisymm (Nat.ceil_le_floor_add_one h)
      have := Nat.le_ceil h
      have : (⌊h⌋₊ : ℝ) < ⌈h⌉₊ := by linarith
      exact_mod_cast this
    rw [hce] at hc ⊢
    rw [min_eq_left hc] at hle ⊢
    nlinarith

theorem count_ge {x : List ℝ} (hx : x.Pairwise (· ≤ ·)) {q : ℝ} {j : ℕ} (h : q ≤ x.getD j 0) : x.length - j ≤ x.countP fun y => decide (q ≤ y) := by
  rw [← List.take_append_drop j x, List.countP_append]
  have : (x.drop j).countP (fun y => decide (q ≤ y)) = (x.drop j).length := by
    rw [List.countP_eq_length]
    intro y hy
    obtain ⟨i, hi, rfl⟩ := List.mem_iff_getElem.mp hy
    rw [List.getElem_drop, decide_eq_true_iff]
    rw [List.length_drop] at hi
    rw [← getD_getElem x (by omega)]
    exact h.trans (sorted_getD hx (by omega) (by omega))
  rw [this, List.take_append_drop, List.length_drop]
  omega

theorem count_le {x : List ℝ} (hx : x.Pairwise (· ≤ ·)) {q : ℝ} {j : ℕ} (hj : j < x.length) (h : x.getD j 0 ≤ q) : j + 1 ≤ x.countP fun y => decide (y ≤ q) := by
  rw [← List.take_append_drop (j + 1) x, List.countP_append]
  have : (x.take (j + 1)).countP (fun y => decide (y ≤ q)) = (x.take (j + 1)).length := by
    rw [List.countP_eq_length]
    intro y hy
    obtain ⟨i, hi, rfl⟩ := List.mem_iff_getElem.mp hy
    rw [List.getElem_take, decide_eq_true_iff]
    rw [List.length_take] at hi
    rw [← getD_getElem x (by omega)]
    exact (sorted_getD hx (by omega) hj).trans h
  rw [this, List.length_take]
  omega

/-- How many samples are on either side of the quantile. -/
theorem quantile_counts {l : List ℝ} (hl : l ≠ []) {p : ℝ} (h0 : 0 ≤ p) (h1 : p ≤ 1) :
    (1 - p) * (l.length - 1 : ℕ) < (l.countP fun y => decide (quantile l p ≤ y) : ℕ) ∧ p * (l.length - 1 : ℕ) < (l.countP fun y => decide (y ≤ quantile l p) : ℕ) := by
  have hn : 0 < l.length := List.length_pos_iff.mpr hl
  obtain ⟨b1, b2, b3⟩ := quantile_between hl h0 h1
  have hs : (l.insertionSort (· ≤ ·)).Pairwise (· ≤ ·) := List.pairwise_insertionSort _ l
  have hp := List.perm_insertionSort (· ≤ ·) l
  have hlen := hp.length_eq
  have c1 := count_ge hs b2
  have c2 := count_le hs (by rw [hlen]; have := Nat.floor_le_ceil (p * (l.length - 1 : ℕ)); omega) b1
  rw [hp.countP_eq] at c1 c2
  rw [hlen] at c1
  constructor
  · have h3 := Nat.ceil_lt_add_one (a := p * (l.length - 1 : ℕ)) (by positivity)
    have : (l.length - ⌈p * (l.length - 1 : ℕ)⌉₊ : ℕ) = l.length - 1 + 1 - ⌈p * (l.length - 1 : ℕ)⌉₊ := by omega
    rw [this] at c1
    have : ((l.length - 1 : ℕ) : ℝ) + 1 - ⌈p * (l.length - 1 : ℕ)⌉₊ ≤ (l.countP fun y => decide (quantile l p ≤ y) : ℕ) := by
      have h4 := Nat.cast_le (α := ℝ).mpr c1
      rw [Nat.cast_sub (by omega)] at h4
      push_cast at h4
      exact h4
    linarith
  · have h3 := Nat.lt_floor_add_one (p * (l.length - 1 : ℕ) : ℝ)
    have h4 := Nat.cast_le (α := ℝ).mpr c2
    push_cast at h4
    linarith

/-- Quantiles grow. -/
theorem quantile_mono {l : List ℝ} (hl : l ≠ []) {p p' : ℝ} (h0 : 0 ≤ p) (hpp : p ≤ p') (h1 : p' ≤ 1) : quantile l p ≤ quantile l p' := by
  have hn : 0 < l.length := List.length_pos_iff.mpr hl
  obtain ⟨N, hN⟩ : ∃ N, N = l.length - 1 := ⟨_, rfl⟩
  have hs : (l.insertionSort (· ≤ ·)).Pairwise (· ≤ ·) := List.pairwise_insertionSort _ l
  have hlen : (l.insertionSort (· ≤ ·)).length = l.length := List.length_insertionSort _ _
  have hle : p * N ≤ p' * N := mul_le_mul_of_nonneg_right hpp (by positivity)
  rcases (Nat.floor_mono hle).eq_or_lt with e | hlt
  · unfold quantile
    rw [← hN]
    dsimp only
    rw [e]
    have hfN : ⌊p' * (N : ℝ)⌋₊ ≤ N := by
      have := (quantile_between hl (h0.trans hpp) h1).2.2
      rw [← hN] at this
      exact (Nat.floor_le_ceil _).trans this
    have : (l.insertionSort (· ≤ ·)).getD ⌊p' * (N : ℝ)⌋₊ 0 ≤ (l.insertionSort (· ≤ ·)).getD (min (⌊p' * (N : ℝ)⌋₊ + 1) N) 0 := sorted_getD hs (by omega) (by omega)
    nlinarith
  · obtain ⟨-, b2, -⟩ := quantile_between hl h0 (hpp.trans h1)
    obtain ⟨b1, -, b3⟩ := quantile_between hl (h0.trans hpp) h1
    rw [← hN] at b1 b2 b3
    refine b2.trans ((sorted_getD hs ?_ ?_).trans b1)
    · exact Nat.ceil_le.mpr ((Nat.lt_floor_add_one _).le.trans (by exact_mod_cast hlt))
    · have := Nat.floor_le_ceil (p' * (N : ℝ))
      omega

end Verif.Toys
