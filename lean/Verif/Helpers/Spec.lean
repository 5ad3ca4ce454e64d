import Verif.Helpers.Model
import Mathlib.Algebra.BigOperators.Group.Finset.Basic
import Mathlib.Data.Real.Basic

/-!
# Vocabulary for the properties of the helper functions
-/

namespace Verif.Helpers
open Verif.Py F

/-- The finite matrix `S` as a floating point matrix. -/
def fl (S : ℕ → ℕ → ℝ) : ℕ → ℕ → F := fun i j => fin (S i j)

/-- Symmetric on the first `n` indices. -/
def Sym (n : ℕ) (S : ℕ → ℕ → ℝ) : Prop := ∀ i j, i < n → j < n → S i j = S j i

/-- Positive semi-definite on the first `n` indices. -/
def PSD (n : ℕ) (S : ℕ → ℕ → ℝ) : Prop :=
  ∀ x : ℕ → ℝ, 0 ≤ ∑ i ∈ Finset.range n, ∑ j ∈ Finset.range n, x i * S i j * x j

/-- All lengths agree, and there is at least one bin. -/
structure Fits (x : Input) : Prop where
  pos : 0 < x.rows
  square : x.rows = x.cols
  background : x.background.length = x.rows
  data : x.data.length = x.rows
  signal : ∀ s, x.signal = some s → s.length = x.rows

/-- How often bin `a` is counted: once for every index of a group that means it (negative indices count from the end), and
once more if no group names it. -/
def mult (n : ℕ) (groups : List (List ℤ)) (a : ℕ) : ℕ :=
  (groups.flatten.countP fun z : ℤ => z = (a : ℤ) ∨ z = (a : ℤ) - n) + if (a : ℤ) ∈ groups.flatten then 0 else 1

/-- The groups are disjoint lists of bins. -/
structure Disjoint (n : ℕ) (groups : List (List ℤ)) : Prop where
  inRange : ∀ g ∈ groups, ∀ z ∈ g, 0 ≤ z ∧ z < n
  once : groups.flatten.Nodup

end Verif.Helpers
