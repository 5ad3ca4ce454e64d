import Verif.Py.Arith
import Verif.Py.Seq

/-!
# Model of the helper functions

`/repo/src/spey/helper_functions.py`. An `n × n` matrix is a function of two indices, of which only the values below `n` count.
-/

namespace Verif.Helpers
open Verif.Py F

/-! ### Correlations and covariances -/

/-- The sum of the first `n` terms. -/
noncomputable def dot : ℕ → (ℕ → F) → F
  | 0, _ => fin 0
  | n + 1, f => add (dot n f) (f n)

/-- `A @ B` for `n × n` matrices. -/
noncomputable def matmul (n : ℕ) (A B : ℕ → ℕ → F) (i j : ℕ) : F := dot n fun k => mul (A i k) (B k j)

/-- `np.diag(v)` of a vector. -/
noncomputable def diag (v : ℕ → F) (i j : ℕ) : F := if i = j then v i else fin 0

/-- `correlation_to_covariance`, L8-42. -/
noncomputable def corrToCov (n : ℕ) (rho : ℕ → ℕ → F) (sigma : ℕ → F) : ℕ → ℕ → F :=
  matmul n (matmul n (diag sigma) rho) (diag sigma)

/-- `sigma_inv`, L71: `1.0 / np.sqrt(np.diag(covariance_matrix))`. -/
noncomputable def sigmaInv (S : ℕ → ℕ → F) (i : ℕ) : F := div (fin 1) (sqrt (S i i))

/-- `covariance_to_correlation`, L45-72. -/
noncomputable def covToCorr (n : ℕ) (S : ℕ → ℕ → F) : ℕ → ℕ → F :=
  matmul n (matmul n (diag (sigmaInv S)) S) (diag (sigmaInv S))

/-! ### Merging bins -/

/-- `AssertionError` and `IndexError`. -/
inductive Err
  | assertion | index
  deriving DecidableEq

/-- The arguments of `merge_correlated_bins`, L75-82: the covariance matrix has `rows` rows and `cols` columns; its entries are
finite numbers. -/
structure Input where
  background : List ℝ
  data : List ℝ
  rows : ℕ
  cols : ℕ
  cov : ℕ → ℕ → ℝ
  groups : List (List ℤ)
  signal : Option (List ℝ)

/-- The dict that is returned, with `group_indices`, L213-223. The covariance matrix has as many rows and columns as there are
groups. -/
structure Merged where
  background : List ℝ
  data : List ℝ
  cov : ℕ → ℕ → ℝ
  signal : Option (List ℝ)
  groups : List (List ℤ)

/-- The positions that a list of indices means; `IndexError` if one is out of range. -/
def resolve (n : ℕ) : List ℤ → Except Err (List ℕ)
  | [] => .ok []
  | i :: l =>
    match slot n i, resolve n l with
    | some k, .ok r => .ok (k :: r)
    | _, _ => .error .index

/-- The positions of all groups. -/
def resolveAll (n : ℕ) : List (List ℤ) → Except Err (List (List ℕ))
  | [] => .ok []
  | g :: l =>
    match resolve n g, resolveAll n l with
    | .ok r, .ok rs => .ok (r :: rs)
    | _, _ => .error .index

/-- `np.sum(v[G])`. -/
def pick (v : List ℝ) (g : List ℕ) : ℝ := (g.map fun a => v.getD a 0).sum

/-- `np.sum(covariance_matrix[np.ix_(Gi, Gj)])`. -/
def block (C : ℕ → ℕ → ℝ) (gi gj : List ℕ) : ℝ := (gi.map fun a => (gj.map fun b => C a b).sum).sum

/-- The indices without repetition, L188. They are also sorted, which has no influence. -/
def mergedIndices (groups : List (List ℤ)) : List ℤ := groups.flatten.dedup

/-- All groups: the given ones and the bins that no group names, L193-197. -/
def fullGroups (n : ℕ) (groups : List (List ℤ)) : List (List ℤ) :=
  groups ++ ((List.range n).filter fun (i : ℕ) => (i : ℤ) ∉ mergedIndices groups).map fun (i : ℕ) => [(i : ℤ)]

/-- The loop of L205-211. -/
def mergeGroups (x : Input) (full : List (List ℤ)) (pos : List (List ℕ)) : Merged where
  background := pos.map (pick x.background)
  data := pos.map (pick x.data)
  cov := fun i j => block x.cov (pos.getD i []) (pos.getD j [])
  signal := x.signal.map fun s => pos.map (pick s)
  groups := full

/-- `merge_correlated_bins`, L172-223, with its assertions in order. The access `covariance_matrix[0]` of L182 raises
`IndexError` for a matrix without rows. -/
def merge (x : Input) : Except Err Merged :=
  if x.data.length ≠ x.background.length then .error .assertion
  else if x.data.length ≠ x.rows then .error .assertion
  else if ∃ s ∈ x.signal, x.data.length ≠ s.length then .error .assertion
  else if x.rows = 0 then .error .index
  else if x.rows ≠ x.cols then .error .assertion
  else if (mergedIndices x.groups).dedup.length ≠ (mergedIndices x.groups).length then .error .assertion
  else
    match resolveAll x.rows (fullGroups x.rows x.groups) with
    | .error e => .error e
    | .ok pos => .ok (mergeGroups x (fullGroups x.rows x.groups) pos)

end Verif.Helpers
