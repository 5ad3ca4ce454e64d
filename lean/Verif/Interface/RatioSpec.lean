import Verif.Interface.Ratio
import Verif.Interface.Spec

/-!
# Vocabulary for the properties of `chi2`, `pull` and the sampler
-/

namespace Verif.Interface
open Verif.Py F Verif.Config Verif.Optimizer

/-- In the states that satisfy `I`, answers do not depend on the state, and queries lead to such states again. -/
structure Stateless {σ : Type} (I : σ → Prop) (Q : Queries σ) : Prop where
  nll : ∀ p s s', I s → I s' → (Q.nll p s).1 = (Q.nll p s').1
  fixed : ∀ p s s', I s → I s' → (Q.fixed p s).1 = (Q.fixed p s').1
  best : ∀ n s s', I s → I s' → (Q.best n s).1 = (Q.best n s').1
  nll_keeps : ∀ p s, I s → I (Q.nll p s).2
  fixed_keeps : ∀ p s, I s → I (Q.fixed p s).2
  best_keeps : ∀ n s, I s → I (Q.best n s).2

/-- Both kinds of likelihood query are made with the same keywords. -/
def SameKeywords {σ : Type} (Q : Queries σ) : Prop := Q.nll = Q.fixed

/-- The argument `t` of `chi2` is the single point `p`. -/
def Denotes : Test → Poi → Prop
  | .float v, .float u => v = u
  | .int n, .int m => n = m
  | .dict d, .dict l => d = l.map fun x => (x.1, Entry.number x.2)
  | _, _ => False

/-- Contract of the conversion to `np.float32`: the relative error is at most `δ` (`2^-24` in the normal range). -/
def Close (δ : ℝ) (r : F → F) : Prop := ∀ x, ∃ y, r (fin x) = fin y ∧ |y - x| ≤ δ * |x|

/-- The dict `d` with the number `v` at the key `k`. -/
def withNumber (d : List (Key × Entry)) (k : Key) (v : ℝ) : List (Key × Entry) :=
  d.map fun p => if p.1 = k then (k, .number v) else p

/-- The dict has a list at the key `k`, numbers elsewhere, and no key twice. -/
def OneList (d : List (Key × Entry)) (k : Key) (vs : List ℝ) : Prop :=
  (d.map Prod.fst).Nodup ∧ (k, Entry.list vs) ∈ d ∧ ∀ p ∈ d, p.1 ≠ k → ∃ u, p.2 = .number u

/-- The value of a point that is a number. -/
def Poi.HasValue : Poi → ℝ → Prop
  | .float u, v => u = v
  | .int n, v => (n : ℝ) = v
  | .dict _, _ => False

/-- Contract of a sampler: as many samples as asked for. -/
def Counts (s : ℕ → List Data) : Prop := ∀ n, (s n).length = n

end Verif.Interface
