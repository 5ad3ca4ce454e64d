import Verif.Synth.Model
import Mathlib.Analysis.SpecialFunctions.Pow.Real

/-!
# Vocabulary for the properties of the signal uncertainties
-/

namespace Verif.Synth
open Verif.Py F

/-- A well-formed modifier for `n` bins with finite uncertainties: up and down variations of bin `i`. -/
structure Source where
  shape : Bool
  up : ℕ → ℝ
  dn : ℕ → ℝ

/-- The modifier is a correct way to write the source. -/
inductive Describes (n : ℕ) (s : Source) (m : Modifier) : Prop
  | sym (ht : m.type = some (if s.shape then "shape" else "normalization"))
      (hu : m.uncertainties = some (.sym ((List.range n).map fun i => fin (s.up i)))) (he : ∀ i, i < n → s.dn i = s.up i)
  | asym (ht : m.type = some (if s.shape then "shape" else "normalization"))
      (hu : m.uncertainties = some (.asym ((List.range n).map fun i => (fin (s.up i), fin (s.dn i)))))

/-- The parameters of a source. -/
def Source.width (n : ℕ) (s : Source) : ℕ := if s.shape then n else 1

/-- The multiplicative factor of one bin with signal `s`, variations `up` and `dn`, at the parameter `a`: a power of the
relative variation, never below 1; bins without signal are not changed. -/
noncomputable def factor (s up dn a : ℝ) : ℝ := if s = 0 then 1 else (max 1 (1 + (if 0 < a then up else dn) / s)) ^ a

/-- The product over all sources of the factors of bin `i`, the first source having its parameters from `start` on. -/
noncomputable def product (signal : List ℝ) (pars : List ℝ) (i : ℕ) : ℕ → List Source → ℝ
  | _, [] => 1
  | start, s :: l =>
    factor (signal.getD i 0) (s.up i) (s.dn i) (pars.getD (if s.shape then start + i else start) 0) *
      product signal pars i (start + s.width signal.length) l

/-- The uncertainties with `0`, that is no variation, in place of nan. -/
def noNan : F → F
  | nan => fin 0
  | x => x

/-- The same for a modifier. -/
def Modifier.noNan (m : Modifier) : Modifier :=
  { m with uncertainties := m.uncertainties.map fun
      | .sym l => .sym (l.map Synth.noNan)
      | .asym l => .asym (l.map fun p => (Synth.noNan p.1, Synth.noNan p.2))
      | .other n => .other n }

/-- The modifiers are correct descriptions of the sources, one by one. -/
def DescribesAll (n : ℕ) : List Source → List Modifier → Prop
  | [], [] => True
  | s :: l, m :: k => Describes n s m ∧ DescribesAll n l k
  | _, _ => False

end Verif.Synth
