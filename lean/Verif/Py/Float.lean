import Mathlib.Probability.CDF
import Mathlib.Probability.Distributions.Gaussian.Real
import Mathlib.Analysis.Real.Sqrt

/-!
# Python/numpy floating point values without rounding

`F` is a real number, `+inf`, `-inf` or `nan`; the operations follow IEEE-754 as numpy uses it, except that finite
results are exact (no rounding, no overflow) and there is one zero. Trusted: that this is the relevant behaviour of
`numpy.float64`.
-/

namespace Verif.Py

/-- A floating point value. -/
inductive F
  | nan | ninf | fin (x : ℝ) | pinf

namespace F
open Classical

/-- `a < b` (false if one is nan). -/
def lt : F → F → Prop
  | nan, _ => False
  | _, nan => False
  | ninf, ninf => False
  | ninf, _ => True
  | fin x, fin y => x < y
  | fin _, pinf => True
  | fin _, ninf => False
  | pinf, _ => False

/-- `a <= b` (false if one is nan). -/
def le : F → F → Prop
  | nan, _ => False
  | _, nan => False
  | ninf, _ => True
  | fin x, fin y => x ≤ y
  | fin _, pinf => True
  | fin _, ninf => False
  | pinf, pinf => True
  | pinf, _ => False

/-- `-a`. -/
def neg : F → F
  | nan => nan
  | ninf => pinf
  | fin x => fin (-x)
  | pinf => ninf

/-- `a + b`. -/
def add : F → F → F
  | nan, _ => nan
  | _, nan => nan
  | fin x, fin y => fin (x + y)
  | ninf, pinf => nan
  | pinf, ninf => nan
  | ninf, _ => ninf
  | pinf, _ => pinf
  | fin _, ninf => ninf
  | fin _, pinf => pinf

/-- `a - b`. -/
def sub (a b : F) : F := add a (neg b)

/-- `c * a` for a non-zero literal `c`. -/
noncomputable def scale (c : ℝ) : F → F
  | nan => nan
  | fin x => fin (c * x)
  | pinf => if 0 < c then pinf else ninf
  | ninf => if 0 < c then ninf else pinf

/-- Sign of an infinite quotient `inf / b` or `x / 0` (numpy returns a signed infinity). -/
noncomputable def infOf (pos : Prop) : F := if pos then pinf else ninf

/-- `numpy.true_divide(a, b)`: never raises; `0/0` and `inf/inf` are nan. Zero is taken as `+0.0`. -/
noncomputable def div : F → F → F
  | nan, _ => nan
  | _, nan => nan
  | fin x, fin y => if y = 0 then (if x = 0 then nan else infOf (0 < x)) else fin (x / y)
  | fin _, ninf => fin 0
  | fin _, pinf => fin 0
  | pinf, fin y => infOf (0 ≤ y)
  | ninf, fin y => infOf (y < 0)
  | pinf, _ => nan
  | ninf, _ => nan

/-- `numpy.clip(a, 0.0, None)` (nan stays nan). -/
noncomputable def clip0 : F → F
  | nan => nan
  | ninf => fin 0
  | fin x => fin (max x 0)
  | pinf => pinf

/-- `numpy.clip(a, 0.0, 1.0)`. -/
noncomputable def clip01 : F → F
  | nan => nan
  | ninf => fin 0
  | fin x => fin (min (max x 0) 1)
  | pinf => fin 1

/-- `numpy.sqrt(a)` (nan for negative numbers). -/
noncomputable def sqrt : F → F
  | nan => nan
  | ninf => nan
  | fin x => if x < 0 then nan else fin (Real.sqrt x)
  | pinf => pinf

/-- Standard normal cumulative distribution function. -/
noncomputable def Phi (x : ℝ) : ℝ := ProbabilityTheory.cdf (ProbabilityTheory.gaussianReal 0 1) x

/-- `scipy.stats.norm.cdf(a)`. -/
noncomputable def cdf : F → F
  | nan => nan
  | ninf => fin 0
  | fin x => fin (Phi x)
  | pinf => fin 1

/-- `a == b` (false if one is nan). -/
def eq : F → F → Prop
  | fin x, fin y => x = y
  | ninf, ninf => True
  | pinf, pinf => True
  | _, _ => False

/-- `numpy.isnan(a)`. -/
def isNan : F → Prop
  | nan => True
  | _ => False

end F
end Verif.Py
