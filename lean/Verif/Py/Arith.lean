import Verif.Py.Float
import Mathlib.Analysis.SpecialFunctions.Exp

/-!
# More floating point operations: product and exponential
-/

namespace Verif.Py.F
open Classical

/-- `a * b`. -/
noncomputable def mul : F → F → F
  | nan, _ => nan
  | _, nan => nan
  | fin x, fin y => fin (x * y)
  | fin x, b => if x = 0 then nan else if 0 < x then b else neg b
  | a, fin y => if y = 0 then nan else if 0 < y then a else neg a
  | pinf, pinf => pinf
  | ninf, ninf => pinf
  | _, _ => ninf

/-- `numpy.exp(a)`. -/
noncomputable def exp : F → F
  | nan => nan
  | ninf => fin 0
  | fin x => fin (Real.exp x)
  | pinf => pinf

theorem add_comm (a b : F) : add a b = add b a := by
  cases a <;> cases b <;> simp [add, _root_.add_comm]

theorem add_assoc (a b c : F) : add (add a b) c = add a (add b c) := by
  cases a <;> cases b <;> cases c <;> simp [add, _root_.add_assoc]

theorem add_nan (a : F) : add a nan = nan := by cases a <;> rfl

theorem nan_add (a : F) : add nan a = nan := by cases a <;> rfl

theorem zero_add (a : F) : add (fin 0) a = a := by cases a <;> simp [add]

theorem add_zero (a : F) : add a (fin 0) = a := by cases a <;> simp [add]

instance : Std.Commutative add := ⟨add_comm⟩
instance : Std.Associative add := ⟨add_assoc⟩

end Verif.Py.F
