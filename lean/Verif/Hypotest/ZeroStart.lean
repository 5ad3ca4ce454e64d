import Verif.Hypotest.SigmaProps

/-!
# Property C113: a starting point of zero
-/

namespace Verif.Hypotest
open Verif.Py F
open Verif.Interface (MuHat)
open Verif.Stats (Expect)
open Verif.UpperLimit (Expected Band Limit)

variable {σ : Type}

/-- C113. `poi_upper_limit` tests `low_init or default`: if one of the starting points is absent, the other one is absent too if it is zero. -/
theorem C113_zero_start (fuel : ℕ) (T : Finder) (M : Methods σ) (sigma : Expect → ℝ → Comp σ F) (alive : Bool) (e : Expected) (CL : ℝ) (band : Band) (s : σ) :
    poiUpperLimit fuel T M sigma alive e CL (some 0) none band s = poiUpperLimit fuel T M sigma alive e CL none none band s ∧
    poiUpperLimit fuel T M sigma alive e CL none (some 0) band s = poiUpperLimit fuel T M sigma alive e CL none none band s := by
  have h : ∀ m, starts (sigma e.toExpect) m (some 0) none = starts (sigma e.toExpect) m none none ∧ starts (sigma e.toExpect) m none (some 0) = starts (sigma e.toExpect) m none none := by
    intro m
    simp [starts, UpperLimit.orElse]
  unfold poiUpperLimit
  simp only [h, and_self]

/-- A best fit at 1 with a standard deviation of 1/2: the search starts at 1.75 and 2.25, whether zero is given or nothing; with 0 and 3 it starts there. -/
example : (starts (fun _ => ret (fin (1 / 2))) (.one 1) (some 0) none ()).1 = .ok ((1.75 : ℝ), (2.25 : ℝ)) ∧ (starts (fun _ => ret (fin (1 / 2))) (.one 1) none none ()).1 = .ok ((1.75 : ℝ), (2.25 : ℝ)) ∧
    (starts (fun _ => ret (fin (1 / 2))) (.one 1) (some 0) (some 3) ()).1 = .ok ((0 : ℝ), (3 : ℝ)) := by
  refine ⟨?_, ?_, rfl⟩ <;>
  · simp only [starts, positivePart, UpperLimit.orElse]
    norm_num [andThen, lift, ret]

/-- The models of `exMethods` with starting points zero. -/
example (k : ℕ) (sigma : Expect → ℝ → Comp ℕ F) : ∃ r, poiUpperLimit k (bisection 0.001) (exMethods 2) sigma true .observed 0.95 (some 0) none .nominal 0 = r ∧
    poiUpperLimit k (bisection 0.001) (exMethods 2) sigma true .observed 0.95 none none .nominal 0 = r :=
  ⟨_, rfl, ((C113_zero_start k (bisection 0.001) (exMethods 2) sigma true .observed 0.95 .nominal 0).1).symm⟩

end Verif.Hypotest
