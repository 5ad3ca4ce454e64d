import Verif.UpperLimit.Model
import Mathlib.Data.List.Sort

/-!
# Model of the confidence intervals from the profile likelihood

`_refine_global_min_1d` and `_enumerate_crossings_1d` (`/repo/src/spey/base/utils.py` L52-226) and
`HypothesisTestingBase.chi2_test` (`/repo/src/spey/base/hypotest_base.py` L1330-1704). The profile `nll_fn` is an arbitrary
function of a real number; the value nan also stands for an exception (both scans skip such points). `bracket_and_solve` is
modelled in `Verif/UpperLimit/Model.lean`.
-/

namespace Verif.Chi2
open Verif.Py F Verif.UpperLimit
open Classical

/-- `np.isfinite`. -/
def isFinite : F → Bool
  | fin _ => true
  | _ => false

/-- `np.linspace(lo, hi, n)`, exact. -/
noncomputable def linspace (lo hi : ℝ) (n : ℕ) : List ℝ :=
  (List.range n).map (fun i : ℕ => lo + (i : ℝ) * ((hi - lo) / ((n : ℝ) - 1)))

/-- One turn of the loop of utils.py L93-101. -/
noncomputable def better (nll : ℝ → F) (best : F × ℝ) (x : ℝ) : F × ℝ :=
  if isFinite (nll x) ∧ lt (nll x) best.1 then (nll x, x) else best

/-- `scipy.optimize.minimize_scalar(nll, bounds=(a, b), method="bounded")`: `(res.fun, res.x)`, or an exception. -/
abbrev Minimizer := (ℝ → F) → ℝ → ℝ → Option (F × ℝ)

/-- `_refine_global_min_1d`, utils.py L52-131: `(mllhd, reference)`. -/
noncomputable def refineMin (minimize : Minimizer) (nll : ℝ → F) (mllhd : F) (reference lo hi : ℝ) (n : ℕ) : F × ℝ :=
  if ¬ lo < hi ∨ n < 2 then (mllhd, reference)
  else
    let best := (linspace lo hi n).foldl (better nll) (mllhd, reference)
    if le (sub mllhd (fin 1e-9)) best.1 then (mllhd, reference)
    else
      let width := (hi - lo) / max 1 ((n : ℝ) - 1)
      let lo2 := max lo (best.2 - width)
      let hi2 := min hi (best.2 + width)
      if lo2 < hi2 then
        match minimize nll lo2 hi2 with
        | some res => if isFinite res.1 ∧ lt res.1 best.1 then res else best
        | none => best
      else best

/-- The two root finders tried on an interval, L198-218: `toms748` (an error also when it did not converge), then `brentq`. -/
def refineRoot (toms brent : Solver) (f : ℝ → F) (a b : ℝ) : List ℝ :=
  match toms f a b with
  | .ok x => [x]
  | .error _ =>
    match brent f a b with
    | .ok x => [x]
    | .error _ => []

/-- The body of the loop L183-218 for one interval; `last` is `i == n_scan - 2`. -/
noncomputable def cell (toms brent : Solver) (f : ℝ → F) (a b : ℝ) (last : Bool) : List ℝ :=
  if ¬ (isFinite (f a) ∧ isFinite (f b)) then []
  else if F.eq (f a) (fin 0) then [a]
  else if F.eq (f b) (fin 0) ∧ last then [b]
  else if (lt (f a) (fin 0) ∧ lt (fin 0) (f b)) ∨ (lt (fin 0) (f a) ∧ lt (f b) (fin 0)) then refineRoot toms brent f a b
  else []

/-- The loop L183-218 over the grid. -/
noncomputable def cells (toms brent : Solver) (f : ℝ → F) : List ℝ → List ℝ
  | a :: b :: l => cell toms brent f a b l.isEmpty ++ cells toms brent f (b :: l)
  | _ => []

/-- `sorted`. -/
noncomputable def sort (l : List ℝ) : List ℝ := l.mergeSort (fun a b => decide (a ≤ b))

/-- `max(1e-10, 1e-8 * abs(r))`. -/
noncomputable def gap (r : ℝ) : ℝ := max 1e-10 (1e-8 * |r|)

/-- The loop L222-225; the first argument is `out[-1]`. -/
noncomputable def dedup : Option ℝ → List ℝ → List ℝ
  | _, [] => []
  | none, r :: l => r :: dedup (some r) l
  | some x, r :: l => if gap r < |r - x| then r :: dedup (some r) l else dedup (some x) l

/-- `_enumerate_crossings_1d`, L134-226. -/
noncomputable def enumerate (toms brent : Solver) (f : ℝ → F) (lo hi : ℝ) (nScan : ℕ) : List ℝ :=
  if ¬ lo < hi then [] else dedup none (sort (cells toms brent f (linspace lo hi (max 3 nScan))))

/-! ### hypotest_base.py, `chi2_test` -/

/-- The argument `limit_type`. -/
inductive LimitType
  | left | right | twoSided
  deriving DecidableEq

/-- One entry of `legacy_sides`. -/
structure Side where
  inner : ℝ
  outer : ℝ
  expand : ℝ → ℝ
  contract : ℝ → ℝ
  outerStop : ℝ → Prop
  innerStop : ℝ → Prop
  retry : Option (ℝ × (ℝ → Prop))
  fallback : ℝ → F

/-- What the first part of `chi2_test` (L1464-1594) prepares. -/
structure Problem where
  mllhd : F
  reference : ℝ
  scanLo : ℝ
  scanHi : ℝ
  hardLo : ℝ
  hardHi : ℝ
  left : Side
  right : Side

/-- `np.isclose(x, 0.0)`. -/
def close0 (x : ℝ) : Prop := |x| ≤ 1e-8

/-- `sigma if np.isfinite(sigma) and sigma > 0 else 1.0`. -/
noncomputable def positiveOr1 : F → ℝ
  | fin x => if 0 < x then x else 1
  | _ => 1

/-- The branch `parameter is None`, L1464-1523. `muhat` is finite; `sigma` is what `sigma_mu` returns (1 if it is not
available). -/
noncomputable def poiProblem (lt' : LimitType) (allowNegative : Bool) (muhat : ℝ) (mllhd : F) (sigma : F) : Problem :=
  let neg : Bool := allowNegative || decide (lt' = .twoSided) || decide (lt' = .left)
  let s := positiveOr1 sigma
  let span := max (6 * |s|) 3
  let isGt0 := close0 muhat ∨ 0 < muhat
  let isLe0 := close0 muhat ∨ muhat < 0
  { mllhd := mllhd
    reference := muhat
    scanLo := max (-1e5) (if neg then muhat - span else max 0 (muhat - span))
    scanHi := min 1e5 (muhat + span)
    hardLo := if neg then -1e5 else 0
    hardHi := 1e5
    left :=
      { inner := if isGt0 then -1 else muhat - 1.5 * s
        outer := if isGt0 then -1 else muhat - 2.5 * s
        expand := fun h => h * 2
        contract := fun l => l * 0.5
        outerStop := fun h => h ≤ -1e5
        innerStop := fun l => -1e-5 ≤ l
        retry := if 0 < muhat then some (muhat, fun l => l ≤ 1e-5) else none
        fallback := fun o => if o ≤ -1e5 then fin (-1e5) else nan }
    right :=
      { inner := if isLe0 then 1 else muhat + 1.5 * s
        outer := if isLe0 then 1 else muhat + 2.5 * s
        expand := fun h => h * 2
        contract := fun l => l * 0.5
        outerStop := fun h => 1e5 ≤ h
        innerStop := fun l => l ≤ 1e-5
        retry := if muhat < 0 then some (muhat, fun l => -1e-5 ≤ l) else none
        fallback := fun o => if 1e5 ≤ o then fin 1e5 else nan } }

/-- The branch for a nuisance parameter, L1524-1594: `theta` is the fitted value (finite), `cfgLo` and `cfgHi` the suggested
bounds of the parameter. -/
noncomputable def nuisanceProblem (theta : ℝ) (mllhd : F) (cfgLo cfgHi : Option ℝ) : Problem :=
  let absLo := cfgLo.getD (-1e5)
  let absHi := cfgHi.getD 1e5
  let span := max 10 (5 * |theta|)
  let stepL := max (|theta - absLo| * 0.5) 0.5
  let stepR := max (|absHi - theta| * 0.5) 0.5
  { mllhd := mllhd
    reference := theta
    scanLo := max absLo (theta - span)
    scanHi := min absHi (theta + span)
    hardLo := absLo
    hardHi := absHi
    left :=
      { inner := theta - stepL * 0.5
        outer := theta - stepL
        expand := fun h => 2 * h - theta
        contract := fun l => (l + theta) / 2
        outerStop := fun h => h ≤ absLo
        innerStop := fun l => theta - 1e-10 ≤ l
        retry := none
        fallback := fun o => if o ≤ absLo then fin absLo else nan }
    right :=
      { inner := theta + stepR * 0.5
        outer := theta + stepR
        expand := fun h => 2 * h - theta
        contract := fun l => (l + theta) / 2
        outerStop := fun h => absHi ≤ h
        innerStop := fun l => l ≤ theta + 1e-10
        retry := none
        fallback := fun o => if absHi ≤ o then fin absHi else nan } }

/-- `r < reference - 1e-12`, L1641 and L1655. -/
def isLeft (ref r : ℝ) : Prop := r < ref - 1e-12

/-- `r > reference + 1e-12`, L1642 and L1656. -/
def isRight (ref r : ℝ) : Prop := ref + 1e-12 < r

/-- `needs_left or needs_right`, L1643-1645. -/
def unfinished (t : LimitType) (ref : ℝ) (roots : List ℝ) : Prop :=
  ((t = .twoSided ∨ t = .left) ∧ ¬ ∃ r ∈ roots, isLeft ref r) ∨
  ((t = .twoSided ∨ t = .right) ∧ ¬ ∃ r ∈ roots, isRight ref r)

/-- The loop L1631-1653 with `n` attempts left; `roots` are the roots of the last scan. -/
noncomputable def scanLoop (scan : ℝ → ℝ → List ℝ) (t : LimitType) (ref hardLo hardHi : ℝ) :
    ℕ → List ℝ → ℝ → ℝ → List ℝ
  | 0, roots, _, _ => roots
  | n + 1, _, lo, hi =>
    let roots := scan lo hi
    if unfinished t ref roots then
      let newLo := max hardLo (ref - 3 * (ref - lo))
      let newHi := min hardHi (ref + 3 * (hi - ref))
      if lo - 1e-12 ≤ newLo ∧ newHi ≤ hi + 1e-12 then roots
      else scanLoop scan t ref hardLo hardHi n roots newLo newHi
    else roots

/-- `_legacy_side`, L1664-1683. -/
noncomputable def legacySide (fuel : ℕ) (toms : Solver) (f : ℝ → F) (s : Side) : Option (Except Err F) :=
  match bracketAndSolve fuel toms f s.inner s.outer s.expand s.contract s.outerStop s.innerStop s.retry with
  | none => none
  | some (.error e) => some (.error e)
  | some (.ok (_, outer, x0)) => some (.ok (if isNan x0 then s.fallback outer else x0))

/-- `computer`, L1611-1612; `thr` is `chi2.isf(1 - confidence_level, df=1)` (infinite for confidence level 1). -/
noncomputable def profile (nll : ℝ → F) (mllhd thr : F) (x : ℝ) : F := sub (scale 2 (sub (nll x) mllhd)) thr

/-- The returned roots, L1685-1704. -/
noncomputable def select (t : LimitType) (ref : ℝ) (roots : List ℝ) (legacyLeft legacyRight : Option (Except Err F)) :
    Option (Except Err (List F)) :=
  let left := roots.filter (fun r => decide (isLeft ref r))
  let right := roots.filter (fun r => decide (isRight ref r))
  let one (x : Option (Except Err F)) : Option (Except Err (List F)) := x.map (fun r => r.map (fun v => [v]))
  match t with
  | .left => if left ≠ [] then some (.ok (left.map fin)) else one legacyLeft
  | .right => if right ≠ [] then some (.ok (right.map fin)) else one legacyRight
  | .twoSided =>
    match left.head?, right.getLast? with
    | some _, some _ => some (.ok (roots.map fin))
    | some l, none => legacyRight.map (fun r => r.map (fun v => [fin l, v]))
    | none, some r => legacyLeft.map (fun l => l.map (fun v => [v, fin r]))
    | none, none =>
      match legacyLeft with
      | none => none
      | some (.error e) => some (.error e)
      | some (.ok l) => legacyRight.map (fun r => r.map (fun v => [l, v]))

/-- `chi2_test` after the preparation, L1596-1704. -/
noncomputable def chi2Test (fuel : ℕ) (toms brent : Solver) (minimize : Minimizer) (nll : ℝ → F) (thr : F)
    (t : LimitType) (P : Problem) (nScan nMultistart : ℕ) : Option (Except Err (List F)) :=
  let m := refineMin minimize nll P.mllhd P.reference P.scanLo P.scanHi (max 2 nMultistart)
  let f := profile nll m.1 thr
  let roots := scanLoop (fun lo hi => enumerate toms brent f lo hi (max 3 nScan)) t m.2 P.hardLo P.hardHi 4 []
    P.scanLo P.scanHi
  select t m.2 roots (legacySide fuel toms f P.left) (legacySide fuel toms f P.right)

end Verif.Chi2
