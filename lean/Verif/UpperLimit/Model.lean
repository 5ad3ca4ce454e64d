import Verif.Stats.Model

/-!
# Model of the upper limit search

`/repo/src/spey/hypothesis_testing/upper_limits.py` and `HypothesisTestingBase.poi_upper_limit`
(`/repo/src/spey/base/hypotest_base.py` L1199-1328). Loops take a number of steps they may still do and give `none`
when it is used up; `some` results do not depend on it (proved), and non-termination is `none` for every number.
POI values are finite real numbers; function values may be nan or infinite.
-/

namespace Verif.UpperLimit
open Verif.Py F Verif.Stats
open Classical

/-- Exceptions of this part: a failed `assert`, a dictionary lookup, and what the root finder raises. -/
inductive Err
  | assertion | keyError | rootFinder
  deriving DecidableEq

/-- `ComputerWrapper`, upper_limits.py L29-61: the evaluations `(value, result)`, most recent first. The `deque` keeps
the last ten; only the last one is read. -/
abbrev Trace := List (ℝ × F)

/-- `wrapper.get_value(-1)`, L50-61. -/
def Trace.lastValue (t : Trace) : Option ℝ := t.head?.map Prod.fst

/-- `wrapper[-1]`, L46-48. -/
def Trace.last (t : Trace) : Option F := t.head?.map Prod.snd

/-- The first loop of `find_root_limits`, L91-93. -/
noncomputable def lowLoop (f : ℝ → F) (loc bound : ℝ) : ℕ → Trace → ℝ → Option Trace
  | 0, _, _ => none
  | n + 1, t, low =>
    if lt (fin loc) (f low) ∧ bound < low then lowLoop f loc bound n ((low, f low) :: t) (max (low * 0.2) bound)
    else some ((low, f low) :: t)

/-- The second loop, L96-98. -/
noncomputable def highLoop (f : ℝ → F) (loc bound : ℝ) : ℕ → Trace → ℝ → Option Trace
  | 0, _, _ => none
  | n + 1, t, hig =>
    if lt (f hig) (fin loc) ∧ hig < bound then highLoop f loc bound n ((hig, f hig) :: t) (min (hig * 5) bound)
    else some ((hig, f hig) :: t)

/-- `find_root_limits`, L64-101, with at most `fuel` evaluations in each loop. -/
noncomputable def findRootLimits (fuel : ℕ) (f : ℝ → F) (loc lowIni higIni lowBound higBound : ℝ) :
    Option (Trace × Trace) := do
  let low ← lowLoop f loc lowBound fuel [] lowIni
  let hig ← highLoop f loc higBound fuel [] higIni
  return (low, hig)

/-- `expected : ExpectationType`. -/
inductive Expected
  | observed | aposteriori | apriori
  deriving DecidableEq

/-- `computer`, L180-200. `CL` is `confidence_level`. The last case (a test statistic that `get_test_statistic` does not
know) is not reached: the name is `"q"` or `"qtilde"`. The index is in range for the indices used. -/
noncomputable def computer (B : Backend) (e : Expected) (CL : ℝ) (allowNegative : Bool) (idx : ℕ) (poi : ℝ) : F :=
  let testStat := if allowNegative then "q" else "qtilde"
  let pvalue := match computeTeststatistics (fin poi) (B.data.muhat, B.data.nll) B.data.logpdf
      (B.asimov.muhat, B.asimov.nll) B.asimov.logpdf testStat with
    | .ok (_, sqrtQA, delta) =>
      let r := asymptoticLevel sqrtQA delta testStat
      (if e = Expected.observed then r.1 else r.2).map (fun x => sub (fin 1) x)
    | .error .asimovTestStatZero => if e = Expected.observed then [fin 0] else List.replicate 5 (fin 0)
    | .error _ => []
  sub (pvalue.getD idx nan) (fin CL)

/-- `expected_pvalue`: the three known strings, anything else. -/
inductive Band
  | nominal | sigma1 | sigma2 | unknown
  deriving DecidableEq

/-- `index_range`, L203-207. -/
def indexRange (e : Expected) : Band → List ℕ
  | .nominal => [if e = .observed then 0 else 2]
  | .sigma1 => [1, 2, 3]
  | .sigma2 => [0, 1, 2, 3, 4]
  | .unknown => []

/-- `np.sign(a) * np.sign(b) > 0.0`, L219 (false if one is nan). -/
def sameSign (a b : F) : Prop := (lt (fin 0) a ∧ lt (fin 0) b) ∨ (lt a (fin 0) ∧ lt b (fin 0))

/-- `scipy.optimize.toms748(f, a, b, ...)`: a result or an exception. -/
abbrev Solver := (ℝ → F) → ℝ → ℝ → Except Err ℝ

/-- The body of the loop over `pvalue_idx`, L209-244. -/
noncomputable def limitAt (fuel : ℕ) (solve : Solver) (f : ℝ → F) (lowInit higInit : ℝ) : Option (Except Err F) :=
  match findRootLimits fuel f 0 lowInit higInit 1e-10 1e5 with
  | none => none
  | some (low, hig) =>
    match low.head?, hig.head? with
    | some (a, fa), some (b, fb) =>
      if sameSign fa fb then some (.ok pinf)
      else some ((solve f a b).map fin)
    | _, _ => none

/-- The loop over `pvalue_idx`, L208-244: an exception ends it. -/
noncomputable def limitsAt (fuel : ℕ) (solve : Solver) (f : ℕ → ℝ → F) (lowInit higInit : ℝ) :
    List ℕ → Option (Except Err (List F))
  | [] => some (.ok [])
  | i :: is =>
    match limitAt fuel solve (f i) lowInit higInit with
    | none => none
    | some (.error e) => some (.error e)
    | some (.ok x) =>
      match limitsAt fuel solve f lowInit higInit is with
      | some (.ok xs) => some (.ok (x :: xs))
      | r => r

/-- The value returned: a number or a list. -/
inductive Limit
  | one (x : F)
  | many (l : List F)

/-- `result if len(result) > 1 else result[0]`, L245. -/
def pack : List F → Limit
  | [x] => .one x
  | l => .many l

/-- `find_poi_upper_limit`, L104-245. -/
noncomputable def findPoiUpperLimit (fuel : ℕ) (solve : Solver) (B : Backend) (e : Expected) (CL : ℝ)
    (allowNegative : Bool) (lowInit higInit : ℝ) (band : Band) : Option (Except Err Limit) :=
  if band = .unknown then some (.error .assertion)
  else
    let band := if e = .observed then .nominal else band
    match limitsAt fuel solve (computer B e CL allowNegative) lowInit higInit (indexRange e band) with
    | none => none
    | some (.error e) => some (.error e)
    | some (.ok l) => some (.ok (pack l))

/-- What the model object contributes to `poi_upper_limit`: `is_alive`, the fits of `_prepare_for_hypotest` (with a finite
`muhat`) and `sigma_mu` (finite). -/
structure Inputs where
  alive : Bool
  backend : Backend
  muhat : ℝ
  sigmaMu : ℝ → ℝ

/-- `low_init or default` (hypotest_base.py L1312-1313): zero counts as absent. -/
noncomputable def orElse (x : Option ℝ) (default : ℝ) : ℝ :=
  match x with
  | some y => if y = 0 then default else y
  | none => default

/-- The starting points, L1305-1313. -/
noncomputable def starts (I : Inputs) (lowInit higInit : Option ℝ) : ℝ × ℝ :=
  match lowInit, higInit with
  | some l, some h => (l, h)
  | l, h =>
    let muhat := if 0 < I.muhat then I.muhat else 0
    let sigma := if |muhat| ≤ 1e-8 then 1 else I.sigmaMu muhat
    (max (orElse l (muhat + 1.5 * sigma)) 1e-10, max (orElse h (muhat + 2.5 * sigma)) 1e-10)

/-- The dictionary of L1287-1289. -/
def deadLimit : Band → Except Err Limit
  | .nominal => .ok (.one pinf)
  | .sigma1 => .ok (.many (List.replicate 3 pinf))
  | .sigma2 => .ok (.many (List.replicate 5 pinf))
  | .unknown => .error .keyError

/-- `poi_upper_limit`, L1199-1328. -/
noncomputable def poiUpperLimit (fuel : ℕ) (solve : Solver) (I : Inputs) (e : Expected) (CL : ℝ)
    (lowInit higInit : Option ℝ) (band : Band) : Option (Except Err Limit) :=
  if 0 ≤ CL ∧ CL ≤ 1 then
    let band := if e = .observed then .nominal else band
    if I.alive then
      let s := starts I lowInit higInit
      findPoiUpperLimit fuel solve I.backend e CL false s.1 s.2 band
    else some (deadLimit band)
  else some (.error .assertion)

/-- `bracket_and_solve`, L248-361, the loops: `while cw(x) < 0 and not stop(x): x = next(x)` and its mirror image are both
`walk` with the condition `go`. -/
noncomputable def walk (f : ℝ → F) (go : F → Prop) (stop : ℝ → Prop) (next : ℝ → ℝ) : ℕ → ℝ → Option ℝ
  | 0, _ => none
  | n + 1, x => if go (f x) ∧ ¬ stop x then walk f go stop next n (next x) else some x

/-- `np.sign(a) == np.sign(b)` (false if one is nan). -/
def eqSign (a b : F) : Prop := sameSign a b ∨ (F.eq a (fin 0) ∧ F.eq b (fin 0))

/-- The second contraction of `bracket_and_solve`, L337-345. -/
noncomputable def retryInner (fuel : ℕ) (f : ℝ → F) (contract : ℝ → ℝ) (inner outer : ℝ)
    (retry : Option (ℝ × (ℝ → Prop))) : Option ℝ :=
  match retry with
  | some (r, stop) =>
    if eqSign (f inner) (f outer) then walk f (fun v => lt (fin 0) v) stop contract fuel r else some inner
  | none => some inner

/-- The end of `bracket_and_solve`, L347-361: `(inner, outer, root)`, the root is nan if there is no sign change. -/
noncomputable def solveBracket (solve : Solver) (f : ℝ → F) (inner outer : ℝ) : Except Err (ℝ × ℝ × F) :=
  if eqSign (f inner) (f outer) then .ok (inner, outer, nan)
  else (solve f (min inner outer) (max inner outer)).map (fun x => (inner, outer, fin x))

/-- `bracket_and_solve`, L324-361. -/
noncomputable def bracketAndSolve (fuel : ℕ) (solve : Solver) (f : ℝ → F) (inner outer : ℝ) (expand contract : ℝ → ℝ)
    (outerStop innerStop : ℝ → Prop) (retry : Option (ℝ × (ℝ → Prop))) : Option (Except Err (ℝ × ℝ × F)) :=
  match walk f (fun v => lt v (fin 0)) outerStop expand fuel outer with
  | none => none
  | some outer =>
    match walk f (fun v => lt (fin 0) v) innerStop contract fuel inner with
    | none => none
    | some inner => (retryInner fuel f contract inner outer retry).map (fun inner => solveBracket solve f inner outer)

end Verif.UpperLimit
