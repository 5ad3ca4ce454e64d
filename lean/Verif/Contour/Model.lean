import Mathlib.Data.Real.Sqrt
import Mathlib.Data.Matrix.Mul
import Mathlib.Logic.Function.Basic

/-!
# Model of the walk along a contour

`/repo/src/spey/multiparameter/contour.py` L1542-1888: the Newton projection, the RATTLE step, the walk and the chains.

Numbers are exact reals or `nan`, `Option ℝ` with `none` for `nan`; arithmetic with `nan` gives `nan` and comparisons with it are
false. A vector is a vector of reals or has `nan` in every component: in the projection and in the RATTLE step a `nan` factor
multiplies a whole vector. (A gradient that is `nan` in some components only is taken as `nan` in all.) Infinite values and rounding
are not modelled.
-/

namespace Verif.Contour

noncomputable section

/-- Exceptions. `value` is `ValueError`, `key` is `KeyError`, `index` is `IndexError`, `type` is `TypeError`, `runtime` is
`RuntimeError`, `other` is any other `Exception`. -/
inductive Err
  | value | key | index | type | runtime | other
  deriving DecidableEq

abbrev Vec (k : ℕ) := Fin k → ℝ

/-- A float: a real number, or `nan`. -/
abbrev Num := Option ℝ

/-- `a < b`. -/
def Num.Lt : Num → Num → Prop
  | some a, some b => a < b
  | _, _ => False

/-- `a <= b`. -/
def Num.Le : Num → Num → Prop
  | some a, some b => a ≤ b
  | _, _ => False

instance (a b : Num) : Decidable (Num.Lt a b) := Classical.dec _
instance (a b : Num) : Decidable (Num.Le a b) := Classical.dec _

/-- `nll_scalar` and `grad_nll`, built in contour.py L510-648: any functions, which may raise. -/
structure Target (k : ℕ) where
  nll : Option (Vec k) → Except Err Num
  grad : Option (Vec k) → Except Err (Option (Vec k))

/-- One Newton step, contour.py L1588: `theta - (residual / g_sq) * g`. -/
def newton {k : ℕ} (θ : Option (Vec k)) (residual : Num) (g : Option (Vec k)) : Option (Vec k) :=
  match θ, residual, g with
  | some t, some r, some g => some (t - (r / (g ⬝ᵥ g)) • g)
  | _, _, _ => none

/-- `_project_theta`, contour.py L1580-1589; the number is `max_iter`. -/
def project {k : ℕ} (F : Target k) (T tol : ℝ) : ℕ → Option (Vec k) → Except Err (Option (Vec k))
  | 0, θ => .ok θ
  | n + 1, θ =>
    match F.nll θ with
    | .error e => .error e
    | .ok v =>
      if Num.Lt (v.map fun x => |x - T|) (some tol) then .ok θ
      else
        match F.grad θ with
        | .error e => .error e
        | .ok g =>
          if Num.Lt (g.map fun g => g ⬝ᵥ g) (some 1e-20) then .ok θ
          else project F T tol n (newton θ (v.map fun x => x - T) g)

/-- `p - c * g`, `nan` if one of them is. -/
def kick {k : ℕ} (p : Option (Vec k)) (c : ℝ) (g : Option (Vec k)) : Option (Vec k) :=
  match p, g with
  | some p, some g => some (p - c • g)
  | _, _ => none

/-- `theta + eps * p`. -/
def drift {k : ℕ} (θ : Option (Vec k)) (eps : ℝ) (p : Option (Vec k)) : Option (Vec k) :=
  match θ, p with
  | some t, some p => some (t + eps • p)
  | _, _ => none

/-- The projection of a momentum to the tangent space, contour.py L1674-1678 and L1748-1751. -/
def tangent {k : ℕ} (p g : Option (Vec k)) : Option (Vec k) :=
  if Num.Lt (some 1e-20) (g.map fun g => g ⬝ᵥ g) then
    match p, g with
    | some p, some g => some (p - ((p ⬝ᵥ g) / (g ⬝ᵥ g)) • g)
    | _, _ => none
  else p

/-- `_rattle_step`, contour.py L1655-1680. -/
def rattleStep {k : ℕ} (F : Target k) (T eps tol : ℝ) (maxIter : ℕ) (θ p : Option (Vec k)) :
    Except Err (Option (Vec k) × Option (Vec k)) :=
  match F.grad θ with
  | .error e => .error e
  | .ok g0 =>
    let pHalf := kick p (eps / 2) g0
    match project F T tol maxIter (drift θ eps pHalf) with
    | .error e => .error e
    | .ok θ1 =>
      match F.grad θ1 with
      | .error e => .error e
      | .ok g1 => .ok (θ1, tangent (kick pHalf (eps / 2) g1) g1)

/-- `np.linalg.norm`. -/
def norm {k : ℕ} (v : Vec k) : ℝ := Real.sqrt (v ⬝ᵥ v)

/-- `raw / n if n > 1e-15 else raw`, contour.py L1752-1753. -/
def normalise {k : ℕ} : Option (Vec k) → Option (Vec k)
  | none => none
  | some v => if 1e-15 < norm v then some ((norm v)⁻¹ • v) else some v

/-- `_tangent_momentum`, contour.py L1735-1753, for the Gaussian vector `raw`. -/
def tangentMomentum {k : ℕ} (F : Target k) (θ : Option (Vec k)) (raw : Vec k) : Except Err (Option (Vec k)) :=
  match F.grad θ with
  | .error e => .error e
  | .ok g => .ok (normalise (tangent (some raw) g))

/-- Bounds for every parameter; `none` for no bound. Infinite bounds act as no bound, as do bounds that are not given at all. -/
abbrev Bounds (k : ℕ) := Fin k → Option ℝ × Option ℝ

/-- Some parameter has left its range, contour.py L1781-1784. -/
def Outside {k : ℕ} (b : Bounds k) : Option (Vec k) → Prop
  | none => False
  | some t => ∃ i, (∃ lo, (b i).1 = some lo ∧ t i < lo) ∨ ∃ hi, (b i).2 = some hi ∧ hi < t i

instance {k : ℕ} (b : Bounds k) (θ : Option (Vec k)) : Decidable (Outside b θ) := Classical.dec _

/-- The settings of a walk. -/
structure Walk (k : ℕ) where
  T : ℝ
  nSteps : ℕ
  eps : ℝ
  tol : ℝ
  maxIter : ℕ
  bounds : Bounds k

/-- `resample_every`, contour.py L1756. -/
def resampleEvery (n : ℕ) : ℕ := max 1 (n / 5)

/-- The momentum that a step starts with, and the number of Gaussian vectors used so far, contour.py L1761-1762. The vectors are
`raw 0`, `raw 1` and so on. -/
def momentum {k : ℕ} (F : Target k) (w : Walk k) (raw : ℕ → Vec k) (step : ℕ) (θ p : Option (Vec k)) (d : ℕ) :
    Except Err (Option (Vec k) × ℕ) :=
  if 0 < step ∧ step % resampleEvery w.nSteps = 0 then
    match tangentMomentum F θ (raw d) with
    | .error e => .error e
    | .ok q => .ok (q, d + 1)
  else .ok (p, d)

/-- The loop of `_rattle_walk`, contour.py L1759-1790: the points appended in the remaining steps. -/
def walkLoop {k : ℕ} (F : Target k) (w : Walk k) (raw : ℕ → Vec k) :
    ℕ → ℕ → Option (Vec k) → Option (Vec k) → ℕ → Except Err (List (Option (Vec k)))
  | 0, _, _, _, _ => .ok []
  | n + 1, step, θ, p, d =>
    match momentum F w raw step θ p d with
    | .error e => .error e
    | .ok (p, d) =>
      match rattleStep F w.T w.eps w.tol w.maxIter θ p with
      | .error _ => .ok []
      | .ok (θ1, p1) =>
        if Outside w.bounds θ1 then .ok []
        else
          match walkLoop F w raw n (step + 1) θ1 p1 d with
          | .error e => .error e
          | .ok l => .ok (θ1 :: l)

/-- `_rattle_walk`, contour.py L1730-1792. -/
def rattleWalk {k : ℕ} (F : Target k) (w : Walk k) (raw : ℕ → Vec k) (start : Option (Vec k)) : Except Err (List (Option (Vec k))) :=
  match project F w.T w.tol w.maxIter start with
  | .error e => .error e
  | .ok θ =>
    match tangentMomentum F θ (raw 0) with
    | .error e => .error e
    | .ok p =>
      match walkLoop F w raw w.nSteps 0 θ p 1 with
      | .error e => .error e
      | .ok l => .ok (θ :: l)

/-! ### Chains -/

/-- The main random generator: its states, a Gaussian vector, an integer seed and a uniform number in `[0, 1)`. -/
structure Gen (k : ℕ) where
  State : Type
  normal : State → Vec k × State
  seed : State → ℕ × State
  uniform : State → ℝ × State

/-- The seeds of the chains, drawn beforehand, contour.py L1849-1851. -/
def seeds {k : ℕ} (G : Gen k) : ℕ → G.State → List ℕ × G.State
  | 0, s => ([], s)
  | n + 1, s => ((G.seed s).1 :: (seeds G n (G.seed s).2).1, (seeds G n (G.seed s).2).2)

/-- `[job(i) for i in range(n)]`: the first exception ends it. -/
def sequential {R : Type} (job : ℕ → Except Err R) : List ℕ → Except Err (List R)
  | [] => .ok []
  | i :: l =>
    match job i with
    | .error e => .error e
    | .ok r =>
      match sequential job l with
      | .error e => .error e
      | .ok rs => .ok (r :: rs)

/-- The workers of a pool finish their jobs in some order; each result goes to the slot of its job. -/
def fill {R : Type} (job : ℕ → Except Err R) : List ℕ → (ℕ → Option R) → Except Err (ℕ → Option R)
  | [], t => .ok t
  | i :: l, t =>
    match job i with
    | .error e => .error e
    | .ok r => fill job l (Function.update t i (some r))

/-- What the pool returns: the slots in order. -/
def collect {R : Type} (t : ℕ → Option R) : List ℕ → Except Err (List R)
  | [] => .ok []
  | i :: l =>
    match t i with
    | none => .error .other
    | some r =>
      match collect t l with
      | .error e => .error e
      | .ok rs => .ok (r :: rs)

/-- `Parallel(...)(...)`, contour.py L1878-1880. A schedule is the order in which the jobs finish, or `none` if the pool fails by
itself (for instance because the closures cannot be pickled). -/
def parallel {R : Type} (n : ℕ) (schedule : Option (List ℕ)) (job : ℕ → Except Err R) : Except Err (List R) :=
  match schedule with
  | none => .error .other
  | some order =>
    match fill job order fun _ => none with
    | .error e => .error e
    | .ok t => collect t (List.range n)

/-- The trajectories, contour.py L1877-1883: those of the pool, or computed one after the other if the pool raises. -/
def trajectories {R : Type} (n : ℕ) (schedule : Option (List ℕ)) (job : ℕ → Except Err R) : Except Err (List R) :=
  match parallel n schedule job with
  | .ok l => .ok l
  | .error _ => sequential job (List.range n)

/-- `_one_chain`, contour.py L1853-1868. `stream seed` are the Gaussian vectors of a generator with that seed. -/
def oneChain {k : ℕ} (F : Target k) (w : Walk k) (stream : ℕ → ℕ → Vec k) (starts : List (Option (Vec k))) (seeds : List ℕ) (i : ℕ) :
    Except Err (List (Option (Vec k))) :=
  match starts[i]?, seeds[i]? with
  | some start, some seed => rattleWalk F w (stream seed) start
  | _, _ => .error .index

/-- `_run_hmc_chains`, contour.py L1841-1888: the points of all chains and the generator afterwards. -/
def runChains {k : ℕ} (G : Gen k) (F : Target k) (w : Walk k) (stream : ℕ → ℕ → Vec k) (schedule : Option (List ℕ))
    (starts : List (Option (Vec k))) (s : G.State) : Except Err (List (Option (Vec k)) × G.State) :=
  if starts.length = 0 then .ok ([], s)
  else
    match trajectories starts.length schedule (oneChain F w stream starts (seeds G starts.length s).1) with
    | .error e => .error e
    | .ok ts => .ok (ts.flatten, (seeds G starts.length s).2)

end

end Verif.Contour
