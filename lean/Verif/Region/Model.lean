import Verif.Contour.Find
import Verif.Contour.Indices
import Verif.Interface.Model

/-!
# Model of `find_contour` for a statistical model

`/repo/src/spey/multiparameter/contour.py` L425-927: from the arguments to the result, with `_find_mle` (L935-978). The search itself,
from `nll_scalar` and `grad_nll` on, is `Verif.Contour.findContour`; the fit is `Verif.Interface.maximize`.
-/

namespace Verif.Region
open Verif.Py F
open Verif.Config (Bound)
open Verif.Contour (Num Vec Target Bounds Minimiser Setup Gen Result Choice insertPoi assemble signalIndices)
open Verif.Interface (Backend Solver World)
open Classical

noncomputable section

/-- Exceptions: those of the search and those of the statistical model. -/
inductive Err
  | contour (e : Contour.Err) | model (e : Interface.Err)
  deriving DecidableEq

/-- What other libraries do. `setup` gives the settings of the search for `k` contour parameters, the quantile included; its target, bounds and minimiser
are not used. `lbfgs` is `scipy.optimize.minimize(..., method="L-BFGS-B")` with the target and the bounds, contour.py L1051-1059. `slsqp` is
the inner `scipy.optimize.minimize(..., method="SLSQP")` with the objective, the start and the bounds, contour.py L609-617, with the point and whether it
succeeded. `autograd` is the gradient of a function. `garbage` is what `np.empty` leaves in a vector. -/
structure Lib where
  setup : (k : ℕ) → Setup k
  lbfgs : (k : ℕ) → Target k → Bounds k → Minimiser k
  slsqp : (List ℝ → F) → List ℝ → List Bound → Except Contour.Err (List ℝ × Bool)
  autograd : (List ℝ → F) → List ℝ → Except Contour.Err (Option (List ℝ))
  garbage : List ℝ

/-- A float as the search takes it: infinite values count as `nan` there. -/
def num : F → Num
  | fin x => some x
  | _ => none

/-- `[signal_dict[i] for i in signal_indices]`, contour.py L971. -/
def readSignal (d : List (Config.Key × ℝ)) : List ℤ → Except Err (List ℝ)
  | [] => .ok []
  | i :: l =>
    match dictGet (.index i) d with
    | none => .error (.contour .key)
    | some v =>
      match readSignal d l with
      | .error e => .error e
      | .ok r => .ok (v :: r)

/-- `_find_mle`, contour.py L935-978. A hook of the backend that returns a number instead of a dictionary cannot be indexed. -/
def findMle (S : Solver) (B : Backend) (signal : List ℤ) (w : World) : Except Err (List ℝ × ℝ) × World :=
  match Interface.maximize S B true .observed true none (some (signal.map .index)) (some (.float 1)) true none w with
  | (.error e, w) => (.error (.model e), w)
  | (.ok (.one _, _), w) => (.error (.contour .type), w)
  | (.ok (.many d, l), w) =>
    (match readSignal d signal with
      | .error e => .error e
      | .ok θ =>
        match l with
        | fin v => .ok (θ, v)
        | _ => .error (.contour .runtime), w)

/-- A bound of one side: infinite bounds act as none. -/
def side : Option F → Option ℝ
  | some (fin x) => some x
  | _ => none

/-- The bounds of the contour parameters. -/
def box (k : ℕ) (l : List Bound) : Bounds k := fun j => (side (l.getD j (none, none)).1, side (l.getD j (none, none)).2)

/-- The full vector at which the NLL is taken for the contour parameters `cp`: without profile parameters the strength is inserted, contour.py L512-526;
otherwise the profile parameters are found by the inner minimisation, contour.py L570-618. Constraints of the backend are taken to be objects of
`scipy.optimize`, as those of the built-in backends are: they cannot be indexed, contour.py L602. -/
def fullPoint (L : Lib) (logpdf : List ℝ → F) (objects : Bool) (poi : ℕ) (c : Choice Bound) (profileBounds : List Bound) (init cp : List ℝ) :
    Except Contour.Err (List ℝ) :=
  if c.profile = [] then .ok (insertPoi poi cp)
  else if objects then .error .type
  else
    match L.slsqp (fun pp => neg (logpdf (assemble poi c.contour c.profile L.garbage cp pp))) init profileBounds with
    | .error e => .error e
    | .ok (x, success) => .ok (assemble poi c.contour c.profile L.garbage cp (if success then x else init))

/-- `nll_scalar`, contour.py L530-532 and L624-628. -/
def nllScalar (L : Lib) (logpdf : List ℝ → F) (objects : Bool) (poi : ℕ) (c : Choice Bound) (profileBounds : List Bound) (init cp : List ℝ) :
    Except Contour.Err Num :=
  match fullPoint L logpdf objects poi c profileBounds init cp with
  | .error e => .error e
  | .ok x => .ok (num (neg (logpdf x)))

/-- `grad_nll`, contour.py L534-538 and L630-648. -/
def gradNll (L : Lib) (logpdf : List ℝ → F) (objects : Bool) (poi : ℕ) (c : Choice Bound) (profileBounds : List Bound) (init cp : List ℝ) :
    Except Contour.Err (Option (List ℝ)) :=
  if c.profile = [] then L.autograd (fun pars => neg (logpdf (insertPoi poi pars))) cp
  else
    match fullPoint L logpdf objects poi c profileBounds init cp with
    | .error e => .error e
    | .ok x =>
      match L.autograd logpdf x with
      | .error e => .error e
      | .ok none => .ok none
      | .ok (some g) => .ok (some (c.contour.map fun i => -(g.getD i.toNat 0)))

/-- `nll_scalar` and `grad_nll` for the search. At a vector with `nan` both are taken to be `nan`. -/
def target (L : Lib) (logpdf : List ℝ → F) (objects : Bool) (poi : ℕ) (c : Choice Bound) (profileBounds : List Bound) (init : List ℝ) :
    Target c.contour.length where
  nll θ := match θ with
    | none => .ok none
    | some t => nllScalar L logpdf objects poi c profileBounds init (List.ofFn t)
  grad θ := match θ with
    | none => .ok none
    | some t =>
      match gradNll L logpdf objects poi c profileBounds init (List.ofFn t) with
      | .error e => .error e
      | .ok none => .ok none
      | .ok (some g) => .ok (some fun j => g.getD j 0)

/-- The settings of the search for the model. -/
def search (L : Lib) (F : Target k) (b : Bounds k) : Setup k :=
  { L.setup k with F := F, bounds := b, minimise := L.lbfgs k F b }

/-- `find_contour`, contour.py L425-927. The result comes with the number of contour parameters. `given` is `poi_indices`. The index of the POI is taken to
be non-negative. That all contour indices are those of parameters is checked before the fit here, after it in the code (contour.py L490); the objective
that `prepare_for_fit` builds again for the profile parameters, contour.py L565, has already been built for the fit. -/
def findContour (S : Solver) (B : Backend) (L : Lib) (G : (k : ℕ) → Gen k) (cl : ℝ) (given : Option (List ℤ)) (bounds : Option (List Bound))
    (w : World) (s : (k : ℕ) → (G k).State) : Except Err ((k : ℕ) × Result k) × World :=
  if cl ≤ 0 ∨ 1 ≤ cl then (.error (.contour .value), w)
  else
    let cfg := Interface.config B true w
    let poi := cfg.poiIndex.toNat
    match Contour.choose cfg.npar poi cfg.bounds cfg.names given bounds with
    | .error e => (.error (.contour e), w)
    | .ok c =>
      match findMle S B (signalIndices cfg.npar poi) w with
      | (.error e, w) => (.error e, w)
      | (.ok (all, v), w) =>
        (match Contour.splitFit cfg.npar poi c.contour c.profile all, Contour.pyGets cfg.bounds c.profile with
          | .error e, _ => .error (.contour e)
          | _, .error e => .error (.contour e)
          | .ok (θ, init), .ok pb =>
            match Contour.findContour (G c.contour.length)
                (search L (target L (B.logpdf .observed none) (decide (B.constraints ≠ [])) poi c pb init) (box c.contour.length c.bounds))
                (fun j => θ.getD j 0, v) (s c.contour.length) with
            | .error e => .error (.contour e)
            | .ok r => .ok ⟨c.contour.length, r⟩, w)

end

end Verif.Region
