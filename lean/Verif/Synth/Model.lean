import Verif.Py.Arith
import Mathlib.Analysis.SpecialFunctions.Log.Basic

/-!
# Model of the signal uncertainties

`/repo/src/spey/backends/default_pdf/uncertainty_synthesizer.py`. Nominal signal yields and parameters are finite numbers; the
uncertainties may be infinite or nan.
-/

namespace Verif.Synth
open Verif.Py F

/-- `InvalidUncertaintyDefinition`, `KeyError` and `IndexError`. -/
inductive Err
  | invalid | key | index
  deriving DecidableEq

/-- The array `np.array(modifier["uncertainties"])`: one-dimensional, two-dimensional with two columns, or with another number
of dimensions (given by its length). Ragged lists, where numpy itself raises, and tables with another number of columns are
not modelled. -/
inductive Unc
  | sym (l : List F)
  | asym (l : List (F × F))
  | other (len : ℕ)

def Unc.length : Unc → ℕ
  | .sym l => l.length
  | .asym l => l.length
  | .other n => n

/-- A modifier: a dict with the keys `type`, `uncertainties` and `name`; `none` is a missing key. -/
structure Modifier where
  type : Option String
  uncertainties : Option Unc
  name : Option String

/-- `_validate_delta`, L498-526, for one bin: nan becomes 1, and the rest is clipped from below. -/
noncomputable def validate : F → F
  | nan => fin 1
  | ninf => fin 1
  | fin x => fin (max x 1)
  | pinf => pinf

/-- `1.0 + np.where(signal != 0.0, value / signal, 0.0)`, L396-407, for one bin. -/
noncomputable def delta (s : ℝ) (v : F) : F := add (fin 1) (if s ≠ 0 then div v (fin s) else fin 0)

/-- `np.log`. -/
noncomputable def log : F → F
  | nan => nan
  | ninf => nan
  | fin x => if 0 < x then fin (Real.log x) else if x = 0 then ninf else nan
  | pinf => pinf

/-- The logarithm of the validated variation of one bin, L418-422. -/
noncomputable def logVar (s : ℝ) (v : F) : F := log (validate (delta s v))

/-- What a modifier leaves behind: its kind, the logarithms, the index of its first parameter, and its label. -/
structure Block where
  shape : Bool
  up : List F
  dn : List F
  start : ℕ
  label : String

/-- The number of parameters: one, or one per bin. -/
def Block.width (n : ℕ) (b : Block) : ℕ := if b.shape then n else 1

/-- One round of the loop, L379-471. `signal` are the yields, `idx` the value of `current_idx`, `k` the number of the
modifier. -/
noncomputable def block (signal : List ℝ) (k idx : ℕ) (m : Modifier) : Except Err Block :=
  if m.type ≠ some "normalization" ∧ m.type ≠ some "shape" then .error .invalid
  else
    match m.uncertainties with
    | none => .error .key
    | some u =>
      if u.length ≠ signal.length then .error .invalid
      else
        match u with
        | .sym l => .ok
          { shape := m.type = some "shape"
            up := List.zipWith logVar signal l
            dn := List.zipWith logVar signal l
            start := idx
            label := m.name.getD s!"mod{k}" }
        | .asym l => .ok
          { shape := m.type = some "shape"
            up := List.zipWith logVar signal (l.map Prod.fst)
            dn := List.zipWith logVar signal (l.map Prod.snd)
            start := idx
            label := m.name.getD s!"mod{k}" }
        | .other _ => .error .invalid

/-- The loop over the modifiers, L379-471. -/
noncomputable def build (signal : List ℝ) : ℕ → ℕ → List Modifier → Except Err (List Block)
  | _, _, [] => .ok []
  | k, idx, m :: l =>
    match block signal k idx m with
    | .error e => .error e
    | .ok b =>
      match build signal (k + 1) (idx + b.width signal.length) l with
      | .error e => .error e
      | .ok bs => .ok (b :: bs)

/-- `pars[i]`; here only non-negative indices occur. -/
def get (pars : List ℝ) (i : ℕ) : Except Err ℝ :=
  match pars[i]? with
  | none => .error .index
  | some x => .ok x

/-- `_lam_norm`, L438-444: all bins with one parameter. -/
noncomputable def lamNorm (b : Block) (pars : List ℝ) : Except Err (List F) :=
  match get pars b.start with
  | .error e => .error e
  | .ok a => .ok ((if 0 < a then b.up else b.dn).map fun x => mul (fin a) x)

/-- `_lam_shape`, L461-471: every bin with its own parameter. -/
noncomputable def lamShape (n : ℕ) (b : Block) (pars : List ℝ) : Except Err (List F) :=
  match (List.range n).mapM fun i => get pars (b.start + i) with
  | .error e => .error e
  | .ok as => .ok (List.zipWith (fun a p => mul (fin a) (if 0 ≤ a then p.1 else p.2)) as (b.up.zip b.dn))

noncomputable def lam (n : ℕ) (b : Block) (pars : List ℝ) : Except Err (List F) :=
  if b.shape then lamShape n b pars else lamNorm b pars

/-- The sum of the logarithms over the blocks, L487-488, from the left. -/
noncomputable def sumLams (n : ℕ) (pars : List ℝ) : List F → List Block → Except Err (List F)
  | acc, [] => .ok acc
  | acc, b :: bs =>
    match lam n b pars with
    | .error e => .error e
    | .ok l => sumLams n pars (List.zipWith add acc l) bs

/-- The callable `lambda`, L475-488. Without modifiers it is the number 1.0, here one value per bin. -/
noncomputable def factors (n : ℕ) (blocks : List Block) (pars : List ℝ) : Except Err (List F) :=
  match blocks with
  | [] => .ok (List.replicate n (fin 1))
  | b :: bs =>
    match lam n b pars with
    | .error e => .error e
    | .ok l =>
      match sumLams n pars l bs with
      | .error e => .error e
      | .ok l => .ok (l.map exp)

/-- The names of the parameters of a block, L428 and L450. -/
def Block.names (n : ℕ) (b : Block) : List String :=
  if b.shape then (List.range n).map fun i => s!"theta_sig_{b.label}_{i}" else [s!"theta_sig_{b.label}"]

/-- The domains of the constraints of a block, L430-436 and L452-459: every constraint is a standard normal distribution of one
parameter. -/
def Block.domains (n : ℕ) (b : Block) : List ℕ :=
  if b.shape then (List.range n).map fun i => b.start + i else [b.start]

/-- The dict that is returned, L473-495; constraints are given by the index of their parameter. -/
structure Config where
  lambda : List ℝ → Except Err (List F)
  constraint : List ℕ
  nParameters : ℕ
  names : List String

/-- `signal_uncertainty_synthesizer`, L173-495. `nsp` is `n_signal_parameters`. -/
noncomputable def synth (signal : List ℝ) (modifiers : List Modifier) (nsp : ℕ) (domainStart : Option ℕ) : Except Err Config :=
  match build signal 0 (domainStart.getD (1 + nsp + signal.length)) modifiers with
  | .error e => .error e
  | .ok blocks => .ok
    { lambda := factors signal.length blocks
      constraint := blocks.flatMap (Block.domains signal.length)
      nParameters := (blocks.map (Block.width signal.length)).sum
      names := blocks.flatMap (Block.names signal.length) }

end Verif.Synth
