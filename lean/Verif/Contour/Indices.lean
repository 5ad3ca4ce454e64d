import Verif.Contour.Model
import Mathlib.Data.List.Sort
import Mathlib.Data.Int.Notation

/-!
# Model of the choice of contour and profile parameters

`/repo/src/spey/multiparameter/contour.py` L439-494 and L510-628.
-/

namespace Verif.Contour

noncomputable section

/-- `all_signal_indices`, contour.py L440. -/
def signalIndices (kTotal poi : ℕ) : List ℤ := ((List.range kTotal).filter fun i => i ≠ poi).map fun i : ℕ => (i : ℤ)

/-- `contour_indices`, contour.py L444-447. -/
def contourIndices (kTotal poi : ℕ) : Option (List ℤ) → List ℤ
  | none => signalIndices kTotal poi
  | some l => (l.filter fun i => i ≠ (poi : ℤ)).mergeSort fun a b => decide (a ≤ b)

/-- `profile_indices`, contour.py L452-453. -/
def profileIndices (kTotal poi : ℕ) (contour : List ℤ) : List ℤ := (signalIndices kTotal poi).filter fun i => i ∉ contour

/-- `l[i]` with a possibly negative index. -/
def pyGet {α : Type} (l : List α) (i : ℤ) : Except Err α :=
  match (if 0 ≤ i then l[i.toNat]? else if 0 ≤ i + l.length then l[(i + l.length).toNat]? else none) with
  | some a => .ok a
  | none => .error .index

/-- `[l[i] for i in idx]`. -/
def pyGets {α : Type} (l : List α) : List ℤ → Except Err (List α)
  | [] => .ok []
  | i :: r =>
    match pyGet l i with
    | .error e => .error e
    | .ok a =>
      match pyGets l r with
      | .error e => .error e
      | .ok as => .ok (a :: as)

/-- `[_sig_pos[i] for i in idx]`, contour.py L489-491: the positions in the list of signal parameters. -/
def positions (signal : List ℤ) : List ℤ → Except Err (List ℕ)
  | [] => .ok []
  | i :: r =>
    if i ∈ signal then
      match positions signal r with
      | .error e => .error e
      | .ok as => .ok (signal.idxOf i :: as)
    else .error .key

/-- What the choice leads to: contour and profile indices, and the bounds of the contour parameters. -/
structure Choice (β : Type) where
  contour : List ℤ
  profile : List ℤ
  bounds : List β

/-- The choice of the parameters, contour.py L439-491, without the fit in between. The configuration has a bound and a name for every
parameter; `names` tells whether it has names. -/
def choose {β : Type} (kTotal poi : ℕ) (cfgBounds : List β) (names : Option (List String)) (given : Option (List ℤ))
    (bounds : Option (List β)) : Except Err (Choice β) :=
  let contour := contourIndices kTotal poi given
  let profile := profileIndices kTotal poi contour
  if contour.length < 1 then .error .value
  else
    let bs : Except Err (List β) := match bounds with
      | some b => if b.length ≠ contour.length then .error .value else .ok b
      | none => pyGets cfgBounds contour
    match bs with
    | .error e => .error e
    | .ok b =>
      match (match names with | some n => pyGets n contour | none => .ok []) with
      | .error e => .error e
      | .ok _ =>
        match positions (signalIndices kTotal poi) contour with
        | .error e => .error e
        | .ok _ => .ok ⟨contour, profile, b⟩

/-- `a[pos]`, the entries of a vector at some positions, contour.py L493-494. -/
def pick (a : List ℝ) (pos : List ℕ) : List ℝ := pos.filterMap fun j => a[j]?

/-- `theta_mle` and `theta_mle_profile`, contour.py L489-494: the fit of all parameters but the POI is divided. -/
def splitFit (kTotal poi : ℕ) (contour profile : List ℤ) (all : List ℝ) : Except Err (List ℝ × List ℝ) :=
  match positions (signalIndices kTotal poi) contour with
  | .error e => .error e
  | .ok c =>
    match positions (signalIndices kTotal poi) profile with
    | .error e => .error e
    | .ok p => .ok (pick all c, pick all p)

/-- The full vector when there is nothing to profile, contour.py L520-526. -/
def insertPoi (poi : ℕ) (pars : List ℝ) : List ℝ := pars.take poi ++ [1] ++ pars.drop poi

/-- `full[idx] = values`, one after the other; the indices are those of existing parameters. -/
def assign (full : List ℝ) : List ℤ → List ℝ → List ℝ
  | i :: r, v :: vs => assign (full.set i.toNat v) r vs
  | _, _ => full

/-- `_assemble`, contour.py L554-560; `garbage` is what `np.empty` leaves in the vector. -/
def assemble (poi : ℕ) (contour profile : List ℤ) (garbage cp pp : List ℝ) : List ℝ :=
  assign (assign (garbage.set poi 1) contour cp) profile pp

/-- A constraint of the backend: a dictionary with a function, or an object of `scipy.optimize`, which cannot be indexed. -/
inductive Constraint
  | dict (f : List ℝ → ℝ) | object

/-- The constraints for the profile parameters, contour.py L600-607. -/
def adapt (asm : List ℝ → List ℝ) : List Constraint → Except Err (List (List ℝ → ℝ))
  | [] => .ok []
  | .object :: _ => .error .type
  | .dict f :: l =>
    match adapt asm l with
    | .error e => .error e
    | .ok r => .ok ((fun pp => f (asm pp)) :: r)

/-- `_profile_opt`, contour.py L596-618: the minimiser gives a point and whether it has succeeded. -/
def profileOpt (slsqp : (List ℝ → ℝ) → List (List ℝ → ℝ) → Except Err (List ℝ × Bool)) (logpdf : List ℝ → ℝ)
    (asm : List ℝ → List ℝ) (constraints : List Constraint) (init : List ℝ) : Except Err (List ℝ) :=
  match adapt asm constraints with
  | .error e => .error e
  | .ok cs =>
    match slsqp (fun pp => -logpdf (asm pp)) cs with
    | .error e => .error e
    | .ok (x, success) => .ok (if success then x else init)

/-- `nll_scalar` with profile parameters, contour.py L624-628. -/
def profiledNll (slsqp : (List ℝ → ℝ) → List (List ℝ → ℝ) → Except Err (List ℝ × Bool)) (logpdf : List ℝ → ℝ)
    (asm : List ℝ → List ℝ) (constraints : List Constraint) (init : List ℝ) : Except Err ℝ :=
  match profileOpt slsqp logpdf asm constraints init with
  | .error e => .error e
  | .ok pp => .ok (-logpdf (asm pp))

end

end Verif.Contour
