import Verif.Memo.Model

/-!
# Vocabulary for the caches of a model
-/

namespace Verif.Memo

variable {K : Type}

/-- Contract of the keys: calls with the same key, however they are written, have the same arguments, or differ only in ways that have no influence on `maximize_likelihood` (`fixed_poi_value=1` and
`fixed_poi_value=1.0`). `G` are the calls of `maximize_likelihood` that are considered, among them all without `fixed_poi_value`. Proved for the keys of the code in `Verif.Memo.Keys`. -/
structure Keys.Faithful (key : Keys K) (S : Interface.Solver) (B : Interface.Backend) (G : FitCall → Prop) : Prop where
  asimov : ∀ i c j c', key.asimov i c = key.asimov j c' → c = c'
  fit : ∀ i c j c', G c → G c' → key.fit i c = key.fit j c' → ∀ w,
    Interface.maximize S B c.returnNll c.expected c.negative c.data c.keys c.fixed c.doGrad c.bounds w =
    Interface.maximize S B c'.returnNll c'.expected c'.negative c'.data c'.keys c'.fixed c'.doGrad c'.bounds w
  asimovFit : ∀ i c j c', key.asimovFit i c = key.asimovFit j c' → c = c'
  free : ∀ c, c.fixed = none → G c

/-- A request with a call of `maximize_likelihood` is one of those considered. -/
def Request.Within (G : FitCall → Prop) : Request → Prop
  | .maximize _ c => G c
  | _ => True

/-- Shared lists of the same length as those of `w0`, with no starting points or constraints of the caller: what calls without such arguments leave behind. -/
def Like (w0 w : Interface.World) : Prop := w.init = none ∧ w.constraints = none ∧ w.start.length = w0.start.length

open Verif.Py Verif.Config
open Verif.Interface (MuHat Data World Solver)

/-- What `generate_asimov_data` gives in some state of the lists. -/
def AsimovIn (S : Solver) (B : Interface.Backend) (w0 : World) (c : AsimovCall) (r : Except Hypotest.Err Data) : Prop :=
  ∃ w, Like w0 w ∧ (Interface.generateAsimov S B c.expected c.ts c.doGrad c.bounds w).1.mapError .call = r

/-- What `maximize_likelihood` gives in some state of the lists. -/
def FitIn (S : Solver) (B : Interface.Backend) (w0 : World) (c : FitCall) (r : Except Hypotest.Err (MuHat × F)) : Prop :=
  ∃ w, Like w0 w ∧ (Interface.maximize S B c.returnNll c.expected c.negative c.data c.keys c.fixed c.doGrad c.bounds w).1.mapError .call = r

/-- What `maximize_asimov_likelihood` gives if the Asimov data are made in some state and the fit in another. -/
def AsimovFitIn (S : Solver) (B : Interface.Backend) (w0 : World) (c : AsimovFitCall) (r : Except Hypotest.Err (MuHat × F)) : Prop :=
  match B.minAsimovNegLL c.expected c.ts c.keys with
  | .ok out => r = .ok out
  | .error .notImplemented => ∃ x, AsimovIn S B w0 ⟨c.expected, c.ts, c.doGrad, c.bounds⟩ x ∧
    match x with
    | .error e => r = .error e
    | .ok d => FitIn S B w0 ⟨c.returnNll, c.expected, Interface.mayBeNegative c.ts, some d, c.keys, none, c.doGrad, c.bounds⟩ r
  | .error err => r = .error (.call err)

end Verif.Memo
