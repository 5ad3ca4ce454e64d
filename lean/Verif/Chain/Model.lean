import Verif.Hypotest.Model

/-!
# The backends of spey inside `StatisticalModel`

`StatisticalModel` (`Verif.Interface`) with a backend of `/repo/src/spey/backends/default_pdf` (`Verif.Backend`).
-/

namespace Verif.Chain
open Verif.Py F Verif.Config
open Verif.Backend (Ext Vec)

/-- A number that numpy computes. With parameters and data of the right lengths the functions of the backends do not raise
(`Verif.Backend.C53_loglik_uncorrelated` and the following); with others the code raises, here the value is then nan. -/
def value : Except Backend.Err ℝ → F
  | .ok v => fin v
  | .error _ => nan

/-- One of the functions that the optimiser keeps non-negative, entry by entry; the constraint is as good as the one on the smallest entry. -/
noncomputable def constraint (c : Vec → Except Backend.Err Vec) : Optimizer.Constraint where
  isEq := false
  f := fun x => value ((c x).map Backend.minimum)

/-- The object of a class of default_pdf as `StatisticalModel` sees it. None of the hooks is implemented there:
`/repo/src/spey/base/backend_base.py` L432-620. `config` is called without `poi_upper_bound`, which is then 10. `draw` stands for the random numbers:
what `sample` gives for the rates and for the parameters that the constraint terms read. Automatic differentiation needs no
`NotImplementedError`, so there is an objective with gradient. -/
noncomputable def plugged (E : Ext) (draw : Vec × List Vec → ℕ → List Vec) (m : Backend.Model) : Interface.Backend where
  config negative := Backend.configOf m negative 10
  objective _ e d := .ok fun x => value (Backend.objective E m e d x)
  logpdf e d x := value (Backend.logpdf E m e d x)
  constraints := m.positivity.map constraint
  expectedData x := (Backend.expectedData m x true).mapError fun _ => .other 0
  hessian e := .ok fun x =>
    match Backend.hessianLogpdf E m e none x with
    | .ok h => h
    | .error _ => []
  sampler x := ((Backend.sampler m x true).map draw).mapError fun _ => .other 0
  negLL _ _ _ _ := .error .notImplemented
  minNegLL _ _ _ _ := .error .notImplemented
  asimovNegLL _ _ _ := .error .notImplemented
  minAsimovNegLL _ _ _ := .error .notImplemented

/-- The lists of a model on which nothing was called yet, and of a caller who gives neither `init_pars` nor `constraints`. -/
def fresh (m : Backend.Model) : Interface.World := ⟨m.config.init, none, none⟩

end Verif.Chain
