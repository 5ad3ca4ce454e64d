import Verif.Hypotest.Model

/-!
# Vocabulary for the properties of the hypothesis tests
-/

namespace Verif.Hypotest
open Verif.Py F Verif.Config
open Verif.Interface (MuHat Data Toys)
open Verif.Stats (Expect Calc Levels)

/-- From every state that satisfies `I` the call ends with the result `r` (a value or an exception) in such a state. -/
def Ends {σ α : Type} (I : σ → Prop) (c : Comp σ α) (r : Except Err α) : Prop := ∀ s, I s → (c s).1 = r ∧ I (c s).2

/-- In the states that satisfy `I`, the result does not depend on the state, and the call leads to such a state again. -/
def Steady {σ α : Type} (I : σ → Prop) (c : Comp σ α) : Prop := ∀ s s', I s → I s' → (c s).1 = (c s').1 ∧ I (c s).2

/-- All methods are steady. -/
structure SteadyMethods {σ : Type} (I : σ → Prop) (M : Methods σ) : Prop where
  likelihood : ∀ e d v, Steady I (M.likelihood e d v)
  maximize : ∀ e n d, Steady I (M.maximize e n d)
  asimovLikelihood : ∀ e ts v, Steady I (M.asimovLikelihood e ts v)
  maximizeAsimov : ∀ e ts, Steady I (M.maximizeAsimov e ts)
  sampler : ∀ e mu, Steady I (M.sampler e mu)

/-- The number that `poi_test` is, if the tests accept it. -/
def Mu.Is : Mu → ℝ → Prop
  | .float u, v => u = v
  | .int n, v => (n : ℝ) = v
  | .array u, v => u = v
  | _, _ => False

/-- The fit of the data `d` finds the best fit `m` with negative log-likelihood `l`; `lv` and `l0` are the negative log-likelihoods at `v` and
at zero. -/
structure Fits {σ : Type} (I : σ → Prop) (M : Methods σ) (e : Expect) (negative : Bool) (d : Option Data) (v : ℝ) (m : ℝ) (l lv l0 : F) :
    Prop where
  best : Ends I (M.maximize e negative d) (.ok (.one m, l))
  tested : Ends I (M.likelihood e d v) (.ok lv)
  null : Ends I (M.likelihood e d 0) (.ok l0)

/-- The same for the Asimov data of the test statistic `ts`. -/
structure FitsAsimov {σ : Type} (I : σ → Prop) (M : Methods σ) (e : Expect) (ts : String) (v : ℝ) (m : ℝ) (l lv l0 : F) : Prop where
  best : Ends I (M.maximizeAsimov e ts) (.ok (.one m, l))
  tested : Ends I (M.asimovLikelihood e ts v) (.ok lv)
  null : Ends I (M.asimovLikelihood e ts 0) (.ok l0)

/-- These numbers as a fit of `Verif.Stats`. -/
noncomputable def fitOf (v : ℝ) (m : ℝ) (l lv l0 : F) : Stats.Fit :=
  ⟨fin m, l, fun x => open Classical in if x = fin v then neg lv else if x = fin 0 then neg l0 else nan⟩

end Verif.Hypotest
