import Verif.Py.Float

/-!
# Model of `multiparameter/multiparam.py`

`/repo/src/spey/multiparameter/multiparam.py`. The module cannot be imported at this commit: it asks for `spey.multiparameter.templates`, which does not exist. The function
is modelled as written. The state `σ` stands for everything that fits change.
-/

namespace Verif.MultiParam
open Verif.Py

/-- Exceptions: `likelihood_config[0]` (L13), the assertion (L14-16), those of templates and models, and `likelihoods[i]` (L21). -/
inductive Err
  | index | assertion | raised
  deriving DecidableEq

/-- A computation with state and exceptions. -/
abbrev Comp (σ α : Type) := σ → Except Err α × σ

/-- A statistical model: `poi_upper_limit(expected=apriori)` and `chi2()`. -/
structure Likelihood (σ : Type) where
  limit : Comp σ F
  chi2 : Comp σ F

/-- A `MultiParamTemplate`: the number of parameters and the model for given parameters. -/
structure Template (σ : Type) where
  number : ℕ
  call : List ℝ → Comp σ (Likelihood σ)

/-- The list comprehension L20: all templates in order. -/
def build {σ : Type} (x : List ℝ) : List (Template σ) → Comp σ (List (Likelihood σ))
  | [], s => (.ok [], s)
  | t :: l, s =>
    match t.call x s with
    | (.error e, s) => (.error e, s)
    | (.ok m, s) =>
      match build x l s with
      | (.error e, s) => (.error e, s)
      | (.ok ms, s) => (.ok (m :: ms), s)

/-- `np.argmin` of a generator, L22-25: numpy makes an array without axes with the generator as its one entry, whose smallest entry is number 0. The generator is not run. -/
def argminGenerator {σ : Type} (_ : List (Comp σ F)) : Comp σ ℕ := fun s => (.ok 0, s)

/-- One turn of the loop, L18-27, for the random parameters `x`. -/
def turn {σ : Type} (l : List (Template σ)) (x : List ℝ) : Comp σ (List ℝ × F) := fun s =>
  match build x l s with
  | (.error e, s) => (.error e, s)
  | (.ok ms, s) =>
    match argminGenerator (ms.map Likelihood.limit) s with
    | (.error e, s) => (.error e, s)
    | (.ok i, s) =>
      match ms[i]? with
      | none => (.error .index, s)
      | some m =>
        match m.chi2 s with
        | (.error e, s) => (.error e, s)
        | (.ok c, s) => (.ok (x, c), s)

/-- The loop L18-27; the random numbers of L19 are given. -/
def loop {σ : Type} (l : List (Template σ)) : List (List ℝ) → Comp σ (List (List ℝ × F))
  | [], s => (.ok [], s)
  | x :: xs, s =>
    match turn l x s with
    | (.error e, s) => (.error e, s)
    | (.ok r, s) =>
      match loop l xs s with
      | (.error e, s) => (.error e, s)
      | (.ok rs, s) => (.ok (r :: rs), s)

/-- `chi2_test`, multiparam.py L7-29. `random i n` is what the call number `i` of `np.random.random(n)` gives. `confidence_level` is not used. -/
def chi2Test {σ : Type} (random : ℕ → ℕ → List ℝ) (l : List (Template σ)) (_confidence : ℝ) (warm : ℕ) : Comp σ (List (List ℝ × F)) := fun s =>
  match l with
  | [] => (.error .index, s)
  | t :: _ =>
    if l.all (fun u => t.number = u.number) then loop l ((List.range warm).map fun i => random i t.number) s
    else (.error .assertion, s)

end Verif.MultiParam
