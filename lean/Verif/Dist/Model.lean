import Verif.Backend.Model
import Mathlib.Probability.Distributions.Uniform

/-!
# Model of the distributions behind the backends

`/repo/src/spey/backends/distributions.py`: what `Verif.Backend` leaves out, that is covariance matrices given by functions, names of distributions, integer data, mixtures,
and the object that all evaluations of a multivariate normal model share. Line numbers refer to this file.
-/

namespace Verif.Dist
open Verif.Py F
open Verif.Backend (Vec Ext Domain Main bcast dot logNormal normalLogProb mvnLogProb logPoisson clip)

/-- Exceptions: `KeyError`, `AssertionError`, `AttributeError`, `TypeError`, `IndexError`. -/
inductive Err
  | key | assertion | attribute | type | index
  deriving DecidableEq

/-! ### Covariance matrices given by functions -/

/-- The argument `cov` of `MultivariateNormal`: a matrix, or a function of the parameters in the domain. -/
inductive Cov
  | matrix (c : List Vec) | function (f : Vec → List Vec)

/-- `self.cov(x)`, L121. -/
def Cov.at : Cov → Vec → List Vec
  | .matrix c, _ => c
  | .function f, x => f x

/-- `self._logdet_cov(x)`, L126-131 and L142. -/
noncomputable def Cov.logdet (E : Ext) : Cov → Vec → ℝ
  | .matrix c, _ => E.logdet c
  | .function f, x => max (E.logdet (f x)) (1 / 10 ^ 20)

/-- `MultivariateNormal.log_prob`, L154-167. The inverse is that of the matrix in both cases, L127 and L141. -/
noncomputable def logProb (E : Ext) (mean : Vec) (cov : Cov) (domain : Domain) (value : Vec) : Except Backend.Err ℝ := do
  let x ← domain.get value
  let v ← bcast (fun a b => a - b) x mean
  if v.length ≠ (cov.at x).length then .error .value
  else return -(1 / 2) * dot v ((E.inv (cov.at x)).map (dot · v)) - 1 / 2 * (x.length * Real.log (2 * Real.pi) + cov.logdet E x)

/-! ### Names of distributions -/

/-- The two classes of L268. -/
inductive Kind
  | normal | mvn
  deriving DecidableEq

/-- `distributions[name]`, L268 and L279. -/
def lookup (name : String) : Option Kind :=
  if name = "normal" then some .normal else if name = "multivariatenormal" then some .mvn else none

/-- What `ConstraintModel.__init__` does with the name of a distribution, L271-282. `lower` is `str.lower`. -/
def describe (lower : String → String) (name : String) : Except Err Kind :=
  if lower name ∈ ["normal", "multivariatenormal"] then
    match lookup name with
    | some k => .ok k
    | none => .error .key
  else .error .assertion

/-! ### Integer data -/

/-- One number of the data: of an array of integers (`int16`, `int32`, `int64`), or of any other. -/
inductive Count
  | int (n : ℤ) | other (x : ℝ)

/-- `Poisson.log_prob` of one number, L46-54, at the rate `loc`. `logpmf` is that of scipy for integers, `gammaln` the logarithm of the gamma function. -/
noncomputable def poissonLogProb (logpmf : ℤ → ℝ → F) (gammaln : ℝ → F) (loc : ℝ) : Count → F
  | .int n => logpmf n (clip loc)
  | .other x => sub (sub (fin (x * Real.log (clip loc))) (fin (clip loc))) (gammaln (x + 1))

/-! ### Mixtures -/

/-- The logarithm of a probability. -/
noncomputable def logOf (p : ENNReal) : F := open Classical in if p = 0 then ninf else fin (Real.log p.toReal)

/-- `MixtureModel.log_prob`, L359-361, for discrete distributions. -/
noncomputable def mixtureLogProb {α : Type} {n : ℕ} (p : Fin n → PMF α) (x : α) : F :=
  (List.ofFn fun k => logOf (p k x)).foldr add (fin 0)

/-- One row of `MixtureModel.sample`, L345-357: every distribution draws a value, and one of them is taken at random, all with the same probability. -/
noncomputable def mixtureSample {α : Type} {n : ℕ} (p : Fin (n + 1) → PMF α) : PMF α := (PMF.uniformOfFintype (Fin (n + 1))).bind p

/-- The classes of distributions.py that have a method `log_prob` of one argument: none has an attribute `shape`. `other` is a class of the caller, with the attribute. -/
inductive Class
  | poisson | normal | mvn | other (shape : ℕ)

def Class.shape : Class → Option ℕ
  | .other n => some n
  | _ => none

/-- The first statement of `MixtureModel.sample`, L347-349, and the call of `sample` with one argument in L351, which only `Poisson` accepts, L39: the exception, if any. -/
def mixtureDraw (l : List Class) : Except Err Unit :=
  match l.getLast? with
  | none => .error .index
  | some c =>
    match c.shape with
    | none => .error .attribute
    | some _ => if l.all fun c => match c with | .normal => false | .mvn => false | _ => true then .ok () else .error .type

/-! ### The shared object -/

/-- One evaluation of `log_prob`. -/
structure Eval where
  pars : Vec
  data : Vec

/-- `self._pdf(pars).log_prob(data)` once the object has the mean `loc`, L237-250. -/
noncomputable def evalAt (E : Ext) (m : Main) (loc data : Vec) : Except Backend.Err ℝ :=
  match m with
  | .poisson _ => do
    let t ← bcast (logPoisson E) data (loc.map clip)
    return t.sum
  | .normal _ scale => normalLogProb data loc scale
  | .mvn _ cov => mvnLogProb E data loc cov

/-- A thread: what it still has to evaluate, the evaluation that has got its object but not yet its value, together with the mean of this object if it is not the shared
one, and the values so far. -/
structure Thread where
  todo : List Eval
  pending : Option (Eval × Option Vec)
  done : List (Except Backend.Err ℝ)

/-- The threads, and the mean of the object that L205 makes for all evaluations. -/
structure State where
  mean : Vec
  threads : ℕ → Thread

/-- Whether all evaluations share one object, L198-211. -/
def shares : Main → Bool
  | .mvn _ _ => true
  | _ => false

/-- One step of thread `i`: it either gets its object (for a Poisson or normal model a new one, L190 and L193-196; for a multivariate normal model the shared one, whose mean
is set, L207-209), or computes the value, for which the mean is read once, L163. -/
noncomputable def step (E : Ext) (m : Main) (i : ℕ) (s : State) : State :=
  match (s.threads i).pending with
  | some (e, own) =>
    ⟨s.mean, Function.update s.threads i ⟨(s.threads i).todo, none, (s.threads i).done ++ [evalAt E m (own.getD s.mean) e.data]⟩⟩
  | none =>
    match (s.threads i).todo with
    | [] => s
    | e :: l =>
      match m.rate e.pars with
      | .error err => ⟨s.mean, Function.update s.threads i ⟨l, none, (s.threads i).done ++ [.error err]⟩⟩
      | .ok loc =>
        if shares m then ⟨loc, Function.update s.threads i ⟨l, some (e, none), (s.threads i).done⟩⟩
        else ⟨s.mean, Function.update s.threads i ⟨l, some (e, some loc), (s.threads i).done⟩⟩

/-- The threads take steps in the order of the list. -/
noncomputable def run (E : Ext) (m : Main) : List ℕ → State → State
  | [], s => s
  | i :: l, s => run E m l (step E m i s)

/-- The start: nothing is done, and the object has mean zero, L205. -/
def start (mean : Vec) (todo : ℕ → List Eval) : State := ⟨mean, fun i => ⟨todo i, none, []⟩⟩

end Verif.Dist
