import Verif.CacheKey.Model

/-!
# Vocabulary for the cache key properties
-/

namespace Verif.CacheKey

/-- The number a Python number stands for. -/
noncomputable def V.numVal : V → Option ℝ
  | .bool b => some (if b then 1 else 0)
  | .int n => some n
  | .float q => some q
  | _ => Option.none

/-- Same content: numbers with the same value, equal strings, bytes, arrays (shape, type and bytes), sequences of the
same kind with the same elements, dictionaries with the same keys and the same value for every key. -/
inductive Same : V → V → Prop
  | none : Same .none .none
  | num {v w : V} {q : ℝ} : v.numVal = some q → w.numVal = some q → Same v w
  | str {s} : Same (.str s) (.str s)
  | bytes {b} : Same (.bytes b) (.bytes b)
  | object {i} : Same (.object i) (.object i)
  | inf {b} : Same (.inf b) (.inf b)
  | array {s d b} : Same (.array s d b) (.array s d b)
  | list {l l' : List V} : l.length = l'.length → (∀ i (h : i < l.length) (h' : i < l'.length), Same l[i] l'[i]) →
      Same (.list l) (.list l')
  | tuple {l l' : List V} : l.length = l'.length → (∀ i (h : i < l.length) (h' : i < l'.length), Same l[i] l'[i]) →
      Same (.tuple l) (.tuple l')
  | dict {l l' : List (DKey × V)} : (∀ k, k ∈ l.map Prod.fst ↔ k ∈ l'.map Prod.fst) →
      (∀ k v v', (k, v) ∈ l → (k, v') ∈ l' → Same v v') → Same (.dict l) (.dict l')

/-- A value that is or contains a dictionary with an integer and a string among its keys. -/
inductive Mixed : V → Prop
  | here {l : List (DKey × V)} {n : ℤ} {s : String} : Sum.inlₗ n ∈ l.map Prod.fst → Sum.inrₗ s ∈ l.map Prod.fst → Mixed (.dict l)
  | list {l : List V} {v} : v ∈ l → Mixed v → Mixed (.list l)
  | tuple {l : List V} {v} : v ∈ l → Mixed v → Mixed (.tuple l)
  | dict {l : List (DKey × V)} {v} : v ∈ l.map Prod.snd → Mixed v → Mixed (.dict l)

/-- Static types of arguments. -/
inductive Ty
  | none | num | real | bool | int | float | str | bytes | array | object
  | list (t : Ty)
  | tuple (ts : List Ty)
  | dict (t : DKey → Ty)
  | opt (t : Ty)

/-- Typing of values. -/
inductive HasTy : Ty → V → Prop
  | none : HasTy .none .none
  | num {v q} : V.numVal v = some q → HasTy .num v
  | real {v q} : V.numVal v = some q → HasTy .real v
  | realInf {b} : HasTy .real (.inf b)
  | bool {b} : HasTy .bool (.bool b)
  | int {n} : HasTy .int (.int n)
  | float {q} : HasTy .float (.float q)
  | str {s} : HasTy .str (.str s)
  | bytes {b} : HasTy .bytes (.bytes b)
  | array {s d b} : HasTy .array (.array s d b)
  | object {i} : HasTy .object (.object i)
  | list {t l} : (∀ v ∈ l, HasTy t v) → HasTy (.list t) (.list l)
  | tuple {ts l} : ts.length = l.length → (∀ i (h : i < ts.length) (h' : i < l.length), HasTy ts[i] l[i]) →
      HasTy (.tuple ts) (.tuple l)
  | dict {t l} : (l.map Prod.fst).Nodup → (∀ k v, (k, v) ∈ l → HasTy (t k) v) → HasTy (.dict t) (.dict l)
  | optNone {t} : HasTy (.opt t) .none
  | opt {t v} : HasTy t v → HasTy (.opt t) v

/-- The value that a call gives to the `i`-th parameter, by the rules of the language: positional argument, else
keyword argument, else default. -/
def given (s : Sig) (c : Call) (i : ℕ) : Option V :=
  match s.params[i]? with
  | none => none
  | some p => (c.args[i]?).or ((c.kwargs.lookup p.name).or p.default)

/-- The value of a keyword that is not a parameter. -/
def extra (s : Sig) (c : Call) (k : String) : Option V :=
  if k ∈ s.params.map Param.name then none else c.kwargs.lookup k

/-- Two calls that pass the same values to the same parameters and the same extra keywords. -/
def SameArguments (s : Sig) (c c' : Call) : Prop :=
  (∀ i, i < s.params.length → given s c i = given s c' i) ∧ ∀ k, extra s c k = extra s c' k

/-- A call that Python accepts syntactically: no keyword twice. -/
def Call.Ok (c : Call) : Prop := (c.kwargs.map Prod.fst).Nodup

end Verif.CacheKey
