import Verif.Override.Model

/-!
# What overriding means

Without a cache: each class continues with the next one that defines the method.
-/

namespace Verif.Override

variable {α β ε : Type}

/-- What a value becomes, exceptions pass. -/
def Outcome.map (k : β → β) : Outcome β ε → Outcome β ε
  | .value v => .value (k v)
  | r => r

/-- The method without any cache. -/
def eval : List (Method α β ε) → α → Outcome β ε
  | [], _ => .missing
  | m :: C, a =>
    match m.body a with
    | .done v => .value v
    | .raise e => .raised e
    | .super b k => (eval C b).map k
    | .base b k => (eval C b).map k

/-- No class uses `super().method` where the next class has a cached method. -/
def NoCachedSuper (C : List (Method α β ε)) : Prop :=
  ∀ j m m', C[j]? = some m → C[j + 1]? = some m' → m'.cached = true → ∀ a b k, m.body a ≠ .super b k

end Verif.Override
