import Verif.Decorate.Model

/-!
# What a cached function should return
-/

namespace Verif.Decorate
variable {T K R X : Type}

/-- The object and the arguments of a call. -/
def Access.object : Access K → ℕ
  | .method n _ | .onClass n _ | .direct n _ => n
def Access.key : Access K → K
  | .method _ k | .onClass _ k | .direct _ k => k

/-- The `i`-th result is that of the function for this object and these arguments, at the time of this call or of an earlier call for the same object and arguments. -/
def OwnResults (fn : ℕ → ℕ → K → Except X R) (calls : List (Access K)) (results : List (Except (Err X) R)) : Prop :=
  ∀ (i : ℕ) (a : Access K) (r : R), calls[i]? = some a → results[i]? = some (.ok r) →
    ∃ (j : ℕ) (b : Access K), j ≤ i ∧ calls[j]? = some b ∧ b.object = a.object ∧ b.key = a.key ∧ fn a.object j a.key = .ok r

/-- Exceptions are never remembered: an exception of the function is the one of this call. -/
def FreshErrors (fn : ℕ → ℕ → K → Except X R) (calls : List (Access K)) (results : List (Except (Err X) R)) : Prop :=
  ∀ (i : ℕ) (a : Access K) (x : X), calls[i]? = some a → results[i]? = some (.error (.own x)) → fn a.object i a.key = .error x

/-- The tokens tell the objects apart, whatever happens to them. -/
def Identifies (tok : ℕ → ℕ → T) : Prop := ∀ n n' t t', tok n t = tok n' t' → n = n'

end Verif.Decorate
