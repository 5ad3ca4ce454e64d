import Verif.Hypotest.LimitSpec
import Mathlib.Algebra.Order.Archimedean.Basic

/-!
# A root finder that meets the contract

The properties of the upper limit are stated for every root finder that meets `Sound` or `Succeeds`. Bisection does, so that these assumptions can be
met. It is not the root finder of the code.
-/

namespace Verif.Hypotest
open Verif.Py F
open Classical

/-- On the left of the root: not positive for an increasing function, not negative for a decreasing one. -/
def Left (up : Bool) (y : F) : Prop := if up then le y (fin 0) else le (fin 0) y

/-- On the right of it. -/
def Right (up : Bool) (y : F) : Prop := Left (!up) y

/-- `n` steps of bisection. -/
noncomputable def bisect (up : Bool) (tol : ℝ) : ℕ → ℝ → ℝ → Search
  | 0, a, b => .stop (if b - a ≤ tol then .ok a else .error .rootFinder)
  | n + 1, a, b => .eval ((a + b) / 2) fun y =>
    if Left up y then bisect up tol n ((a + b) / 2) b
    else if Right up y then bisect up tol n a ((a + b) / 2)
    else .stop (.error .rootFinder)

/-- Bisection until the interval is shorter than `tol`. -/
noncomputable def bisection (tol : ℝ) : Finder := fun a b =>
  if a < b then .eval a fun ya => .eval b fun yb =>
    if Left true ya ∧ Right true yb then bisect true tol ⌈(b - a) / tol⌉₊ a b
    else if Left false ya ∧ Right false yb then bisect false tol ⌈(b - a) / tol⌉₊ a b
    else .stop (.error .rootFinder)
  else .stop (.error .rootFinder)

theorem bisect_sound {up : Bool} {tol : ℝ} {f : ℝ → F} {n : ℕ} {a b r : ℝ} (hab : a ≤ b) (ha : Left up (f a)) (hb : Right up (f b))
    (h : (bisect up tol n a b).value f = .ok r) :
    a ≤ r ∧ r ≤ b ∧ Left up (f r) ∧ ∃ x, a ≤ x ∧ x ≤ b ∧ |x - r| ≤ tol ∧ Right up (f x) := by
  induction n generalizing a b with
  | zero =>
    rw [bisect, Search.value] at h
    split at h
    · rename_i ht
      simp only [Except.ok.injEq] at h
      subst h
      exact ⟨le_rfl, hab, ha, b, hab, le_rfl, by rw [abs_of_nonneg (by linarith)]; exact ht, hb⟩
    · simp at h
  | succ n ih =>
    rw [bisect, Search.value] at h
    split at h
    · rename_i hl
      obtain ⟨h1, h2, h3, x, h4, h5, h6⟩ := ih (by linarith) hl hb h
      exact ⟨by linarith, h2, h3, x, by linarith, h5, h6⟩
    · split at h
      · rename_i hr
        obtain ⟨h1, h2, h3, x, h4, h5, h6⟩ := ih (by linarith) ha hr h
        exact ⟨h1, by linarith, h3, x, h4, by linarith, h6⟩
      · simp [Search.value] at h

theorem left_or_right (up : Bool) (x : ℝ) : Left up (fin x) ∨ Right up (fin x) := by
  rcases le_total x 0 with h | h <;> cases up <;> simp [Left, Right, le, h]

theorem bisect_succeeds {up : Bool} {tol : ℝ} {f : ℝ → F} {n : ℕ} {a b : ℝ} (hab : a ≤ b) (hf : ∀ x, a ≤ x → x ≤ b → Stats.Finite (f x))
    (hn : b - a ≤ tol * 2 ^ n) : ∃ r, (bisect up tol n a b).value f = .ok r := by
  induction n generalizing a b with
  | zero => exact ⟨a, by rw [bisect, Search.value, if_pos (by simpa using hn)]⟩
  | succ n ih =>
    rw [bisect, Search.value]
    have hm : (a + b) / 2 - a = (b - a) / 2 ∧ b - (a + b) / 2 = (b - a) / 2 := by constructor <;> ring
    have hn' : (b - a) / 2 ≤ tol * 2 ^ n := by rw [pow_succ] at hn; linarith
    obtain ⟨y, hy⟩ := hf ((a + b) / 2) (by linarith) (by linarith)
    split
    · exact ih (by linarith) (fun x h1 h2 => hf x (by linarith) h2) (by rw [hm.2]; exact hn')
    · rename_i hl
      rw [if_pos ((left_or_right up y).resolve_left (by rwa [hy] at hl) |> fun h => by rw [hy]; exact h)]
      exact ih (by linarith) (fun x h1 h2 => hf x h1 (by linarith)) (by rw [hm.1]; exact hn')

theorem bisection_sound {tol : ℝ} (ht : 0 ≤ tol) : UpperLimit.Sound (fun _ => tol) (bisection tol).solver := by
  have key : ∀ f a b r, (bisection tol).solver f a b = .ok r → a < b ∧ a ≤ r ∧ r ≤ b ∧
      ((le (f r) (fin 0) ∧ ∃ x, a ≤ x ∧ x ≤ b ∧ |x - r| ≤ tol ∧ le (fin 0) (f x)) ∨
        (le (fin 0) (f r) ∧ ∃ x, a ≤ x ∧ x ≤ b ∧ |x - r| ≤ tol ∧ le (f x) (fin 0))) := by
    intro f a b r h
    unfold Finder.solver bisection at h
    split at h
    · rename_i hab
      simp only [Search.value] at h
      split at h
      · rename_i hs
        obtain ⟨h1, h2, h3, h4⟩ := bisect_sound hab.le hs.1 hs.2 h
        exact ⟨hab, h1, h2, Or.inl ⟨by simpa [Left] using h3, by simpa [Right, Left] using h4⟩⟩
      · split at h
        · rename_i hs
          obtain ⟨h1, h2, h3, h4⟩ := bisect_sound hab.le hs.1 hs.2 h
          exact ⟨hab, h1, h2, Or.inr ⟨by simpa [Left] using h3, by simpa [Right, Left] using h4⟩⟩
        · simp [Search.value] at h
    · simp [Search.value] at h
  refine ⟨fun f a b r h => ?_, fun f a b r h => ?_, fun f a b r h => ?_⟩
  · obtain ⟨h1, h2, h3, -⟩ := key f a b r h
    exact ⟨h1, h2, h3⟩
  · obtain ⟨-, h2, h3, h | ⟨-, h⟩⟩ := key f a b r h
    · exact ⟨r, h2, h3, by simpa using ht, h.1⟩
    · exact h
  · obtain ⟨-, h2, h3, ⟨-, h⟩ | h⟩ := key f a b r h
    · exact h
    · exact ⟨r, h2, h3, by simpa using ht, h.1⟩

theorem bisection_succeeds {tol : ℝ} (ht : 0 < tol) : UpperLimit.Succeeds (bisection tol).solver := by
  intro f a b hab hf hs
  have hn : b - a ≤ tol * 2 ^ ⌈(b - a) / tol⌉₊ := by
    have h1 : (b - a) / tol ≤ ⌈(b - a) / tol⌉₊ := Nat.le_ceil _
    have h2 : (⌈(b - a) / tol⌉₊ : ℝ) ≤ 2 ^ ⌈(b - a) / tol⌉₊ := by exact_mod_cast Nat.lt_two_pow_self.le
    rw [div_le_iff₀ ht] at h1
    nlinarith
  unfold Finder.solver bisection
  rw [if_pos hab]
  simp only [Search.value]
  split
  · exact bisect_succeeds hab.le hf hn
  · rename_i h1
    rw [if_pos]
    · exact bisect_succeeds hab.le hf hn
    · rcases hs with hs | hs
      · exact absurd ⟨by simpa [Left] using hs.1, by simpa [Right, Left] using hs.2⟩ h1
      · exact ⟨by simpa [Left] using hs.1, by simpa [Right, Left] using hs.2⟩

end Verif.Hypotest
