import Verif.MultiParam.Spec
import Mathlib.Tactic.Linarith
import Mathlib.Tactic.NormNum

/-!
# Theorems: `chi2_test` for several parameters
-/

namespace Verif.MultiParam
open Verif.Py F

variable {σ : Type}

theorem build_relimit (f : List ℝ → Comp σ F) (x : List ℝ) (l : List (Template σ)) (s : σ) :
    build x (l.map (relimit f)) s = ((build x l s).1.map (fun ms => ms.map fun m => ⟨f x, m.chi2⟩), (build x l s).2) := by
  induction l generalizing s with
  | nil => rfl
  | cons t l ih =>
    simp only [List.map_cons, build, relimit]
    rcases h : t.call x s with ⟨r, s1⟩
    cases r with
    | error e => rfl
    | ok m =>
      dsimp only
      rw [ih s1]
      rcases h1 : build x l s1 with ⟨r1, s2⟩
      cases r1 <;> rfl

theorem turn_relimit (f : List ℝ → Comp σ F) (x : List ℝ) (l : List (Template σ)) (s : σ) : turn (l.map (relimit f)) x s = turn l x s := by
  unfold turn
  rw [build_relimit]
  rcases h : build x l s with ⟨r, s1⟩
  cases r with
  | error e => rfl
  | ok ms =>
    cases ms with
    | nil => rfl
    | cons m ms => rfl

theorem loop_relimit (f : List ℝ → Comp σ F) (l : List (Template σ)) (xs : List (List ℝ)) (s : σ) : loop (l.map (relimit f)) xs s = loop l xs s := by
  induction xs generalizing s with
  | nil => rfl
  | cons x xs ih =>
    simp only [loop, turn_relimit]
    rcases h : turn l x s with ⟨r, s1⟩
    cases r with
    | error e => rfl
    | ok r => dsimp only; rw [ih s1]

/-- **C174** in full would say: each entry of the result is the chi-square of the most sensitive model. What holds: the result has one entry for each of the random points, in their
order, each is the chi-square of the model of the *first* template there. -/
theorem C174_first_partial (random : ℕ → ℕ → List ℝ) (t : Template σ) (l : List (Template σ)) (cl : ℝ) (warm : ℕ) (s s' : σ) (out : List (List ℝ × F))
    (h : chi2Test random (t :: l) cl warm s = (.ok out, s')) :
    (∀ u ∈ l, u.number = t.number) ∧ out.map Prod.fst = (List.range warm).map (fun i => random i t.number) ∧
      ∀ p ∈ out, ∃ s1 s2 s3 s4 m, t.call p.1 s1 = (.ok m, s2) ∧ m.chi2 s3 = (.ok p.2, s4) := by
  unfold chi2Test at h
  dsimp only at h
  by_cases hn : (t :: l).all (fun u => decide (t.number = u.number)) = true
  swap
  · rw [if_neg hn] at h; cases h
  rw [if_pos hn] at h
  refine ⟨fun u hu => ?_, ?_⟩
  · have := List.all_eq_true.1 hn u (List.mem_cons_of_mem _ hu)
    simpa using (of_decide_eq_true this).symm
  · clear hn
    generalize (List.range warm).map (fun i => random i t.number) = xs at h ⊢
    induction xs generalizing s out with
    | nil => cases h; simp
    | cons x xs ih =>
      simp only [loop] at h
      rcases ht : turn (t :: l) x s with ⟨r, s1⟩
      rw [ht] at h
      cases r with
      | error e => cases h
      | ok r =>
        dsimp only at h
        rcases hl : loop (t :: l) xs s1 with ⟨rs, s2⟩
        rw [hl] at h
        cases rs with
        | error e => cases h
        | ok rs =>
          cases h
          obtain ⟨h1, h2⟩ := ih s1 rs hl
          have hr : r.1 = x ∧ ∃ s1 s2 s3 s4 m, t.call r.1 s1 = (.ok m, s2) ∧ m.chi2 s3 = (.ok r.2, s4) := by
            simp only [turn, build] at ht
            rcases hc : t.call x s with ⟨c, sc⟩
            rw [hc] at ht
            cases c with
            | error e => cases ht
            | ok m =>
              dsimp only at ht
              rcases hb : build x l sc with ⟨b, sb⟩
              rw [hb] at ht
              cases b with
              | error e => cases ht
              | ok ms =>
                simp only [argminGenerator, List.getElem?_cons_zero] at ht
                rcases hm : m.chi2 sb with ⟨v, sm⟩
                rw [hm] at ht
                cases v with
                | error e => cases ht
                | ok v =>
                  cases ht
                  exact ⟨rfl, s, sc, sb, _, m, hc, hm⟩
          refine ⟨by rw [List.map_cons, h1, hr.1], fun p hp => ?_⟩
          rcases List.mem_cons.1 hp with rfl | hp
          · exact hr.2
          · exact h2 p hp

/-- **C174** The expected limits play no role: with any other limits, even ones that raise or change the state, result and state are the same. -/
theorem C174_limits_ignored (random : ℕ → ℕ → List ℝ) (l : List (Template σ)) (cl : ℝ) (warm : ℕ) (f : List ℝ → Comp σ F) (s : σ) :
    chi2Test random (l.map (relimit f)) cl warm s = chi2Test random l cl warm s := by
  cases l with
  | nil => rfl
  | cons t l =>
    simp only [chi2Test, List.map_cons]
    have : (relimit f t :: l.map (relimit f)).all (fun u => decide ((relimit f t).number = u.number)) = (t :: l).all (fun u => decide (t.number = u.number)) := by
      rw [← List.map_cons, List.all_map]; rfl
    rw [this, ← List.map_cons, loop_relimit]
    rfl

/-- A template with the given limit and chi-square. -/
def exT (limit chi : ℝ) : Template Unit := ⟨1, fun _ s => (.ok ⟨fun s => (.ok (fin limit), s), fun s => (.ok (fin chi), s)⟩, s)⟩

example : chi2Test (fun i _ => [i]) [exT 2 7, exT 1 5] 0.95 2 () = (.ok [([0], fin 7), ([1], fin 7)], ()) := by
  simp [chi2Test, loop, turn, build, exT, argminGenerator, List.range_succ]

/-- **C174** fails: the second of two models has the smaller expected limit, the chi-square of the first is returned. -/
theorem C174_best_fails : ∃ (l : List (Template Unit)) (x : List ℝ) (ms : List (Likelihood Unit)) (limits : List F) (i : ℕ) (m : Likelihood Unit) (out c : F),
    build x l () = (.ok ms, ()) ∧ ms.map (fun m => (m.limit ()).1) = limits.map .ok ∧ Most limits i ∧ ms[i]? = some m ∧ m.chi2 () = (.ok c, ()) ∧
      chi2Test (fun _ _ => x) l 0.95 1 () = (.ok [(x, out)], ()) ∧ out ≠ c := by
  refine ⟨[exT 2 7, exT 1 5], [0], _, [fin 2, fin 1], 1, _, fin 7, fin 5, rfl, rfl, ⟨1, rfl, fun j u hj => ?_⟩, rfl, rfl, ?_, by simp⟩
  · match j with
    | 0 => simp at hj; linarith
    | 1 => simp at hj; linarith
    | j + 2 => simp at hj
  · simp [chi2Test, loop, turn, build, exT, argminGenerator, List.range_succ]

/-- **C174** Without models, or with models of different numbers of parameters, nothing is drawn and an exception ends the call. -/
theorem C174_refused (random : ℕ → ℕ → List ℝ) (cl : ℝ) (warm : ℕ) (s : σ) :
    chi2Test random ([] : List (Template σ)) cl warm s = (.error .index, s) ∧
    ∀ t l, (∃ u ∈ l, u.number ≠ t.number) → chi2Test random (t :: l) cl warm s = (.error .assertion, s) := by
  refine ⟨rfl, fun t l ⟨u, hu, hn⟩ => ?_⟩
  have : ¬ (t :: l).all (fun u => decide (t.number = u.number)) = true := by
    intro h
    exact hn (of_decide_eq_true (List.all_eq_true.1 h u (List.mem_cons_of_mem _ hu))).symm
  exact if_neg this

example : ∃ (t : Template Unit) (l : List (Template Unit)), ∃ u ∈ l, u.number ≠ t.number :=
  ⟨exT 0 0, [⟨2, fun _ s => (.error .raised, s)⟩], _, List.mem_singleton_self _, by simp [exT]⟩

end Verif.MultiParam
