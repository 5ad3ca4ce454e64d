import Verif.Hypotest.LimitSpec
import Verif.Hypotest.Free
import Verif.UpperLimit.Props

/-!
# Lemmas: the search on top of calls and the search for a function
-/

namespace Verif.Hypotest
open Verif.Py F Verif.Config
open Verif.Interface (MuHat)
open Verif.Stats (Expect Calc Levels)
open Verif.UpperLimit (Trace Expected Band Limit sameSign)
open Classical

variable {σ : Type} {I : σ → Prop}

/-- When a call returns, it returns the value of `g`. -/
def Weak (I : σ → Prop) (f : ℝ → Comp σ F) (g : ℝ → F) : Prop := ∀ x s y s', I s → f x s = (.ok y, s') → y = g x ∧ I s'

/-! ### A search that returned -/

theorem run_weak {f : ℝ → Comp σ F} {g : ℝ → F} (h : Weak I f g) (T : Search) {s s' : σ} {r : ℝ} (hs : I s) (hr : T.run f s = (.ok r, s')) :
    T.value g = .ok r ∧ I s' := by
  induction T generalizing s with
  | stop r' =>
    rw [Search.run] at hr
    cases r' with
    | error e => simp [lift, Except.mapError] at hr
    | ok a =>
      simp only [lift, Except.mapError, Prod.mk.injEq, Except.ok.injEq] at hr
      obtain ⟨rfl, rfl⟩ := hr
      exact ⟨rfl, hs⟩
  | eval x next ih =>
    rw [Search.run] at hr
    obtain ⟨y, s1, h1, h2⟩ := bind_returned hr
    obtain ⟨rfl, hs1⟩ := h x s y s1 hs h1
    rw [Search.value]
    exact ih _ hs1 h2

theorem low_weak {f : ℝ → Comp σ F} {g : ℝ → F} (h : Weak I f g) (bound : ℝ) (n : ℕ) (t : Trace) (low : ℝ) {s s' : σ} {tr : Option Trace}
    (hs : I s) (hr : lowLoop f bound n t low s = (.ok tr, s')) : UpperLimit.lowLoop g 0 bound n t low = tr ∧ I s' := by
  induction n generalizing s t low with
  | zero =>
    simp only [lowLoop, ret, Prod.mk.injEq, Except.ok.injEq] at hr
    obtain ⟨rfl, rfl⟩ := hr
    exact ⟨rfl, hs⟩
  | succ n ih =>
    rw [lowLoop] at hr
    obtain ⟨y, s1, h1, h2⟩ := bind_returned hr
    obtain ⟨rfl, hs1⟩ := h low s y s1 hs h1
    rw [UpperLimit.lowLoop]
    split at h2
    · rename_i hc
      rw [if_pos hc]
      exact ih _ _ hs1 h2
    · rename_i hc
      rw [if_neg hc]
      simp only [ret, Prod.mk.injEq, Except.ok.injEq] at h2
      obtain ⟨rfl, rfl⟩ := h2
      exact ⟨rfl, hs1⟩

theorem high_weak {f : ℝ → Comp σ F} {g : ℝ → F} (h : Weak I f g) (bound : ℝ) (n : ℕ) (t : Trace) (hig : ℝ) {s s' : σ} {tr : Option Trace}
    (hs : I s) (hr : highLoop f bound n t hig s = (.ok tr, s')) : UpperLimit.highLoop g 0 bound n t hig = tr ∧ I s' := by
  induction n generalizing s t hig with
  | zero =>
    simp only [highLoop, ret, Prod.mk.injEq, Except.ok.injEq] at hr
    obtain ⟨rfl, rfl⟩ := hr
    exact ⟨rfl, hs⟩
  | succ n ih =>
    rw [highLoop] at hr
    obtain ⟨y, s1, h1, h2⟩ := bind_returned hr
    obtain ⟨rfl, hs1⟩ := h hig s y s1 hs h1
    rw [UpperLimit.highLoop]
    split at h2
    · rename_i hc
      rw [if_pos hc]
      exact ih _ _ hs1 h2
    · rename_i hc
      rw [if_neg hc]
      simp only [ret, Prod.mk.injEq, Except.ok.injEq] at h2
      obtain ⟨rfl, rfl⟩ := h2
      exact ⟨rfl, hs1⟩

theorem solveIn_weak {f : ℝ → Comp σ F} {g : ℝ → F} (h : Weak I f g) (T : Finder) (low hig : Trace) {s s' : σ} {x : F}
    (hs : I s) (hr : solveIn T f low hig s = (.ok (some x), s')) :
    (∃ a fa b fb, low.head? = some (a, fa) ∧ hig.head? = some (b, fb) ∧
      (if sameSign fa fb then .ok pinf else (T.solver g a b).map fin) = (.ok x : Except UpperLimit.Err F)) ∧ I s' := by
  unfold solveIn at hr
  rcases low with _ | ⟨⟨a, fa⟩, low⟩
  · simp [ret] at hr
  rcases hig with _ | ⟨⟨b, fb⟩, hig⟩
  · simp [ret] at hr
  simp only [List.head?_cons] at hr
  by_cases hc : sameSign fa fb
  · rw [if_pos hc] at hr
    simp only [ret, Prod.mk.injEq, Except.ok.injEq, Option.some.injEq] at hr
    obtain ⟨rfl, rfl⟩ := hr
    exact ⟨⟨a, fa, b, fb, rfl, rfl, by rw [if_pos hc]⟩, hs⟩
  · rw [if_neg hc] at hr
    obtain ⟨r, s1, h3, h4⟩ := bind_returned hr
    obtain ⟨h5, h6⟩ := run_weak h _ hs h3
    simp only [ret, Prod.mk.injEq, Except.ok.injEq, Option.some.injEq] at h4
    obtain ⟨rfl, rfl⟩ := h4
    refine ⟨⟨a, fa, b, fb, rfl, rfl, ?_⟩, h6⟩
    rw [if_neg hc, Finder.solver, h5]
    rfl

theorem limitAt_weak {f : ℝ → Comp σ F} {g : ℝ → F} (h : Weak I f g) (fuel : ℕ) (T : Finder) (low hig : ℝ) {s s' : σ} {x : F}
    (hs : I s) (hr : limitAt fuel T f low hig s = (.ok (some x), s')) :
    UpperLimit.limitAt fuel T.solver g low hig = some (.ok x) ∧ I s' := by
  unfold limitAt at hr
  obtain ⟨o1, s1, h1, hr⟩ := bind_returned hr
  obtain ⟨g1, hs1⟩ := low_weak h _ _ _ _ hs h1
  cases o1 with
  | none => simp [ret] at hr
  | some t1 =>
    dsimp only at hr
    obtain ⟨o2, s2, h2, hr⟩ := bind_returned hr
    obtain ⟨g2, hs2⟩ := high_weak h _ _ _ _ hs1 h2
    cases o2 with
    | none => simp [ret] at hr
    | some t2 =>
      dsimp only at hr
      obtain ⟨⟨a, fa, b, fb, h3, h4, h5⟩, hs3⟩ := solveIn_weak h T t1 t2 hs2 hr
      refine ⟨?_, hs3⟩
      unfold UpperLimit.limitAt UpperLimit.findRootLimits
      simp only [g1, g2, bind, Option.bind, pure, h3, h4]
      split
      · rename_i hc
        rw [if_pos hc] at h5
        rw [h5]
      · rename_i hc
        rw [if_neg hc] at h5
        rw [h5]

theorem limitsAt_weak {f : ℕ → ℝ → Comp σ F} {g : ℕ → ℝ → F} (h : ∀ i, Weak I (f i) (g i)) (fuel : ℕ) (T : Finder) (low hig : ℝ)
    (is : List ℕ) {s s' : σ} {xs : List F} (hs : I s) (hr : limitsAt fuel T f low hig is s = (.ok (some xs), s')) :
    List.Forall₂ (fun i x => UpperLimit.limitAt fuel T.solver (g i) low hig = some (.ok x)) is xs ∧ I s' := by
  induction is generalizing s xs with
  | nil =>
    simp only [limitsAt, ret, Prod.mk.injEq, Except.ok.injEq, Option.some.injEq] at hr
    obtain ⟨rfl, rfl⟩ := hr
    exact ⟨.nil, hs⟩
  | cons i is ih =>
    rw [limitsAt] at hr
    obtain ⟨o1, s1, h1, hr⟩ := bind_returned hr
    cases o1 with
    | none => simp [ret] at hr
    | some x =>
      dsimp only at hr
      obtain ⟨g1, hs1⟩ := limitAt_weak (h i) fuel T low hig hs h1
      obtain ⟨o2, s2, h2, hr⟩ := bind_returned hr
      cases o2 with
      | none => simp [ret] at hr
      | some xs' =>
        simp only [ret, Option.map_some, Prod.mk.injEq, Except.ok.injEq, Option.some.injEq] at hr
        obtain ⟨rfl, rfl⟩ := hr
        obtain ⟨g2, hs2⟩ := ih hs1 h2
        exact ⟨.cons g1 g2, hs2⟩

/-! ### A search whose values can all be computed -/

theorem run_ends {f : ℝ → Comp σ F} {g : ℝ → F} (h : ∀ x, Ends I (f x) (.ok (g x))) (T : Search) :
    Ends I (T.run f) ((T.value g).mapError .limit) := by
  induction T with
  | stop r => exact ends_lift _
  | eval x next ih => exact (h x).bind (ih _)

theorem low_ends {f : ℝ → Comp σ F} {g : ℝ → F} (h : ∀ x, Ends I (f x) (.ok (g x))) (bound : ℝ) (n : ℕ) (t : Trace) (low : ℝ) :
    Ends I (lowLoop f bound n t low) (.ok (UpperLimit.lowLoop g 0 bound n t low)) := by
  induction n generalizing t low with
  | zero => exact ends_ret _
  | succ n ih =>
    rw [lowLoop, UpperLimit.lowLoop]
    refine (h low).bind ?_
    split
    · exact ih _ _
    · exact ends_ret _

theorem high_ends {f : ℝ → Comp σ F} {g : ℝ → F} (h : ∀ x, Ends I (f x) (.ok (g x))) (bound : ℝ) (n : ℕ) (t : Trace) (hig : ℝ) :
    Ends I (highLoop f bound n t hig) (.ok (UpperLimit.highLoop g 0 bound n t hig)) := by
  induction n generalizing t hig with
  | zero => exact ends_ret _
  | succ n ih =>
    rw [highLoop, UpperLimit.highLoop]
    refine (h hig).bind ?_
    split
    · exact ih _ _
    · exact ends_ret _

/-- A result that may be missing because the steps are used up. -/
def outcome {α : Type} : Option (Except UpperLimit.Err α) → Except Err (Option α)
  | none => .ok none
  | some r => (r.map some).mapError .limit

theorem limitAt_ends {f : ℝ → Comp σ F} {g : ℝ → F} (h : ∀ x, Ends I (f x) (.ok (g x))) (fuel : ℕ) (T : Finder) (low hig : ℝ) :
    Ends I (limitAt fuel T f low hig) (outcome (UpperLimit.limitAt fuel T.solver g low hig)) := by
  unfold limitAt UpperLimit.limitAt UpperLimit.findRootLimits
  refine (low_ends h _ _ _ _).bind ?_
  cases UpperLimit.lowLoop g 0 1e-10 fuel [] low with
  | none => exact ends_ret _
  | some t1 =>
    dsimp only
    refine (high_ends h _ _ _ _).bind ?_
    simp only [bind, Option.bind]
    cases UpperLimit.highLoop g 0 1e5 fuel [] hig with
    | none => exact ends_ret _
    | some t2 =>
      simp only [pure]
      unfold solveIn
      rcases t1 with _ | ⟨⟨a, fa⟩, t1⟩
      · exact ends_ret _
      · rcases t2 with _ | ⟨⟨b, fb⟩, t2⟩
        · exact ends_ret _
        · simp only [List.head?_cons]
          split
          · exact ends_ret _
          · have := run_ends h (T a b)
            show Ends I _ (((((T a b).value g).map fin).map some).mapError .limit)
            cases hv : (T a b).value g with
            | error e =>
              rw [hv] at this
              exact this.bind_error
            | ok r =>
              rw [hv] at this
              exact Ends.bind (a := r) this (ends_ret _)

theorem limitsAt_ends {f : ℕ → ℝ → Comp σ F} {g : ℕ → ℝ → F} (fuel : ℕ) (T : Finder) (low hig : ℝ)
    (is : List ℕ) (h : ∀ i ∈ is, ∀ x, Ends I (f i x) (.ok (g i x))) : Ends I (limitsAt fuel T f low hig is) (outcome (UpperLimit.limitsAt fuel T.solver g low hig is)) := by
  induction is with
  | nil => exact ends_ret _
  | cons i is ih =>
    rw [limitsAt, UpperLimit.limitsAt]
    have h1 := limitAt_ends (h i (by simp)) fuel T low hig
    have ih := ih fun j hj => h j (by simp [hj])
    cases hv : UpperLimit.limitAt fuel T.solver (g i) low hig with
    | none =>
      rw [hv] at h1
      exact Ends.bind (a := none) h1 (ends_ret _)
    | some r =>
      rw [hv] at h1
      cases r with
      | error e => exact Ends.bind_error h1
      | ok x =>
        refine Ends.bind (a := some x) h1 ?_
        dsimp only
        cases hw : UpperLimit.limitsAt fuel T.solver g low hig is with
        | none =>
          rw [hw] at ih
          exact Ends.bind (a := none) ih (ends_ret _)
        | some r =>
          rw [hw] at ih
          cases r with
          | error e => exact Ends.bind_error ih
          | ok xs => exact Ends.bind (a := some xs) ih (ends_ret _)

/-! ### Steadiness -/

theorem run_steady {f : ℝ → Comp σ F} (h : ∀ x, Steady I (f x)) (T : Search) : Steady I (T.run f) := by
  induction T with
  | stop r => exact steady_lift _
  | eval x next ih => exact (h x).bind fun y => ih y

theorem low_steady {f : ℝ → Comp σ F} (h : ∀ x, Steady I (f x)) (bound : ℝ) (n : ℕ) (t : Trace) (low : ℝ) :
    Steady I (lowLoop f bound n t low) := by
  induction n generalizing t low with
  | zero => exact steady_ret _
  | succ n ih => exact (h low).bind fun y => Steady.ite _ (ih _ _) (steady_ret _)

theorem high_steady {f : ℝ → Comp σ F} (h : ∀ x, Steady I (f x)) (bound : ℝ) (n : ℕ) (t : Trace) (hig : ℝ) :
    Steady I (highLoop f bound n t hig) := by
  induction n generalizing t hig with
  | zero => exact steady_ret _
  | succ n ih => exact (h hig).bind fun y => Steady.ite _ (ih _ _) (steady_ret _)

theorem limitAt_steady {f : ℝ → Comp σ F} (h : ∀ x, Steady I (f x)) (fuel : ℕ) (T : Finder) (low hig : ℝ) :
    Steady I (limitAt fuel T f low hig) := by
  refine (low_steady h _ _ _ _).bind fun o1 => ?_
  cases o1 with
  | none => exact steady_ret _
  | some t1 =>
    refine (high_steady h _ _ _ _).bind fun o2 => ?_
    cases o2 with
    | none => exact steady_ret _
    | some t2 =>
      dsimp only
      unfold solveIn
      split
      · exact Steady.ite _ (steady_ret _) ((run_steady h _).bind fun _ => steady_ret _)
      · exact steady_ret _

theorem limitsAt_steady {f : ℕ → ℝ → Comp σ F} (h : ∀ i x, Steady I (f i x)) (fuel : ℕ) (T : Finder) (low hig : ℝ) (is : List ℕ) :
    Steady I (limitsAt fuel T f low hig is) := by
  induction is with
  | nil => exact steady_ret _
  | cons i is ih =>
    refine (limitAt_steady (h i) _ _ _ _).bind fun o => ?_
    cases o with
    | none => exact steady_ret _
    | some x => exact ih.bind fun _ => steady_ret _

theorem orZero_steady {c : Comp σ (List F)} (h : Steady I c) (e : Expected) : Steady I (orZero e c) := by
  intro s s' hs hs'
  obtain ⟨h1, h2⟩ := h s s' hs hs'
  unfold orZero
  cases hc : c s with
  | mk x s1 =>
  cases hc' : c s' with
  | mk x' s1' =>
    rw [hc] at h1 h2
    rw [hc'] at h1
    dsimp only at h1 h2
    subst h1
    cases x with
    | ok a => exact ⟨rfl, h2⟩
    | error e =>
      cases e with
      | stats e => cases e <;> exact ⟨rfl, h2⟩
      | _ => exact ⟨rfl, h2⟩

/-- The fits prepared for the tests of `M`. -/
def Prepared.Of (p : Prepared σ) (M : Methods σ) (e : Expect) : Prop :=
  p.logpdf = Hypotest.logpdf M e none ∧ p.logpdfA = logpdfAsimov M e "qtilde"

theorem compute_steady {M : Methods σ} (h : SteadyMethods I M) {p : Prepared σ} {e : Expect} (hp : p.Of M e) (mu : Mu) :
    Steady I (computeTeststatistics mu p.best p.logpdf p.bestA p.logpdfA "qtilde") := by
  refine steady_compute (fun x => ?_) fun x => ?_
  · rw [hp.1]; exact h.logpdf _ _ _
  · rw [hp.2]; exact h.logpdfAsimov _ _ _

theorem computer_steady {M : Methods σ} (h : SteadyMethods I M) {p : Prepared σ} {e : Expected} (hp : p.Of M e.toExpect) (CL : ℝ) (i : ℕ) (x : ℝ) :
    Steady I (computer p e CL i x) := by
  refine (orZero_steady ((compute_steady h hp _).bind fun _ => steady_ret _) _).bind fun l => ?_
  split
  · exact steady_ret _
  · exact steady_lift _

theorem prepare_steady {M : Methods σ} (h : SteadyMethods I M) (e : Expect) : Steady I (prepare M e "qtilde") :=
  (h.maximize _ _ _).bind fun _ => (h.maximizeAsimov _ _).bind fun _ => steady_ret _

theorem prepare_of {M : Methods σ} {e : Expect} {p : Prepared σ} {s s' : σ} (h : prepare M e "qtilde" s = (.ok p, s')) : p.Of M e := by
  obtain ⟨b, s1, -, h⟩ := bind_returned h
  obtain ⟨b', s2, -, h⟩ := bind_returned h
  simp only [ret, Prod.mk.injEq, Except.ok.injEq] at h
  obtain ⟨rfl, -⟩ := h
  exact ⟨rfl, rfl⟩

theorem starts_steady {sigma : ℝ → Comp σ F} (h : ∀ m, Steady I (sigma m)) (m : MuHat) (low hig : Option ℝ) :
    Steady I (starts sigma m low hig) := by
  unfold starts
  split
  · exact steady_ret _
  · refine (steady_lift _).bind fun m => (Steady.ite _ (steady_ret _) (h m)).bind fun s => ?_
    split
    · exact steady_ret _
    · exact steady_lift _

theorem findLimit_steady {M : Methods σ} (h : SteadyMethods I M) {p : Prepared σ} {e : Expected} (hp : p.Of M e.toExpect) (fuel T CL low hig band) :
    Steady I (findLimit fuel T p e CL low hig band) :=
  Steady.ite _ (steady_lift _) ((limitsAt_steady (computer_steady h hp CL) _ _ _ _ _).bind fun _ => steady_ret _)

/-! ### The function of the search and the reported level -/

theorem statVal_tilde {mu : Mu} {m : MuHat} {l : F} {lp : Mu → Comp σ F} {s s' : σ} {q : F} (h : qmuTilde mu m l lp s = (.ok q, s')) :
    Stats.StatVal q := by
  unfold qmuTilde at h
  obtain ⟨g, s1, -, h⟩ := bind_returned h
  split at h
  · simp only [ret, Prod.mk.injEq, Except.ok.injEq] at h
    rw [← h.1]
    exact Stats.statVal_zero
  · obtain ⟨a, s2, -, h⟩ := bind_returned h
    obtain ⟨b, s3, -, h⟩ := bind_returned h
    obtain ⟨c, s4, -, h⟩ := bind_returned h
    simp only [ret, Prod.mk.injEq, Except.ok.injEq] at h
    rw [← h.1]
    exact Stats.statVal_clip0 _

theorem compute_shaped {mu : Mu} {b bA : MuHat × F} {lp lpA : Mu → Comp σ F} {s s' : σ} {r : F × F × F}
    (h : computeTeststatistics mu b lp bA lpA "qtilde" s = (.ok r, s')) :
    Stats.Shaped Stats.ProbOrNan (Stats.asymptoticLevel r.2.1 r.2.2 "qtilde") := by
  unfold computeTeststatistics at h
  obtain ⟨t, s1, h1, h0⟩ := bind_returned h
  clear h
  obtain ⟨q, s2, h2, h'⟩ := bind_returned h0
  clear h0
  obtain ⟨qA, s3, h3, h⟩ := bind_returned h'
  clear h'
  have ht : t = qmuTilde := by
    simp only [getTestStatistic, lift, Prod.mk.injEq, Except.ok.injEq] at h1
    exact h1.1.symm
  subst ht
  obtain ⟨a, c, d⟩ := r
  cases hsh : Stats.shiftOf "qtilde" q qA with
  | error e => rw [hsh] at h; simp [lift, Except.mapError] at h
  | ok v =>
    rw [hsh] at h
    simp only [lift, Except.mapError, Prod.mk.injEq, Except.ok.injEq] at h
    rw [h.1] at hsh
    exact Stats.asymptoticLevel_shaped (Stats.shift_ok (statVal_tilde h3) hsh) d (by decide)

/-- Where the function of the search is a number, so is the level that `exclusion_confidence_level` reports, and it is larger by the confidence level. -/
theorem computer_reported {M : Methods σ} (h : SteadyMethods I M) (hav : M.available .asymptotic = true) {p : Prepared σ} {e : Expected}
    (hprep : Ends I (prepare M e.toExpect "qtilde") (.ok p)) (hp : p.Of M e.toExpect) {CL mu : ℝ} {i : ℕ} {s s' : σ} {y : F} (hs : I s)
    (hc : computer p e CL i mu s = (.ok y, s')) (hy : y ≠ nan) :
    ∃ r, y = fin (r - CL) ∧ 0 ≤ r ∧ r ≤ 1 ∧ Reported I M e i mu (fin r) := by
  unfold computer at hc
  obtain ⟨l, s1, h1, h2⟩ := bind_returned hc
  have hst := compute_steady h hp (.float mu)
  cases hct : computeTeststatistics (.float mu) p.best p.logpdf p.bestA p.logpdfA "qtilde" s with
  | mk r sr =>
    have hE := hst.ends hs (r := r) (by rw [hct])
    -- what `exclusion_confidence_level` does
    have hex : ∀ v, orNotExcluded (do
        let r ← computeTeststatistics (.float mu) p.best p.logpdf p.bestA p.logpdfA "qtilde"
        ret (Stats.asymptoticLevel r.2.1 r.2.2 "qtilde")) s = (.ok v, sr) →
        Ends I (exclusion M (.float mu) e.toExpect false .asymptotic) (.ok (levels e.toExpect v)) := by
      intro v hv
      unfold exclusion
      rw [if_pos hav]
      simp only [Bool.false_eq_true, if_false, calculate]
      refine Ends.bind (a := v) ?_ (ends_ret _)
      unfold asymptotic
      refine hprep.bind ?_
      exact (steady_handled (hst.bind fun _ => steady_ret _)).ends hs (by rw [hv])
    cases r with
    | error err =>
      have hz : err = .stats .asimovTestStatZero := by
        by_contra hne
        have : orZero e (pvalue p e mu) s = (.error err, sr) := by
          unfold orZero
          rw [show pvalue p e mu s = (.error err, sr) from bind_error hct]
          cases err with
          | stats e => cases e <;> first | rfl | exact absurd rfl hne
          | _ => rfl
        rw [this] at h1
        simp at h1
      subst hz
      have h3 : orZero e (pvalue p e mu) s = (.ok (if e = .observed then [fin 0] else List.replicate 5 (fin 0)), sr) := by
        unfold orZero
        rw [show pvalue p e mu s = (.error (.stats .asimovTestStatZero), sr) from bind_error hct]
      rw [h3] at h1
      simp only [Prod.mk.injEq, Except.ok.injEq] at h1
      obtain ⟨rfl, rfl⟩ := h1
      have h4 := hex ([fin 1], List.replicate 5 (fin 1)) (by unfold orNotExcluded; rw [bind_error hct])
      have key : ∀ x, (if e = .observed then [fin 0] else List.replicate 5 (fin 0))[i]? = some x → x = fin 0 := by
        intro x hx
        split at hx
        · rcases i with _ | i <;> simp at hx
          exact hx.symm
        · rw [List.getElem?_replicate] at hx
          split at hx <;> simp at hx
          exact hx.symm
      generalize hx : (if e = .observed then [fin 0] else List.replicate 5 (fin 0))[i]? = o at h2
      rcases o with _ | x
      · simp [lift] at h2
      · obtain rfl := key x hx
        simp only [ret, Prod.mk.injEq, Except.ok.injEq] at h2
        refine ⟨0, ?_, le_refl _, zero_le_one, ?_⟩
        · rw [← h2.1]; simp [sub, add, F.neg]
        · have hl : ∃ l, levels e.toExpect ([fin 1], List.replicate 5 (fin 1)) = .one l ∧ l[i]? = some (fin 0) := by
            have e1 : (if isNan (fin 1) then fin 0 else sub (fin 1) (fin 1)) = fin 0 := by rw [Stats.level_fin]; simp
            cases e
            · refine ⟨_, rfl, ?_⟩
              simp only [if_true] at hx
              rcases i with _ | i <;> simp at hx
              simp [e1]
            · refine ⟨_, rfl, ?_⟩
              simp only [reduceCtorEq, if_false] at hx
              rw [List.getElem?_map, List.getElem?_replicate]
              rw [List.getElem?_replicate] at hx
              split at hx
              · rename_i hi
                simp [e1, hi]
              · simp at hx
            · refine ⟨_, rfl, ?_⟩
              simp only [reduceCtorEq, if_false] at hx
              rw [List.getElem?_map, List.getElem?_replicate]
              rw [List.getElem?_replicate] at hx
              split at hx
              · rename_i hi
                simp [e1, hi]
              · simp at hx
          obtain ⟨l, hl1, hl2⟩ := hl
          rw [hl1] at h4
          exact ⟨l, h4, hl2⟩
    | ok r =>
      have hsh := compute_shaped hct
      have h4 := hex (Stats.asymptoticLevel r.2.1 r.2.2 "qtilde") (by unfold orNotExcluded; rw [bind_ok hct]; rfl)
      have h3 : orZero e (pvalue p e mu) s = (.ok ((if e = .observed then (Stats.asymptoticLevel r.2.1 r.2.2 "qtilde").1
          else (Stats.asymptoticLevel r.2.1 r.2.2 "qtilde").2).map (sub (fin 1))), sr) := by
        unfold orZero
        rw [show pvalue p e mu s = (.ok _, sr) from bind_ok hct]
      rw [h3] at h1
      simp only [Prod.mk.injEq, Except.ok.injEq] at h1
      obtain ⟨rfl, rfl⟩ := h1
      generalize Stats.asymptoticLevel r.2.1 r.2.2 "qtilde" = v at h4 h2 hsh
      obtain ⟨-, -, s3, s4⟩ := hsh
      generalize hx : ((if e = .observed then v.1 else v.2).map (sub (fin 1)))[i]? = o at h2
      rcases o with _ | x
      · simp [lift] at h2
      · simp only [ret, Prod.mk.injEq, Except.ok.injEq] at h2
        rw [List.getElem?_map] at hx
        obtain ⟨q, hq, rfl⟩ := Option.map_eq_some_iff.1 hx
        have hpn : Stats.ProbOrNan q := by
          split at hq
          · exact s3 _ (List.mem_of_getElem? hq)
          · exact s4 _ (List.mem_of_getElem? hq)
        rcases UpperLimit.probOrNan_iff hpn with rfl | ⟨r, h0, h1, rfl⟩
        · exact absurd h2.1.symm (by simpa [sub, add, F.neg] using hy)
        · refine ⟨1 - r, ?_, by linarith, by linarith, ?_⟩
          · rw [← h2.1]; simp [sub, add, F.neg, sub_eq_add_neg]
          · have hl : ∃ l, levels e.toExpect v = .one l ∧ l[i]? = some (fin (1 - r)) := by
              cases e
              · refine ⟨_, rfl, ?_⟩
                simp only [if_true] at hq
                rw [List.getElem?_map, hq, Option.map_some, Stats.level_fin]
              · refine ⟨_, rfl, ?_⟩
                simp only [reduceCtorEq, if_false] at hq
                rw [List.getElem?_map, hq, Option.map_some, Stats.level_fin]
              · refine ⟨_, rfl, ?_⟩
                simp only [reduceCtorEq, if_false] at hq
                rw [List.getElem?_map, hq, Option.map_some, Stats.level_fin]
            obtain ⟨l, hl1, hl2⟩ := hl
            rw [hl1] at h4
            exact ⟨l, h4, hl2⟩

end Verif.Hypotest
