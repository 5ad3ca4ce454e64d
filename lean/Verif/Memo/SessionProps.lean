import Verif.Memo.Session
import Verif.Memo.JointProps
import Verif.Memo.KeysProps

/-!
# Property C191: sessions with several models and combinations
-/

namespace Verif.Memo
open Verif.Py F Verif.Config
open Verif.Hypotest (Comp Methods Mu ret lift Agree AgreeMethods agree_ret agree_lift sigmaMu Finder)
open Verif.Interface (MuHat World Solver StartFree)
open Verif.Stats (Expect Calc)
open Classical

section
variable {σ τ : Type} {R : σ → τ → Prop}

theorem interval_agree {M : Methods σ} {M' : Methods τ} (h : AgreeMethods R M M') {sigma : Expect → ℝ → Comp σ F} {sigma' : Expect → ℝ → Comp τ F} (hs : ∀ e v, Agree R (sigma e v) (sigma' e v)) (fuel : ℕ)
    (toms brent : UpperLimit.Solver) (minimize : Chi2.Minimizer) (isf : ℝ → F) (e : Expect) (CL : ℝ) (t : Chi2.LimitType) (negative : Bool) (nScan nMulti : ℕ) :
    Agree R (Interval.chi2Interval fuel toms brent minimize isf M sigma e CL t negative nScan nMulti) (Interval.chi2Interval fuel toms brent minimize isf M' sigma' e CL t negative nScan nMulti) := by
  unfold Interval.chi2Interval
  refine Agree.ite _ ((h.maximize e _ none).bind fun b => ?_) (agree_lift _)
  rcases b with ⟨m | l, x⟩
  · refine Agree.bind ?_ fun s => ?_
    · intro s t hst
      obtain ⟨h1, h2⟩ := hs e m s t hst
      unfold Interval.orOne
      rcases hx : sigma e m s with ⟨r, s1⟩
      rcases hx' : sigma' e m t with ⟨r', t1⟩
      rw [hx, hx'] at h1 h2
      dsimp only at h1 h2 ⊢
      subst h1
      split
      · rename_i heq
        obtain ⟨rfl, rfl⟩ := Prod.mk.inj heq
        exact ⟨rfl, h2⟩
      · rename_i hne
        split
        · rename_i heq
          obtain ⟨rfl, rfl⟩ := Prod.mk.inj heq
          exact absurd rfl (hne s1)
        · exact ⟨rfl, h2⟩
    · intro a b hab
      refine ⟨?_, hab⟩
      unfold Interval.search
      dsimp only
      have : Interval.nllFn M e a = Interval.nllFn M' e b := by
        funext v
        unfold Interval.nllFn
        rw [(h.likelihood e none v a b hab).1]
      rw [this]
  · exact agree_lift _

theorem test_agree {M : Methods σ} {M' : Methods τ} (h : AgreeMethods R M M') {sigma : Expect → ℝ → Comp σ F} {sigma' : Expect → ℝ → Comp τ F} (hs : ∀ e v, Agree R (sigma e v) (sigma' e v)) (t : Test) :
    Agree R (t.run M sigma) (t.run M' sigma') := by
  cases t with
  | exclusion mu e negative kind => exact (Hypotest.exclusion_agree h mu e negative kind).bind fun _ => agree_ret _
  | significance e => exact (Hypotest.significance_agree h e).bind fun _ => agree_ret _
  | limit fuel finder alive e CL low hig band => exact (Hypotest.limit_agree h hs fuel finder alive e CL low hig band).bind fun _ => agree_ret _
  | interval fuel toms brent minimize isf e CL t negative nScan nMulti => exact (interval_agree h hs fuel toms brent minimize isf e CL t negative nScan nMulti).bind fun _ => agree_ret _
  | likelihood e v => exact (h.likelihood e none v).bind fun _ => agree_ret _
  | fit e negative => exact (h.maximize e negative none).bind fun _ => agree_ret _
  | asimovFit e ts => exact (h.maximizeAsimov e ts).bind fun _ => agree_ret _

end

variable {K : Type} [DecidableEq K]

/-- An event among those considered. -/
def Event.Within (G : ℕ → FitCall → Prop) : Event → Prop
  | .request i r => r.Within (G i)
  | _ => True

/-- **C191** In every session with several models and combinations of them, each test gives what it gives as the first and only one, for new models without caches: whatever was asked before, of which model
or combination, with clearing of caches and calls that raised among them. -/
theorem C191_sessions {key : Keys K} {P : ℕ → Piece} {G : ℕ → FitCall → Prop} (hkey : ∀ i, key.Faithful (P i).solver (P i).backend (G i)) (hS : ∀ i, StartFree (P i).solver)
    (hfix : ∀ i n, ((P i).backend.config n).fixed = none) {w0 w : ℕ → World} (h0 : ∀ i, Like (w0 i) (w0 i)) (hw : ∀ i, Like (w0 i) (w i)) (T : F → F → F → Descent) (pc : List F → F → F) (l : List Event)
    (hl : ∀ ev ∈ l, ev.Within G) : session key P T pc (fun i => (w0 i, {})) l = l.map (Event.alone P T pc w) := by
  obtain ⟨Q, hQ⟩ : ∃ Q : ℕ → State K → World → Prop, Q = fun i => AllGood (P i).solver (P i).backend ((w0 i).start.length) key (G i) := ⟨_, rfl⟩
  have keep : ∀ {s s' : ℕ → State K} {w' : ℕ → World}, (∀ i, Q i (s i) (w i)) → (∀ i, Q i (s' i) (w' i)) → ∀ i, Q i (s' i) (w i) := by
    subst hQ
    exact fun h h' i => ⟨(h' i).1, (h i).2.1, (h' i).2.2⟩
  have hmem : ∀ models : List ℕ, AgreeMethods (fun s t => ∀ j, Q j (s j) (t j)) (Joint.combined (minimizer T) (models.map fun i => memoMember key (P i) i) pc)
      (Joint.combined (minimizer T) (models.map fun i => plainMember (P i) i) pc) := by
    intro models
    subst hQ
    refine combined_agree ?_ T pc
    induction models with
    | nil => exact List.Forall₂.nil
    | cons i is ih => exact List.Forall₂.cons (member_agree hkey hS hfix _ i) ih
  have main : ∀ (l : List Event), (∀ ev ∈ l, ev.Within G) → ∀ s : ℕ → State K, (∀ i, Q i (s i) (w i)) → session key P T pc s l = l.map (Event.alone P T pc w) := by
    intro l
    induction l with
    | nil => intros; rfl
    | cons ev l ih =>
      intro hl s hs
      have hev := hl ev List.mem_cons_self
      suffices h : (ev.run key P T pc s).1 = ev.alone P T pc w ∧ ∀ i, Q i ((ev.run key P T pc s).2 i) (w i) by
        unfold session
        rw [h.1, ih (fun e he => hl e (List.mem_cons_of_mem _ he)) _ h.2]
        rfl
      cases ev with
      | request i r =>
        refine ⟨rfl, fun j => ?_⟩
        by_cases hj : j = i
        · subst hj
          simp only [Event.run, Function.update_self]
          subst hQ
          exact perform_good (hkey j) (hS j) (hfix j) r hev (hs j)
        · simp only [Event.run, Function.update_of_ne hj]
          exact hs j
      | single i t =>
        have ha : Agree (Q i) (t.run (memoMethods key (P i).solver (P i).backend (P i).doGrad none (P i).ntoys (P i).available (P i).percentile)
            (memoSigma key (P i).solver (P i).inv (P i).backend (P i).doGrad (P i).ntoys (P i).available (P i).percentile))
            (t.run (Hypotest.modelMethods (P i).solver (P i).backend (P i).doGrad none (P i).ntoys (P i).available (P i).percentile)
            (Hypotest.modelSigma (P i).solver (P i).inv (P i).backend (P i).doGrad (P i).ntoys (P i).available (P i).percentile)) := by
          subst hQ
          exact test_agree (memo_agree (hkey i) (hS i) (hfix i) _ _ _ _ _) (memoSigma_agree (hkey i) (hS i) (hfix i) _ _ _ _ _) t
        obtain ⟨h1, h2⟩ := place_agree (Q := Q) i ha s w hs
        exact ⟨congrArg some h1, keep hs h2⟩
      | joint models t =>
        obtain ⟨h1, h2⟩ := test_agree (hmem models) (fun e v => sigma_none_agree (hmem models) (.float v) e "qtilde") t s w hs
        exact ⟨congrArg some h1, keep hs h2⟩
  refine main l hl _ fun i => ?_
  subst hQ
  exact after_good (hkey i) (hS i) (hfix i) (h0 i) (hw i) [] (by simp)

/-- **C191** for the keys of the code. -/
theorem C191_code {H : List ℝ → List ℝ} (hH : Function.Injective H) (p : Spelling) {P : ℕ → Piece} (hS : ∀ i, StartFree (P i).solver) (hfix : ∀ i n, ((P i).backend.config n).fixed = none) {w0 w : ℕ → World}
    (h0 : ∀ i, Like (w0 i) (w0 i)) (hw : ∀ i, Like (w0 i) (w i)) (T : F → F → F → Descent) (pc : List F → F → F) (l : List Event) (hl : ∀ i j c, Event.request i (.maximize j c) ∈ l → Simple c) :
    session (codeKeys H p) P T pc (fun i => (w0 i, {})) l = l.map (Event.alone P T pc w) :=
  C191_sessions (G := fun _ => Simple) (fun i => C177_keys hH p _ _) hS hfix h0 hw T pc l fun ev hev => by
    cases ev with
    | request i r => cases r <;> first | exact hl _ _ _ hev | trivial
    | _ => trivial

/-- Two copies of the example model: a fit of their combination, after a likelihood of the first, a fit of the second, and the same fit of the combination before; asked twice, clearing a cache in between. -/
example (T : F → F → F → Descent) (x : ℝ) (w : ℕ → World) (hw : ∀ i, Like Interface.exW (w i)) : ∃ r : Option (Except Hypotest.Err Answer),
    session plainKeys exP T (fun _ _ => nan) (fun _ => (Interface.exW, {}))
      [.joint [0, 1] (.fit .observed true), .request 0 (.likelihood (.float x) .observed true none false true true none), .single 1 (.fit .observed true), .request 1 .clearMaximize,
        .joint [0, 1] (.fit .observed true)] =
      [r, none, (Event.single 1 (.fit .observed true)).alone exP T (fun _ _ => nan) w, none, r] :=
  ⟨_, C191_sessions (G := fun _ _ => True) (fun i => plain_faithful _ _) (fun _ => Interface.perfect_free) (fun _ _ => rfl) (w0 := fun _ => Interface.exW) (w := w) (fun _ => ⟨rfl, rfl, rfl⟩) hw T _ _
    (by simp [Event.Within, Request.Within])⟩

end Verif.Memo
