import Verif.Memo.Joint
import Verif.Memo.Props

/-!
# Theorems: combinations of models with caches
-/

namespace Verif.Memo
open Verif.Py F Verif.Config
open Verif.Hypotest (Comp Methods Mu ret lift expectation Agree AgreeMethods agree_ret agree_lift exclusion significance poiUpperLimit sigmaMu bind_ok bind_error)
open Verif.Interface (MuHat Data Size World Solver StartFree)
open Verif.Stats (Expect Calc)
open Verif.Joint (Member Minimizer)
open Classical

section
variable {σ τ α : Type} {R : σ → τ → Prop}

/-- Members that give the same answers. -/
structure AgreeMember (R : σ → τ → Prop) (m : Member σ) (m' : Member τ) : Prop where
  name : m.name = m'.name
  least : m.least = m'.least
  available : m.available = m'.available
  likelihood : ∀ e d v, Agree R (m.likelihood e d v) (m'.likelihood e d v)
  maximize : ∀ e, Agree R (m.maximize e) (m'.maximize e)
  sigma : ∀ e v, Agree R (m.sigma e v) (m'.sigma e v)
  asimov : ∀ e ts, Agree R (m.asimov e ts) (m'.asimov e ts)

theorem sumLoop_agree {ms : List (Member σ)} {ms' : List (Member τ)} (h : List.Forall₂ (AgreeMember R) ms ms') (e : Expect) (data : List (String × Data)) (v : ℝ) :
    ∀ nll, Agree R (Joint.sumLoop e data v nll ms) (Joint.sumLoop e data v nll ms') := by
  induction h with
  | nil => intro nll; exact agree_ret nll
  | @cons m m' l l' hm _ ih =>
    intro nll s t hs
    unfold Joint.sumLoop
    rw [← hm.name]
    obtain ⟨h1, h2⟩ := hm.likelihood e (dictGet m.name data) v s t hs
    rcases hx : m.likelihood e (dictGet m.name data) v s with ⟨r, s1⟩
    rcases hx' : m'.likelihood e (dictGet m.name data) v t with ⟨r', t1⟩
    rw [hx, hx'] at h1 h2
    dsimp only at h1 h2
    subst h1
    cases r with
    | ok x =>
      dsimp only
      split
      · exact ⟨rfl, h2⟩
      · exact ih _ _ _ h2
    | error err =>
      cases err with
      | call err =>
        cases err with
        | other n =>
          dsimp only
          split <;> exact ⟨rfl, h2⟩
        | _ => exact ⟨rfl, h2⟩
      | _ => exact ⟨rfl, h2⟩

theorem asimovLoop_agree {ms : List (Member σ)} {ms' : List (Member τ)} (h : List.Forall₂ (AgreeMember R) ms ms') (e : Expect) (ts : String) :
    ∀ d, Agree R (Joint.asimovLoop e ts d ms) (Joint.asimovLoop e ts d ms') := by
  induction h with
  | nil => intro d; exact agree_ret d
  | @cons m m' l l' hm _ ih =>
    intro d
    unfold Joint.asimovLoop
    rw [← hm.name]
    exact (hm.asimov e ts).bind fun x => ih _

theorem minimumPoi_agree {ms : List (Member σ)} {ms' : List (Member τ)} (h : List.Forall₂ (AgreeMember R) ms ms') : Joint.minimumPoi ms = Joint.minimumPoi ms' := by
  have hl : ∀ {l : List (Member σ)} {l' : List (Member τ)}, List.Forall₂ (AgreeMember R) l l' → l.map Member.least = l'.map Member.least := by
    intro l l' h
    induction h with
    | nil => rfl
    | cons hm _ ih => rw [List.map_cons, List.map_cons, ih, hm.least]
  cases h with
  | nil => rfl
  | cons hm ht => simp only [Joint.minimumPoi]; rw [hm.least, hl ht]

theorem individual_agree {ms : List (Member σ)} {ms' : List (Member τ)} (h : List.Forall₂ (AgreeMember R) ms ms') (e : Expect) :
    Agree R (Joint.individual e ms) (Joint.individual e ms') := by
  induction h with
  | nil => exact agree_ret _
  | @cons m m' l l' hm _ ih =>
    unfold Joint.individual
    refine (hm.maximize e).bind fun r => ?_
    cases r.1 with
    | many _ => exact agree_lift _
    | one mu => exact (hm.sigma e mu).bind fun s => ih.bind fun _ => agree_ret _

theorem guess_agree {ms : List (Member σ)} {ms' : List (Member τ)} (h : List.Forall₂ (AgreeMember R) ms ms') (e : Expect) :
    Agree R (Joint.guess ms e) (Joint.guess ms' e) := by
  intro s t hs
  unfold Joint.guess
  obtain ⟨h1, h2⟩ := individual_agree h e s t hs
  rcases hx : Joint.individual e ms s with ⟨r, s1⟩
  rcases hx' : Joint.individual e ms' t with ⟨r', t1⟩
  rw [hx, hx'] at h1 h2
  dsimp only at h1 h2
  subst h1
  cases r <;> exact ⟨rfl, h2⟩

theorem descent_agree {f : ℝ → Comp σ F} {f' : ℝ → Comp τ F} (h : ∀ x, Agree R (f x) (f' x)) (T : Descent) : Agree R (T.run f) (T.run f') := by
  induction T with
  | stop r => exact agree_lift _
  | eval x next ih => exact (h x).bind ih

theorem combined_agree {ms : List (Member σ)} {ms' : List (Member τ)} (h : List.Forall₂ (AgreeMember R) ms ms') (T : F → F → F → Descent) (pc : List F → F → F) :
    AgreeMethods R (Joint.combined (minimizer T) ms pc) (Joint.combined (minimizer T) ms' pc) where
  likelihood := fun e d v => by
    cases d with
    | none => exact sumLoop_agree h e [] v _
    | some d => exact agree_lift _
  maximize := fun e n d => by
    cases d with
    | none =>
      refine (guess_agree h e).bind fun mu => ?_
      rw [minimumPoi_agree h]
      exact (agree_lift _).bind fun least => Agree.bind (descent_agree (fun x => (sumLoop_agree h e [] x _).bind fun _ => agree_ret _) _) fun _ => agree_ret _
    | some d => exact agree_lift _
  asimovLikelihood := fun e ts v => (asimovLoop_agree h e ts _).bind fun d => sumLoop_agree h e d v _
  maximizeAsimov := fun e ts => by
    change Agree R (Joint.maximizeAsimov _ _ _ _) (Joint.maximizeAsimov _ _ _ _)
    unfold Joint.maximizeAsimov
    rw [minimumPoi_agree h]
    exact (agree_lift _).bind fun least => (asimovLoop_agree h e ts _).bind fun d =>
      Agree.bind (descent_agree (fun x => (sumLoop_agree h e d x _).bind fun _ => agree_ret _) _) fun _ => agree_ret _
  sampler := fun _ _ => agree_lift _
  available := by
    have ha : ∀ k, (ms.all fun m => m.available k) = ms'.all fun m => m.available k := by
      intro k
      induction h with
      | nil => rfl
      | cons hm _ ih => rw [List.all_cons, List.all_cons, ih, hm.available]
    funext k
    cases k with
    | toy => rfl
    | _ => exact ha _
  percentile := rfl

theorem sigma_none_agree {M : Methods σ} {M' : Methods τ} (h : AgreeMethods R M M') (mu : Mu) (e : Expect) (ts : String) :
    Agree R (sigmaMu M none mu e ts) (sigmaMu M' none mu e ts) := by
  change Agree R (Hypotest.sigmaAsimov M mu e ts) (Hypotest.sigmaAsimov M' mu e ts)
  unfold Hypotest.sigmaAsimov
  exact Hypotest.agree_get fun t t' ht => (h.maximizeAsimov e ts).bind fun b => (ht _ _ _ _ _ fun x => (agree_lift _).bind fun v =>
    (h.asimovLikelihood e ts v).bind fun _ => agree_ret _).bind fun q => Agree.ite _ (agree_ret _) ((agree_lift _).bind fun _ => agree_ret _)

theorem place_agree {Q : ℕ → σ → τ → Prop} (i : ℕ) {c : Comp σ α} {c' : Comp τ α} (h : Agree (Q i) c c') :
    Agree (fun s t => ∀ j, Q j (s j) (t j)) (place i c) (place i c') := by
  intro s t hs
  obtain ⟨h1, h2⟩ := h _ _ (hs i)
  refine ⟨h1, fun j => ?_⟩
  by_cases hj : j = i
  · subst hj; simp only [place, Function.update_self]; exact h2
  · simp only [place, Function.update_of_ne hj]; exact hs j

end

variable {K : Type} [DecidableEq K]

theorem member_agree {key : Keys K} {P : ℕ → Piece} {G : ℕ → FitCall → Prop} (hkey : ∀ i, key.Faithful (P i).solver (P i).backend (G i)) (hS : ∀ i, StartFree (P i).solver) (hfix : ∀ i n, ((P i).backend.config n).fixed = none) (N : ℕ → ℕ)
    (i : ℕ) : AgreeMember (fun s t => ∀ j, AllGood (P j).solver (P j).backend (N j) key (G j) (s j) (t j)) (memoMember key (P i) i) (plainMember (P i) i) where
  name := rfl
  least := rfl
  available := rfl
  likelihood := fun e d v => place_agree (Q := fun j => AllGood (P j).solver (P j).backend (N j) key (G j)) i ((memo_agree (hkey i) (hS i) (hfix i) _ _ _ _ _).likelihood e d v)
  maximize := fun e => place_agree (Q := fun j => AllGood (P j).solver (P j).backend (N j) key (G j)) i ((memo_agree (hkey i) (hS i) (hfix i) _ _ _ _ (P i).percentile).maximize e true none)
  sigma := fun e v => place_agree (Q := fun j => AllGood (P j).solver (P j).backend (N j) key (G j)) i (memoSigma_agree (hkey i) (hS i) (hfix i) _ _ _ _ _ e v)
  asimov := fun e ts => place_agree (Q := fun j => AllGood (P j).solver (P j).backend (N j) key (G j)) i (generate_agree (hkey i) (hS i) (hfix i) 0 ⟨expectation e, ts, (P i).doGrad, none⟩)

/-- **C175** The caches of the members of a combination cannot be seen: whatever was asked of the members before, each with a history of its own, the levels, the significance and the
upper limit of the combination are those of the combination of the models without caches. -/
theorem C175_tests {key : Keys K} {P : ℕ → Piece} {G : ℕ → FitCall → Prop} (hkey : ∀ i, key.Faithful (P i).solver (P i).backend (G i)) (hS : ∀ i, StartFree (P i).solver) (hfix : ∀ i n, ((P i).backend.config n).fixed = none)
    {w0 w : ℕ → World} (h0 : ∀ i, Like (w0 i) (w0 i)) (hw : ∀ i, Like (w0 i) (w i)) (l : ℕ → List Request) (hl : ∀ i, ∀ r ∈ l i, r.Within (G i)) (is : List ℕ) (T : F → F → F → Descent) (pc : List F → F → F)
    {M : Methods (ℕ → State K)} (hM : M = Joint.combined (minimizer T) (is.map fun i => memoMember key (P i) i) pc)
    {M' : Methods (ℕ → World)} (hM' : M' = Joint.combined (minimizer T) (is.map fun i => plainMember (P i) i) pc)
    {s : ℕ → State K} (hs : ∀ i, s i = after key (P i).solver (P i).backend (w0 i) (l i)) :
    (∀ mu e negative kind, (exclusion M mu e negative kind s).1 = (exclusion M' mu e negative kind w).1) ∧
    (∀ e, (significance M e s).1 = (significance M' e w).1) ∧
    (∀ fuel finder alive e CL low hig band,
      (poiUpperLimit fuel finder M (fun e v => sigmaMu M none (.float v) e "qtilde") alive e CL low hig band s).1 =
      (poiUpperLimit fuel finder M' (fun e v => sigmaMu M' none (.float v) e "qtilde") alive e CL low hig band w).1) := by
  have hr : ∀ i, AllGood (P i).solver (P i).backend ((w0 i).start.length) key (G i) (s i) (w i) := fun i => by
    rw [hs i]; exact after_good (hkey i) (hS i) (hfix i) (h0 i) (hw i) (l i) (hl i)
  have hm : AgreeMethods (fun s t => ∀ j, AllGood (P j).solver (P j).backend ((w0 j).start.length) key (G j) (s j) (t j)) M M' := by
    rw [hM, hM']
    refine combined_agree ?_ T pc
    clear hM hM'
    induction is with
    | nil => exact List.Forall₂.nil
    | cons i is ih => exact List.Forall₂.cons (member_agree hkey hS hfix _ i) ih
  exact ⟨fun mu e n kind => (Hypotest.exclusion_agree hm mu e n kind _ _ hr).1, fun e => (Hypotest.significance_agree hm e _ _ hr).1,
    fun fuel finder alive e CL low hig band => (Hypotest.limit_agree hm (fun e v => sigma_none_agree hm _ _ _) _ _ _ _ _ _ _ _ _ _ hr).1⟩

/-- Two copies of the example model. -/
noncomputable def exP (i : ℕ) : Piece := ⟨if i = 0 then "a" else "b", Interface.perfect, fun m => .ok m, Interface.exB, true, .int 100, fun _ => true, fun _ _ => nan⟩

example : (∀ i, StartFree (exP i).solver) ∧ (∀ i n, ((exP i).backend.config n).fixed = none) ∧ Like Interface.exW Interface.exW :=
  ⟨fun _ => Interface.perfect_free, fun _ _ => rfl, rfl, rfl, rfl⟩

end Verif.Memo
