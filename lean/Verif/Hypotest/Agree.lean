import Verif.Hypotest.SigmaProps

/-!
# Lemmas: tests on top of methods that give the same answers
-/

namespace Verif.Hypotest
open Verif.Py F Verif.Config
open Verif.Interface (MuHat Data Toys World)
open Verif.Stats (Expect Calc Levels)
open Verif.UpperLimit (Trace Expected Band Limit)
open Classical

variable {σ τ α β : Type} {R : σ → τ → Prop}

/-- From related states two calls end with the same result, in related states. -/
def Agree (R : σ → τ → Prop) (c : Comp σ α) (c' : Comp τ α) : Prop := ∀ s t, R s t → (c s).1 = (c' t).1 ∧ R (c s).2 (c' t).2

/-- All methods give the same answers. -/
structure AgreeMethods (R : σ → τ → Prop) (M : Methods σ) (M' : Methods τ) : Prop where
  likelihood : ∀ e d v, Agree R (M.likelihood e d v) (M'.likelihood e d v)
  maximize : ∀ e n d, Agree R (M.maximize e n d) (M'.maximize e n d)
  asimovLikelihood : ∀ e ts v, Agree R (M.asimovLikelihood e ts v) (M'.asimovLikelihood e ts v)
  maximizeAsimov : ∀ e ts, Agree R (M.maximizeAsimov e ts) (M'.maximizeAsimov e ts)
  sampler : ∀ e mu, Agree R (M.sampler e mu) (M'.sampler e mu)
  available : M.available = M'.available
  percentile : M.percentile = M'.percentile

theorem agree_ret (a : α) : Agree R (ret a) (ret a) := fun _ _ h => ⟨rfl, h⟩

theorem agree_lift (r : Except Err α) : Agree R (lift r) (lift r) := fun _ _ h => ⟨rfl, h⟩

theorem Agree.bind {c : Comp σ α} {c' : Comp τ α} {k : α → Comp σ β} {k' : α → Comp τ β} (hc : Agree R c c') (hk : ∀ a, Agree R (k a) (k' a)) :
    Agree R (c >>= k) (c' >>= k') := by
  intro s t hs
  obtain ⟨h1, h2⟩ := hc s t hs
  cases hcs : c s with
  | mk x s1 =>
  cases hcs' : c' t with
  | mk x' s1' =>
    rw [hcs] at h1 h2
    rw [hcs'] at h1 h2
    dsimp only at h1 h2
    subst h1
    cases x with
    | error e => rw [bind_error hcs, bind_error hcs']; exact ⟨rfl, h2⟩
    | ok a => rw [bind_ok hcs, bind_ok hcs']; exact hk a s1 s1' h2

theorem Agree.ite {c d : Comp σ α} {c' d' : Comp τ α} (p : Prop) [Decidable p] (h : Agree R c c') (h' : Agree R d d') :
    Agree R (if p then c else d) (if p then c' else d') := by
  split
  · exact h
  · exact h'

theorem AgreeMethods.logpdf {M : Methods σ} {M' : Methods τ} (h : AgreeMethods R M M') (e d mu) : Agree R (logpdf M e d mu) (logpdf M' e d mu) :=
  (agree_lift _).bind fun v => (h.likelihood e d v).bind fun _ => agree_ret _

theorem AgreeMethods.logpdfAsimov {M : Methods σ} {M' : Methods τ} (h : AgreeMethods R M M') (e ts mu) : Agree R (logpdfAsimov M e ts mu) (logpdfAsimov M' e ts mu) :=
  (agree_lift _).bind fun v => (h.asimovLikelihood e ts v).bind fun _ => agree_ret _

def AgreeStatistic (R : σ → τ → Prop) (t : Statistic σ) (t' : Statistic τ) : Prop :=
  ∀ mu m l lp lp', (∀ x, Agree R (lp x) (lp' x)) → Agree R (t mu m l lp) (t' mu m l lp')

theorem qmu_agree : AgreeStatistic R qmu qmu := fun _ _ _ _ _ hl =>
  (agree_lift _).bind fun _ => Agree.ite _ (agree_ret _) ((hl _).bind fun _ => agree_ret _)

theorem qmuTilde_agree : AgreeStatistic R qmuTilde qmuTilde := fun _ _ _ _ _ hl =>
  (agree_lift _).bind fun _ => Agree.ite _ (agree_ret _) ((hl _).bind fun _ => (agree_lift _).bind fun _ =>
    (Agree.ite _ (agree_ret _) (hl _)).bind fun _ => agree_ret _)

theorem q0_agree : AgreeStatistic R q0 q0 := fun _ _ _ _ _ hl =>
  (agree_lift _).bind fun _ => Agree.ite _ ((hl _).bind fun _ => agree_ret _) (agree_ret _)

theorem agree_get {ts : String} {k : Statistic σ → Comp σ α} {k' : Statistic τ → Comp τ α} (h : ∀ t t', AgreeStatistic R t t' → Agree R (k t) (k' t')) :
    Agree R (lift (getTestStatistic ts) >>= k) (lift (getTestStatistic ts) >>= k') := by
  unfold getTestStatistic
  split
  · rw [bind_lift_ok, bind_lift_ok]; exact h _ _ qmu_agree
  · rw [bind_lift_ok, bind_lift_ok]; exact h _ _ qmuTilde_agree
  · rw [bind_lift_ok, bind_lift_ok]; exact h _ _ q0_agree
  · rw [bind_lift_error, bind_lift_error]; exact agree_lift _

theorem agree_compute {mu : Mu} {b bA : MuHat × F} {lp lpA : Mu → Comp σ F} {lp' lpA' : Mu → Comp τ F} {ts : String} (h : ∀ x, Agree R (lp x) (lp' x))
    (hA : ∀ x, Agree R (lpA x) (lpA' x)) : Agree R (computeTeststatistics mu b lp bA lpA ts) (computeTeststatistics mu b lp' bA lpA' ts) :=
  agree_get fun _ _ ht => (ht _ _ _ _ _ h).bind fun _ => (ht _ _ _ _ _ hA).bind fun _ => agree_lift _

theorem agree_handled {c : Comp σ (List F × List F)} {c' : Comp τ (List F × List F)} (h : Agree R c c') : Agree R (orNotExcluded c) (orNotExcluded c') := by
  intro s s' hs
  obtain ⟨h1, h2⟩ := h s s' hs
  unfold orNotExcluded
  cases hc : c s with
  | mk x s1 =>
  cases hc' : c' s' with
  | mk x' s1' =>
    rw [hc] at h1 h2
    rw [hc'] at h1 h2
    dsimp only at h1 h2
    subst h1
    cases x with
    | ok a => exact ⟨rfl, h2⟩
    | error e =>
      cases e with
      | stats e => cases e <;> exact ⟨rfl, h2⟩
      | _ => exact ⟨rfl, h2⟩

theorem AgreeMethods.toyStatistic {M : Methods σ} {M' : Methods τ} (h : AgreeMethods R M M') {t : Statistic σ} {t' : Statistic τ} (ht : AgreeStatistic R t t') (mu e n d) :
    Agree R (toyStatistic M t mu e n d) (toyStatistic M' t' mu e n d) :=
  (h.maximize e n _).bind fun _ => ht _ _ _ _ _ fun _ => h.logpdf _ _ _

theorem AgreeMethods.toyLoop {M : Methods σ} {M' : Methods τ} (h : AgreeMethods R M M') {t : Statistic σ} {t' : Statistic τ} (ht : AgreeStatistic R t t') (mu e n) :
    ∀ ss bs, Agree R (toyLoop M t mu e n ss bs) (toyLoop M' t' mu e n ss bs)
  | [], _ => by rw [Hypotest.toyLoop, Hypotest.toyLoop]; exact agree_ret _; all_goals simp
  | _ :: _, [] => by rw [Hypotest.toyLoop, Hypotest.toyLoop]; exact agree_ret _; all_goals simp
  | s :: ss, b :: bs => by
    rw [Hypotest.toyLoop, Hypotest.toyLoop]
    exact (h.toyStatistic ht _ _ _ _).bind fun _ => (h.toyStatistic ht _ _ _ _).bind fun _ => (h.toyLoop ht mu e n ss bs).bind fun _ =>
      agree_ret _

theorem exclusion_agree {M : Methods σ} {M' : Methods τ} (h : AgreeMethods R M M') (mu : Mu) (e : Expect) (negative : Bool) (kind : Calc) :
    Agree R (exclusion M mu e negative kind) (exclusion M' mu e negative kind) := by
  unfold exclusion
  rw [h.available]
  refine Agree.ite _ (Agree.bind ?_ fun _ => agree_ret _) (agree_lift _)
  cases kind with
  | asymptotic =>
    unfold calculate asymptotic
    dsimp only
    rw [prepare_then, prepare_then]
    exact (h.maximize _ _ _).bind fun _ => (h.maximizeAsimov _ _).bind fun _ => agree_handled
      ((agree_compute (fun _ => h.logpdf _ _ _) (fun _ => h.logpdfAsimov _ _ _)).bind fun _ => agree_ret _)
  | toy =>
    unfold calculate toy
    dsimp only
    rw [h.percentile]
    exact agree_get fun t t' ht => (h.maximize _ _ _).bind fun _ => (h.sampler _ _).bind fun _ => (h.sampler _ _).bind fun _ =>
      (agree_lift _).bind fun _ => (agree_lift _).bind fun _ => (h.toyLoop ht _ _ _ _ _).bind fun _ =>
      (ht _ _ _ _ _ fun _ => h.logpdf _ _ _).bind fun _ => agree_ret _
  | chiSquare =>
    exact agree_get fun t t' ht => (h.maximize _ _ _).bind fun _ => (ht _ _ _ _ _ fun _ => h.logpdf _ _ _).bind fun _ =>
      (h.logpdf _ _ _).bind fun _ => (agree_lift _).bind fun _ => agree_ret _

theorem significance_agree {M : Methods σ} {M' : Methods τ} (h : AgreeMethods R M M') (e : Expect) : Agree R (significance M e) (significance M' e) := by
  unfold significance
  rw [prepare_then, prepare_then]
  exact (h.maximize _ _ _).bind fun _ => (h.maximizeAsimov _ _).bind fun _ =>
    (agree_compute (fun _ => h.logpdf _ _ _) (fun _ => h.logpdfAsimov _ _ _)).bind fun _ => agree_ret _

/-! ### The limit -/

theorem run_agree {f : ℝ → Comp σ F} {f' : ℝ → Comp τ F} (h : ∀ x, Agree R (f x) (f' x)) (T : Search) : Agree R (T.run f) (T.run f') := by
  induction T with
  | stop r => exact agree_lift _
  | eval x next ih => exact (h x).bind fun y => ih y

theorem low_agree {f : ℝ → Comp σ F} {f' : ℝ → Comp τ F} (h : ∀ x, Agree R (f x) (f' x)) (bound : ℝ) (n : ℕ) (t : Trace) (low : ℝ) :
    Agree R (lowLoop f bound n t low) (lowLoop f' bound n t low) := by
  induction n generalizing t low with
  | zero => exact agree_ret _
  | succ n ih => exact (h low).bind fun y => Agree.ite _ (ih _ _) (agree_ret _)

theorem high_agree {f : ℝ → Comp σ F} {f' : ℝ → Comp τ F} (h : ∀ x, Agree R (f x) (f' x)) (bound : ℝ) (n : ℕ) (t : Trace) (hig : ℝ) :
    Agree R (highLoop f bound n t hig) (highLoop f' bound n t hig) := by
  induction n generalizing t hig with
  | zero => exact agree_ret _
  | succ n ih => exact (h hig).bind fun y => Agree.ite _ (ih _ _) (agree_ret _)

theorem limitAt_agree {f : ℝ → Comp σ F} {f' : ℝ → Comp τ F} (h : ∀ x, Agree R (f x) (f' x)) (fuel : ℕ) (T : Finder) (low hig : ℝ) :
    Agree R (limitAt fuel T f low hig) (limitAt fuel T f' low hig) := by
  refine (low_agree h _ _ _ _).bind fun o1 => ?_
  cases o1 with
  | none => exact agree_ret _
  | some t1 =>
    refine (high_agree h _ _ _ _).bind fun o2 => ?_
    cases o2 with
    | none => exact agree_ret _
    | some t2 =>
      dsimp only
      unfold solveIn
      split
      · exact Agree.ite _ (agree_ret _) ((run_agree h _).bind fun _ => agree_ret _)
      · exact agree_ret _

theorem limitsAt_agree {f : ℕ → ℝ → Comp σ F} {f' : ℕ → ℝ → Comp τ F} (h : ∀ i x, Agree R (f i x) (f' i x)) (fuel : ℕ) (T : Finder) (low hig : ℝ) (is : List ℕ) :
    Agree R (limitsAt fuel T f low hig is) (limitsAt fuel T f' low hig is) := by
  induction is with
  | nil => exact agree_ret _
  | cons i is ih =>
    refine (limitAt_agree (h i) _ _ _ _).bind fun o => ?_
    cases o with
    | none => exact agree_ret _
    | some x => exact ih.bind fun _ => agree_ret _

theorem orZero_agree {c : Comp σ (List F)} {c' : Comp τ (List F)} (h : Agree R c c') (e : Expected) : Agree R (orZero e c) (orZero e c') := by
  intro s s' hs
  obtain ⟨h1, h2⟩ := h s s' hs
  unfold orZero
  cases hc : c s with
  | mk x s1 =>
  cases hc' : c' s' with
  | mk x' s1' =>
    rw [hc] at h1 h2
    rw [hc'] at h1 h2
    dsimp only at h1 h2
    subst h1
    cases x with
    | ok a => exact ⟨rfl, h2⟩
    | error e =>
      cases e with
      | stats e => cases e <;> exact ⟨rfl, h2⟩
      | _ => exact ⟨rfl, h2⟩

theorem starts_agree {sigma : ℝ → Comp σ F} {sigma' : ℝ → Comp τ F} (h : ∀ m, Agree R (sigma m) (sigma' m)) (m : MuHat) (low hig : Option ℝ) :
    Agree R (starts sigma m low hig) (starts sigma' m low hig) := by
  unfold starts
  split
  · exact agree_ret _
  · refine (agree_lift _).bind fun m => (Agree.ite _ (agree_ret _) (h m)).bind fun s => ?_
    split
    · exact agree_ret _
    · exact agree_lift _

theorem computer_agree {p : Prepared σ} {p' : Prepared τ} (h1 : p.best = p'.best) (h2 : p.bestA = p'.bestA) (h3 : ∀ x, Agree R (p.logpdf x) (p'.logpdf x))
    (h4 : ∀ x, Agree R (p.logpdfA x) (p'.logpdfA x)) (e : Expected) (CL : ℝ) (i : ℕ) (x : ℝ) : Agree R (computer p e CL i x) (computer p' e CL i x) := by
  unfold computer pvalue
  rw [h1, h2]
  refine (orZero_agree ((agree_compute h3 h4).bind fun _ => agree_ret _) _).bind fun l => ?_
  split
  · exact agree_ret _
  · exact agree_lift _

theorem limit_agree {M : Methods σ} {M' : Methods τ} (h : AgreeMethods R M M') {sigma : Expect → ℝ → Comp σ F} {sigma' : Expect → ℝ → Comp τ F}
    (hs : ∀ e m, Agree R (sigma e m) (sigma' e m)) (fuel : ℕ) (T : Finder) (alive : Bool) (e : Expected) (CL : ℝ) (low hig : Option ℝ) (band : Band) :
    Agree R (poiUpperLimit fuel T M sigma alive e CL low hig band) (poiUpperLimit fuel T M' sigma' alive e CL low hig band) := by
  refine Agree.ite _ (Agree.ite _ ?_ (agree_lift _)) (agree_lift _)
  rw [prepare_then, prepare_then]
  refine (h.maximize _ _ _).bind fun b => (h.maximizeAsimov _ _).bind fun bA => (starts_agree (hs _) _ _ _).bind fun s => ?_
  refine Agree.ite _ (agree_lift _) (Agree.bind (limitsAt_agree (fun i x => ?_) _ _ _ _ _) fun _ => agree_ret _)
  exact computer_agree (p := ⟨b, logpdf M e.toExpect none, bA, logpdfAsimov M e.toExpect "qtilde"⟩) (p' := ⟨b, logpdf M' e.toExpect none, bA, logpdfAsimov M' e.toExpect "qtilde"⟩) rfl rfl
    (fun _ => h.logpdf _ _ _) (fun _ => h.logpdfAsimov _ _ _) _ _ _ _

/-! ### sigma_mu -/

theorem hessianOr_agree {h : Comp σ F} {h' : Comp τ F} {c : Comp σ F} {c' : Comp τ F} (hh : Agree R h h') (hc : Agree R c c') :
    Agree R (hessianOr (some h) c) (hessianOr (some h') c') := by
  intro s t hs
  unfold hessianOr
  dsimp only
  obtain ⟨h1, h2⟩ := hh s t hs
  cases hx : h s with
  | mk r s1 =>
  cases hx' : h' t with
  | mk r' s1' =>
  rw [hx, hx'] at h1 h2
  dsimp only at h1 h2
  subst h1
  cases r with
  | ok a => exact ⟨rfl, h2⟩
  | error e =>
    cases e with
    | call e => cases e <;> first | exact ⟨rfl, h2⟩ | exact hc _ _ h2
    | _ => exact ⟨rfl, h2⟩

theorem sigma_agree {M : Methods σ} {M' : Methods τ} (h : AgreeMethods R M M') {f : Mu → Expect → Comp σ F} {f' : Mu → Expect → Comp τ F}
    (hf : ∀ mu e, Agree R (f mu e) (f' mu e)) (mu : Mu) (e : Expect) (ts : String) : Agree R (sigmaMu M (some f) mu e ts) (sigmaMu M' (some f') mu e ts) := by
  refine hessianOr_agree (hf mu e) ?_
  unfold sigmaAsimov
  exact agree_get fun t t' ht => (h.maximizeAsimov e ts).bind fun b => (ht _ _ _ _ _ fun x => (agree_lift _).bind fun v =>
    (h.asimovLikelihood e ts v).bind fun _ => agree_ret _).bind fun q => Agree.ite _ (agree_ret _) ((agree_lift _).bind fun _ => agree_ret _)

end Verif.Hypotest
