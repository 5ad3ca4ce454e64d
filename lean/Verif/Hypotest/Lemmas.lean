import Verif.Hypotest.Spec
import Verif.Stats.Props

/-!
# Lemmas on calls
-/

namespace Verif.Hypotest
open Verif.Py F Verif.Config
open Verif.Interface (MuHat Data Toys)
open Verif.Stats (Expect Calc Levels)

variable {σ α β : Type} {I : σ → Prop}

theorem bind_def (c : Comp σ α) (k : α → Comp σ β) : (c >>= k) = andThen c k := rfl

theorem bind_ok {c : Comp σ α} {k : α → Comp σ β} {s s' : σ} {a : α} (h : c s = (.ok a, s')) : (c >>= k) s = k a s' := by
  rw [bind_def, andThen, h]

theorem bind_error {c : Comp σ α} {k : α → Comp σ β} {s s' : σ} {e : Err} (h : c s = (.error e, s')) :
    (c >>= k) s = (.error e, s') := by
  rw [bind_def, andThen, h]

@[simp] theorem bind_ret (a : α) (k : α → Comp σ β) : (ret a >>= k) = k a := rfl

@[simp] theorem bind_lift_ok (a : α) (k : α → Comp σ β) : (lift (.ok a) >>= k) = k a := rfl

@[simp] theorem bind_lift_error (e : Err) (k : α → Comp σ β) : (lift (.error e) >>= k) = lift (.error e) := rfl

/-- A call that returned: so did its parts. -/
theorem bind_returned {c : Comp σ α} {k : α → Comp σ β} {s s' : σ} {b : β} (h : (c >>= k) s = (.ok b, s')) :
    ∃ a s1, c s = (.ok a, s1) ∧ k a s1 = (.ok b, s') := by
  rw [bind_def, andThen] at h
  cases hc : c s with
  | mk r s1 =>
    rw [hc] at h
    cases r with
    | error e => simp at h
    | ok a => exact ⟨a, s1, rfl, h⟩

theorem then_assoc {γ : Type} (c : Comp σ α) (k : α → Comp σ β) (k' : β → Comp σ γ) :
    ((c >>= k) >>= k') = c >>= fun a => k a >>= k' := by
  funext s
  simp only [bind_def]
  unfold andThen
  cases hc : c s with
  | mk r s1 => cases r <;> simp only [hc]

theorem prepare_then (M : Methods σ) (e : Expect) (ts : String) (k : Prepared σ → Comp σ α) :
    (prepare M e ts >>= k) = M.maximize e (Interface.mayBeNegative ts) none >>= fun b => M.maximizeAsimov e ts >>= fun bA =>
      k ⟨b, logpdf M e none, bA, logpdfAsimov M e ts⟩ := by
  rw [prepare, then_assoc]
  congr 1
  funext b
  rw [then_assoc]
  rfl

/-! ### `Ends` -/

theorem ends_ret (a : α) : Ends I (ret a) (.ok a) := fun _ h => ⟨rfl, h⟩

theorem ends_lift (r : Except Err α) : Ends I (lift r) r := fun _ h => ⟨rfl, h⟩

theorem Ends.bind {c : Comp σ α} {k : α → Comp σ β} {a : α} {r : Except Err β} (hc : Ends I c (.ok a)) (hk : Ends I (k a) r) :
    Ends I (c >>= k) r := by
  intro s hs
  obtain ⟨h1, h2⟩ := hc s hs
  cases hcs : c s with
  | mk x s1 =>
    rw [hcs] at h1 h2
    dsimp only at h1 h2
    subst h1
    rw [bind_ok hcs]
    exact hk s1 h2

theorem Ends.bind_error {c : Comp σ α} {k : α → Comp σ β} {e : Err} (hc : Ends I c (.error e)) : Ends I (c >>= k) (.error e) := by
  intro s hs
  obtain ⟨h1, h2⟩ := hc s hs
  cases hcs : c s with
  | mk x s1 =>
    rw [hcs] at h1 h2
    dsimp only at h1 h2
    subst h1
    rw [Hypotest.bind_error hcs]
    exact ⟨rfl, h2⟩

/-! ### `Steady` -/

theorem steady_ret (a : α) : Steady I (ret a) := fun _ _ h _ => ⟨rfl, h⟩

theorem steady_lift (r : Except Err α) : Steady I (lift r) := fun _ _ h _ => ⟨rfl, h⟩

theorem Steady.bind {c : Comp σ α} {k : α → Comp σ β} (hc : Steady I c) (hk : ∀ a, Steady I (k a)) : Steady I (c >>= k) := by
  intro s s' hs hs'
  obtain ⟨h1, h2⟩ := hc s s' hs hs'
  obtain ⟨-, h2'⟩ := hc s' s hs' hs
  cases hcs : c s with
  | mk x s1 =>
  cases hcs' : c s' with
  | mk x' s1' =>
    rw [hcs] at h1 h2
    rw [hcs'] at h1 h2'
    dsimp only at h1 h2 h2'
    subst h1
    cases x with
    | error e => rw [bind_error hcs, bind_error hcs']; exact ⟨rfl, h2⟩
    | ok a => rw [bind_ok hcs, bind_ok hcs']; exact hk a s1 s1' h2 h2'

theorem Steady.ite {c c' : Comp σ α} (p : Prop) [Decidable p] (h : Steady I c) (h' : Steady I c') : Steady I (if p then c else c') := by
  split
  · exact h
  · exact h'

/-! ### The statistics of `Verif.Stats` as calls -/

theorem is_float {mu : Mu} {v : ℝ} (h : mu.Is v) : toFloat mu = .ok v := by
  cases mu <;> simp [Mu.Is] at h <;> simp [toFloat, h]

theorem is_greater {mu : Mu} {v : ℝ} (h : mu.Is v) (m : ℝ) : greater (.one m) mu = .ok (open Classical in decide (v < m)) := by
  cases mu <;> simp [Mu.Is] at h <;> simp [greater, h]

/-- A test statistic of this model computes the one of `Verif.Stats`. -/
def Computes (t : Statistic σ) (t' : Stats.TestStat) (v : ℝ) : Prop :=
  ∀ (mu : Mu) (m : ℝ) (l : F) (lp : Mu → Comp σ F) (lp' : F → F), mu.Is v → Ends I (lp mu) (.ok (lp' (fin v))) →
    Ends I (lp (.float 0)) (.ok (lp' (fin 0))) → Ends I (t mu (.one m) l lp) (.ok (t' (fin v) (fin m) l lp'))

theorem qmu_computes (v : ℝ) : Computes (I := I) qmu Stats.qmu v := by
  intro mu m l lp lp' hmu h1 h0
  simp only [qmu, is_greater hmu, bind_lift_ok, Stats.qmu, lt]
  by_cases h : v < m
  · simp only [h, decide_true, if_true]
    exact ends_ret _
  · simp only [h, decide_false, if_false, Bool.false_eq_true]
    exact h1.bind (ends_ret _)

theorem qmuTilde_computes (v : ℝ) : Computes (I := I) qmuTilde Stats.qmuTilde v := by
  intro mu m l lp lp' hmu h1 h0
  simp only [qmuTilde, is_greater hmu, bind_lift_ok, Stats.qmuTilde, lt, le, notNegative]
  by_cases h : v < m
  · simp only [h, decide_true, if_true]
    exact ends_ret _
  · simp only [h, decide_false, if_false, Bool.false_eq_true]
    refine h1.bind ?_
    by_cases h' : 0 ≤ m
    · simp only [h', decide_true, if_true, bind_ret]
      exact ends_ret _
    · simp only [h', decide_false, if_false, Bool.false_eq_true]
      exact h0.bind (ends_ret _)

theorem q0_computes (v : ℝ) : Computes (I := I) q0 Stats.q0 v := by
  intro mu m l lp lp' hmu h1 h0
  simp only [q0, bind_lift_ok, Stats.q0, lt, notNegative]
  by_cases h : 0 ≤ m
  · simp only [h, decide_true, if_true, not_lt.mpr h, if_false]
    exact h0.bind (ends_ret _)
  · simp only [h, decide_false, not_le.mp h, if_true, Bool.false_eq_true, if_false]
    exact ends_ret _

theorem get_computes (ts : String) (hts : ts = "q" ∨ ts = "qtilde" ∨ ts = "q0") (v : ℝ) :
    ∃ (t : Statistic σ) (t' : Stats.TestStat), getTestStatistic ts = .ok t ∧ Stats.getTestStatistic ts = .ok t' ∧
      Computes (I := I) t t' v := by
  rcases hts with rfl | rfl | rfl
  · exact ⟨_, _, rfl, Stats.get_q, qmu_computes v⟩
  · exact ⟨_, _, rfl, Stats.get_qtilde, qmuTilde_computes v⟩
  · exact ⟨_, _, rfl, Stats.get_q0, q0_computes v⟩

theorem fitOf_v (v m : ℝ) (l lv l0 : F) : (fitOf v m l lv l0).logpdf (fin v) = neg lv := by simp [fitOf]

theorem fitOf_0 (v m : ℝ) (l lv l0 : F) (h : v = 0 → lv = l0) : (fitOf v m l lv l0).logpdf (fin 0) = neg l0 := by
  by_cases hv : v = 0
  · simp [fitOf, hv, h hv]
  · have : ¬ (0 : ℝ) = v := fun h => hv h.symm
    simp [fitOf, this]

theorem ends_unique {c : Comp σ α} {r r' : Except Err α} (hI : ∃ s, I s) (h : Ends I c r) (h' : Ends I c r') : r = r' := by
  obtain ⟨s, hs⟩ := hI
  rw [← (h s hs).1, ← (h' s hs).1]

theorem Ends.logpdf {M : Methods σ} {e : Expect} {d : Option Data} {mu : Mu} {v : ℝ} {l : F} (hmu : mu.Is v)
    (h : Ends I (M.likelihood e d v) (.ok l)) : Ends I (logpdf M e d mu) (.ok (neg l)) := by
  simp only [Hypotest.logpdf, is_float hmu, bind_lift_ok]
  exact h.bind (ends_ret _)

theorem Ends.logpdfAsimov {M : Methods σ} {e : Expect} {ts : String} {mu : Mu} {v : ℝ} {l : F} (hmu : mu.Is v)
    (h : Ends I (M.asimovLikelihood e ts v) (.ok l)) : Ends I (logpdfAsimov M e ts mu) (.ok (neg l)) := by
  simp only [Hypotest.logpdfAsimov, is_float hmu, bind_lift_ok]
  exact h.bind (ends_ret _)

/-- The statistic of a fit. -/
theorem Fits.stat {M : Methods σ} {e : Expect} {n : Bool} {d : Option Data} {v m : ℝ} {l lv l0 : F} (hI : ∃ s, I s)
    (h : Fits I M e n d v m l lv l0) {t : Statistic σ} {t' : Stats.TestStat} (ht : Computes (I := I) t t' v) {mu : Mu} (hmu : mu.Is v) :
    Ends I (t mu (.one m) (neg l) (logpdf M e d)) (.ok ((fitOf v m l lv l0).stat t' (fin v))) := by
  apply ht mu m (neg l) (logpdf M e d) (fitOf v m l lv l0).logpdf hmu
  · rw [fitOf_v]; exact h.tested.logpdf hmu
  · rw [fitOf_0 _ _ _ _ _ (fun hv => ?_)]
    · exact h.null.logpdf (mu := .float 0) (v := 0) rfl
    · have h1 := h.tested
      rw [hv] at h1
      simpa using ends_unique hI h1 h.null

theorem FitsAsimov.stat {M : Methods σ} {e : Expect} {ts : String} {v m : ℝ} {l lv l0 : F} (hI : ∃ s, I s)
    (h : FitsAsimov I M e ts v m l lv l0) {t : Statistic σ} {t' : Stats.TestStat} (ht : Computes (I := I) t t' v) {mu : Mu}
    (hmu : mu.Is v) : Ends I (t mu (.one m) (neg l) (logpdfAsimov M e ts)) (.ok ((fitOf v m l lv l0).stat t' (fin v))) := by
  apply ht mu m (neg l) (logpdfAsimov M e ts) (fitOf v m l lv l0).logpdf hmu
  · rw [fitOf_v]; exact h.tested.logpdfAsimov hmu
  · rw [fitOf_0 _ _ _ _ _ (fun hv => ?_)]
    · exact h.null.logpdfAsimov (mu := .float 0) (v := 0) rfl
    · have h1 := h.tested
      rw [hv] at h1
      simpa using ends_unique hI h1 h.null

/-! ### Steadiness of the parts -/

theorem SteadyMethods.logpdf {M : Methods σ} (h : SteadyMethods I M) (e d mu) : Steady I (logpdf M e d mu) :=
  (steady_lift _).bind fun v => (h.likelihood e d v).bind fun _ => steady_ret _

theorem SteadyMethods.logpdfAsimov {M : Methods σ} (h : SteadyMethods I M) (e ts mu) : Steady I (logpdfAsimov M e ts mu) :=
  (steady_lift _).bind fun v => (h.asimovLikelihood e ts v).bind fun _ => steady_ret _

/-- A test statistic is steady if the likelihood is. -/
def SteadyStatistic (I : σ → Prop) (t : Statistic σ) : Prop := ∀ mu m l lp, (∀ x, Steady I (lp x)) → Steady I (t mu m l lp)

theorem get_steady {ts : String} {t : Statistic σ} (h : getTestStatistic ts = .ok t) : SteadyStatistic I t := by
  have h1 : SteadyStatistic I (σ := σ) qmu := fun mu m l lp hl =>
    (steady_lift _).bind fun g => Steady.ite _ (steady_ret _) ((hl _).bind fun _ => steady_ret _)
  have h2 : SteadyStatistic I (σ := σ) qmuTilde := fun mu m l lp hl =>
    (steady_lift _).bind fun g => Steady.ite _ (steady_ret _) ((hl _).bind fun _ => (steady_lift _).bind fun g' =>
      (Steady.ite _ (steady_ret _) (hl _)).bind fun _ => steady_ret _)
  have h3 : SteadyStatistic I (σ := σ) q0 := fun mu m l lp hl =>
    (steady_lift _).bind fun g => Steady.ite _ ((hl _).bind fun _ => steady_ret _) (steady_ret _)
  unfold getTestStatistic at h
  split at h <;> simp at h <;> subst h <;> assumption

theorem steady_get {ts : String} {k : Statistic σ → Comp σ α} (h : ∀ t, SteadyStatistic I t → Steady I (k t)) :
    Steady I (lift (getTestStatistic ts) >>= k) := by
  cases ht : getTestStatistic (σ := σ) ts with
  | error e => rw [bind_lift_error]; exact steady_lift _
  | ok t => rw [bind_lift_ok]; exact h t (get_steady ht)

theorem steady_compute {mu : Mu} {b bA : MuHat × F} {lp lpA : Mu → Comp σ F} {ts : String} (h : ∀ x, Steady I (lp x))
    (hA : ∀ x, Steady I (lpA x)) : Steady I (computeTeststatistics mu b lp bA lpA ts) :=
  steady_get fun _ ht => (ht _ _ _ _ h).bind fun _ => (ht _ _ _ _ hA).bind fun _ => steady_lift _

theorem steady_handled {c : Comp σ (List F × List F)} (h : Steady I c) : Steady I (orNotExcluded c) := by
  intro s s' hs hs'
  obtain ⟨h1, h2⟩ := h s s' hs hs'
  unfold orNotExcluded
  cases hc : c s with
  | mk x s1 =>
  cases hc' : c s' with
  | mk x' s1' =>
    rw [hc] at h1 h2
    rw [hc'] at h1
    dsimp only at h1 h2
    subst h1
    cases x with
    | ok a => exact ⟨rfl, h2⟩
    | error e =>
      cases e with
      | stats e => cases e <;> exact ⟨rfl, h2⟩
      | _ => exact ⟨rfl, h2⟩

theorem SteadyMethods.toyStatistic {M : Methods σ} (h : SteadyMethods I M) {t : Statistic σ} (ht : SteadyStatistic I t) (mu e n d) :
    Steady I (toyStatistic M t mu e n d) :=
  (h.maximize e n _).bind fun _ => ht _ _ _ _ fun _ => h.logpdf _ _ _

theorem SteadyMethods.toyLoop {M : Methods σ} (h : SteadyMethods I M) {t : Statistic σ} (ht : SteadyStatistic I t) (mu e n) :
    ∀ ss bs, Steady I (toyLoop M t mu e n ss bs)
  | [], _ => by rw [Hypotest.toyLoop]; exact steady_ret _; simp
  | _ :: _, [] => by rw [Hypotest.toyLoop]; exact steady_ret _; simp
  | s :: ss, b :: bs => by
    rw [Hypotest.toyLoop]
    exact (h.toyStatistic ht _ _ _ _).bind fun _ => (h.toyStatistic ht _ _ _ _).bind fun _ => (h.toyLoop ht mu e n ss bs).bind fun _ =>
      steady_ret _

end Verif.Hypotest
