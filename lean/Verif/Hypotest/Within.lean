import Verif.Hypotest.SigmaProps
import Verif.Hypotest.Bisection

/-!
# The search for an upper limit stays at positive signal strengths

`C113_agrees` asks for fits at all real values of the signal strength. The search only asks for positive ones, if the root finder stays in its
interval.
-/

namespace Verif.Hypotest
open Verif.Py F Verif.Config Verif.Optimizer
open Verif.Interface (MuHat)
open Verif.Stats (Expect Calc)
open Verif.UpperLimit (Trace Expected Band Limit Entries)

/-- The search only asks for values in `P`. -/
def Search.Within (P : ℝ → Prop) : Search → Prop
  | .stop _ => True
  | .eval x next => P x ∧ ∀ y, (next y).Within P

/-- Contract of the root finder: it evaluates the function only in the given interval (`scipy.optimize.toms748` raises if the interval is empty, before it evaluates). -/
def Finder.Stays (T : Finder) : Prop := ∀ a b, (T a b).Within fun x => a ≤ x ∧ x ≤ b

variable {σ : Type} {I : σ → Prop}

theorem run_ends_on {P : ℝ → Prop} {f : ℝ → Comp σ F} {g : ℝ → F} (h : ∀ x, P x → Ends I (f x) (.ok (g x))) (T : Search) (hT : T.Within P) :
    Ends I (T.run f) ((T.value g).mapError .limit) := by
  induction T with
  | stop r => exact ends_lift _
  | eval x next ih => exact (h x hT.1).bind (ih _ (hT.2 _))

theorem within_mono {P Q : ℝ → Prop} (h : ∀ x, P x → Q x) (T : Search) (hT : T.Within P) : T.Within Q := by
  induction T with
  | stop r => trivial
  | eval x next ih => exact ⟨h x hT.1, fun y => ih y (hT.2 y)⟩

/-- The last value of a trace. -/
def Ahead (P : ℝ → Prop) (t : Trace) : Prop := ∀ a y, t.head? = some (a, y) → P a

theorem low_ends_on {c : ℝ} {f : ℝ → Comp σ F} {g : ℝ → F} (h : ∀ x, c ≤ x → Ends I (f x) (.ok (g x))) (n : ℕ) (t : Trace) (low : ℝ)
    (hc : c ≤ 1e-10) (hl : 1e-10 ≤ low) :
    Ends I (lowLoop f 1e-10 n t low) (.ok (UpperLimit.lowLoop g 0 1e-10 n t low)) ∧
      ∀ t', UpperLimit.lowLoop g 0 1e-10 n t low = some t' → Ahead (fun a => 1e-10 ≤ a ∧ a ≤ low) t' := by
  induction n generalizing t low with
  | zero => exact ⟨ends_ret _, by simp [UpperLimit.lowLoop]⟩
  | succ n ih =>
    rw [lowLoop, UpperLimit.lowLoop]
    have key : ∀ u, lt (fin 0) u ∧ 1e-10 < low → (1e-10 : ℝ) ≤ max (low * 0.2) 1e-10 ∧ max (low * 0.2) 1e-10 ≤ low := fun u hu =>
      ⟨le_max_right _ _, max_le (by linarith [show (0 : ℝ) < 1e-10 by norm_num]) hl⟩
    by_cases hu : lt (fin 0) (g low) ∧ 1e-10 < low
    · obtain ⟨k1, k2⟩ := key _ hu
      obtain ⟨i1, i2⟩ := ih ((low, g low) :: t) _ k1
      refine ⟨(h low (hc.trans hl)).bind ?_, ?_⟩
      · rw [if_pos hu, if_pos hu]
        exact i1
      · intro t' ht'
        rw [if_pos hu] at ht'
        exact fun a y ha => ⟨(i2 t' ht' a y ha).1, ((i2 t' ht' a y ha).2).trans k2⟩
    · refine ⟨(h low (hc.trans hl)).bind ?_, ?_⟩
      · rw [if_neg hu, if_neg hu]
        exact ends_ret _
      · intro t' ht'
        rw [if_neg hu] at ht'
        obtain rfl := Option.some.inj ht'
        intro a y ha
        simp only [List.head?_cons, Option.some.injEq, Prod.mk.injEq] at ha
        rw [← ha.1]
        exact ⟨hl, le_rfl⟩

theorem high_ends_on {c : ℝ} {f : ℝ → Comp σ F} {g : ℝ → F} (h : ∀ x, c ≤ x → Ends I (f x) (.ok (g x))) (n : ℕ) (t : Trace) (hig : ℝ)
    (hc : 0 ≤ hig) (hl : c ≤ hig) :
    Ends I (highLoop f 1e5 n t hig) (.ok (UpperLimit.highLoop g 0 1e5 n t hig)) ∧
      ∀ t', UpperLimit.highLoop g 0 1e5 n t hig = some t' → Ahead (fun a => hig ≤ a) t' := by
  induction n generalizing t hig with
  | zero => exact ⟨ends_ret _, by simp [UpperLimit.highLoop]⟩
  | succ n ih =>
    rw [highLoop, UpperLimit.highLoop]
    by_cases hu : lt (g hig) (fin 0) ∧ hig < 1e5
    · have k : hig ≤ min (hig * 5) 1e5 := le_min (by linarith) hu.2.le
      obtain ⟨i1, i2⟩ := ih ((hig, g hig) :: t) _ (hc.trans k) (hl.trans k)
      refine ⟨(h hig hl).bind ?_, ?_⟩
      · rw [if_pos hu, if_pos hu]
        exact i1
      · intro t' ht'
        rw [if_pos hu] at ht'
        exact fun a y ha => k.trans (i2 t' ht' a y ha)
    · refine ⟨(h hig hl).bind ?_, ?_⟩
      · rw [if_neg hu, if_neg hu]
        exact ends_ret _
      · intro t' ht'
        rw [if_neg hu] at ht'
        obtain rfl := Option.some.inj ht'
        intro a y ha
        simp only [List.head?_cons, Option.some.injEq, Prod.mk.injEq] at ha
        rw [← ha.1]

theorem limitAt_ends_on {f : ℝ → Comp σ F} {g : ℝ → F} (h : ∀ x, 0 ≤ x → Ends I (f x) (.ok (g x))) (fuel : ℕ) {T : Finder} (hT : T.Stays) {low hig : ℝ}
    (hl : 1e-10 ≤ low) (hh : 0 ≤ hig) :
    Ends I (limitAt fuel T f low hig) (outcome (UpperLimit.limitAt fuel T.solver g low hig)) := by
  have hp : (0 : ℝ) < 1e-10 := by norm_num
  unfold limitAt UpperLimit.limitAt UpperLimit.findRootLimits
  obtain ⟨l1, l2⟩ := low_ends_on h fuel [] low hp.le hl
  obtain ⟨r1, r2⟩ := high_ends_on h fuel [] hig hh hh
  refine l1.bind ?_
  cases hlo : UpperLimit.lowLoop g 0 1e-10 fuel [] low with
  | none => exact ends_ret _
  | some t1 =>
    dsimp only
    refine r1.bind ?_
    simp only [bind, Option.bind]
    cases hhi : UpperLimit.highLoop g 0 1e5 fuel [] hig with
    | none => exact ends_ret _
    | some t2 =>
      simp only [pure]
      unfold solveIn
      rcases t1 with _ | ⟨⟨a, fa⟩, t1⟩
      · exact ends_ret _
      · rcases t2 with _ | ⟨⟨b, fb⟩, t2⟩
        · exact ends_ret _
        · obtain ⟨ha, ha'⟩ := l2 _ hlo a fa rfl
          simp only [List.head?_cons]
          split
          · exact ends_ret _
          · have := run_ends_on h (T a b) (within_mono (fun x hx => (by linarith [hx.1] : (0 : ℝ) ≤ x)) _ (hT a b))
            show Ends I _ (((((T a b).value g).map fin).map some).mapError .limit)
            cases hv : (T a b).value g with
            | error e =>
              rw [hv] at this
              exact this.bind_error
            | ok r =>
              rw [hv] at this
              exact Ends.bind (a := r) this (ends_ret _)

theorem limitsAt_ends_on {f : ℕ → ℝ → Comp σ F} {g : ℕ → ℝ → F} (fuel : ℕ) {T : Finder} (hT : T.Stays) {low hig : ℝ} (hl : 1e-10 ≤ low) (hh : 0 ≤ hig)
    (is : List ℕ) (h : ∀ i ∈ is, ∀ x, 0 ≤ x → Ends I (f i x) (.ok (g i x))) :
    Ends I (limitsAt fuel T f low hig is) (outcome (UpperLimit.limitsAt fuel T.solver g low hig is)) := by
  induction is with
  | nil => exact ends_ret _
  | cons i is ih =>
    rw [limitsAt, UpperLimit.limitsAt]
    have h1 := limitAt_ends_on (h i (by simp)) fuel hT hl hh
    have ih := ih fun j hj => h j (by simp [hj])
    cases hv : UpperLimit.limitAt fuel T.solver (g i) low hig with
    | none =>
      rw [hv] at h1
      exact Ends.bind (a := none) h1 (ends_ret _)
    | some r =>
      rw [hv] at h1
      cases r with
      | error e => exact Ends.bind_error h1
      | ok x =>
        refine Ends.bind (a := some x) h1 ?_
        dsimp only
        cases hw : UpperLimit.limitsAt fuel T.solver g low hig is with
        | none =>
          rw [hw] at ih
          exact Ends.bind (a := none) ih (ends_ret _)
        | some r =>
          rw [hw] at ih
          cases r with
          | error e => exact Ends.bind_error ih
          | ok xs => exact Ends.bind (a := some xs) ih (ends_ret _)

/-- The fits at signal strengths that are not negative succeed. -/
structure FitsFrom (I : σ → Prop) (M : Methods σ) (e : Expect) (m : ℝ) (l : F) (L : ℝ → F) (mA : ℝ) (lA : F) (LA : ℝ → F) : Prop where
  best : Ends I (M.maximize e false none) (.ok (.one m, l))
  likelihood : ∀ v, 0 ≤ v → Ends I (M.likelihood e none v) (.ok (L v))
  bestA : Ends I (M.maximizeAsimov e "qtilde") (.ok (.one mA, lA))
  likelihoodA : ∀ v, 0 ≤ v → Ends I (M.asimovLikelihood e "qtilde" v) (.ok (LA v))

variable {M : Methods σ} {e : Expected} {m : ℝ} {l : F} {L : ℝ → F} {mA : ℝ} {lA : F} {LA : ℝ → F}

/-- As `C113_agrees`, for starting points that the search reaches. -/
theorem agrees_started (h : FitsFrom I M e.toExpect m l L mA lA LA) {sigma : Expect → ℝ → Comp σ F} {low hig : Option ℝ} {a b : ℝ}
    (hst : Ends I (starts (sigma e.toExpect) (.one m) low hig) (.ok (a, b))) (hl : 1e-10 ≤ a) (hh : 0 ≤ b)
    (fuel : ℕ) {T : Finder} (hT : T.Stays) (alive : Bool) (CL : ℝ) (band : Band) :
    Ends I (poiUpperLimit fuel T M sigma alive e CL low hig band)
      (outcome (UpperLimit.poiUpperLimit fuel T.solver ⟨alive, fitted m l L mA lA LA M.available, m, fun _ => 1⟩ e CL (some a) (some b) band)) := by
  unfold poiUpperLimit UpperLimit.poiUpperLimit
  by_cases hCL : 0 ≤ CL ∧ CL ≤ 1
  swap
  · rw [if_neg hCL, if_neg hCL]
    exact ends_lift _
  rw [if_pos hCL, if_pos hCL]
  dsimp only
  cases alive with
  | false => exact ends_lift _
  | true =>
    rw [if_pos rfl, if_pos rfl]
    have hp : Ends I (prepare M e.toExpect "qtilde") (.ok (prepared M e.toExpect m l mA lA)) := by
      unfold Hypotest.prepare
      have : Interface.mayBeNegative "qtilde" = false := by simp [Interface.mayBeNegative]
      rw [this]
      exact h.best.bind (h.bestA.bind (ends_ret _))
    refine hp.bind (hst.bind ?_)
    unfold findLimit UpperLimit.findPoiUpperLimit UpperLimit.starts
    by_cases hb : (if e = Expected.observed then Band.nominal else band) = .unknown
    · rw [if_pos hb, if_pos hb]
      exact ends_lift _
    rw [if_neg hb, if_neg hb]
    dsimp only
    have hv : ∀ i ∈ UpperLimit.indexRange e (if e = Expected.observed then Band.nominal else if e = Expected.observed then Band.nominal else band),
        UpperLimit.Valid e i := by
      intro i hi
      have : i ∈ Entries e band := by
        cases e <;> cases band <;> simp_all [UpperLimit.indexRange, Entries]
      exact UpperLimit.entries_valid this
    generalize UpperLimit.indexRange e _ = is at hv ⊢
    have h1 := limitsAt_ends_on fuel hT hl hh is fun i hi x hx => computer_ends (m := m) (l := l) (mA := mA) (lA := lA) (LA := LA) x (h.likelihood x hx)
      (h.likelihood 0 le_rfl) (h.likelihoodA x hx) (h.likelihoodA 0 le_rfl) M.available CL i (hv i hi)
    cases hr : UpperLimit.limitsAt fuel T.solver (UpperLimit.computer (fitted m l L mA lA LA M.available) e CL false) a b is with
    | none =>
      rw [hr] at h1
      exact Ends.bind (a := none) h1 (ends_ret _)
    | some r =>
      rw [hr] at h1
      cases r with
      | error err => exact Ends.bind_error h1
      | ok xs => exact Ends.bind (a := some xs) h1 (ends_ret _)

/-- Both starting points are given. -/
theorem starts_given (sigma : ℝ → Comp σ F) (muhat : MuHat) (a b : ℝ) : Ends I (starts sigma muhat (some a) (some b)) (.ok (a, b)) := ends_ret _

/-- At least one is not: the others come from `sigma_mu`. -/
theorem starts_found {sigma : ℝ → Comp σ F} {m : ℝ} (hsig : 1e-8 < m → ∃ s, Ends I (sigma m) (.ok (fin s))) {low hig : Option ℝ} (hn : low = none ∨ hig = none) :
    ∃ a b, 1e-10 ≤ a ∧ 1e-10 ≤ b ∧ Ends I (starts sigma (.one m) low hig) (.ok (a, b)) := by
  have key : ∀ l h, ∃ a b, 1e-10 ≤ a ∧ 1e-10 ≤ b ∧ Ends I (do
      let m ← lift (positivePart (.one m))
      let s ← (if |m| ≤ 1e-8 then ret (fin 1) else sigma m)
      match s with
      | fin s => ret (max (UpperLimit.orElse l (m + 1.5 * s)) 1e-10, max (UpperLimit.orElse h (m + 2.5 * s)) 1e-10)
      | _ => lift (.error (.limit .rootFinder)) : Comp σ (ℝ × ℝ)) (.ok (a, b)) := by
    intro l h
    have hp : ∃ m', (positivePart (.one m) : Except Err ℝ) = .ok m' ∧ (1e-8 < |m'| → m' = m ∧ 1e-8 < m) := by
      unfold positivePart
      by_cases h0 : 0 < m
      · exact ⟨m, by simp [h0], fun hm => ⟨rfl, by rwa [abs_of_pos h0] at hm⟩⟩
      · refine ⟨0, by simp [h0], fun hm => ?_⟩
        rw [abs_zero] at hm
        norm_num at hm
    obtain ⟨m', e1, e2⟩ := hp
    have hs : ∃ s, Ends I (if |m'| ≤ 1e-8 then ret (fin 1) else sigma m') (.ok (fin s)) := by
      by_cases hm : |m'| ≤ 1e-8
      · rw [if_pos hm]
        exact ⟨1, ends_ret _⟩
      · rw [if_neg hm]
        obtain ⟨e3, e4⟩ := e2 (not_le.mp hm)
        rw [e3]
        exact hsig e4
    obtain ⟨s, hs⟩ := hs
    refine ⟨_, _, le_max_right _ _, le_max_right _ _, Ends.bind (a := m') (by rw [e1]; exact ends_lift _) (hs.bind (ends_ret _))⟩
  unfold starts
  rcases low with _ | a <;> rcases hig with _ | b
  · exact key _ _
  · exact key _ _
  · exact key _ _
  · simp at hn

/-! ## The limit exists -/

/-- The level depends on the statistics only. -/
theorem same_stats (B B' : Stats.Backend) (mu : F) (e : Expect) (hav : B.available .asymptotic = B'.available .asymptotic)
    (h : B.data.stat Stats.qmuTilde mu = B'.data.stat Stats.qmuTilde mu) (hA : B.asimov.stat Stats.qmuTilde mu = B'.asimov.stat Stats.qmuTilde mu) :
    Stats.exclusionConfidenceLevel B mu e false .asymptotic = Stats.exclusionConfidenceLevel B' mu e false .asymptotic := by
  unfold Stats.exclusionConfidenceLevel
  simp only [hav, Stats.calculatorPvalues, Stats.asymptoticPvalues, Bool.false_eq_true, if_false, Stats.compute_eq Stats.get_qtilde, h, hA]

theorem fitOf_stat (v m : ℝ) (l : F) (L : ℝ → F) :
    (fitOf v m l (L v) (L 0)).stat Stats.qmuTilde (fin v) = (⟨fin m, l, negated L⟩ : Stats.Fit).stat Stats.qmuTilde (fin v) := by
  have h0 : (fitOf v m l (L v) (L 0)).logpdf (fin 0) = neg (L 0) := by
    by_cases h : v = 0
    · subst h
      simp [fitOf]
    · simp [fitOf, Ne.symm h]
  have hv : (fitOf v m l (L v) (L 0)).logpdf (fin v) = neg (L v) := by simp [fitOf]
  unfold Stats.Fit.stat Stats.qmuTilde
  dsimp only
  rw [h0, hv]
  rfl

theorem FitsFrom.reported (hI : ∃ s, I s) (h : FitsFrom I M e.toExpect m l L mA lA LA) {i : ℕ} {x : ℝ} {r : F} (hx : 0 ≤ x)
    (hL : UpperLimit.Level (fitted m l L mA lA LA M.available) e false i x r) : Reported I M e i x r := by
  obtain ⟨l', h1, h2⟩ := hL
  refine ⟨l', ?_, h2⟩
  have := C107_levels M hI (.float x) x rfl e.toExpect false .asymptotic m l (L x) (L 0) ⟨h.best, h.likelihood x hx, h.likelihood 0 le_rfl⟩ mA lA (LA x) (LA 0)
    (fun _ => ⟨h.bestA, h.likelihoodA x hx, h.likelihoodA 0 le_rfl⟩) [] [] [] [] (by simp) (by simp) (by simp) (by simp) (by simp)
  have hsame := same_stats ⟨fitOf x m l (L x) (L 0), fitOf x mA lA (LA x) (LA 0), [], [], M.percentile, M.available⟩ (fitted m l L mA lA LA M.available) (fin x)
    e.toExpect rfl (fitOf_stat _ _ _ _) (fitOf_stat _ _ _ _)
  rw [hsame, h1] at this
  exact this

/-- The search of the code, for functions given by numbers. -/
theorem searched {tol : ℝ → ℝ} {solve : UpperLimit.Solver} (hs : UpperLimit.Sound tol solve) (J : UpperLimit.Inputs) (hl : J.alive = true) (hav : J.backend.available .asymptotic = true)
    {fuel : ℕ} {CL a b : ℝ} (ha : 1e-10 ≤ a) {band : Band} {lim : Limit} (h : UpperLimit.poiUpperLimit fuel solve J e CL (some a) (some b) band = some (.ok lim)) :
    lim.Shaped (Entries e band).length ∧ List.Forall₂ (fun i x =>
      (∃ mu, x = fin mu ∧ UpperLimit.Reaches (fun x y => 1e-10 ≤ x ∧ UpperLimit.Level J.backend e false i x y) CL (tol mu) mu) ∨
      (x = pinf ∧ ((∃ b r, 1e5 ≤ b ∧ UpperLimit.Level J.backend e false i b (fin r) ∧ r < CL) ∨ ∃ r, UpperLimit.Level J.backend e false i 1e-10 (fin r) ∧ CL < r)))
      (Entries e band) lim.values := by
  obtain ⟨-, h2, h3⟩ := UpperLimit.poi_ended hl h
  refine ⟨h2, ?_⟩
  have hv : ∀ i ∈ Entries e band, UpperLimit.Valid e i := fun i => UpperLimit.entries_valid
  generalize Entries e band = is at h3 hv
  generalize lim.values = vs at h3
  induction h3 with
  | nil => exact .nil
  | @cons i x is xs hx _ ih =>
    refine .cons ?_ (ih (fun j hj => hv j (List.mem_cons_of_mem _ hj)))
    have hi := hv i List.mem_cons_self
    obtain ⟨c, d, hc, hd, hca, hr⟩ := UpperLimit.limitAt_ended hx
    have hca := hca ha
    rcases hr with ⟨hsgn, rfl⟩ | ⟨r, hr, rfl⟩
    · refine Or.inr ⟨rfl, ?_⟩
      rcases hsgn with ⟨g1, g2⟩ | ⟨g1, g2⟩
      · right
        obtain ⟨r, hr, hlt⟩ := UpperLimit.level_of_gt hi hav g1
        have : c = 1e-10 := le_antisymm (by tauto) hca
        rw [this] at hr
        exact ⟨r, hr, hlt⟩
      · left
        obtain ⟨r, hr, hlt⟩ := UpperLimit.level_of_lt hi hav g2
        exact ⟨d, r, by tauto, hr, hlt⟩
    · refine Or.inl ⟨r, rfl, ?_, ?_⟩
      · obtain ⟨x, x1, -, hx, hle⟩ := hs.below _ _ _ _ hr
        obtain ⟨s, hs1, hs2⟩ := UpperLimit.level_of_le hi hav hle
        exact ⟨x, s, hx, ⟨hca.trans x1, hs1⟩, hs2⟩
      · obtain ⟨x, x1, -, hx, hle⟩ := hs.above _ _ _ _ hr
        obtain ⟨s, hs1, hs2⟩ := UpperLimit.level_of_ge hi hav hle
        exact ⟨x, s, hx, ⟨hca.trans x1, hs1⟩, hs2⟩

/-- A limit that is returned, if the fits at signal strengths that are not negative succeed and the search starts from `a` and `b`. -/
theorem limit_means (hI : ∃ s, I s) (h : FitsFrom I M e.toExpect m l L mA lA LA) (hav : M.available .asymptotic = true) {sigma : Expect → ℝ → Comp σ F} {low hig : Option ℝ} {a b : ℝ}
    (hst : Ends I (starts (sigma e.toExpect) (.one m) low hig) (.ok (a, b))) (hl : 1e-10 ≤ a) (hh : 0 ≤ b) {fuel : ℕ} {T : Finder} (hT : T.Stays) {tol : ℝ → ℝ}
    (hs : UpperLimit.Sound tol T.solver) {CL : ℝ} {band : Band} {s : σ} (hs0 : I s) {lim : Limit} (hr : (poiUpperLimit fuel T M sigma true e CL low hig band s).1 = .ok (some lim)) :
    lim.Shaped (Entries e band).length ∧ List.Forall₂ (fun i x =>
      (∃ mu, x = fin mu ∧ UpperLimit.Reaches (fun x y => 1e-10 ≤ x ∧ Reported I M e i x y) CL (tol mu) mu) ∨
      (x = pinf ∧ ((∃ b r, 1e5 ≤ b ∧ Reported I M e i b (fin r) ∧ r < CL) ∨ ∃ r, Reported I M e i 1e-10 (fin r) ∧ CL < r)))
      (Entries e band) lim.values := by
  have hE := (agrees_started h hst hl hh fuel hT true CL band s hs0).1
  rw [hr] at hE
  have : UpperLimit.poiUpperLimit fuel T.solver ⟨true, fitted m l L mA lA LA M.available, m, fun _ => 1⟩ e CL (some a) (some b) band = some (.ok lim) := by
    generalize UpperLimit.poiUpperLimit fuel T.solver _ e CL (some a) (some b) band = z at hE
    cases z with
    | none => simp [outcome] at hE
    | some z =>
      cases z with
      | error er => simp [outcome, Except.map, Except.mapError] at hE
      | ok l => simp [outcome, Except.map, Except.mapError] at hE; rw [hE]
  obtain ⟨k1, k2⟩ := searched hs _ rfl hav hl this
  refine ⟨k1, k2.imp fun i x hx => ?_⟩
  rcases hx with ⟨mu, rfl, ⟨x, r, a1, ⟨a2, a3⟩, a4⟩, y, r', b1, ⟨b2, b3⟩, b4⟩ | ⟨rfl, ⟨b, r, b1, b2, b3⟩ | ⟨r, b2, b3⟩⟩
  · exact .inl ⟨mu, rfl, ⟨x, r, a1, ⟨a2, h.reported hI (le_trans (by norm_num) a2) a3⟩, a4⟩, y, r', b1, ⟨b2, h.reported hI (le_trans (by norm_num) b2) b3⟩, b4⟩
  · exact .inr ⟨rfl, .inl ⟨b, r, b1, h.reported hI (le_trans (by norm_num) b1) b2, b3⟩⟩
  · exact .inr ⟨rfl, .inr ⟨r, h.reported hI (by norm_num) b2, b3⟩⟩

/-- If the fits at signal strengths that are not negative succeed with finite likelihoods, and the confidence level is crossed between `1e-10` and `1e5`, then `poi_upper_limit` with
starting points between them, which are different or not on the limit, returns finite limits, at which the reported levels reach the confidence level. -/
theorem limit_exists_start (hav : M.available .asymptotic = true) (hI : ∃ s, I s) {l lA : ℝ} {L LA : ℝ → ℝ}
    (h : FitsFrom I M e.toExpect m (fin l) (fun v => fin (L v)) mA (fin lA) fun v => fin (LA v)) (sigma : Expect → ℝ → Comp σ F)
    {T : Finder} {tol : ℝ → ℝ} (hsound : UpperLimit.Sound tol T.solver) (hok : UpperLimit.Succeeds T.solver) (hT : T.Stays) {CL : ℝ} (h0 : 0 ≤ CL) (h1 : CL ≤ 1) {low hig : ℝ} (h2 : 1e-10 ≤ low) (h3 : low ≤ hig)
    (h4 : hig ≤ 1e5) (band : Band) (hb : band ≠ .unknown) (hne : low < hig ∨ ∀ i ∈ Entries e band, ∀ r, Reported I M e i low (fin r) → r ≠ CL) (hlow : ∀ i ∈ Entries e band, ∀ r, Reported I M e i 1e-10 (fin r) → r ≤ CL)
    (hhig : ∀ i ∈ Entries e band, ∀ r, Reported I M e i 1e5 (fin r) → CL ≤ r) :
    ∃ lim : Limit, lim.Shaped (Entries e band).length ∧
      List.Forall₂ (fun i x => ∃ mu, x = fin mu ∧ UpperLimit.Reaches (fun x y => 1e-10 ≤ x ∧ Reported I M e i x y) CL (tol mu) mu) (Entries e band) lim.values ∧
      ∃ N, ∀ n ≥ N, Ends I (poiUpperLimit n T M sigma true e CL (some low) (some hig) band) (.ok (some lim)) := by
  obtain ⟨lim, ⟨N, hN⟩, hfin⟩ := UpperLimit.C19_limit_exists_start hok
    ⟨true, fitted m (fin l) (fun v => fin (L v)) mA (fin lA) (fun v => fin (LA v)) M.available, m, fun _ => 1⟩ rfl hav
    (fun mu => ⟨⟨_, rfl⟩, ⟨_, rfl⟩, ⟨_, rfl⟩, ⟨_, rfl⟩, ⟨_, rfl⟩, ⟨_, rfl⟩⟩) e CL h0 h1 low hig h2 h3 h4 band hb
    (hne.imp_right fun hne i hi r hr => hne i hi r (h.reported hI (le_trans (by norm_num) h2) hr)) (fun i hi r hr => hlow i hi r (h.reported hI (by norm_num) hr)) (fun i hi r hr => hhig i hi r (h.reported hI (by norm_num) hr))
  have hE : ∀ n ≥ N, Ends I (poiUpperLimit n T M sigma true e CL (some low) (some hig) band) (.ok (some lim)) := by
    intro n hn
    have := agrees_started h (starts_given (sigma e.toExpect) (.one m) low hig) h2 (by linarith [show (0 : ℝ) < 1e-10 by norm_num]) n hT true CL band
    have hN := hN n hn
    dsimp only at hN
    rw [hN] at this
    exact this
  obtain ⟨s, hs⟩ := hI
  obtain ⟨k1, k2⟩ := limit_means ⟨s, hs⟩ h hav (starts_given (sigma e.toExpect) (.one m) low hig) h2 (by linarith [show (0 : ℝ) < 1e-10 by norm_num]) hT hsound hs (hE N le_rfl s hs).1
  refine ⟨lim, k1, ?_, N, hE⟩
  have : ∀ (is : List ℕ) (xs : List F), (∀ x ∈ xs, Stats.Finite x) → ∀ {R Q : ℕ → F → Prop}, (∀ i x, Stats.Finite x → R i x → Q i x) → List.Forall₂ R is xs → List.Forall₂ Q is xs := by
    intro is xs hx R Q himp hR
    induction hR with
    | nil => exact .nil
    | cons a _ ih => exact .cons (himp _ _ (hx _ (by simp)) a) (ih fun x hx' => hx x (by simp [hx']))
  refine this _ _ hfin (fun i x hx hR => ?_) k2
  rcases hR with hR | ⟨rfl, -⟩
  · exact hR
  · obtain ⟨_, hx⟩ := hx
    simp at hx

/-- The same for different starting points. -/
theorem limit_exists (hav : M.available .asymptotic = true) (hI : ∃ s, I s) {l lA : ℝ} {L LA : ℝ → ℝ}
    (h : FitsFrom I M e.toExpect m (fin l) (fun v => fin (L v)) mA (fin lA) fun v => fin (LA v)) (sigma : Expect → ℝ → Comp σ F)
    {T : Finder} {tol : ℝ → ℝ} (hsound : UpperLimit.Sound tol T.solver) (hok : UpperLimit.Succeeds T.solver) (hT : T.Stays) {CL : ℝ} (h0 : 0 ≤ CL) (h1 : CL ≤ 1) {low hig : ℝ} (h2 : 1e-10 ≤ low) (h3 : low < hig)
    (h4 : hig ≤ 1e5) (band : Band) (hb : band ≠ .unknown) (hlow : ∀ i ∈ Entries e band, ∀ r, Reported I M e i 1e-10 (fin r) → r ≤ CL)
    (hhig : ∀ i ∈ Entries e band, ∀ r, Reported I M e i 1e5 (fin r) → CL ≤ r) :
    ∃ lim : Limit, lim.Shaped (Entries e band).length ∧
      List.Forall₂ (fun i x => ∃ mu, x = fin mu ∧ UpperLimit.Reaches (fun x y => 1e-10 ≤ x ∧ Reported I M e i x y) CL (tol mu) mu) (Entries e band) lim.values ∧
      ∃ N, ∀ n ≥ N, Ends I (poiUpperLimit n T M sigma true e CL (some low) (some hig) band) (.ok (some lim)) :=
  limit_exists_start hav hI h sigma hsound hok hT h0 h1 h2 h3.le h4 band hb (.inl h3) hlow hhig

/-- `sigma_mu` of a model without Hessian, if the fits at signal strengths that are not negative succeed. -/
theorem sigma_from (hI : ∃ s, I s) {e : Expect} {l lA : ℝ} {L LA : ℝ → ℝ} (h : FitsFrom I M e m (fin l) (fun v => fin (L v)) mA (fin lA) fun v => fin (LA v)) {v : ℝ} (hv : 0 ≤ v) :
    ∃ x, 0 ≤ x ∧ Ends I (sigmaMu M none (.float v) e "qtilde") (.ok (fin x)) := by
  obtain ⟨t, ht, hE⟩ := C115_types_partial hI M none (.float v) v rfl (by simp) e (by simp) "qtilde" (by simp) _ _ _ _ ⟨h.bestA, h.likelihoodA v hv, h.likelihoodA 0 le_rfl⟩
  rw [show t = Stats.qmuTilde from (Except.ok.inj ht).symm] at hE
  obtain ⟨q, hq⟩ : ∃ q : ℝ, (fitOf v mA (fin lA) (fin (LA v)) (fin (LA 0))).stat Stats.qmuTilde (fin v) = fin q := by
    rw [fitOf_stat v mA (fin lA) fun v => fin (LA v)]
    obtain ⟨r, -, hr⟩ := Stats.stat_finite Stats.get_qtilde (⟨fin mA, fin lA, negated fun v => fin (LA v)⟩ : Stats.Fit) (fin v) ⟨_, rfl⟩ ⟨_, rfl⟩ ⟨_, rfl⟩
    exact ⟨r, hr⟩
  rw [hq] at hE
  by_cases h0 : q ≤ 0
  · rw [if_pos (show le (fin q) (fin 0) from h0)] at hE
    exact ⟨1, by norm_num, hE⟩
  · push Not at h0
    rw [if_neg (show ¬ le (fin q) (fin 0) from not_le.mpr h0), Stats.sqrt_fin h0.le] at hE
    have : div (fin v) (fin √q) = fin (v / √q) := by
      simp only [div, if_neg (Real.sqrt_pos.mpr h0).ne']
    rw [this] at hE
    exact ⟨_, div_nonneg hv (Real.sqrt_nonneg _), hE⟩

theorem bisect_stays (up : Bool) (tol : ℝ) (n : ℕ) {a b : ℝ} (h : a ≤ b) : (bisect up tol n a b).Within fun x => a ≤ x ∧ x ≤ b := by
  induction n generalizing a b with
  | zero => trivial
  | succ n ih =>
    rw [bisect]
    refine ⟨⟨by linarith, by linarith⟩, fun y => ?_⟩
    dsimp only
    split
    · exact within_mono (fun x hx => ⟨by linarith [hx.1], hx.2⟩) _ (ih (by linarith))
    · split
      · exact within_mono (fun x hx => ⟨hx.1, by linarith [hx.2]⟩) _ (ih (by linarith))
      · trivial

theorem bisection_stays (tol : ℝ) : (bisection tol).Stays := by
  intro a b
  unfold bisection
  split
  · rename_i h
    have h := h.le
    refine ⟨⟨le_rfl, h⟩, fun ya => ⟨⟨h, le_rfl⟩, fun yb => ?_⟩⟩
    dsimp only
    split
    · exact bisect_stays _ _ _ h
    · split
      · exact bisect_stays _ _ _ h
      · trivial
  · trivial

end Verif.Hypotest
