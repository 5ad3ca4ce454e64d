import Verif.Hypotest.LimitLemmas
import Verif.Hypotest.Bisection
import Verif.Hypotest.ModelProps

/-!
# Property C113: upper limits on top of fits
-/

namespace Verif.Hypotest
open Verif.Py F Verif.Config Verif.Optimizer
open Verif.Interface (MuHat World Plain Size StartFree Solver Data)
open Verif.Stats (Expect Calc Levels)
open Verif.UpperLimit (Trace Expected Band Limit Entries Reaches Sound Succeeds)
open Classical

variable {σ : Type} {I : σ → Prop}

/-! ## C113: the level that the model reports -/

/-- The value of the call, if there is a state from which it returns. -/
noncomputable def valueOf (I : σ → Prop) (f : ℝ → Comp σ F) (x : ℝ) : F :=
  if h : ∃ y s s', I s ∧ f x s = (.ok y, s') then h.choose else nan

theorem valueOf_weak {f : ℝ → Comp σ F} (h : ∀ x, Steady I (f x)) : Weak I f (valueOf I f) := by
  intro x s y s' hs hy
  have hex : ∃ y s s', I s ∧ f x s = (.ok y, s') := ⟨y, s, s', hs, hy⟩
  obtain ⟨s0, s0', hs0, hy0⟩ := hex.choose_spec
  obtain ⟨h1, h2⟩ := h x s s0 hs hs0
  rw [hy, hy0] at h1
  rw [hy] at h2
  refine ⟨?_, h2⟩
  unfold valueOf
  rw [dif_pos hex]
  simpa using h1

theorem valueOf_returned {f : ℝ → Comp σ F} {x : ℝ} (h : valueOf I f x ≠ nan) : ∃ s s', I s ∧ f x s = (.ok (valueOf I f x), s') := by
  unfold valueOf at h ⊢
  split at h
  · rename_i hex
    rw [dif_pos hex]
    exact hex.choose_spec
  · exact absurd rfl h

theorem le_nan_left {x : F} (h : le x (fin 0)) : x ≠ nan := by rintro rfl; exact h
theorem le_nan_right {x : F} (h : le (fin 0) x) : x ≠ nan := by rintro rfl; exact h

/-- What is left of a call that returned a limit. -/
theorem limit_returned {M : Methods σ} (h : SteadyMethods I M) {sigma : Expect → ℝ → Comp σ F} (hsig : ∀ e m, Steady I (sigma e m))
    {fuel : ℕ} {T : Finder} {e : Expected} {CL : ℝ} {low hig : Option ℝ} {band : Band} {s s' : σ} (hs : I s) {L : Limit}
    (hr : poiUpperLimit fuel T M sigma true e CL low hig band s = (.ok (some L), s')) :
    ∃ p st, Ends I (prepare M e.toExpect "qtilde") (.ok p) ∧ p.Of M e.toExpect ∧ Ends I (starts (sigma e.toExpect) p.best.1 low hig) (.ok st) ∧
      L.Shaped (Entries e band).length ∧
      List.Forall₂ (fun i x => UpperLimit.limitAt fuel T.solver (valueOf I (computer p e CL i)) st.1 st.2 = some (.ok x)) (Entries e band) L.values := by
  unfold poiUpperLimit at hr
  split at hr
  swap
  · simp [lift] at hr
  rw [if_pos rfl] at hr
  obtain ⟨p, s1, h1, hr1⟩ := bind_returned hr
  obtain ⟨st, s2, h2, hr2⟩ := bind_returned hr1
  have hp := prepare_of h1
  have hprep := (prepare_steady h e.toExpect).ends hs (by rw [h1])
  have hs1 : I s1 := by have := (hprep s hs).2; rwa [h1] at this
  have hst := (starts_steady (hsig e.toExpect) p.best.1 low hig).ends hs1 (by rw [h2])
  have hs2 : I s2 := by have := (hst s1 hs1).2; rwa [h2] at this
  refine ⟨p, st, hprep, hp, hst, ?_⟩
  unfold findLimit at hr2
  by_cases hb : (if e = Expected.observed then Band.nominal else band) = .unknown
  · rw [if_pos hb] at hr2
    simp [lift] at hr2
  rw [if_neg hb] at hr2
  obtain ⟨l, s3, h3, hr3⟩ := bind_returned hr2
  simp only [ret, Prod.mk.injEq, Except.ok.injEq] at hr3
  cases l with
  | none => simp at hr3
  | some xs =>
    obtain ⟨h4, -⟩ := limitsAt_weak (fun i => valueOf_weak fun x => computer_steady h hp CL i x) _ _ _ _ _ hs2 h3
    have hb' : (if e = Expected.observed then Band.nominal else if e = Expected.observed then Band.nominal else band) =
        if e = Expected.observed then Band.nominal else band := by split <;> rfl
    rw [hb'] at h4
    have hent : UpperLimit.indexRange e (if e = .observed then .nominal else band) = Entries e band := by
      cases e <;> cases band <;> simp_all [UpperLimit.indexRange, Entries]
    rw [hent] at h4
    simp only [Option.map_some, Option.some.injEq] at hr3
    rw [← hr3.1, UpperLimit.pack_values]
    refine ⟨?_, h4⟩
    rw [h4.length_eq]
    exact UpperLimit.pack_shaped _

theorem starts_low {sigma : ℝ → Comp σ F} {m : MuHat} {low hig : Option ℝ} {st : ℝ × ℝ} {s s' : σ} (h : starts sigma m low hig s = (.ok st, s'))
    (hst : low = none ∨ hig = none ∨ ∃ x, low = some x ∧ 1e-10 ≤ x) : 1e-10 ≤ st.1 := by
  have key : ∀ l h', (do
      let m ← lift (positivePart m)
      let s ← (if |m| ≤ 1e-8 then ret (fin 1) else sigma m)
      match s with
      | fin s => ret (max (UpperLimit.orElse l (m + 1.5 * s)) 1e-10, max (UpperLimit.orElse h' (m + 2.5 * s)) 1e-10)
      | _ => lift (.error (.limit .rootFinder)) : Comp σ (ℝ × ℝ)) s = (.ok st, s') → 1e-10 ≤ st.1 := by
    intro l h' h
    obtain ⟨m, s1, -, h1⟩ := bind_returned h
    obtain ⟨t, s2, -, h2⟩ := bind_returned h1
    cases t with
    | fin t =>
      simp only [ret, Prod.mk.injEq, Except.ok.injEq] at h2
      rw [← h2.1]
      exact le_max_right _ _
    | _ => simp [lift] at h2
  unfold starts at h
  rcases low with _ | l <;> rcases hig with _ | x
  · exact key _ _ h
  · exact key _ _ h
  · exact key _ _ h
  · simp only [ret, Prod.mk.injEq, Except.ok.injEq] at h
    obtain ⟨y, h1, h2⟩ := (hst.resolve_left (by simp)).resolve_left (by simp)
    rw [← h.1]
    simp only [Option.some.injEq] at h1
    rw [h1]
    exact h2

/-- C113: a finite limit that `poi_upper_limit` returns is, up to the tolerance of the root finder, a signal strength at which
`exclusion_confidence_level`, called on the same model (asymptotic calculator), reports the requested level: within the tolerance it reports
somewhere at most and somewhere at least that level. An infinite limit means that the level reported at some value of at least `1e5` is below, or that at
some value of at most `1e-10` above the requested one. All values tested are at least `1e-10`, unless the user gave both starting points and the lower one is
smaller. -/
theorem C113_level (M : Methods σ) (h : SteadyMethods I M) (hav : M.available .asymptotic = true) (sigma : Expect → ℝ → Comp σ F)
    (hsig : ∀ e m, Steady I (sigma e m)) (fuel : ℕ) (T : Finder) (tol : ℝ → ℝ) (hT : Sound tol T.solver) (e : Expected) (CL : ℝ) (low hig : Option ℝ)
    (band : Band) (s s' : σ) (hs : I s) (L : Limit) (hr : poiUpperLimit fuel T M sigma true e CL low hig band s = (.ok (some L), s')) :
    L.Shaped (Entries e band).length ∧
    List.Forall₂ (fun i x =>
      (∃ mu, x = fin mu ∧ Reaches (fun x y => ((low = none ∨ hig = none ∨ ∃ z, low = some z ∧ 1e-10 ≤ z) → 1e-10 ≤ x) ∧ Reported I M e i x y)
        CL (tol mu) mu) ∨
      (x = pinf ∧ ((∃ b r, 1e5 ≤ b ∧ Reported I M e i b (fin r) ∧ r < CL) ∨
        (∃ a r, a ≤ 1e-10 ∧ Reported I M e i a (fin r) ∧ CL < r)))) (Entries e band) L.values := by
  obtain ⟨p, st, hprep, hp, hst, h1, h2⟩ := limit_returned h hsig hs hr
  refine ⟨h1, h2.imp fun i x hx => ?_⟩
  have rep : ∀ z, valueOf I (computer p e CL i) z ≠ nan → ∃ r, valueOf I (computer p e CL i) z = fin (r - CL) ∧ Reported I M e i z (fin r) := by
    intro z hz
    obtain ⟨s0, s0', h0, hc⟩ := valueOf_returned hz
    obtain ⟨r, h3, -, -, h4⟩ := computer_reported h hav hprep hp h0 hc hz
    exact ⟨r, h3, h4⟩
  have hlow : (low = none ∨ hig = none ∨ ∃ z, low = some z ∧ 1e-10 ≤ z) → 1e-10 ≤ st.1 := by
    intro hd
    have h0 := hst s hs
    cases hc : starts (sigma e.toExpect) p.best.1 low hig s with
    | mk r s1 =>
    rw [hc] at h0
    dsimp only at h0
    rw [h0.1] at hc
    exact starts_low hc hd
  obtain ⟨a, b, ha, hb, hab, hy⟩ := UpperLimit.limitAt_ended hx
  clear hx
  rcases hy with ⟨hx, rfl⟩ | ⟨r, hx, rfl⟩
  · right
    refine ⟨rfl, ?_⟩
    rcases hx with ⟨g1, g2⟩ | ⟨g1, g2⟩
    · right
      have hn : valueOf I (computer p e CL i) a ≠ nan := by intro hn; rw [hn] at g1; exact g1
      obtain ⟨r, e1, e2⟩ := rep a hn
      refine ⟨a, r, ha.resolve_left (not_not.mpr g1), e2, ?_⟩
      rw [e1] at g1
      have : 0 < r - CL := g1
      linarith
    · left
      have hn : valueOf I (computer p e CL i) b ≠ nan := by intro hn; rw [hn] at g2; exact g2
      obtain ⟨r, e1, e2⟩ := rep b hn
      refine ⟨b, r, hb.resolve_left (not_not.mpr g2), e2, ?_⟩
      rw [e1] at g2
      have : r - CL < 0 := g2
      linarith
  · left
    refine ⟨r, rfl, ?_, ?_⟩
    · obtain ⟨y, y1, y2, y3, y4⟩ := hT.below _ _ _ _ hx
      obtain ⟨v, e1, e2⟩ := rep y (le_nan_left y4)
      refine ⟨y, v, y3, ⟨fun hd => (hab (hlow hd)).trans y1, e2⟩, ?_⟩
      rw [e1] at y4
      have : v - CL ≤ 0 := y4
      linarith
    · obtain ⟨y, y1, y2, y3, y4⟩ := hT.above _ _ _ _ hx
      obtain ⟨v, e1, e2⟩ := rep y (le_nan_right y4)
      refine ⟨y, v, y3, ⟨fun hd => (hab (hlow hd)).trans y1, e2⟩, ?_⟩
      rw [e1] at y4
      have : 0 ≤ v - CL := y4
      linarith

/-- C113: the limit does not depend on what was asked before. -/
theorem C113_steady (M : Methods σ) (h : SteadyMethods I M) (sigma : Expect → ℝ → Comp σ F) (hsig : ∀ e m, Steady I (sigma e m)) (fuel : ℕ) (T : Finder)
    (alive : Bool) (e : Expected) (CL : ℝ) (low hig : Option ℝ) (band : Band) : Steady I (poiUpperLimit fuel T M sigma alive e CL low hig band) := by
  refine Steady.ite _ (Steady.ite _ ?_ (steady_lift _)) (steady_lift _)
  intro s s' hs hs'
  have h1 := prepare_steady h e.toExpect s s' hs hs'
  cases hp : prepare M e.toExpect "qtilde" s with
  | mk r s1 =>
  cases hp' : prepare M e.toExpect "qtilde" s' with
  | mk r' s1' =>
  have h1' := (prepare_steady h e.toExpect s' s hs' hs).2
  rw [hp, hp'] at h1
  rw [hp'] at h1'
  dsimp only at h1 h1'
  obtain ⟨rfl, h2⟩ := h1
  cases r with
  | error err => exact ⟨by rw [bind_error hp, bind_error hp'], by rw [bind_error hp]; exact h2⟩
  | ok p =>
    rw [bind_ok hp, bind_ok hp']
    exact ((starts_steady (hsig _) _ _ _).bind fun st => findLimit_steady h (prepare_of hp) _ _ _ _ _ _) s1 s1' h2 h1'

/-! ## C113: the same limit as for given fits -/

/-- Negative log-likelihoods as the log-likelihood of `Verif.Stats`. -/
noncomputable def negated (L : ℝ → F) : F → F
  | fin v => neg (L v)
  | _ => nan

/-- Fits with best value `m`, minimum `l` and negative log-likelihood `L`, and the same for the Asimov data. -/
noncomputable def fitted (m : ℝ) (l : F) (L : ℝ → F) (mA : ℝ) (lA : F) (LA : ℝ → F) (available : Calc → Bool) : Stats.Backend :=
  ⟨⟨fin m, l, negated L⟩, ⟨fin mA, lA, negated LA⟩, [], [], fun _ _ => nan, available⟩

/-- All the fits that the upper limit may ask for succeed. -/
structure AllFits (I : σ → Prop) (M : Methods σ) (e : Expect) (m : ℝ) (l : F) (L : ℝ → F) (mA : ℝ) (lA : F) (LA : ℝ → F) : Prop where
  best : Ends I (M.maximize e false none) (.ok (.one m, l))
  likelihood : ∀ v, Ends I (M.likelihood e none v) (.ok (L v))
  bestA : Ends I (M.maximizeAsimov e "qtilde") (.ok (.one mA, lA))
  likelihoodA : ∀ v, Ends I (M.asimovLikelihood e "qtilde" v) (.ok (LA v))

theorem shift_error {q qA : F} {err : Stats.Err} (h : Stats.shiftOf "qtilde" q qA = .error err) : err = .asimovTestStatZero := by
  unfold Stats.shiftOf at h
  dsimp only at h
  split at h
  · simp at h
  · split at h
    · simp at h
    · split at h
      · simpa using h.symm
      · simp at h

theorem orZero_ok {e : Expected} {c : Comp σ (List F)} {l : List F} (h : Ends I c (.ok l)) : Ends I (orZero e c) (.ok l) := by
  intro s hs
  obtain ⟨h1, h2⟩ := h s hs
  unfold orZero
  cases hc : c s with
  | mk r s1 =>
  rw [hc] at h1 h2
  dsimp only at h1 h2
  subst h1
  exact ⟨rfl, h2⟩

theorem orZero_zero {e : Expected} {c : Comp σ (List F)} (h : Ends I c (.error (.stats .asimovTestStatZero))) :
    Ends I (orZero e c) (.ok (if e = .observed then [fin 0] else List.replicate 5 (fin 0))) := by
  intro s hs
  obtain ⟨h1, h2⟩ := h s hs
  unfold orZero
  cases hc : c s with
  | mk r s1 =>
  rw [hc] at h1 h2
  dsimp only at h1 h2
  subst h1
  exact ⟨rfl, h2⟩

theorem level_lengths (q d : F) : (Stats.asymptoticLevel q d "qtilde").1.length = 1 ∧ (Stats.asymptoticLevel q d "qtilde").2.length = 5 := by
  rw [Stats.asymptoticLevel_eq _ _ (by simp)]
  constructor <;> rfl

theorem entry_ends {l : List F} {i : ℕ} (hi : i < l.length) (CL : ℝ) :
    Ends I (match l[i]? with
      | some x => ret (sub x (fin CL))
      | none => lift (.error .index) : Comp σ F) (.ok (sub (l.getD i nan) (fin CL))) := by
  rw [List.getD_eq_getElem?_getD, List.getElem?_eq_getElem hi]
  exact ends_ret _

section agree
variable {M : Methods σ} {e : Expected} {m : ℝ} {l : F} {L : ℝ → F} {mA : ℝ} {lA : F} {LA : ℝ → F}

/-- What `_prepare_for_hypotest` gives then. -/
noncomputable def prepared (M : Methods σ) (e : Expect) (m : ℝ) (l : F) (mA : ℝ) (lA : F) : Prepared σ :=
  ⟨(.one m, l), Hypotest.logpdf M e none, (.one mA, lA), logpdfAsimov M e "qtilde"⟩

theorem AllFits.prepare (h : AllFits I M e.toExpect m l L mA lA LA) :
    Ends I (prepare M e.toExpect "qtilde") (.ok (prepared M e.toExpect m l mA lA)) := by
  unfold Hypotest.prepare
  have : Interface.mayBeNegative "qtilde" = false := by simp [Interface.mayBeNegative]
  rw [this]
  exact h.best.bind (h.bestA.bind (ends_ret _))

theorem computer_ends (x : ℝ) (hL : Ends I (M.likelihood e.toExpect none x) (.ok (L x))) (hL0 : Ends I (M.likelihood e.toExpect none 0) (.ok (L 0)))
    (hLA : Ends I (M.asimovLikelihood e.toExpect "qtilde" x) (.ok (LA x))) (hLA0 : Ends I (M.asimovLikelihood e.toExpect "qtilde" 0) (.ok (LA 0)))
    (av : Calc → Bool) (CL : ℝ) (i : ℕ) (hi : UpperLimit.Valid e i) :
    Ends I (Hypotest.computer (prepared M e.toExpect m l mA lA) e CL i x)
      (.ok (UpperLimit.computer (fitted m l L mA lA LA av) e CL false i x)) := by
  have hD : Ends I (qmuTilde (.float x) (.one m) (neg l) (Hypotest.logpdf M e.toExpect none))
      (.ok ((fitted m l L mA lA LA av).data.stat Stats.qmuTilde (fin x))) :=
    qmuTilde_computes x (.float x) m (neg l) _ (negated L) rfl (hL.logpdf (mu := .float x) rfl)
      (hL0.logpdf (mu := .float 0) rfl)
  have hA : Ends I (qmuTilde (.float x) (.one mA) (neg lA) (logpdfAsimov M e.toExpect "qtilde"))
      (.ok ((fitted m l L mA lA LA av).asimov.stat Stats.qmuTilde (fin x))) :=
    qmuTilde_computes x (.float x) mA (neg lA) _ (negated LA) rfl (hLA.logpdfAsimov (mu := .float x) rfl)
      (hLA0.logpdfAsimov (mu := .float 0) rfl)
  have hq : (getTestStatistic "qtilde" : Except Err (Statistic σ)) = .ok qmuTilde := rfl
  have hc : Ends I (computeTeststatistics (.float x) (.one m, l) (Hypotest.logpdf M e.toExpect none) (.one mA, lA)
      (logpdfAsimov M e.toExpect "qtilde") "qtilde")
      ((Stats.shiftOf "qtilde" ((fitted m l L mA lA LA av).data.stat Stats.qmuTilde (fin x))
        ((fitted m l L mA lA LA av).asimov.stat Stats.qmuTilde (fin x))).mapError .stats) := by
    simp only [computeTeststatistics, hq, bind_lift_ok]
    exact hD.bind (hA.bind (ends_lift _))
  unfold Hypotest.computer UpperLimit.computer prepared
  dsimp only
  rw [if_neg (by simp), Stats.compute_eq Stats.get_qtilde]
  have hz : ∀ err, Stats.shiftOf "qtilde" ((fitted m l L mA lA LA av).data.stat Stats.qmuTilde (fin x))
    ((fitted m l L mA lA LA av).asimov.stat Stats.qmuTilde (fin x)) = .error err → err = .asimovTestStatZero := fun err he => shift_error he
  generalize Stats.shiftOf "qtilde" ((fitted m l L mA lA LA av).data.stat Stats.qmuTilde (fin x))
    ((fitted m l L mA lA LA av).asimov.stat Stats.qmuTilde (fin x)) = sh at hc hz ⊢
  cases hsh : sh with
  | error err =>
    obtain rfl : err = .asimovTestStatZero := hz err hsh
    rw [hsh] at hc
    refine (orZero_zero (Ends.bind_error hc)).bind (entry_ends ?_ CL)
    unfold UpperLimit.Valid at hi
    split
    · rename_i he
      simpa [he] using hi
    · rename_i he
      simpa [he] using hi
  | ok r =>
    rw [hsh] at hc
    obtain ⟨q, qA, d⟩ := r
    refine (orZero_ok (Ends.bind hc (ends_ret _))).bind (entry_ends ?_ CL)
    obtain ⟨h1, h2⟩ := level_lengths qA d
    unfold UpperLimit.Valid at hi
    dsimp only
    by_cases he : e = .observed
    · rw [if_pos he] at hi
      rw [if_pos he, List.length_map, h1]
      exact hi
    · rw [if_neg he] at hi
      rw [if_neg he, List.length_map, h2]
      exact hi

theorem AllFits.computer (h : AllFits I M e.toExpect m l L mA lA LA) (av : Calc → Bool) (CL : ℝ) (i : ℕ) (hi : UpperLimit.Valid e i) (x : ℝ) :
    Ends I (Hypotest.computer (prepared M e.toExpect m l mA lA) e CL i x)
      (.ok (UpperLimit.computer (fitted m l L mA lA LA av) e CL false i x)) :=
  computer_ends x (h.likelihood x) (h.likelihood 0) (h.likelihoodA x) (h.likelihoodA 0) av CL i hi

theorem starts_ends {sigma : ℝ → Comp σ F} {sg : ℝ} (low hig : Option ℝ)
    (hsig : low = none ∨ hig = none → 1e-8 < m → Ends I (sigma m) (.ok (fin sg))) (alive : Bool) (B : Stats.Backend) :
    Ends I (Hypotest.starts sigma (.one m) low hig) (.ok (UpperLimit.starts ⟨alive, B, m, fun _ => sg⟩ low hig)) := by
  have key : ∀ lo hi : Option ℝ, (1e-8 < m → Ends I (sigma m) (.ok (fin sg))) → Ends I (do
      let m ← lift (positivePart (.one m))
      let s ← (if |m| ≤ 1e-8 then ret (fin 1) else sigma m)
      match s with
      | fin s => ret (max (UpperLimit.orElse lo (m + 1.5 * s)) 1e-10, max (UpperLimit.orElse hi (m + 2.5 * s)) 1e-10)
      | _ => lift (.error (.limit .rootFinder)) : Comp σ (ℝ × ℝ))
      (.ok (max (UpperLimit.orElse lo ((if 0 < m then m else 0) + 1.5 * (if |if 0 < m then m else 0| ≤ 1e-8 then 1 else sg))) 1e-10,
        max (UpperLimit.orElse hi ((if 0 < m then m else 0) + 2.5 * (if |if 0 < m then m else 0| ≤ 1e-8 then 1 else sg))) 1e-10)) := by
    intro lo hi hs
    unfold positivePart
    rw [bind_lift_ok]
    by_cases hm : |if 0 < m then m else 0| ≤ 1e-8
    · rw [if_pos hm, if_pos hm, bind_ret]
      exact ends_ret _
    · have h0 : 0 < m := by
        by_contra h0
        rw [if_neg h0] at hm
        norm_num at hm
      rw [if_neg hm, if_neg hm]
      rw [if_pos h0, abs_of_pos h0, not_le] at hm
      rw [if_pos h0]
      exact (hs hm).bind (ends_ret _)
  unfold Hypotest.starts UpperLimit.starts
  rcases low with _ | lo <;> rcases hig with _ | hi
  · exact key _ _ (hsig (Or.inl rfl))
  · exact key _ _ (hsig (Or.inl rfl))
  · exact key _ _ (hsig (Or.inr rfl))
  · exact ends_ret _

/-- C113: if the fits succeed, `poi_upper_limit` does on the model what it does for their results (`Verif.UpperLimit`), for every root finder: so C18 to
C21 and C74 hold for it. -/
theorem C113_agrees (h : AllFits I M e.toExpect m l L mA lA LA) (sigma : Expect → ℝ → Comp σ F) (sg : ℝ) (low hig : Option ℝ)
    (hsig : low = none ∨ hig = none → 1e-8 < m → Ends I (sigma e.toExpect m) (.ok (fin sg))) (fuel : ℕ) (T : Finder) (alive : Bool) (CL : ℝ) (band : Band) :
    Ends I (poiUpperLimit fuel T M sigma alive e CL low hig band)
      (outcome (UpperLimit.poiUpperLimit fuel T.solver ⟨alive, fitted m l L mA lA LA M.available, m, fun _ => sg⟩ e CL low hig band)) := by
  unfold poiUpperLimit UpperLimit.poiUpperLimit
  by_cases hCL : 0 ≤ CL ∧ CL ≤ 1
  swap
  · rw [if_neg hCL, if_neg hCL]
    exact ends_lift _
  rw [if_pos hCL, if_pos hCL]
  dsimp only
  cases alive with
  | false => exact ends_lift _
  | true =>
    rw [if_pos rfl, if_pos rfl]
    refine h.prepare.bind ((starts_ends low hig hsig true (fitted m l L mA lA LA M.available)).bind ?_)
    unfold findLimit UpperLimit.findPoiUpperLimit
    by_cases hb : (if e = Expected.observed then Band.nominal else band) = .unknown
    · rw [if_pos hb, if_pos hb]
      exact ends_lift _
    rw [if_neg hb, if_neg hb]
    dsimp only
    have hv : ∀ i ∈ UpperLimit.indexRange e (if e = Expected.observed then Band.nominal else if e = Expected.observed then Band.nominal else band),
        UpperLimit.Valid e i := by
      intro i hi
      have : i ∈ Entries e band := by
        cases e <;> cases band <;> simp_all [UpperLimit.indexRange, Entries]
      exact UpperLimit.entries_valid this
    generalize UpperLimit.indexRange e _ = is at hv ⊢
    generalize UpperLimit.starts _ _ _ = st
    have h1 := limitsAt_ends fuel T st.1 st.2 is fun i hi x => h.computer M.available CL i (hv i hi) x
    cases hr : UpperLimit.limitsAt fuel T.solver (UpperLimit.computer (fitted m l L mA lA LA M.available) e CL false) st.1 st.2 is with
    | none =>
      rw [hr] at h1
      exact Ends.bind (a := none) h1 (ends_ret _)
    | some r =>
      rw [hr] at h1
      cases r with
      | error err => exact Ends.bind_error h1
      | ok xs => exact Ends.bind (a := some xs) h1 (ends_ret _)

end agree

/-- C113: which calculators are available makes no difference to upper limits, although they come from the asymptotic one: `poi_upper_limit` does not ask, unlike `exclusion_confidence_level`. -/
theorem C113_available (fuel : ℕ) (T : Finder) (S : Interface.Solver) (inv : List (List ℝ) → Except Interface.Err (List (List ℝ))) (B : Interface.Backend) (doGrad : Bool) (ntoys : Interface.Size)
    (available available' : Calc → Bool) (percentile : List F → F → F) (alive : Bool) (e : Expected) (CL : ℝ) (low hig : Option ℝ) (band : Band) :
    poiUpperLimit fuel T (modelMethods S B doGrad none ntoys available percentile) (modelSigma S inv B doGrad ntoys available percentile) alive e CL low hig band =
      poiUpperLimit fuel T (modelMethods S B doGrad none ntoys available' percentile) (modelSigma S inv B doGrad ntoys available' percentile) alive e CL low hig band := rfl

/-- Without the asymptotic calculator, tests with it are refused. -/
example (S : Interface.Solver) (B : Interface.Backend) (doGrad : Bool) (ntoys : Interface.Size) (percentile : List F → F → F) (mu : Mu) (e : Expect) (w : Interface.World) :
    (exclusion (modelMethods S B doGrad none ntoys (fun _ => false) percentile) mu e false .asymptotic w).1 = .error (.stats .calculatorNotAvailable) := rfl

end Verif.Hypotest
