import Verif.Hypotest.LimitGaussian

/-!
# Properties C113-C116: models, exceptions, `sigma_mu` and the optimiser arguments
-/

namespace Verif.Hypotest
open Verif.Py F Verif.Config Verif.Optimizer
open Verif.Interface (MuHat World Plain Size Data StartFree Solver perfect)
open Verif.Stats (Expect Calc Levels gaussianLog gaussianFit gaussianLevel)
open Verif.UpperLimit (Expected Band Limit Entries Sound Succeeds EndsWith Level Inputs)
open Classical

variable {σ : Type} {I : σ → Prop}

/-! ## Examples -/

theorem exp_small {x : ℝ} (h : x ≤ -30) : Real.exp x < 0.05 := by
  have h1 : Real.exp x ≤ Real.exp (-30) := Real.exp_le_exp.mpr h
  have h2 : (31 : ℝ) ≤ Real.exp 30 := by linarith [Real.add_one_le_exp (30 : ℝ)]
  have h3 : Real.exp (-30) * Real.exp 30 = 1 := by rw [← Real.exp_add]; simp
  nlinarith [Real.exp_pos (-30)]

/-- `2 ± 1` excludes 10 at 95%. -/
theorem ex_exact : ∃ z, 2 ≤ z ∧ z ≤ 10 ∧ gaussianLevel 1 2 z = 0.95 := by
  obtain ⟨z, h1, -, h2⟩ := exact_exists (σ := 1) (m := 2) (CL := 0.95) one_pos (by norm_num) (by norm_num)
  refine ⟨z, (le_max_left _ _).trans h1, ?_, h2⟩
  by_contra h
  have h3 := level_mono (m := 2) (one_pos : (0 : ℝ) < 1) (not_le.mp h)
  have h4 : 0.95 < gaussianLevel 1 2 10 := by
    unfold gaussianLevel
    have h5 := Phi_ratio_exp (a := 10) (by norm_num) 2
    have h6 := exp_small (x := 10 * 2 - 10 ^ 2 / 2) (by norm_num)
    have h7 := Phi_pos 2
    have h8 : Phi (2 - 10) / Phi 2 ≤ Real.exp (10 * 2 - 10 ^ 2 / 2) := by rwa [div_le_iff₀ h7]
    simp only [div_one]
    linarith
  linarith

theorem ex_all (e : Expect) : AllFits (fun _ => True) (exMethods 2) e (max 2 0) (fin (-(gaussianLog 0 1 2 (max 2 0)))) (fun v => fin (-(gaussianLog 0 1 2 v))) 0
    (fin (-(gaussianLog 0 1 0 0))) (fun v => fin (-(gaussianLog 0 1 0 v))) := by
  refine ⟨fun s _ => ⟨?_, trivial⟩, fun v s _ => ⟨?_, trivial⟩, fun s _ => ⟨?_, trivial⟩, fun v s _ => ⟨?_, trivial⟩⟩ <;>
    norm_num [exMethods, gaussianLog]

/-- The observed limit of `2 ± 1`, found by bisection, starting from 1 and 1. -/
theorem ex_limit : ∃ fuel mu s', poiUpperLimit fuel (bisection 0.001) (exMethods 2) (fun _ _ => ret (fin 1)) true .observed 0.95 (some 1) (some 1) .nominal 0 =
    (.ok (some (.one (fin mu))), s') := by
  obtain ⟨z, h1, h2, h3⟩ := ex_exact
  have hD := fitted_gaussian (c := 0) (σ := 1) (a := 2) rfl (exMethods 2).available
  obtain ⟨L, ⟨N, hN⟩, h4, h5⟩ := gaussian_limit (J := ⟨true, fitted (max 2 0) (fin (-(gaussianLog 0 1 2 (max 2 0)))) (fun v => fin (-(gaussianLog 0 1 2 v))) 0
    (fin (-(gaussianLog 0 1 0 0))) (fun v => fin (-(gaussianLog 0 1 0 v))) (exMethods 2).available, max 2 0, fun _ => 1⟩) (e := .observed) (CL := 0.95) rfl one_pos rfl
    hD.1 hD.2 (by norm_num) (by norm_num) (bisection_sound (tol := 0.001) (by norm_num)) (bisection_succeeds (by norm_num)) (band := .nominal) (by simp)
    (low := some 1) (hig := some 1) (fun _ => z) (fun i _ => by
      refine ⟨by simpa [ExactLimit, centre] using h3, by linarith, by linarith, fun _ => ?_⟩
      simp only [UpperLimit.starts]
      intro h; linarith) (by norm_num [UpperLimit.starts]) (by norm_num [UpperLimit.starts])
  have h := C113_agrees (ex_all .observed) (e := .observed) (fun _ _ => ret (fin 1)) 1 (some 1) (some 1) (by simp) N (bisection 0.001) true 0.95 .nominal 0 trivial
  have hN := hN N le_rfl
  dsimp only at hN
  rw [hN] at h
  obtain ⟨mu, rfl⟩ : ∃ mu, L = .one (fin mu) := by
    cases L with
    | one x =>
      simp only [Entries, Limit.values, List.forall₂_cons, List.forall₂_nil_left_iff, and_true] at h5
      obtain ⟨mu, rfl, -⟩ := h5
      exact ⟨mu, rfl⟩
    | many l => exact absurd rfl h4.1
  exact ⟨N, mu, _, Prod.ext h.1 rfl⟩

theorem ex_steady : SteadyMethods (fun _ => True) (exMethods 2) where
  likelihood := fun _ _ _ _ _ _ _ => ⟨rfl, trivial⟩
  maximize := fun _ _ _ _ _ _ _ => ⟨rfl, trivial⟩
  asimovLikelihood := fun _ _ _ _ _ _ _ => ⟨rfl, trivial⟩
  maximizeAsimov := fun _ _ _ _ _ _ => ⟨rfl, trivial⟩
  sampler := fun _ _ _ _ _ _ => ⟨rfl, trivial⟩

-- C113_level and C113_steady: the hypotheses for the limit above
example : ∃ fuel mu s', Sound (fun _ => 0.001) (bisection 0.001).solver ∧ SteadyMethods (fun _ => True) (exMethods 2) ∧
    (exMethods 2).available .asymptotic = true ∧ (∀ (_ : Expect) (_ : ℝ), Steady (σ := ℕ) (fun _ => True) (ret (fin 1))) ∧
    poiUpperLimit fuel (bisection 0.001) (exMethods 2) (fun _ _ => ret (fin 1)) true .observed 0.95 (some 1) (some 1) .nominal 0 =
      (.ok (some (.one (fin mu))), s') := by
  obtain ⟨fuel, mu, s', h⟩ := ex_limit
  exact ⟨fuel, mu, s', bisection_sound (by norm_num), ex_steady, rfl, fun _ _ => steady_ret _, h⟩

-- C113_agrees: the fits of `2 ± 1`
example : AllFits (fun _ => True) (exMethods 2) .observed 2 (fin 0) (fun v => fin ((v - 2) ^ 2 / 2)) 0 (fin 0) (fun v => fin (v ^ 2 / 2)) := by
  refine ⟨fun s _ => ⟨?_, trivial⟩, fun v s _ => ⟨?_, trivial⟩, fun s _ => ⟨?_, trivial⟩, fun v s _ => ⟨?_, trivial⟩⟩ <;> norm_num [exMethods]

-- C114_limit_partial: the limit of `2 ± 1` at 95%, with the default starting points
example : ∃ z : ℝ, (∀ i ∈ Entries .observed .nominal, ExactLimit .observed 1 2 0.95 i z ∧ 1e-10 ≤ z ∧ z ≤ 1e5 ∧ Reasonable z (some 1) (some 1)) ∧
    Sound (fun _ => 0.001) (bisection 0.001).solver ∧ Succeeds (bisection 0.001).solver := by
  obtain ⟨z, h1, h2, h3⟩ := ex_exact
  refine ⟨z, fun i _ => ⟨by simpa [ExactLimit, centre] using h3, by linarith, by linarith, by norm_num, le_rfl, fun _ h => by linarith⟩,
    bisection_sound (by norm_num), bisection_succeeds (by norm_num)⟩

-- C114_bound_fails: `20 ± 1`, where 29 is reported with a level of at most one half although it is excluded with more than 95%
example : (10 : ℝ) < 20 ∧ (29 : ℝ) ≤ 2 * 20 - 10 ∧ 0.95 < gaussianLevel 1 20 29 := by
  refine ⟨by norm_num, by norm_num, ?_⟩
  unfold gaussianLevel
  have h5 := Phi_ratio_exp (a := 9) (by norm_num) 0
  have h6 := exp_small (x := 9 * 0 - 9 ^ 2 / 2) (by norm_num)
  have h7 : Phi 0 ≤ Phi 20 := Phi_mono (by norm_num)
  have h8 := Phi_pos 20
  have h9 : Phi (0 - 9) / Phi 20 ≤ Real.exp (9 * 0 - 9 ^ 2 / 2) := by
    rw [div_le_iff₀ h8]
    nlinarith [Real.exp_pos (9 * 0 - 9 ^ 2 / 2)]
  have e : ((20 : ℝ) - 29) / 1 = 0 - 9 := by norm_num
  rw [e, div_one]
  linarith

-- C114_limit_fails: for `20 ± 1` the search returns a number
example : ∃ fuel mu w', poiUpperLimit fuel (bisection 0.001) (modelMethods perfect (gaussB 0 1 20 (-5)) true none (.int 100) (fun _ => true) fun _ _ => nan)
    (fun _ _ => ret (fin 1)) true .observed 0.95 (some 1) (some 2) .nominal ⟨[0], none, none⟩ = (.ok (some (.one (fin mu))), w') := by
  have hn : nearest 0 20 = 10 := by norm_num [nearest]
  have hf := gauss_fits (c := 0) (σ := 1) (a := 20) (lo := -5) one_pos (by norm_num) true (.int 100) (fun _ => true) (fun _ _ => nan) .observed
  rw [hn] at hf
  obtain ⟨B, hB⟩ : ∃ B, B = fitted 10 (fin (-(gaussianLog 0 1 20 10))) (fun v => fin (-(gaussianLog 0 1 20 v))) 0 (fin (-(gaussianLog 0 1 0 0)))
    (fun v => fin (-(gaussianLog 0 1 0 v))) (fun _ => true) := ⟨_, rfl⟩
  have hfin : ∀ mu : ℝ, Stats.FiniteInputs B (fin mu) .asymptotic := by
    intro mu
    rw [hB]
    exact ⟨⟨_, rfl⟩, ⟨_, rfl⟩, ⟨_, rfl⟩, ⟨_, rfl⟩, ⟨_, rfl⟩, ⟨_, rfl⟩⟩
  have hlow : ∀ r, Level B .observed false 0 1e-10 (fin r) → r ≤ 0.95 := by
    rintro r ⟨l, h1, h2⟩
    obtain ⟨l', h3, -, h4⟩ := Stats.C104_asymptotic B (fin 1e-10) false (by rw [hB]; rfl) (Or.inl (by rw [hB]; norm_num [fitted, lt]))
    rw [UpperLimit.Expected.toExpect, h3] at h1
    simp only [Except.ok.injEq, Levels.one.injEq] at h1
    rw [← h1] at h2
    simp at h2
    linarith
  have hhig : ∀ r, Level B .observed false 0 1e5 (fin r) → 0.95 ≤ r := by
    rintro r ⟨l, h1, h2⟩
    have hD : B.data.stat Stats.qmuTilde (fin 1e5) = fin ((1e5 - 20) ^ 2 - 100) := by
      rw [hB]
      norm_num [Stats.Fit.stat, Stats.qmuTilde, fitted, negated, lt, le, neg, sub, add, scale, clip0, gaussianLog]
    have hA : B.asimov.stat Stats.qmuTilde (fin 1e5) = fin (1e5 ^ 2) := by
      rw [hB]
      norm_num [Stats.Fit.stat, Stats.qmuTilde, fitted, negated, lt, le, neg, sub, add, scale, clip0, gaussianLog]
    have h3 := Stats.observed_level B (fin 1e5) false Stats.qmuTilde rfl (by rw [hB]; rfl) _ _ (by norm_num) (by norm_num) hD hA
    rw [UpperLimit.Expected.toExpect, h3] at h1
    simp only [Except.ok.injEq, Levels.one.injEq] at h1
    rw [← h1] at h2
    rw [if_neg (by norm_num), if_neg (by simp), Stats.eq66, if_pos (by norm_num), Real.sqrt_sq (by norm_num)] at h2
    simp only [List.getElem?_cons_zero, Option.some.injEq, fin.injEq] at h2
    rw [← h2]
    have h4 : 99000 ≤ Real.sqrt ((1e5 - 20) ^ 2 - 100) := Real.le_sqrt_of_sq_le (by norm_num)
    obtain ⟨x, hx⟩ : ∃ x, x = -(Real.sqrt ((1e5 - 20) ^ 2 - 100) - 1e5) := ⟨_, rfl⟩
    rw [← hx]
    have h5 := Phi_ratio_exp (a := 1e5) (by norm_num) x
    have h6 := exp_small (x := 1e5 * x - 1e5 ^ 2 / 2) (by rw [hx]; norm_num; linarith)
    have h7 := Phi_pos x
    have h8 : Phi (x - 1e5) / Phi x ≤ Real.exp (1e5 * x - 1e5 ^ 2 / 2) := by rwa [div_le_iff₀ h7]
    linarith
  obtain ⟨L, ⟨N, hN⟩, h5⟩ := UpperLimit.C19_limit_exists (bisection_succeeds (tol := 0.001) (by norm_num)) ⟨true, B, 10, fun _ => 1⟩ rfl (by rw [hB]; rfl) hfin .observed
    0.95 (by norm_num) (by norm_num) 1 2 (by norm_num) (by norm_num) (by norm_num) .nominal (by simp) (by simpa [Entries] using hlow) (by simpa [Entries] using hhig)
  have h := C113_agrees hf (fun _ _ => ret (fin 1)) 1 (some 1) (some 2) (by simp) N (bisection 0.001) true 0.95 .nominal ⟨[0], none, none⟩ ⟨rfl, rfl, rfl⟩
  have hN := hN N le_rfl
  dsimp only at hN
  rw [hB] at hN
  have h' : (poiUpperLimit N (bisection 0.001) (modelMethods perfect (gaussB 0 1 20 (-5)) true none (.int 100) (fun _ => true) fun _ _ => nan)
    (fun _ _ => ret (fin 1)) true .observed 0.95 (some 1) (some 2) .nominal ⟨[0], none, none⟩).1 = .ok (some L) := h.1.trans (congrArg outcome hN)
  have hsh := (C113_level _ (C110_model Interface.perfect_free _ (gauss_usual 0 1 20 (-5)).fixed true none (.int 100) (fun _ => true) (fun _ _ => nan) 1) rfl
    (fun _ _ => ret (fin 1)) (fun _ _ => steady_ret _) N _ _ (bisection_sound (tol := 0.001) (by norm_num)) .observed 0.95 (some 1) (some 2) .nominal _ _
    ⟨rfl, rfl, rfl⟩ L (Prod.ext h' rfl)).1
  cases L with
  | one x =>
    obtain ⟨mu, rfl⟩ := h5 x (by simp [Limit.values])
    exact ⟨N, mu, _, Prod.ext h' rfl⟩
  | many l => exact absurd rfl hsh.1

/-! ## C113 for models -/

theorem hessianOr_steady {hess : Option (Comp σ F)} {c : Comp σ F} (hh : ∀ h, hess = some h → Steady I h) (hc : Steady I c) : Steady I (hessianOr hess c) := by
  intro s s' hs hs'
  unfold hessianOr
  cases hess with
  | none => exact hc s s' hs hs'
  | some h =>
    dsimp only
    obtain ⟨h1, h2⟩ := hh h rfl s s' hs hs'
    have h3 := (hh h rfl s' s hs' hs).2
    cases hx : h s with
    | mk r s1 =>
    cases hx' : h s' with
    | mk r' s1' =>
    rw [hx, hx'] at h1
    rw [hx] at h2
    rw [hx'] at h3
    dsimp only at h1 h2 h3
    subst h1
    split
    · rename_i heq
      simp only [Prod.mk.injEq] at heq
      obtain ⟨rfl, rfl⟩ := heq
      exact hc _ _ h2 h3
    · rename_i hne
      split
      · rename_i heq
        simp only [Prod.mk.injEq] at heq
        exact absurd (by rw [heq.1]) (hne s1)
      · exact ⟨rfl, h2⟩

theorem sigma_steady {M : Methods σ} (h : SteadyMethods I M) {hess : Option (Mu → Expect → Comp σ F)} (hh : ∀ f mu e, hess = some f → Steady I (f mu e))
    (mu : Mu) (e : Expect) (ts : String) : Steady I (sigmaMu M hess mu e ts) := by
  unfold sigmaMu
  refine hessianOr_steady ?_ ?_
  · intro f hf
    cases hess with
    | none => simp at hf
    | some g =>
      simp only [Option.map_some, Option.some.injEq] at hf
      subst hf
      exact hh g mu e rfl
  · unfold sigmaAsimov
    refine steady_get fun t ht => (h.maximizeAsimov e ts).bind fun b => (ht _ _ _ _ fun x => (steady_lift _).bind fun v =>
      (h.asimovLikelihood e ts v).bind fun _ => steady_ret _).bind fun q => Steady.ite _ (steady_ret _) ((steady_lift _).bind fun _ => steady_ret _)

theorem modelSigma_steady {S : Solver} (hS : StartFree S) (inv : List (List ℝ) → Except Interface.Err (List (List ℝ))) (B : Interface.Backend)
    (hfix : ∀ n, (B.config n).fixed = none) (doGrad : Bool) (ntoys : Size) (available : Calc → Bool) (percentile : List F → F → F) (N : ℕ) (e : Expect) (m : ℝ) :
    Steady (Plain N) (modelSigma S inv B doGrad ntoys available percentile e m) := by
  refine sigma_steady (C110_model hS B hfix doGrad none ntoys available percentile N) ?_ _ _ _
  intro f mu e hf
  simp only [Option.some.injEq] at hf
  subst hf
  exact steady_ofInterface fun _ _ h h' => Interface.sigmaMuFromHessian_free hS inv B hfix _ _ _ _ h h'

/-- C113 for models, with a minimiser that does not depend on the start: the limit does not depend on what was asked before, and a finite limit is a signal
strength that the model itself reports as excluded at the confidence level, up to the tolerance of the root finder. -/
theorem C113_model {S : Solver} (hS : StartFree S) (inv : List (List ℝ) → Except Interface.Err (List (List ℝ))) (B : Interface.Backend)
    (hfix : ∀ n, (B.config n).fixed = none) (doGrad : Bool) (bounds : Option (List Bound)) (ntoys : Size) (available : Calc → Bool)
    (hav : available .asymptotic = true) (percentile : List F → F → F) (N : ℕ) (fuel : ℕ) (T : Finder) (tol : ℝ → ℝ) (hT : Sound tol T.solver) (e : Expected)
    (CL : ℝ) (low hig : Option ℝ) (band : Band) :
    Steady (Plain N) (poiUpperLimit fuel T (modelMethods S B doGrad bounds ntoys available percentile)
      (modelSigma S inv B doGrad ntoys available percentile) true e CL low hig band) ∧
    ∀ w w' L, Plain N w → poiUpperLimit fuel T (modelMethods S B doGrad bounds ntoys available percentile)
        (modelSigma S inv B doGrad ntoys available percentile) true e CL low hig band w = (.ok (some L), w') →
      ∀ i ∈ Entries e band, ∀ mu, (i, fin mu) ∈ (Entries e band).zip L.values →
        ∃ x y r r', |x - mu| ≤ tol mu ∧ |y - mu| ≤ tol mu ∧
          Reported (Plain N) (modelMethods S B doGrad bounds ntoys available percentile) e i x (fin r) ∧ r ≤ CL ∧
          Reported (Plain N) (modelMethods S B doGrad bounds ntoys available percentile) e i y (fin r') ∧ CL ≤ r' := by
  have hM := C110_model hS B hfix doGrad bounds ntoys available percentile N
  have hsig := modelSigma_steady hS inv B hfix doGrad ntoys available percentile N
  refine ⟨C113_steady _ hM _ hsig _ _ _ _ _ _ _ _, ?_⟩
  intro w w' L hw hr i hi mu hmu
  obtain ⟨h1, h2⟩ := C113_level _ hM hav _ hsig fuel T tol hT e CL low hig band w w' hw L hr
  rcases (List.forall₂_iff_zip.mp h2).2 hmu with ⟨m, hm, ⟨x, r, g1, ⟨-, g2⟩, g3⟩, y, r', g4, ⟨-, g5⟩, g6⟩ | ⟨hp, -⟩
  · simp only [fin.injEq] at hm
    subst hm
    exact ⟨x, y, r, r', g1, g4, g2, g3, g5, g6⟩
  · simp at hp

example : StartFree perfect ∧ ∀ n, ((gaussB 0 1 2 (-5)).config n).fixed = none := ⟨Interface.perfect_free, fun _ => rfl⟩

/-! ## C113: exceptions -/

/-- C113: an exception of a fit on the way to the limit ends the call with that exception: of the fit of the data, of the fit of the Asimov data, of the estimate of
the uncertainty for the starting points, or of the likelihood where the search starts. -/
theorem C113_failure (M : Methods σ) (sigma : Expect → ℝ → Comp σ F) (fuel : ℕ) (T : Finder) (e : Expected) (CL : ℝ) (h0 : 0 ≤ CL) (h1 : CL ≤ 1)
    (low hig : Option ℝ) (band : Band) (hband : band ≠ .unknown) (err : Err) :
    (Ends I (M.maximize e.toExpect false none) (.error err) → Ends I (poiUpperLimit fuel T M sigma true e CL low hig band) (.error err)) ∧
    ∀ b, Ends I (M.maximize e.toExpect false none) (.ok b) →
      (Ends I (M.maximizeAsimov e.toExpect "qtilde") (.error err) → Ends I (poiUpperLimit fuel T M sigma true e CL low hig band) (.error err)) ∧
      ∀ bA, Ends I (M.maximizeAsimov e.toExpect "qtilde") (.ok bA) → ∀ m, b.1 = .one m →
        (low = none ∨ hig = none → 1e-8 < m → Ends I (sigma e.toExpect m) (.error err) →
          Ends I (poiUpperLimit fuel T M sigma true e CL low hig band) (.error err)) ∧
        ∀ l h, low = some l → hig = some h → m ≤ l → err ≠ .stats .asimovTestStatZero → 0 < fuel → Ends I (M.likelihood e.toExpect none l) (.error err) →
          Ends I (poiUpperLimit fuel T M sigma true e CL low hig band) (.error err) := by
  have hneg : Interface.mayBeNegative "qtilde" = false := by simp [Interface.mayBeNegative]
  have hL : poiUpperLimit fuel T M sigma true e CL low hig band = prepare M e.toExpect "qtilde" >>= fun p => starts (sigma e.toExpect) p.best.1 low hig >>= fun s =>
      findLimit fuel T p e CL s.1 s.2 (if e = .observed then .nominal else band) := by
    unfold poiUpperLimit
    rw [if_pos ⟨h0, h1⟩, if_pos rfl]
  rw [hL, prepare_then, hneg]
  refine ⟨fun h => h.bind_error, fun b hb => ⟨fun h => hb.bind h.bind_error, fun bA hA m hm => ⟨fun hn hm' hs => ?_, fun l h hl hh hml hne hfu hlik => ?_⟩⟩⟩
  · refine hb.bind (hA.bind (Ends.bind_error ?_))
    dsimp only
    rw [hm]
    have hp : positivePart (.one m) = .ok m := by
      have : (0 : ℝ) < m := by linarith
      simp [positivePart, this]
    have habs : ¬ |m| ≤ 1e-8 := by rw [abs_of_pos (by linarith)]; linarith
    rcases low with _ | l <;> rcases hig with _ | h <;> simp only [starts, hp, bind_lift_ok, habs, if_false] <;> first | exact hs.bind_error | simp at hn
  · subst hl hh
    refine hb.bind (hA.bind ?_)
    obtain ⟨n, rfl⟩ : ∃ n, fuel = n + 1 := ⟨fuel - 1, by omega⟩
    obtain ⟨bm, bl⟩ := b
    dsimp only at hm
    subst hm
    dsimp only [starts]
    rw [bind_ret]
    have hstat : ∀ (lp : Mu → Comp σ F) (x : F), lp = Hypotest.logpdf M e.toExpect none → Ends I (qmuTilde (.float l) (.one m) x lp) (.error err) := by
      intro lp x hlp
      have hg : greater (.one m) (.float l) = .ok false := by simp [greater, hml]
      unfold qmuTilde
      simp only [hg, bind_lift_ok, Bool.false_eq_true, if_false]
      refine Ends.bind_error ?_
      rw [hlp]
      simp only [Hypotest.logpdf, toFloat, bind_lift_ok]
      exact hlik.bind_error
    have hcomp : ∀ i, Ends I (computer (σ := σ) ⟨(.one m, bl), Hypotest.logpdf M e.toExpect none, bA, Hypotest.logpdfAsimov M e.toExpect "qtilde"⟩ e CL i l) (.error err) := by
      intro i
      refine Ends.bind_error ?_
      have hp : Ends I (pvalue (σ := σ) ⟨(.one m, bl), Hypotest.logpdf M e.toExpect none, bA, Hypotest.logpdfAsimov M e.toExpect "qtilde"⟩ e l) (.error err) := by
        refine Ends.bind_error ?_
        have hq : (getTestStatistic "qtilde" : Except Err (Statistic σ)) = .ok qmuTilde := rfl
        simp only [computeTeststatistics, hq, bind_lift_ok]
        exact (hstat _ _ rfl).bind_error
      intro s hs
      obtain ⟨h1, h2⟩ := hp s hs
      unfold orZero
      split
      · rename_i heq
        rw [heq] at h1
        simp only [Except.error.injEq] at h1
        exact absurd h1.symm hne
      · exact ⟨h1, h2⟩
    have hb' : (if e = .observed then Band.nominal else band) ≠ .unknown := by
      split
      · simp
      · exact hband
    unfold findLimit
    rw [if_neg hb', UpperLimit.indexRange_eq e _ (by split <;> simp_all)]
    refine Ends.bind_error ?_
    obtain ⟨i, is, hi⟩ : ∃ i is, Entries e (if e = .observed then .nominal else band) = i :: is := by
      cases e <;> cases band <;> simp_all [Entries]
    rw [hi]
    unfold limitsAt
    refine Ends.bind_error (Ends.bind_error ?_)
    unfold lowLoop
    exact (hcomp i).bind_error

-- a model whose data cannot be fitted, and one whose likelihood fails at the first signal strength that is tried
example : Ends (fun _ => True) (poiUpperLimit 5 (bisection 0.001)
    ({ exMethods 2 with maximize := fun _ _ _ n => (.error (.call .notImplemented), n + 1) } : Methods ℕ) (fun _ _ => ret (fin 1)) true .observed 0.95 none none
    .nominal) (.error (.call .notImplemented)) :=
  (C113_failure _ _ 5 _ .observed 0.95 (by norm_num) (by norm_num) none none .nominal (by simp) _).1 fun _ _ => ⟨rfl, trivial⟩

example : Ends (fun _ => True) (poiUpperLimit 5 (bisection 0.001)
    ({ exMethods 2 with likelihood := fun _ _ _ n => (.error (.call .notImplemented), n + 1) } : Methods ℕ) (fun _ _ => ret (fin 1)) true .observed 0.95 (some 3)
    (some 4) .nominal) (.error (.call .notImplemented)) :=
  (((C113_failure _ _ 5 _ .observed 0.95 (by norm_num) (by norm_num) (some 3) (some 4) .nominal (by simp) _).2 (.one (max 2 0), fin _) fun _ _ =>
    ⟨rfl, trivial⟩).2 (.one 0, fin 0) (fun _ _ => ⟨rfl, trivial⟩) (max 2 0) rfl).2 3 4 rfl rfl (by norm_num) (by simp) (by norm_num) fun _ _ => ⟨rfl, trivial⟩

/-! ## C114: the starting points -/

/-- C114 is false if both starting points (1, unless told otherwise) are the limit: then the call raises, whatever the root finder. -/
theorem C114_start_fails (c σ a lo CL : ℝ) (hσ : 0 < σ) (hlo : lo ≤ 0) (ha : a ≤ 1) (hz : ExactLimit .observed σ a CL 0 1) (T : Finder) (tol : ℝ → ℝ)
    (hs : Sound tol T.solver) (doGrad : Bool) (ntoys : Size) (available : Calc → Bool) (hav : available .asymptotic = true)
    (percentile : List F → F → F) (sigma : Expect → ℝ → Comp World F) :
    ∃ err N, ∀ n ≥ N,
      Ends (Plain 1) (poiUpperLimit n T (modelMethods perfect (gaussB c σ a lo) doGrad none ntoys available percentile) sigma true .observed CL (some 1) (some 1)
        .nominal) (.error err) := by
  have hn : nearest 0 a = max a 0 := by unfold nearest; exact min_eq_left (max_le (by linarith) (by norm_num))
  have hf := gauss_fits (c := c) (a := a) hσ hlo doGrad ntoys available percentile .observed
  rw [hn] at hf
  have hag := fun CL n => C113_agrees hf sigma 1 (some 1) (some 1) (by simp) n T true CL .nominal
  have hD := fitted_gaussian (c := c) (σ := σ) (a := a) rfl available
  have hlev := gaussian_level (e := .observed) (i := 0) (mu := 1) hσ hav hD.1 hD.2 (by simp [UpperLimit.Valid]) one_pos fun _ => ha
  rw [hz] at hlev
  have hCL : 0 ≤ CL ∧ CL ≤ 1 := by
    have h1 : gaussianLevel σ a 1 = CL := by simpa [ExactLimit, centre] using hz
    have h2 := level_mono (m := a) hσ one_pos
    have h3 : gaussianLevel σ a 0 = 0 := by
      unfold gaussianLevel
      rw [sub_zero, div_self (Phi_pos _).ne', sub_self]
    have h4 : gaussianLevel σ a 1 ≤ 1 := by
      unfold gaussianLevel
      linarith [div_nonneg (Phi_nonneg ((a - 1) / σ)) (Phi_nonneg (a / σ))]
    constructor <;> linarith
  obtain ⟨err, N, hN⟩ := UpperLimit.C19_start_on_the_limit_fails hs ⟨true, fitted (max a 0) (fin (-(gaussianLog c σ a (max a 0)))) (fun v => fin (-(gaussianLog c σ a v))) 0
    (fin (-(gaussianLog c σ 0 0))) (fun v => fin (-(gaussianLog c σ 0 v))) available, max a 0, fun _ => 1⟩ rfl hav (gaussian_finite hD.1 hD.2 1) CL
    hCL.1 hCL.2 hlev
  refine ⟨.limit err, N, fun n hn => ?_⟩
  have h := hag CL n
  have hN := hN n hn
  dsimp only at hN
  change Ends (Plain 1) _ (outcome (UpperLimit.poiUpperLimit n T.solver ⟨true, fitted _ _ _ _ _ _ available, _, _⟩ _ _ _ _ _)) at h
  rw [hN] at h
  exact h

example : ∃ CL, ExactLimit .observed 1 0 CL 0 1 := ⟨_, rfl⟩

/-! ## C115 -/

theorem hessian_missing {M : Methods σ} {hess : Option (Mu → Expect → Comp σ F)} {mu : Mu} {e : Expect} {ts : String} {r : Except Err F}
    (hh : ∀ f, hess = some f → Ends I (f mu e) (.error (.call .method))) (h : Ends I (sigmaAsimov M mu e ts) r) : Ends I (sigmaMu M hess mu e ts) r := by
  cases hess with
  | none => exact h
  | some f =>
    intro s hs
    obtain ⟨h1, h2⟩ := hh f rfl s hs
    unfold sigmaMu hessianOr
    simp only [Option.map_some]
    cases hx : f mu e s with
    | mk r s1 =>
    rw [hx] at h1 h2
    dsimp only at h1 h2
    subst h1
    exact h s1 h2

/-- C115: `sigma_mu` of a model without a Hessian accepts a float or an array with one entry, for all test statistics, and is `v / √q`, or 1 if `q` is not positive.
Missing: `int`, which the tests accept, see `C115_int_fails`. -/
theorem C115_types_partial (hI : ∃ s, I s) (M : Methods σ) (hess : Option (Mu → Expect → Comp σ F)) (mu : Mu) (v : ℝ) (h : mu.Is v) (hint : ∀ n, mu ≠ .int n)
    (e : Expect) (hh : ∀ f, hess = some f → Ends I (f mu e) (.error (.call .method))) (ts : String) (hts : ts = "q" ∨ ts = "qtilde" ∨ ts = "q0") (mA : ℝ)
    (lA lv l0 : F) (hA : FitsAsimov I M e ts v mA lA lv l0) :
    ∃ t, Stats.getTestStatistic ts = .ok t ∧ Ends I (sigmaMu M hess mu e ts)
      (.ok (if le ((fitOf v mA lA lv l0).stat t (fin v)) (fin 0) then fin 1 else div (fin v) (sqrt ((fitOf v mA lA lv l0).stat t (fin v))))) := by
  obtain ⟨t, t', h1, h2, h3⟩ := get_computes (σ := σ) (I := I) ts hts v
  refine ⟨t', h2, hessian_missing hh ?_⟩
  have hn : numberOf mu = .ok v := by
    cases mu <;> simp_all [Mu.Is, numberOf]
  have hl : ∀ x u lu, (∀ n, x ≠ .int n) → x.Is u → Ends I (M.asimovLikelihood e ts u) (.ok lu) → Ends I (do
      let v ← lift (toFloatOnly x)
      let l ← M.asimovLikelihood e ts v
      ret (neg l)) (.ok (neg lu)) := by
    intro x u lu hx hu hl
    have : toFloatOnly x = .ok u := by
      cases x <;> simp_all [Mu.Is, toFloatOnly]
    simp only [this, bind_lift_ok]
    exact hl.bind (ends_ret _)
  unfold sigmaAsimov
  simp only [h1, bind_lift_ok]
  refine hA.best.bind (Ends.bind (a := (fitOf v mA lA lv l0).stat t' (fin v)) ?_ ?_)
  · apply h3 mu mA (neg lA) _ (fitOf v mA lA lv l0).logpdf h
    · rw [fitOf_v]
      exact hl mu v lv hint h hA.tested
    · rw [fitOf_0 _ _ _ _ _ (fun hv => ?_)]
      · exact hl (.float 0) 0 l0 (by simp) rfl hA.null
      · have h1 := hA.tested
        rw [hv] at h1
        simpa using ends_unique hI h1 hA.null
  · split
    · exact ends_ret _
    · simp only [hn, bind_lift_ok]
      exact ends_ret _

example : (Mu.array 5).Is 5 ∧ (∀ n, Mu.array 5 ≠ .int n) ∧
    FitsAsimov (fun _ => True) (exMethods 2) .observed "qtilde" 5 0 (fin 0) (fin (25 / 2)) (fin 0) := ⟨rfl, by simp, ex_fits.2⟩

/-- C115 is false for `int`: the hypothesis tests accept it, `sigma_mu` raises `TypeError` as soon as it needs the likelihood. -/
theorem C115_int_fails (M : Methods σ) (hess : Option (Mu → Expect → Comp σ F)) (n : ℤ) (e : Expect)
    (hh : ∀ f, hess = some f → Ends I (f (.int n) e) (.error (.call .method))) (ts : String) (hts : ts = "q" ∨ ts = "qtilde") (mA : ℝ)
    (lA : F) (hA : Ends I (M.maximizeAsimov e ts) (.ok (.one mA, lA))) (hm : mA ≤ n) : Ends I (sigmaMu M hess (.int n) e ts) (.error .type) := by
  refine hessian_missing hh ?_
  have hg : greater (.one mA) (.int n) = .ok false := by simp [greater, hm]
  unfold sigmaAsimov
  rcases hts with rfl | rfl
  · have hq : (getTestStatistic "q" : Except Err (Statistic σ)) = .ok qmu := rfl
    simp only [hq, bind_lift_ok]
    refine hA.bind (Ends.bind_error ?_)
    simp only [qmu, hg, bind_lift_ok, Bool.false_eq_true, if_false]
    exact ends_lift _
  · have hq : (getTestStatistic "qtilde" : Except Err (Statistic σ)) = .ok qmuTilde := rfl
    simp only [hq, bind_lift_ok]
    refine hA.bind (Ends.bind_error ?_)
    simp only [qmuTilde, hg, bind_lift_ok, Bool.false_eq_true, if_false]
    exact ends_lift _

example : Ends (fun _ => True) (sigmaMu (exMethods 2) none (.int 5) .observed "qtilde") (.error .type) :=
  C115_int_fails _ none 5 _ (by simp) _ (by simp) 0 (fin 0) (fun _ _ => ⟨rfl, trivial⟩) (by norm_num)

/-- C115: the estimate with the Hessian, where there is one, is passed on as it is, and so is an exception other than that there is none. -/
theorem C115_hessian (M : Methods σ) (f : Mu → Expect → Comp σ F) (mu : Mu) (e : Expect) (ts : String) (r : Except Err F) (h : Ends I (f mu e) r)
    (hr : r ≠ .error (.call .method)) : Ends I (sigmaMu M (some f) mu e ts) r := by
  intro s hs
  obtain ⟨h1, h2⟩ := h s hs
  unfold sigmaMu hessianOr
  simp only [Option.map_some]
  split
  · rename_i heq
    rw [heq] at h1
    exact absurd h1.symm hr
  · exact ⟨h1, h2⟩

example : Ends (fun _ => True) (sigmaMu (exMethods 2) (some fun _ _ => ret (fin 3)) (.int 5) .observed "qtilde") (.ok (fin 3)) :=
  C115_hessian _ _ _ _ _ _ (ends_ret _) (by simp)

/-- C115: for a model `sigma_mu` with given optimiser arguments is the estimate with the Hessian made with the same arguments (see `C83_sigma`), whatever the calls before. -/
theorem C115_arguments {S : Solver} (hS : StartFree S) (inv : List (List ℝ) → Except Interface.Err (List (List ℝ))) (B : Interface.Backend)
    (hfix : ∀ n, (B.config n).fixed = none) (doGrad : Bool) (bounds : Option (List Bound)) (ntoys : Size) (available : Calc → Bool) (percentile : List F → F → F) (N : ℕ)
    (e : Expect) (ts : String) (v : ℝ) (w : World) (hw : Plain N w) (s : F)
    (h : (Interface.sigmaMuFromHessian S inv B (.float v) (expectation e) doGrad bounds w).1 = .ok s) :
    Ends (Plain N) (sigmaMu (modelMethods S B doGrad bounds ntoys available percentile) (some (modelHessian S inv B doGrad bounds)) (.float v) e ts) (.ok s) := by
  refine C115_hessian _ _ _ _ _ _ ?_ (by simp)
  intro w' hw'
  have hf := Interface.sigmaMuFromHessian_free hS inv B hfix (.float v) (expectation e) doGrad bounds hw' hw
  refine ⟨?_, hf.2⟩
  unfold modelHessian ofInterface toPoi
  dsimp only
  rw [hf.1, h]
  rfl

/-- A minimiser that always finds 1. -/
noncomputable def findsOne : Solver := fun _ _ _ _ _ _ _ => .ok (fin 0, [1])

example : StartFree findsOne ∧ (Interface.sigmaMuFromHessian findsOne (fun M => .ok (if M = [[4]] then [[1 / 4]] else []))
    { Interface.exB1 with hessian := fun _ => .ok fun _ => [[-4]] } (.float 1) .observed false (some [(some (fin 0), some (fin 5))]) ⟨[2], none, none⟩).1 = .ok (fin (1 / 2)) := by
  have h4 : √(1 / 4 : ℝ) = 1 / 2 := by
    rw [show (1 / 4 : ℝ) = (1 / 2) ^ 2 by norm_num]
    exact Real.sqrt_sq (by norm_num)
  refine ⟨by intro _; intros; rfl, ?_⟩
  simp [Interface.sigmaMuFromHessian, Interface.exB1, Interface.exB, Interface.prepareForFit, Interface.getObjective, Interface.config, Interface.resolvePoi, Interface.runFit,
    fit, fitBounds, slot, Except.map, FixedPoi.pairs, setFixed, setSuggested, findsOne, Except.mapError, Interface.entry, F.sqrt]
  norm_num at h4 ⊢
  rw [h4]

/-! ## C116 -/

/-- C116: with both starting points given (the default), or a best fit at zero, all fits that the limit depends on get the optimiser arguments: `sigma_mu`, which does
not get them, is not called. Missing: starting points left to the function, see `C116_arguments_fails`. -/
theorem C116_given_partial (M : Methods σ) (sigma sigma' : Expect → ℝ → Comp σ F) (fuel : ℕ) (T : Finder) (alive : Bool) (e : Expected) (CL : ℝ)
    (low hig : Option ℝ) (band : Band) (s : σ)
    (h : (low ≠ none ∧ hig ≠ none) ∨ ∀ b s', M.maximize e.toExpect false none s = (.ok b, s') → ∃ m, b.1 = .one m ∧ m ≤ 1e-8) :
    poiUpperLimit fuel T M sigma alive e CL low hig band s = poiUpperLimit fuel T M sigma' alive e CL low hig band s := by
  unfold poiUpperLimit
  split
  swap
  · rfl
  split
  swap
  · rfl
  rcases h with ⟨h1, h2⟩ | h
  · obtain ⟨l, rfl⟩ := Option.ne_none_iff_exists'.mp h1
    obtain ⟨u, rfl⟩ := Option.ne_none_iff_exists'.mp h2
    rfl
  have hneg : Interface.mayBeNegative "qtilde" = false := by simp [Interface.mayBeNegative]
  simp only [prepare_then, hneg]
  rw [bind_def, bind_def]
  unfold andThen
  cases hx : M.maximize e.toExpect false none s with
  | mk r s1 =>
  cases r with
  | error err => rfl
  | ok b =>
    obtain ⟨m, hm, hm'⟩ := h b s1 hx
    dsimp only
    have hp : ∃ m', positivePart b.1 = .ok m' ∧ |m'| ≤ 1e-8 := by
      rw [hm]
      unfold positivePart
      refine ⟨_, rfl, ?_⟩
      split
      · rw [abs_of_pos (by assumption)]; exact hm'
      · norm_num
    obtain ⟨m', h1, h2⟩ := hp
    have hst : ∀ sg sg' : ℝ → Comp σ F, starts sg b.1 low hig = starts sg' b.1 low hig := by
      intro sg sg'
      rcases low with _ | l <;> rcases hig with _ | u <;> simp only [starts, h1, bind_lift_ok, h2, if_true]
    rw [hst (sigma e.toExpect) (sigma' e.toExpect)]

example : ((some (1 : ℝ)) ≠ none ∧ (some (1 : ℝ)) ≠ none) ∧
    ∀ b s', (exMethods (-3)).maximize .observed false none 0 = (.ok b, s') → ∃ m, b.1 = .one m ∧ m ≤ 1e-8 := by
  refine ⟨by simp, fun b s' h => ?_⟩
  simp only [exMethods, Prod.mk.injEq, Except.ok.injEq] at h
  exact ⟨0, by rw [← h.1]; simp, by norm_num⟩

/-- C116 is false otherwise: `sigma_mu` is called without the optimiser arguments, so that a call whose fits all succeed with them raises what the fits without them
raise. `M` are the fits with the arguments, `M0` those without. -/
theorem C116_arguments_fails (M M0 : Methods σ) (e : Expected) (m : ℝ) (l : F) (L : ℝ → F) (mA : ℝ) (lA : F) (LA : ℝ → F)
    (h : AllFits I M e.toExpect m l L mA lA LA) (hm : 1e-8 < m) (low hig : Option ℝ) (hn : low = none ∨ hig = none) (err : Err)
    (h0 : Ends I (M0.maximizeAsimov e.toExpect "qtilde") (.error err)) (fuel : ℕ) (T : Finder) (CL : ℝ) (hC : 0 ≤ CL) (hC' : CL ≤ 1) (band : Band)
    (hb : band ≠ .unknown) :
    Ends I (poiUpperLimit fuel T M (fun e m => sigmaMu M0 none (.float m) e "qtilde") true e CL low hig band) (.error err) := by
  refine ((C113_failure M _ fuel T e CL hC hC' low hig band hb err).2 _ h.best).2 _ h.bestA m rfl |>.1 hn hm ?_
  have hq : (getTestStatistic "qtilde" : Except Err (Statistic σ)) = .ok qmuTilde := rfl
  change Ends I (sigmaAsimov M0 (.float m) e.toExpect "qtilde") _
  simp only [sigmaAsimov, hq, bind_lift_ok]
  exact h0.bind_error

-- the default bounds do not do, those of the caller do
example : Ends (fun _ => True) (poiUpperLimit 5 (bisection 0.001) (exMethods 2) (fun e m => sigmaMu
    ({ exMethods 2 with maximizeAsimov := fun _ _ n => (.error (.call .notImplemented), n + 1) } : Methods ℕ) none (.float m) e "qtilde") true .observed 0.95 none none .nominal)
    (.error (.call .notImplemented)) :=
  C116_arguments_fails (exMethods 2) _ .observed _ _ _ _ _ _ (ex_all _) (by norm_num) none none (by simp) _ (fun _ _ => ⟨rfl, trivial⟩) 5 _ _ (by norm_num)
    (by norm_num) _ (by simp)

end Verif.Hypotest
