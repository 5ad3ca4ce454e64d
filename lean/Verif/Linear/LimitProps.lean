import Verif.Linear.Props
import Verif.Uncorrelated.LimitProps
import Verif.Uncorrelated.UniqueProps

/-!
# C158: upper limits of models with correlated backgrounds
-/

namespace Verif.Linear
open Verif.Py F Verif.Config Verif.Optimizer Verif.Hypotest Verif.Chain
open Verif.Interface (Data World Size Plain Solver StartFree perfect)
open Verif.Backend (Ext Vec Args Built Fits WithMatrix at' stdLog)
open Verif.Stats (Expect Calc Levels levelsOf NotAbove)
open Verif.UpperLimit (Expected Band Limit Entries Sound Reaches)
open Verif.Uncorrelated (Concave IsBest IsStat stat_nonneg stat_strength entries_lt forall_mem forall_both Agree entry entry_zero)

theorem plain_some (N : ℕ) : ∃ w : World, Plain N w := ⟨⟨List.replicate N 0, none, none⟩, rfl, rfl, by simp⟩

theorem simple_fixed {E : Ext} {a : Args} {m : Backend.Model} {y : Vec} {bin : ℕ → ℝ → ℝ} {pen : (ℕ → ℝ) → ℝ} {lo : ℝ} (h : Simple E a m y bin pen lo) (draw : Vec × List Vec → ℕ → List Vec) (n : Bool) :
    ((plugged E draw m).config n).fixed = none := by
  show (Backend.configOf m n 10).fixed = none
  unfold Backend.configOf
  split
  · exact built_fixed (.simplified bin (h.model.simplified h.fits)) h.fits
  · rfl

/-- The entries of two lists of limits that separate the same levels agree. -/
theorem separates_all {e : Expected} {R R' : ℕ → ℝ → F → Prop} {P PA : ℝ → ℝ} (h : Follows e R P PA) (h' : Follows e R' P PA) {CL : ℝ} (h0 : 0 < CL) {tol tol' : ℝ → ℝ} {is : List ℕ} {l l' : List F}
    (hi : ∀ i ∈ is, i < (if e = .observed then 1 else 5)) (k : List.Forall₂ (fun i x => ∀ mu, x = fin mu → Separates (R i) CL (tol mu) mu) is l)
    (k' : List.Forall₂ (fun i x => ∀ mu, x = fin mu → Separates (R' i) CL (tol' mu) mu) is l') : Agree tol tol' l l' := by
  unfold Agree
  induction k generalizing l' with
  | nil => cases k'; exact .nil
  | cons h1 _ ih =>
    cases k' with
    | cons k1 k2 =>
      exact .cons (fun mu mu' hx hx' => separates_agree h h' (hi _ (by simp)) h0 (h1 mu hx) (k1 mu' hx')) (ih (fun i hm => hi i (by simp [hm])) k2)

section
variable {E : Ext} {a : Args} {m : Backend.Model} {y : Vec} {σ : ℕ → ℝ} {pen : (ℕ → ℝ) → ℝ} {lo : ℝ} {e : Expected}
  {S : Solver} (hF : StartFree S) (hS : Exact S) (hT : Finds S) (hC : Interface.Constrained S) (draw : Vec × List Vec → ℕ → List Vec)
  (g : Bool) (ntoys : Size) (available : Calc → Bool) (hav : available .asymptotic = true) (percentile : List F → F → F)

include hS hT hC hav in
theorem regular_follows {P PA : ℝ → ℝ} (hm : Simple E a m y (linear (at' a.background) σ) pen lo)
    (h : Curves (Admissible a.data.length (linear (at' a.background) σ)) (likelihoodOf E a y σ pen e.toExpect) (asimovOf E a y σ pen) P PA) :
    Follows e (Reported (Plain (a.data.length + 1)) (modelMethods S (plugged E draw m) g none ntoys available percentile) e) P PA :=
  follows_of (plain_some _) h.concave h.concaveA fun v hv => regular_levels hS hT hC draw g ntoys available hav percentile hm h (mu := .float v) rfl hv

variable (inv : List (List ℝ) → Except Interface.Err (List (List ℝ))) (h : Regular E a m y σ pen lo e.toExpect) (CL : ℝ)
include hF hS hT hC hav h

/-- C158. An upper limit that `poi_upper_limit` returns separates the signal strengths, with correlated uncertainties of the background, too: `exclusion_confidence_level` of the same model reports at
least the confidence level for all larger ones and at most the confidence level for all smaller ones (up to the tolerance of the root finder). An infinite limit means that no strength up to
`1e5` is excluded, or that the level is above the confidence level at some value not above `1e-10`. Unless both starting points were given, and the lower one is below `1e-10`. -/
theorem C158_limit (fuel : ℕ) (T : Finder) (tol : ℝ → ℝ) (hsound : Sound tol T.solver)
    (low hig : Option ℝ) (hlow : low = none ∨ hig = none ∨ ∃ z, low = some z ∧ 1e-10 ≤ z) (band : Band) (w w' : World) (hw : Plain (a.data.length + 1) w) (L : Limit)
    (hr : poiUpperLimit fuel T (modelMethods S (plugged E draw m) g none ntoys available percentile) (modelSigma S inv (plugged E draw m) g ntoys available percentile) true e CL low hig band w =
      (.ok (some L), w')) :
    L.Shaped (Entries e band).length ∧ List.Forall₂ (fun i x =>
      (∃ mu, x = fin mu ∧ Separates (Reported (Plain (a.data.length + 1)) (modelMethods S (plugged E draw m) g none ntoys available percentile) e i) CL (tol mu) mu) ∨
      (x = pinf ∧ ((∀ v, 0 ≤ v → v ≤ 1e5 → ∃ r, Reported (Plain (a.data.length + 1)) (modelMethods S (plugged E draw m) g none ntoys available percentile) e i v (fin r) ∧ r < CL) ∨
        ∃ u r, u ≤ 1e-10 ∧ Reported (Plain (a.data.length + 1)) (modelMethods S (plugged E draw m) g none ntoys available percentile) e i u (fin r) ∧ CL < r))) (Entries e band) L.values := by
  have hM := C110_model hF (plugged E draw m) (simple_fixed h.model draw) g none ntoys available percentile (a.data.length + 1)
  have hsig := modelSigma_steady hF inv (plugged E draw m) (simple_fixed h.model draw) g ntoys available percentile (a.data.length + 1)
  obtain ⟨h1, h2⟩ := C113_level _ hM hav _ hsig fuel T tol hsound e CL low hig band w w' hw L hr
  obtain ⟨P, PA, hc⟩ := regular_curves h
  have hf := regular_follows hS hT hC draw g ntoys available hav percentile h.model hc
  refine ⟨h1, forall_mem h2 fun i hi x hx => ?_⟩
  rcases hx with ⟨mu, rfl, hx⟩ | ⟨rfl, hx⟩
  · refine .inl ⟨mu, rfl, separates_of hf (entries_lt hi) ?_⟩
    obtain ⟨⟨x, r, x1, ⟨x2, x3⟩, x4⟩, y, r', y1, ⟨y2, y3⟩, y4⟩ := hx
    exact ⟨⟨x, r, x1, ⟨x2 hlow, x3⟩, x4⟩, y, r', y1, ⟨y2 hlow, y3⟩, y4⟩
  · refine .inr ⟨rfl, hx.imp (fun ⟨b, r, b1, b2, b3⟩ v hv0 hle => ?_) fun h => h⟩
    obtain ⟨s, hs⟩ := follows_some hf (entries_lt hi) hv0
    exact ⟨s, hs, lt_of_le_of_lt (follows_mono hf hf (entries_lt hi) hv0 (hle.trans b1) hs b2) b3⟩

/-- C158. It returns one, and a finite one, if for each of the requested entries the level of some strength from `1e-10` is at most, and that of some strength up to `1e5` at least, the confidence
level, for given starting points between these values, which are different or not on the limit, and a root finder that stays in its interval. -/
theorem C158_exists (T : Finder) (tol : ℝ → ℝ) (hsound : Sound tol T.solver) (hok : UpperLimit.Succeeds T.solver) (hstay : T.Stays)
    (h0 : 0 ≤ CL) (h1 : CL ≤ 1) (low hig : ℝ) (h2 : 1e-10 ≤ low) (h3 : low ≤ hig) (h4 : hig ≤ 1e5) (band : Band) (hb : band ≠ .unknown)
    (hne : low < hig ∨ ∀ i ∈ Entries e band, ∀ r, Reported (Plain (a.data.length + 1)) (modelMethods S (plugged E draw m) g none ntoys available percentile) e i low (fin r) → r ≠ CL)
    (hcross : ∀ i ∈ Entries e band, ∃ u u' r r', 1e-10 ≤ u ∧ 0 ≤ u' ∧ u' ≤ 1e5 ∧ r ≤ CL ∧ CL ≤ r' ∧
      Reported (Plain (a.data.length + 1)) (modelMethods S (plugged E draw m) g none ntoys available percentile) e i u (fin r) ∧
      Reported (Plain (a.data.length + 1)) (modelMethods S (plugged E draw m) g none ntoys available percentile) e i u' (fin r')) :
    ∃ L : Limit, (∃ n0, ∀ n ≥ n0, Ends (Plain (a.data.length + 1)) (poiUpperLimit n T (modelMethods S (plugged E draw m) g none ntoys available percentile)
        (modelSigma S inv (plugged E draw m) g ntoys available percentile) true e CL (some low) (some hig) band) (.ok (some L))) ∧
      L.Shaped (Entries e band).length ∧ List.Forall₂ (fun i x => ∃ mu, x = fin mu ∧
        Separates (Reported (Plain (a.data.length + 1)) (modelMethods S (plugged E draw m) g none ntoys available percentile) e i) CL (tol mu) mu) (Entries e band) L.values := by
  obtain ⟨mu, l, Lf, mA, lA, LA, hfits⟩ := (h.model.binned draw).fits_from hS hT hC e.toExpect g ntoys available percentile
  obtain ⟨P, PA, hc⟩ := regular_curves h
  have hf := regular_follows hS hT hC draw g ntoys available hav percentile h.model hc
  obtain ⟨lim, k1, k0, n0, hn⟩ := limit_exists_start (M := modelMethods S (plugged E draw m) g none ntoys available percentile) hav (plain_some _) hfits
    (modelSigma S inv (plugged E draw m) g ntoys available percentile) hsound hok hstay h0 h1 h2 h3 h4 band hb hne
    (fun i hi r hr => by
      obtain ⟨u, u', s, s', k1, -, -, k4, -, k6, -⟩ := hcross i hi
      exact (follows_mono hf hf (entries_lt hi) (by norm_num) k1 hr k6).trans k4)
    (fun i hi r hr => by
      obtain ⟨u, u', s, s', -, k2, k3, -, k5, -, k7⟩ := hcross i hi
      exact k5.trans (follows_mono hf hf (entries_lt hi) k2 k3 k7 hr))
  exact ⟨lim, ⟨n0, hn⟩, k1, forall_mem k0 fun i hi x hx => by
    obtain ⟨mu, rfl, hx⟩ := hx
    exact ⟨mu, rfl, separates_of hf (entries_lt hi) hx⟩⟩

variable (fuel : ℕ) (T : Finder) (tol : ℝ → ℝ) (hsound : Sound tol T.solver) (low hig : Option ℝ) (hlow : low = none ∨ hig = none ∨ ∃ z, low = some z ∧ 1e-10 ≤ z) (band : Band)
  (w w₁ : World) (hw : Plain (a.data.length + 1) w) (L : Limit)
  (hr : poiUpperLimit fuel T (modelMethods S (plugged E draw m) g none ntoys available percentile) (modelSigma S inv (plugged E draw m) g ntoys available percentile) true e CL low hig band w =
      (.ok (some L), w₁))
  {S' : Solver} (hF' : StartFree S') (hS' : Exact S') (hT' : Finds S') (hC' : Interface.Constrained S') (draw' : Vec × List Vec → ℕ → List Vec)
  (g' : Bool) (ntoys' : Size) (available' : Calc → Bool) (hav' : available' .asymptotic = true) (percentile' : List F → F → F) (inv' : List (List ℝ) → Except Interface.Err (List (List ℝ)))
  (fuel' : ℕ) (T' : Finder) (tol' : ℝ → ℝ) (hsound' : Sound tol' T'.solver) (low' hig' : Option ℝ) (hlow' : low' = none ∨ hig' = none ∨ ∃ z, low' = some z ∧ 1e-10 ≤ z)
  (w' w₁' : World) (hw' : Plain (a.data.length + 1) w') (L' : Limit)
  (hr' : poiUpperLimit fuel' T' (modelMethods S' (plugged E draw' m) g' none ntoys' available' percentile') (modelSigma S' inv' (plugged E draw' m) g' ntoys' available' percentile') true e CL
    low' hig' band w' = (.ok (some L'), w₁')) (h0 : 0 < CL)
include hsound hlow hw hr hF' hS' hT' hC' hav' hsound' hlow' hw' hr' h0

/-- C158. The upper limit is a property of the model: two calls of `poi_upper_limit` return limits that agree up to the tolerances of the root finders, whatever the starting points, the minimisers,
the root finders, the history and the other settings (each entry that is finite in both). -/
theorem C158_unique : Agree tol tol' L.values L'.values := by
  have k := (C158_limit hF hS hT hC draw g ntoys available hav percentile inv h CL fuel T tol hsound low hig hlow band w w₁ hw L hr).2
  have k' := (C158_limit hF' hS' hT' hC' draw' g' ntoys' available' hav' percentile' inv' h CL fuel' T' tol' hsound' low' hig' hlow' band w' w₁' hw' L' hr').2
  obtain ⟨P, PA, hc⟩ := regular_curves h
  refine separates_all (regular_follows hS hT hC draw g ntoys available hav percentile h.model hc) (regular_follows hS' hT' hC' draw' g' ntoys' available' hav' percentile' h.model hc) h0
    (fun i hi => entries_lt hi) (k.imp fun i x hx mu hmu => ?_) (k'.imp fun i x hx mu hmu => ?_) <;>
  · subst hmu
    rcases hx with ⟨mu', hm, hx⟩ | ⟨hm, -⟩
    · obtain rfl : mu = mu' := by simpa using hm
      exact hx
    · simp at hm

end

theorem level_range {q qA : ℝ} (hA : 0 < qA) : 0 < entry .apriori q qA 2 ∧ entry .apriori q qA 2 ≤ 1 := by
  constructor
  · rw [← entry_zero .apriori q 2]
    exact Stats.expected_strict le_rfl hA _
  · have := div_nonneg (Phi_nonneg (((2 : ℕ) : ℝ) - 2 - √qA)) (Phi_nonneg (((2 : ℕ) : ℝ) - 2))
    show 1 - Phi (((2 : ℕ) : ℝ) - 2 - √qA) / Phi (((2 : ℕ) : ℝ) - 2) ≤ 1
    linarith

/-- The expected level of the strength 1. -/
theorem ex_level (draw : Vec × List Vec → ℕ → List Vec) {m : Backend.Model} {pen : (ℕ → ℝ) → ℝ} {lo : ℝ} (h : Simple exExt exSimple m [5, 2] (linear (at' exSimple.background) exSigma) pen lo) :
    ∃ CL, 0 < CL ∧ CL ≤ 1 ∧ Reported (Plain 3) (modelMethods perfect (plugged exExt draw m) true none (.int 100) (fun _ => true) fun _ _ => nan) .apriori 2 1 (fin CL) := by
  obtain ⟨h1, -, -, h3⟩ := exSimple_yields
  obtain ⟨P, PA, hc⟩ := regular_curves (regular_prior h h1 h3)
  have hf := regular_follows (e := .apriori) perfect_exact perfect_finds Interface.perfect_constrained draw true (.int 100) (fun _ => true) rfl (fun _ _ => nan) h hc
  obtain ⟨q, qA, -, k2, k3⟩ := hf.level 1 zero_le_one
  have hA := C157_sensitive h h1 h3 hc one_pos k2
  obtain ⟨c1, c2⟩ := level_range (q := q) hA
  exact ⟨_, c1, c2, (k3 2 (by simp) _).mpr rfl⟩

/-- For this level the limit is finite. -/
theorem ex_run (draw : Vec × List Vec → ℕ → List Vec) (inv : List (List ℝ) → Except Interface.Err (List (List ℝ))) {m : Backend.Model} {pen : (ℕ → ℝ) → ℝ} {lo : ℝ}
    (h : Simple exExt exSimple m [5, 2] (linear (at' exSimple.background) exSigma) pen lo) {CL : ℝ} (c1 : 0 < CL) (c2 : CL ≤ 1)
    (hr : Reported (Plain 3) (modelMethods perfect (plugged exExt draw m) true none (.int 100) (fun _ => true) fun _ _ => nan) .apriori 2 1 (fin CL))
    {low hig t : ℝ} (k1 : 1e-10 ≤ low) (k2 : low < hig) (k3 : hig ≤ 1e5) (k4 : 0 < t) : ∃ mu n0, ∀ n ≥ n0,
      Ends (Plain 3) (poiUpperLimit n (bisection t) (modelMethods perfect (plugged exExt draw m) true none (.int 100) (fun _ => true) fun _ _ => nan)
      (modelSigma perfect inv (plugged exExt draw m) true (.int 100) (fun _ => true) fun _ _ => nan) true .apriori CL (some low) (some hig) .nominal)
        (.ok (some (.one (fin mu)))) := by
  obtain ⟨h1, -, -, h3⟩ := exSimple_yields
  obtain ⟨L, ⟨n0, hn⟩, hL, hf⟩ := C158_exists (e := .apriori) Interface.perfect_free perfect_exact perfect_finds Interface.perfect_constrained draw true (.int 100) (fun _ => true) rfl
    (fun _ _ => nan) inv (regular_prior h h1 h3) CL (bisection t) _ (bisection_sound k4.le) (bisection_succeeds k4) (bisection_stays _) c1.le c2 low hig k1 k2.le k3 .nominal (by simp) (.inl k2)
    (fun i hi => by
      simp only [Entries, List.mem_singleton] at hi
      subst hi
      exact ⟨1, 1, _, _, by norm_num, by norm_num, by norm_num, le_rfl, le_rfl, hr, hr⟩)
  cases L with
  | one x =>
    cases hf with
    | cons a _ =>
      obtain ⟨mu, rfl, -⟩ := a
      exact ⟨mu, n0, fun n hn0 => hn n hn0⟩
  | many l => exact absurd hL (by simp [Limit.Shaped, Entries])

/-- Two calls with different starting points and root finders that return finite limits, for two bins with correlated uncertainties. -/
example (draw : Vec × List Vec → ℕ → List Vec) (inv : List (List ℝ) → Except Interface.Err (List (List ℝ))) (w : World) (hw : Plain 3 w) :
    ∃ m, Backend.correlated exSimple exCov = .ok m ∧ ∃ CL mu mu' n, 0 < CL ∧ |mu - mu'| ≤ 1e-3 + 1e-4 ∧
    (poiUpperLimit n (bisection 1e-3) (modelMethods perfect (plugged exExt draw m) true none (.int 100) (fun _ => true) fun _ _ => nan)
      (modelSigma perfect inv (plugged exExt draw m) true (.int 100) (fun _ => true) fun _ _ => nan) true .apriori CL (some 1) (some 2) .nominal w).1 = .ok (some (.one (fin mu))) ∧
    (poiUpperLimit n (bisection 1e-4) (modelMethods perfect (plugged exExt draw m) true none (.int 100) (fun _ => true) fun _ _ => nan)
      (modelSigma perfect inv (plugged exExt draw m) true (.int 100) (fun _ => true) fun _ _ => nan) true .apriori CL (some 3) (some 7) .nominal w).1 = .ok (some (.one (fin mu'))) := by
  obtain ⟨m, lo, pen, hm, h⟩ := exCorrelated
  obtain ⟨h1, -, -, h3⟩ := exSimple_yields
  obtain ⟨CL, c1, c2, hl⟩ := ex_level draw h
  obtain ⟨mu, n0, a⟩ := ex_run draw inv h c1 c2 hl (low := 1) (hig := 2) (t := 1e-3) (by norm_num) (by norm_num) (by norm_num) (by norm_num)
  obtain ⟨mu', n0', b⟩ := ex_run draw inv h c1 c2 hl (low := 3) (hig := 7) (t := 1e-4) (by norm_num) (by norm_num) (by norm_num) (by norm_num)
  have ha := (a (max n0 n0') (le_max_left _ _) w hw).1
  have hb := (b (max n0 n0') (le_max_right _ _) w hw).1
  refine ⟨m, hm, _, mu, mu', max n0 n0', c1, ?_, ha, hb⟩
  have := C158_unique (e := .apriori) Interface.perfect_free perfect_exact perfect_finds Interface.perfect_constrained draw true (.int 100) (fun _ => true) rfl
    (fun _ _ => nan) inv (regular_prior h h1 h3) CL _ _ _ (bisection_sound (by norm_num)) _ _ (.inr (.inr ⟨1, rfl, by norm_num⟩)) _ w _ hw _ (Prod.ext ha rfl)
    Interface.perfect_free perfect_exact perfect_finds Interface.perfect_constrained draw true (.int 100) (fun _ => true) rfl
    (fun _ _ => nan) inv _ _ _ (bisection_sound (by norm_num)) _ _ (.inr (.inr ⟨3, rfl, by norm_num⟩)) w _ hw _ (Prod.ext hb rfl) c1
  cases this with
  | cons k _ => exact k mu mu' rfl rfl

end Verif.Linear
