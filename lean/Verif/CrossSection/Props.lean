import Verif.CrossSection.Model
import Verif.Reach.Props
import Verif.Uncorrelated.UniqueProps

/-!
# C166: the excluded cross section
-/

namespace Verif.CrossSection
open Verif.Py F Verif.Chain Verif.Hypotest
open Verif.Interface (Data World Size Plain Solver StartFree perfect)
open Verif.Backend (Ext Vec Args at')
open Verif.Stats (Expect Calc)
open Verif.UpperLimit (Expected Band Limit Entries Sound Succeeds Reaches)
open Verif.Reach (Excludes misfit)
open Verif.Uncorrelated (Bin Describes Valid Explained)

/-! ## Any model -/

section
variable {σ : Type} (fuel : ℕ) (T : Finder) (M : Methods σ) (sigma : Expect → ℝ → Comp σ F) (alive : Bool) (e : Expected) (s : σ)

/-- A cross section that was returned is a limit times the cross section. -/
theorem returned {xs x : F} {s' : σ} (h : excludedCrossSection fuel T M sigma alive xs e s = (.ok (some x), s')) :
    ∃ y, poiUpperLimit fuel T M sigma alive e 0.95 (some 1) (some 1) .nominal s = (.ok (some (.one y)), s') ∧ x = mul y xs := by
  cases xs with
  | nan => simp [excludedCrossSection] at h
  | fin X | pinf | ninf =>
    simp only [excludedCrossSection] at h
    split at h
    · simp at h
    · simp at h
    · rename_i L s1 hL
      cases L with
      | one y =>
        simp only [times, Except.map, Prod.mk.injEq, Except.ok.injEq, Option.some.injEq] at h
        exact ⟨y, by rw [hL, h.2], h.1.symm⟩
      | many l => simp [times, Except.map] at h

theorem of_limit {X : ℝ} {y : F} {s' : σ} (h : poiUpperLimit fuel T M sigma alive e 0.95 (some 1) (some 1) .nominal s = (.ok (some (.one y)), s')) :
    excludedCrossSection fuel T M sigma alive (fin X) e s = (.ok (some (mul y (fin X))), s') := by
  simp [excludedCrossSection, h, times, Except.map]

/-- C166. Without cross section, `UnknownCrossSection` is raised, and nothing is computed (the state does not change); with one it is not raised. -/
theorem C166_unknown (xs : F) : (xs = nan → excludedCrossSection fuel T M sigma alive xs e s = (.error .unknown, s)) ∧
    (xs ≠ nan → (excludedCrossSection fuel T M sigma alive xs e s).1 ≠ .error .unknown) := by
  refine ⟨fun h => by rw [h]; rfl, fun h => ?_⟩
  cases xs with
  | nan => exact absurd rfl h
  | fin X | pinf | ninf =>
    simp only [excludedCrossSection]
    split
    · simp
    · simp
    · rename_i L _ _
      cases L <;> simp [times, Except.map]

/-- C166. Without signal no positive cross section is excluded; a cross section of zero gives nan. -/
theorem C166_dead (X : ℝ) : excludedCrossSection fuel T M sigma false (fin X) e s = (.ok (some (if X = 0 then nan else if 0 < X then pinf else ninf)), s) := by
  have h : poiUpperLimit fuel T M sigma false e 0.95 (some 1) (some 1) .nominal s = (.ok (some (.one pinf)), s) := by
    have : (0 : ℝ) ≤ 0.95 ∧ (0.95 : ℝ) ≤ 1 := by norm_num
    simp only [poiUpperLimit, if_pos this]
    cases e <;> rfl
  rw [of_limit fuel T M sigma false e s h]
  rfl

end

/-! ## Simplified likelihoods -/

section
variable {E : Ext} {a : Args} {m : Backend.Model} {y : Vec} {bin : ℕ → ℝ → ℝ} {pen : (ℕ → ℝ) → ℝ} {lo : ℝ} (h : Simple E a m y bin pen lo)
  {S : Solver} (hS : Exact S) (hT : Finds S) (hC : Interface.Constrained S) (draw : Vec × List Vec → ℕ → List Vec)
  (g : Bool) (ntoys : Size) (available : Calc → Bool) (hav : available .asymptotic = true) (percentile : List F → F → F)
  (inv : List (List ℝ) → Except Interface.Err (List (List ℝ))) (e : Expected) (T : Finder) (hstay : T.Stays) (tol : ℝ → ℝ) (hsound : Sound tol T.solver) {X : ℝ} (hX : 0 < X)
include h hS hT hC hav hstay hsound hX

/-- C166. For a signal of the cross section `X`, an excluded cross section `x` is one at which the model reaches 95 %: within the tolerance of the root finder of the strength `x / X`,
`exclusion_confidence_level` reports (for the central entry) at most 0.95 at some strength and at least 0.95 at another. If it is infinite, the level is below 0.95 at some strength from `1e5`, or above at
`1e-10`. -/
theorem C166_means (fuel : ℕ) (w w' : World) (hw : Plain (a.data.length + 1) w) (x : F)
    (hr : excludedCrossSection fuel T (modelMethods S (plugged E draw m) g none ntoys available percentile) (modelSigma S inv (plugged E draw m) g ntoys available percentile) true (fin X) e w =
      (.ok (some x), w')) :
    (∃ x₀ : ℝ, x = fin x₀ ∧ Reaches (fun x y => 1e-10 ≤ x ∧ Reported (Plain (a.data.length + 1)) (modelMethods S (plugged E draw m) g none ntoys available percentile) e
      (if e = .observed then 0 else 2) x y) 0.95 (tol (x₀ / X)) (x₀ / X)) ∨
    (x = pinf ∧ ((∃ b r, 1e5 ≤ b ∧ Reported (Plain (a.data.length + 1)) (modelMethods S (plugged E draw m) g none ntoys available percentile) e (if e = .observed then 0 else 2) b (fin r) ∧ r < 0.95) ∨
      ∃ r, Reported (Plain (a.data.length + 1)) (modelMethods S (plugged E draw m) g none ntoys available percentile) e (if e = .observed then 0 else 2) 1e-10 (fin r) ∧ 0.95 < r)) := by
  obtain ⟨z, hz, rfl⟩ := returned _ _ _ _ _ _ _ hr
  obtain ⟨-, k⟩ := C163_limit h hS hT hC draw g ntoys available hav percentile inv e 0.95 T hstay tol hsound .nominal fuel (some 1) (some 1) (.inl ⟨1, 1, rfl, rfl, by norm_num, by norm_num⟩) w hw
    (.one z) (by rw [hz])
  have he : Entries e .nominal = [if e = .observed then 0 else 2] := by cases e <;> rfl
  rw [he] at k
  cases k with
  | cons k _ =>
    rcases k with ⟨mu, rfl, k⟩ | ⟨rfl, k⟩
    · refine .inl ⟨mu * X, rfl, ?_⟩
      rw [mul_div_cancel_right₀ _ hX.ne']
      exact k
    · exact .inr ⟨by simp [mul, hX, hX.ne'], k⟩

/-- C166. And there is one, if few events are expected at the strength `1e-10` and many at `1e5` (see C165), and the strength 1 is not excluded with exactly 95 %: then the starting points are on the limit, and
`brentq` raises (`C19_start_on_the_limit_fails`). It is the cross section at which up to `M + …` events are expected in bin `j`, or up to ten times `X`; and at least some. -/
theorem C166_exists (hd : ∀ i < a.data.length, 0 ≤ at' a.data i) (hs : ∀ i < a.data.length, 0 ≤ at' y i) {M : ℝ} (hM : Excludes M 0.95) {θ : ℕ → ℝ} (hθ : Admissible a.data.length bin θ) {j : ℕ}
    (hj : j < a.data.length) (hp : 0 < at' y j) (hok : Succeeds T.solver)
    (hne : ∀ r, Reported (Plain (a.data.length + 1)) (modelMethods S (plugged E draw m) g none ntoys available percentile) e (if e = .observed then 0 else 2) 1 (fin r) → r ≠ 0.95)
    (hfew : 1e-10 * ∑ i ∈ Finset.range a.data.length, at' y i + (if e = .observed then 1 else 3) * √(2 * (1e-10 * ∑ i ∈ Finset.range a.data.length, at' y i)) ≤ 0.95)
    (hmany : M + 2 * at' (used a e.toExpect) j + 5 * misfit a.data.length bin pen (at' (used a e.toExpect)) θ ≤ 1e5 * at' y j) :
    ∃ x : ℝ, (∃ n₀, ∀ n ≥ n₀, ∀ w, Plain (a.data.length + 1) w → ∃ w', Plain (a.data.length + 1) w' ∧ excludedCrossSection n T (modelMethods S (plugged E draw m) g none ntoys available percentile)
        (modelSigma S inv (plugged E draw m) g ntoys available percentile) true (fin X) e w = (.ok (some (fin x)), w')) ∧
      Reaches (fun x y => 1e-10 ≤ x ∧ Reported (Plain (a.data.length + 1)) (modelMethods S (plugged E draw m) g none ntoys available percentile) e
        (if e = .observed then 0 else 2) x y) 0.95 (tol (x / X)) (x / X) ∧
      x ≤ max (10 * X) ((M + 2 * at' (used a e.toExpect) j + 5 * misfit a.data.length bin pen (at' (used a e.toExpect)) θ) / at' y j * X) + tol (x / X) * X ∧
      0.95 ≤ (x / X + tol (x / X)) * ∑ i ∈ Finset.range a.data.length, at' y i +
        (if e = .observed then 1 else 3) * √(2 * ((x / X + tol (x / X)) * ∑ i ∈ Finset.range a.data.length, at' y i)) := by
  have he : Entries e .nominal = [if e = .observed then 0 else 2] := by cases e <;> rfl
  obtain ⟨L, k1, k2, n₀, k3⟩ := Reach.C165_exists h hS hT hC draw g ntoys available hav percentile hd e inv 0.95 T hstay tol hsound .nominal hs hM hθ hj hp hok 1 1 (by norm_num) le_rfl (by norm_num)
    (by simp) (.inr fun i hi r hr => by
      rw [he, List.mem_singleton] at hi
      subst hi
      exact hne r hr) hfew hmany
  rw [he] at k1 k2
  cases L with
  | many l => exact absurd k1 (by simp [Limit.Shaped])
  | one z =>
    cases k2 with
    | cons k2 _ =>
      obtain ⟨mu, rfl, k4, k5, k6⟩ := k2
      refine ⟨mu * X, ⟨n₀, fun n hn w hw => ⟨_, (k3 n hn w hw).2, ?_⟩⟩, ?_⟩
      · exact of_limit (X := X) n T _ _ true e w (Prod.ext (k3 n hn w hw).1 rfl)
      · rw [mul_div_cancel_right₀ _ hX.ne']
        refine ⟨k4, ?_, k6⟩
        have := mul_le_mul_of_nonneg_right k5 hX.le
        rwa [add_mul, max_mul_of_nonneg _ _ hX.le] at this

end

/-! ## Bins with independent uncertainties of the background -/

section
variable {S : Solver} (hF : StartFree S) (hS : Exact S) (hT : Finds S) (hC : Interface.Constrained S) {E : Ext} (draw : Vec × List Vec → ℕ → List Vec) {bins : List Bin}
  {m : Backend.Model} {N : ℕ} (h : Describes bins m N) (hv : Valid bins) (g : Bool) (ntoys : Size) (available : Calc → Bool) (hav : available .asymptotic = true)
  (percentile : List F → F → F) (inv : List (List ℝ) → Except Interface.Err (List (List ℝ))) (fuel : ℕ) (T : Finder) (tol : ℝ → ℝ) (hsound : Sound tol T.solver)
  (w w₁ : World) (hw : Plain N w) (e : Expected) {X : ℝ} (hX : 0 < X) (x : ℝ)
  (hr : excludedCrossSection fuel T (modelMethods S (plugged E draw m) g none ntoys available percentile) (modelSigma S inv (plugged E draw m) g ntoys available percentile) true (fin X) e w =
      (.ok (some (fin x)), w₁))
include hF hS hT hC h hv hav hsound hw hX hr

omit hF hS hT hC h hv hav hsound hw hX in
theorem limit_of (hX : X ≠ 0) : poiUpperLimit fuel T (modelMethods S (plugged E draw m) g none ntoys available percentile) (modelSigma S inv (plugged E draw m) g ntoys available percentile) true e 0.95
    (some 1) (some 1) .nominal w = (.ok (some (.one (fin (x / X)))), w₁) := by
  obtain ⟨z, hz, hx⟩ := returned _ _ _ _ _ _ _ hr
  rw [hz]
  cases z with
  | fin z =>
    simp only [mul, fin.injEq] at hx
    rw [hx, mul_div_cancel_right₀ _ hX]
  | nan => simp [mul] at hx
  | pinf =>
    simp only [mul] at hx
    rw [if_neg hX] at hx
    split at hx <;> simp [neg] at hx
  | ninf =>
    simp only [mul] at hx
    rw [if_neg hX] at hx
    split at hx <;> simp [neg] at hx

/-- C166. The excluded cross section separates the cross sections: those above it are excluded with at least 95 % (the signal strength is the cross section divided by `X`), those below with at most 95 %, up to
the tolerance of the root finder. -/
theorem C166_separates (z : ℝ) (hz : 0 ≤ z) :
    ∃ r, Reported (Plain N) (modelMethods S (plugged E draw m) g none ntoys available percentile) e (if e = .observed then 0 else 2) (z / X) (fin r) ∧
      (z ≤ x - X * tol (x / X) → r ≤ 0.95) ∧ (x + X * tol (x / X) ≤ z → 0.95 ≤ r) := by
  have he : Entries e .nominal = [if e = .observed then 0 else 2] := by cases e <;> rfl
  have k := (Uncorrelated.C153_limit hF hS hT hC (E := E) draw h hv g ntoys available hav percentile inv fuel T tol hsound e 0.95 (some 1) (some 1) (.inr (.inr ⟨1, rfl, by norm_num⟩)) .nominal w _ hw _
    (limit_of draw g ntoys available percentile inv fuel T w w₁ e x hr hX.ne')).2
  rw [he] at k
  cases k with
  | cons k _ =>
    rcases k with ⟨mu, hm, -, k⟩ | ⟨hm, -⟩
    · simp only [fin.injEq] at hm
      subst hm
      obtain ⟨r, k1, k2, k3⟩ := k (z / X) (div_nonneg hz hX.le)
      refine ⟨r, k1, fun hle => k2 ?_, fun hle => k3 ?_⟩
      · rw [div_le_iff₀ hX, sub_mul, div_mul_cancel₀ _ hX.ne']
        linarith
      · rw [le_div_iff₀ hX, add_mul, div_mul_cancel₀ _ hX.ne']
        linarith
    · simp at hm

variable {S' : Solver} (hF' : StartFree S') (hS' : Exact S') (hT' : Finds S') (hC' : Interface.Constrained S') (draw' : Vec × List Vec → ℕ → List Vec) {bins' : List Bin}
  {m' : Backend.Model} {N' : ℕ} (h' : Describes bins' m' N') (hv' : Valid bins') (g' : Bool) (ntoys' : Size) (available' : Calc → Bool) (hav' : available' .asymptotic = true)
  (percentile' : List F → F → F) (inv' : List (List ℝ) → Except Interface.Err (List (List ℝ))) (fuel' : ℕ) (T' : Finder) (tol' : ℝ → ℝ) (hsound' : Sound tol' T'.solver)
  (w' w₁' : World) (hw' : Plain N' w') {X' : ℝ} (x' : ℝ)
  (hr' : excludedCrossSection fuel' T' (modelMethods S' (plugged E draw' m') g' none ntoys' available' percentile') (modelSigma S' inv' (plugged E draw' m') g' ntoys' available' percentile') true
    (fin X') e w' = (.ok (some (fin x')), w₁'))
include hF' hS' hT' hC' h' hv' hav' hsound' hw' hr'

/-- C166. The excluded cross section does not depend on the cross section that was assumed for the signal: with a cross section and signal yields that are `c` times as large, the same cross section is excluded,
up to the tolerances. If no bin has an excess of events that needs a strength above 10 in one of the models (the fits are bounded by 10, see `C152_bound_fails`). -/
theorem C166_normalisation {c : ℝ} (hc : 0 < c) (hx : Explained (min 10 (10 * c)) bins) (hb : bins' = bins.map (Bin.scaled c)) (hXX : X' = c * X) :
    |x - x'| ≤ X * tol (x / X) + X' * tol' (x' / X') := by
  have hX' : 0 < X' := hXX ▸ mul_pos hc hX
  have k := Uncorrelated.C152_limit_partial hF hS hT hC (E := E) draw h hv g ntoys available hav percentile inv fuel T tol hsound (some 1) (some 1) (.inr (.inr ⟨1, rfl, by norm_num⟩)) w _ hw _ e 0.95 .nominal
    (limit_of draw g ntoys available percentile inv fuel T w w₁ e x hr hX.ne') hF' hS' hT' hC' draw' h' hv' g' ntoys' available' hav' percentile' inv' fuel' T' tol' hsound' (some 1) (some 1)
    (.inr (.inr ⟨1, rfl, by norm_num⟩)) w' _ hw' _ (limit_of draw' g' ntoys' available' percentile' inv' fuel' T' w' w₁' e x' hr' hX'.ne') (by norm_num) hc hx hb
  cases k with
  | cons k _ =>
    have k := mul_le_mul_of_nonneg_left (k _ _ rfl rfl) hX.le
    rw [← abs_of_pos hX, ← abs_mul, abs_of_pos hX] at k
    have e1 : X * (x / X - c * (x' / X')) = x - x' := by
      rw [mul_sub, mul_div_cancel₀ _ hX.ne', ← mul_assoc, mul_comm X c, ← hXX, mul_div_cancel₀ _ hX'.ne']
    have e2 : X * (tol (x / X) + c * tol' (x' / X')) = X * tol (x / X) + X' * tol' (x' / X') := by rw [hXX]; ring
    rwa [e1, e2] at k

end

/-! ## Two bins with 0.05 and 0.02 expected signal events (times `c`), and somewhat fewer events than background -/

noncomputable def exSmall : List Bin := [⟨0.05, 50, 3, 48⟩, ⟨0.02, 60, 4, 60⟩]

theorem exSmall_valid {c : ℝ} (hc : 0 < c) : Valid (exSmall.map (Bin.scaled c)) := by
  refine ⟨fun x hx => ?_, ⟨c * 0.05, 50, 3, 48⟩, by simp [exSmall, Bin.scaled], by positivity⟩
  simp only [exSmall, Bin.scaled, List.map_cons, List.map_nil, List.mem_cons, List.not_mem_nil, or_false] at hx
  rcases hx with rfl | rfl
  · exact ⟨by positivity, by norm_num, by norm_num, by norm_num⟩
  · exact ⟨by positivity, by norm_num, by norm_num, by norm_num⟩

/-- The hypotheses of `C166_exists`, for the observed cross section. -/
theorem exSmall_run (E : Ext) (draw : Vec × List Vec → ℕ → List Vec) (inv : List (List ℝ) → Except Interface.Err (List (List ℝ))) {c : ℝ} (h1 : 1 ≤ c) (h2 : c ≤ 2) {m : Backend.Model}
    (hm : Backend.uncorrelated (Uncorrelated.argsOf (exSmall.map (Bin.scaled c))) ((exSmall.map (Bin.scaled c)).map Bin.σ) = .ok m) {X : ℝ} (hX : 0 < X) : ∃ x n₀, ∀ n ≥ n₀, ∀ w, Plain 3 w → ∃ w',
      Plain 3 w' ∧ s95obs n (bisection 1e-3) (modelMethods perfect (plugged E draw m) true none (.int 100) (fun _ => true) fun _ _ => nan)
      (modelSigma perfect inv (plugged E draw m) true (.int 100) (fun _ => true) fun _ _ => nan) true (fin X) w = (.ok (some (fin x)), w') := by
  have hv := exSmall_valid (c := c) (by linarith)
  obtain ⟨lo, h⟩ := Uncorrelated.simple (E := E) hm hv
  have hs : ∀ i < (Uncorrelated.argsOf (exSmall.map (Bin.scaled c))).data.length, 0 ≤ at' ((exSmall.map (Bin.scaled c)).map Bin.s) i := by
    intro i hi
    have hi : i < 2 := hi
    interval_cases i <;> simp [exSmall, Bin.scaled, at'] <;> linarith
  have hd : ∀ i < (Uncorrelated.argsOf (exSmall.map (Bin.scaled c))).data.length, 0 ≤ at' (Uncorrelated.argsOf (exSmall.map (Bin.scaled c))).data i := by
    intro i hi
    have hi : i < 2 := hi
    interval_cases i <;> simp [exSmall, Bin.scaled, Uncorrelated.argsOf, at']
  have hsum : ∑ i ∈ Finset.range (Uncorrelated.argsOf (exSmall.map (Bin.scaled c))).data.length, at' ((exSmall.map (Bin.scaled c)).map Bin.s) i = c * 0.07 := by
    simp [exSmall, Bin.scaled, Uncorrelated.argsOf, Finset.sum_range_succ, at']
    ring
  have hsq : √(2 * (c * 0.07)) ≤ 0.6 := Real.sqrt_le_iff.mpr ⟨by norm_num, by linarith⟩
  obtain ⟨x, hx, -⟩ := C166_exists h perfect_exact perfect_finds Interface.perfect_constrained draw true (.int 100) (fun _ => true) rfl (fun _ _ => nan) inv .observed (bisection 1e-3) (bisection_stays _)
    (fun _ => 1e-3) (bisection_sound (by norm_num)) hX hd hs Reach.ex_excludes (θ := fun _ => 0)
    (by
      intro i hi
      have hi : i < 2 := hi
      interval_cases i <;> simp [exSmall, Bin.scaled, Uncorrelated.level, at'])
    (j := 0) (by simp [exSmall, Uncorrelated.argsOf]) (by simp [exSmall, Bin.scaled, at']; linarith) (bisection_succeeds (by norm_num))
    (by
      intro r hr
      obtain ⟨r', k1, k2⟩ := Reach.C164_few h perfect_exact perfect_finds Interface.perfect_constrained draw true (.int 100) (fun _ => true) rfl (fun _ _ => nan) hd .observed hs (v := 1) zero_le_one rfl 0 (by simp)
      have := (k1 _).mp hr
      simp only [fin.injEq] at this
      rw [hsum, one_mul, if_pos rfl] at k2
      rw [this]
      refine ne_of_lt ?_
      linarith)
    (by
      rw [hsum, if_pos rfl]
      have : √(2 * (1e-10 * (c * 0.07))) ≤ √(2 * (c * 0.07)) := Real.sqrt_le_sqrt (by linarith)
      linarith)
    (by
      have h1 := Reach.deviance_le_square (d := 48) (l := 50) (by norm_num) (by norm_num)
      have h2 := Reach.deviance_le_square (d := 60) (l := 60) (by norm_num) (by norm_num)
      have e1 : max (50 : ℝ) (1 / 10 ^ 20) = 50 := max_eq_left (by norm_num)
      have e2 : max (60 : ℝ) (1 / 10 ^ 20) = 60 := max_eq_left (by norm_num)
      simp only [misfit, exSmall, Bin.scaled, Uncorrelated.argsOf, Uncorrelated.level, used, Expected.toExpect, List.map_cons, List.map_nil, List.length_cons, List.length_nil, Finset.sum_range_succ,
        Finset.sum_range_zero, at', List.getD_cons_zero, List.getD_cons_succ, mul_zero, _root_.add_zero, sub_self, _root_.zero_add, e1, e2]
      norm_num at h1 h2 ⊢
      linarith)
  exact ⟨x, hx⟩

/-- The same signal with the cross section 0.2, and with twice as many events for 0.4: about the same cross section is excluded. -/
example (E : Ext) (draw : Vec × List Vec → ℕ → List Vec) (inv : List (List ℝ) → Except Interface.Err (List (List ℝ))) (w : World) (hw : Plain 3 w) : ∃ (m m' : Backend.Model) (x x' : ℝ) (n : ℕ),
    Describes (exSmall.map (Bin.scaled 1)) m 3 ∧ Describes (exSmall.map (Bin.scaled 2)) m' 3 ∧
    (s95obs n (bisection 1e-3) (modelMethods perfect (plugged E draw m) true none (.int 100) (fun _ => true) fun _ _ => nan)
      (modelSigma perfect inv (plugged E draw m) true (.int 100) (fun _ => true) fun _ _ => nan) true (fin 0.2) w).1 = .ok (some (fin x)) ∧
    (s95obs n (bisection 1e-3) (modelMethods perfect (plugged E draw m') true none (.int 100) (fun _ => true) fun _ _ => nan)
      (modelSigma perfect inv (plugged E draw m') true (.int 100) (fun _ => true) fun _ _ => nan) true (fin 0.4) w).1 = .ok (some (fin x')) ∧
    |x - x'| ≤ 0.0006 := by
  obtain ⟨m, hm⟩ := Uncorrelated.uncorrelated_model (exSmall.map (Bin.scaled 1))
  obtain ⟨m', hm'⟩ := Uncorrelated.uncorrelated_model (exSmall.map (Bin.scaled 2))
  obtain ⟨x, n, k⟩ := exSmall_run E draw inv le_rfl (by norm_num) hm (X := 0.2) (by norm_num)
  obtain ⟨x', n', k'⟩ := exSmall_run E draw inv (by norm_num) le_rfl hm' (X := 0.4) (by norm_num)
  obtain ⟨w₁, -, a⟩ := k (max n n') (le_max_left _ _) w hw
  obtain ⟨w₁', -, a'⟩ := k' (max n n') (le_max_right _ _) w hw
  refine ⟨m, m', x, x', max n n', .uncorrelated hm, .uncorrelated hm', by rw [a], by rw [a'], ?_⟩
  have := C166_normalisation Interface.perfect_free perfect_exact perfect_finds Interface.perfect_constrained (E := E) draw (.uncorrelated hm) (exSmall_valid one_pos) true (.int 100) (fun _ => true) rfl
    (fun _ _ => nan) inv _ _ _ (bisection_sound (by norm_num)) w w₁ hw .observed (by norm_num) x a Interface.perfect_free perfect_exact perfect_finds Interface.perfect_constrained draw (.uncorrelated hm')
    (exSmall_valid two_pos) true (.int 100) (fun _ => true) rfl (fun _ _ => nan) inv _ _ _ (bisection_sound (by norm_num)) w w₁' hw x' a' (c := 2) (by norm_num)
    (by
      intro b hb
      simp only [exSmall, Bin.scaled, List.map_cons, List.map_nil, List.mem_cons, List.not_mem_nil, or_false] at hb
      rcases hb with rfl | rfl <;> norm_num)
    (by simp [exSmall, Bin.scaled]) (by norm_num)
  refine this.trans ?_
  norm_num

end Verif.CrossSection
