import Verif.Reach.Reported
import Verif.Chain.BinnedLimitProps

/-!
# C164, C165: what few and many signal events mean, and where upper limits lie
-/

namespace Verif.Reach
open Verif.Py F Verif.Chain Verif.Hypotest
open Verif.Interface (Data World Size Plain Solver perfect)
open Verif.Backend (Ext Vec Args at')
open Verif.Stats (Expect Calc Levels levelsOf)
open Verif.UpperLimit (Expected Band Limit Entries Sound Succeeds Reaches)
open Verif.Uncorrelated (entry entries_lt forall_mem)

section
variable {E : Ext} {a : Args} {m : Backend.Model} {y : Vec} {bin : ℕ → ℝ → ℝ} {pen : (ℕ → ℝ) → ℝ} {lo : ℝ} (h : Simple E a m y bin pen lo)
  {S : Solver} (hS : Exact S) (hT : Finds S) (hC : Interface.Constrained S) (draw : Vec × List Vec → ℕ → List Vec)
  (g : Bool) (ntoys : Size) (available : Calc → Bool) (hav : available .asymptotic = true) (percentile : List F → F → F) (hd : ∀ i < a.data.length, 0 ≤ at' a.data i) (e : Expected)
include h hS hT hC hav hd

/-! ## C164 -/

/-- C164. A strength at which few signal events are expected is not excluded: if these are `c` in all bins together, then every level that `exclusion_confidence_level` reports for a simplified
likelihood is at most `c + √(2 c)`, and the expected levels, up to two standard deviations, at most `c + 3 √(2 c)`. No signal yield is negative. -/
theorem C164_few (hs : ∀ i < a.data.length, 0 ≤ at' y i) {v c : ℝ} (hv : 0 ≤ v) (hc : c = v * ∑ i ∈ Finset.range a.data.length, at' y i) (i : ℕ) (hi : i < (if e = .observed then 1 else 5)) :
    ∃ r, (∀ x, Reported (Plain (a.data.length + 1)) (modelMethods S (plugged E draw m) g none ntoys available percentile) e i v x ↔ x = fin r) ∧
      r ≤ c + (if e = .observed then 1 else 3) * √(2 * c) := by
  obtain ⟨q, qA, h1, h2, h3, -, h4⟩ := reported_entry h hS hT hC draw g ntoys available hav percentile hd e hv
  subst hc
  exact ⟨_, h4 i hi, entry_small e h1 h2 (h3 hs).1 (h3 hs).2 i⟩

/-- C164. A strength from 10 on, at which one bin `j` expects many signal events, is excluded at the level `CL`: more than a number `M` that depends only on `CL`, twice the data of this bin, and five times
the misfit of the data and the background, for any nuisance parameters. -/
theorem C164_many {M CL : ℝ} (hM : Excludes M CL) {v : ℝ} (hv : 10 ≤ v) {θ : ℕ → ℝ} (hθ : Admissible a.data.length bin θ) {j : ℕ} (hj : j < a.data.length)
    (hm : M + 2 * at' (used a e.toExpect) j + 5 * misfit a.data.length bin pen (at' (used a e.toExpect)) θ ≤ v * at' y j) (i : ℕ) (hi : i < (if e = .observed then 1 else 5)) :
    ∃ r, (∀ x, Reported (Plain (a.data.length + 1)) (modelMethods S (plugged E draw m) g none ntoys available percentile) e i v x ↔ x = fin r) ∧ CL ≤ r := by
  obtain ⟨q, qA, -, -, -, h3, h4⟩ := reported_entry h hS hT hC draw g ntoys available hav percentile hd e (by linarith : 0 ≤ v)
  have := le_min_iff.mp (h3 hv θ hθ j hj)
  exact ⟨_, h4 i hi, entry_large e hM (by linarith [this.1]) (by linarith [this.2]) hi⟩

/-- With more signal events the level is above `CL`. -/
theorem many_strict {M CL : ℝ} (hM : Excludes M CL) {v : ℝ} (hv : 10 ≤ v) {θ : ℕ → ℝ} (hθ : Admissible a.data.length bin θ) {j : ℕ} (hj : j < a.data.length)
    (hm : M + 2 * at' (used a e.toExpect) j + 5 * misfit a.data.length bin pen (at' (used a e.toExpect)) θ < v * at' y j) (i : ℕ) (hi : i < (if e = .observed then 1 else 5)) {r : ℝ}
    (hr : Reported (Plain (a.data.length + 1)) (modelMethods S (plugged E draw m) g none ntoys available percentile) e i v (fin r)) : CL < r := by
  obtain ⟨q, qA, -, -, -, h3, h4⟩ := reported_entry h hS hT hC draw g ntoys available hav percentile hd e (by linarith : 0 ≤ v)
  have := le_min_iff.mp (h3 hv θ hθ j hj)
  have hx := (h4 i hi _).mp hr
  simp only [fin.injEq] at hx
  rw [hx]
  exact entry_larger e hM (by linarith [this.1]) (by linarith [this.2]) hi

/-! ## C165 -/

/-- Where a strength at which the level is reached lies. -/
theorem reaches_between (hs : ∀ i < a.data.length, 0 ≤ at' y i) {M CL : ℝ} (hM : Excludes M CL) {θ : ℕ → ℝ} (hθ : Admissible a.data.length bin θ) {j : ℕ} (hj : j < a.data.length) (hp : 0 < at' y j)
    (i : ℕ) (hi : i < (if e = .observed then 1 else 5)) {mu t : ℝ}
    (hr : Reaches (fun x y => 1e-10 ≤ x ∧ Reported (Plain (a.data.length + 1)) (modelMethods S (plugged E draw m) g none ntoys available percentile) e i x y) CL t mu) :
    mu ≤ max 10 ((M + 2 * at' (used a e.toExpect) j + 5 * misfit a.data.length bin pen (at' (used a e.toExpect)) θ) / at' y j) + t ∧
      CL ≤ (mu + t) * ∑ i ∈ Finset.range a.data.length, at' y i + (if e = .observed then 1 else 3) * √(2 * ((mu + t) * ∑ i ∈ Finset.range a.data.length, at' y i)) := by
  obtain ⟨⟨x, r, x1, ⟨x2, x3⟩, x4⟩, z, r', y1, ⟨y2, y3⟩, y4⟩ := hr
  obtain ⟨x5, x6⟩ := abs_le.mp x1
  obtain ⟨y5, y6⟩ := abs_le.mp y1
  have hz : (0 : ℝ) ≤ z := le_trans (by norm_num) y2
  constructor
  · by_contra hn
    push Not at hn
    have hx : max 10 ((M + 2 * at' (used a e.toExpect) j + 5 * misfit a.data.length bin pen (at' (used a e.toExpect)) θ) / at' y j) < x := by linarith
    obtain ⟨k1, k2⟩ := max_lt_iff.mp hx
    have := many_strict h hS hT hC draw g ntoys available hav percentile hd e hM k1.le hθ hj ((div_lt_iff₀ hp).mp k2) i hi x3
    linarith
  · obtain ⟨r2, k1, k2⟩ := C164_few h hS hT hC draw g ntoys available hav percentile hd e hs hz rfl i hi
    have hx := (k1 _).mp y3
    simp only [fin.injEq] at hx
    have hsum : 0 ≤ ∑ i ∈ Finset.range a.data.length, at' y i := Finset.sum_nonneg fun i hi => hs i (Finset.mem_range.mp hi)
    have hle : z * ∑ i ∈ Finset.range a.data.length, at' y i ≤ (mu + t) * ∑ i ∈ Finset.range a.data.length, at' y i := mul_le_mul_of_nonneg_right (by linarith) hsum
    have hsq := Real.sqrt_le_sqrt (mul_le_mul_of_nonneg_left hle zero_le_two)
    have hc : (0 : ℝ) ≤ if e = .observed then 1 else 3 := by split <;> norm_num
    have := mul_le_mul_of_nonneg_left hsq hc
    linarith

variable (inv : List (List ℝ) → Except Interface.Err (List (List ℝ))) (CL : ℝ) (T : Finder) (hstay : T.Stays) (tol : ℝ → ℝ) (hsound : Sound tol T.solver) (band : Band)
include hstay hsound

/-- C165. Where the upper limits lie. At a finite limit `mu` that `poi_upper_limit` returns, up to the tolerance `t` of the root finder: not above 10 and the strength at which, in bin `j`, many events are
expected; and with `c` events expected in all bins, `c + 3 √(2 c)` is at least the confidence level. -/
theorem C165_limit (hs : ∀ i < a.data.length, 0 ≤ at' y i) {M : ℝ} (hM : Excludes M CL) {θ : ℕ → ℝ} (hθ : Admissible a.data.length bin θ) {j : ℕ} (hj : j < a.data.length) (hp : 0 < at' y j)
    (fuel : ℕ) (low hig : Option ℝ)
    (hlow : (∃ l u, low = some l ∧ hig = some u ∧ 1e-10 ≤ l ∧ 0 ≤ u) ∨ (low = none ∨ hig = none) ∧
      ∀ v, 1e-8 < v → ∃ s, Ends (Plain (a.data.length + 1)) (modelSigma S inv (plugged E draw m) g ntoys available percentile e.toExpect v) (.ok (fin s)))
    (w : World) (hw : Plain (a.data.length + 1) w) (L : Limit)
    (hr : (poiUpperLimit fuel T (modelMethods S (plugged E draw m) g none ntoys available percentile) (modelSigma S inv (plugged E draw m) g ntoys available percentile) true e CL low hig band w).1 =
      .ok (some L)) (mu : ℝ) (hmu : fin mu ∈ L.values) :
    mu ≤ max 10 ((M + 2 * at' (used a e.toExpect) j + 5 * misfit a.data.length bin pen (at' (used a e.toExpect)) θ) / at' y j) + tol mu ∧
      CL ≤ (mu + tol mu) * ∑ i ∈ Finset.range a.data.length, at' y i + (if e = .observed then 1 else 3) * √(2 * ((mu + tol mu) * ∑ i ∈ Finset.range a.data.length, at' y i)) := by
  obtain ⟨-, hF⟩ := C163_limit h hS hT hC draw g ntoys available hav percentile inv e CL T hstay tol hsound band fuel low hig hlow w hw L hr
  obtain ⟨n, hn⟩ := List.mem_iff_getElem?.mp hmu
  have hlen := hF.length_eq
  have hn2 : n < L.values.length := (List.getElem?_eq_some_iff.mp hn).1
  have hx : L.values[n] = fin mu := (List.getElem?_eq_some_iff.mp hn).2
  have hrel := (List.forall₂_iff_get.mp hF).2 n (by omega) hn2
  simp only [List.get_eq_getElem] at hrel
  rw [hx] at hrel
  have hmem : (Entries e band)[n]'(by omega) ∈ Entries e band := List.getElem_mem _
  rcases hrel with ⟨mu', he, hreach⟩ | ⟨hne, -⟩
  · simp only [fin.injEq] at he
    subst he
    exact reaches_between h hS hT hC draw g ntoys available hav percentile hd e hs hM hθ hj hp _ (entries_lt hmem) hreach
  · exact absurd hne (by simp)

/-- C165. And these limits exist: a condition on the yields alone. Few signal events at `1e-10`, and many at `1e5` in some bin. Equal starting points must not be on the limit. -/
theorem C165_exists (hs : ∀ i < a.data.length, 0 ≤ at' y i) {M : ℝ} (hM : Excludes M CL) {θ : ℕ → ℝ} (hθ : Admissible a.data.length bin θ) {j : ℕ} (hj : j < a.data.length) (hp : 0 < at' y j)
    (hok : Succeeds T.solver) (low hig : ℝ) (h2 : 1e-10 ≤ low) (h3 : low ≤ hig) (h4 : hig ≤ 1e5) (hb : band ≠ .unknown)
    (hne : low < hig ∨ ∀ i ∈ Entries e band, ∀ r, Reported (Plain (a.data.length + 1)) (modelMethods S (plugged E draw m) g none ntoys available percentile) e i low (fin r) → r ≠ CL)
    (hfew : 1e-10 * ∑ i ∈ Finset.range a.data.length, at' y i + (if e = .observed then 1 else 3) * √(2 * (1e-10 * ∑ i ∈ Finset.range a.data.length, at' y i)) ≤ CL)
    (hmany : M + 2 * at' (used a e.toExpect) j + 5 * misfit a.data.length bin pen (at' (used a e.toExpect)) θ ≤ 1e5 * at' y j) :
    ∃ L : Limit, L.Shaped (Entries e band).length ∧
      List.Forall₂ (fun i x => ∃ mu, x = fin mu ∧
        Reaches (fun x y => 1e-10 ≤ x ∧ Reported (Plain (a.data.length + 1)) (modelMethods S (plugged E draw m) g none ntoys available percentile) e i x y) CL (tol mu) mu ∧
        mu ≤ max 10 ((M + 2 * at' (used a e.toExpect) j + 5 * misfit a.data.length bin pen (at' (used a e.toExpect)) θ) / at' y j) + tol mu ∧
        CL ≤ (mu + tol mu) * ∑ i ∈ Finset.range a.data.length, at' y i + (if e = .observed then 1 else 3) * √(2 * ((mu + tol mu) * ∑ i ∈ Finset.range a.data.length, at' y i)))
        (Entries e band) L.values ∧
      ∃ n₀, ∀ n ≥ n₀, Ends (Plain (a.data.length + 1)) (poiUpperLimit n T (modelMethods S (plugged E draw m) g none ntoys available percentile)
        (modelSigma S inv (plugged E draw m) g ntoys available percentile) true e CL (some low) (some hig) band) (.ok (some L)) := by
  have hsum : 0 ≤ ∑ i ∈ Finset.range a.data.length, at' y i := Finset.sum_nonneg fun i hi => hs i (Finset.mem_range.mp hi)
  have h0 : 0 ≤ CL := le_trans (add_nonneg (mul_nonneg (by norm_num) hsum) (mul_nonneg (by split <;> norm_num) (Real.sqrt_nonneg _))) hfew
  obtain ⟨L, k1, k2, k3⟩ := C163_exists h hS hT hC draw g ntoys available hav percentile inv e CL T hstay tol hsound band hok h0 hM.1.le low hig h2 h3 h4 hb hne
    (fun i hi r hr => by
      obtain ⟨r2, c1, c2⟩ := C164_few h hS hT hC draw g ntoys available hav percentile hd e hs (v := 1e-10) (by norm_num) rfl i (entries_lt hi)
      have hx := (c1 _).mp hr
      simp only [fin.injEq] at hx
      linarith)
    (fun i hi r hr => by
      obtain ⟨r2, c1, c2⟩ := C164_many h hS hT hC draw g ntoys available hav percentile hd e hM (v := 1e5) (by norm_num) hθ hj hmany i (entries_lt hi)
      have hx := (c1 _).mp hr
      simp only [fin.injEq] at hx
      linarith)
  refine ⟨L, k1, forall_mem k2 fun i hi x => ?_, k3⟩
  rintro ⟨mu, rfl, hr⟩
  exact ⟨mu, rfl, hr, reaches_between h hS hT hC draw g ntoys available hav percentile hd e hs hM hθ hj hp i (entries_lt hi) hr⟩

end

/-! ## The third-moment model of C117, at the confidence level 0.95

Backgrounds 50 and 60, data 55 and 58, signal yields 5 and 2. -/

theorem deviance_le_square {d l : ℝ} (hd : 0 ≤ d) (hl : 0 < l) : deviance d l ≤ (d - l) ^ 2 / l := by
  rcases hd.eq_or_lt with rfl | hd
  · rw [show (0 - l) ^ 2 / l = l by field_simp; ring]
    simp [deviance]
  · have h1 := Real.log_le_sub_one_of_pos (div_pos hd hl)
    have h2 := mul_le_mul_of_nonneg_left h1 hd.le
    have h3 : d * (d / l - 1) - d + l = (d - l) ^ 2 / l := by field_simp; ring
    unfold deviance
    linarith

theorem ex_excludes : Excludes 25 0.95 := by
  refine ⟨by norm_num, by norm_num, ?_⟩
  have h1 : -2 * Real.log (1 - 0.95) ≤ 9 := by
    have : Real.log (20 : ℝ) ≤ 4.5 := by
      rw [Real.log_le_iff_le_exp (by norm_num)]
      have h := Real.add_one_le_exp (0.9 : ℝ)
      have : Real.exp 4.5 = Real.exp 0.9 ^ 5 := by rw [← Real.exp_nat_mul]; norm_num
      rw [this]
      calc (20 : ℝ) ≤ (0.9 + 1) ^ 5 := by norm_num
        _ ≤ _ := pow_le_pow_left₀ (by norm_num) h 5
    have e : (1 - 0.95 : ℝ) = 20⁻¹ := by norm_num
    rw [e, Real.log_inv]
    linarith
  have h2 := Real.sqrt_le_sqrt h1
  have h3 : √(9 : ℝ) = 3 := by rw [show (9 : ℝ) = 3 ^ 2 by norm_num]; exact Real.sqrt_sq (by norm_num)
  have h4 : √(25 : ℝ) = 5 := by rw [show (25 : ℝ) = 5 ^ 2 by norm_num]; exact Real.sqrt_sq (by norm_num)
  rw [h3] at h2
  rw [h4]
  linarith

theorem ex_misfit (pen : (ℕ → ℝ) → ℝ) : misfit 2 (fun i t => at' [50, 60] i + at' [3, 4] i * t + at' [1, 2] i * t ^ 2) pen (at' [55, 58]) (fun _ => 0) ≤ 1 := by
  have h1 := deviance_le_square (d := 55) (l := 50) (by norm_num) (by norm_num)
  have h2 := deviance_le_square (d := 58) (l := 60) (by norm_num) (by norm_num)
  have e1 : max (50 : ℝ) (1 / 10 ^ 20) = 50 := max_eq_left (by norm_num)
  have e2 : max (60 : ℝ) (1 / 10 ^ 20) = 60 := max_eq_left (by norm_num)
  simp only [misfit, Finset.sum_range_succ, Finset.sum_range_zero, at', List.getD_cons_zero, List.getD_cons_succ, mul_zero, ne_eq, OfNat.ofNat_ne_zero, not_false_eq_true, zero_pow, _root_.add_zero,
    sub_self, _root_.zero_add, e1, e2]
  norm_num at h1 h2 ⊢
  linarith

theorem ex_yields : (∀ i < exSimple.data.length, 0 ≤ at' exSimple.data i) ∧ (∀ i < exSimple.data.length, 0 ≤ at' [5, 2] i) ∧
    Admissible exSimple.data.length (fun i t => at' [50, 60] i + at' [3, 4] i * t + at' [1, 2] i * t ^ 2) (fun _ => 0) ∧ ∑ i ∈ Finset.range exSimple.data.length, at' [5, 2] i = 7 := by
  refine ⟨fun i hi => ?_, fun i hi => ?_, fun i hi => ?_, ?_⟩
  · have hi : i < 2 := hi
    interval_cases i <;> simp [exSimple, at']
  · have hi : i < 2 := hi
    interval_cases i <;> simp [at']
  · have hi : i < 2 := hi
    interval_cases i <;> simp [at']
  · simp [exSimple, Finset.sum_range_succ, at']
    norm_num

/-- C164: with 0.08 signal events the level is at most 0.48, and with 150 in the first bin at least 0.95. -/
example (draw : Vec × List Vec → ℕ → List Vec) : ∃ E m r r', (∃ bin pen lo, Simple E exSimple m [5, 2] bin pen lo) ∧
    Reported (Plain 3) (modelMethods perfect (plugged E draw m) true none (.int 100) (fun _ => true) fun _ _ => nan) .observed 0 (0.08 / 7) (fin r) ∧ r ≤ 0.48 ∧
    Reported (Plain 3) (modelMethods perfect (plugged E draw m) true none (.int 100) (fun _ => true) fun _ _ => nan) .observed 0 30 (fin r') ∧ 0.95 ≤ r' := by
  obtain ⟨m, lo, pen, h⟩ := exMatrix
  obtain ⟨h1, h2, h3, h4⟩ := ex_yields
  have h5 := ex_misfit pen
  obtain ⟨r, k1, k2⟩ := C164_few h perfect_exact perfect_finds Interface.perfect_constrained draw true (.int 100) (fun _ => true) rfl (fun _ _ => nan) h1 .observed h2 (v := 0.08 / 7) (by norm_num) rfl 0 (by simp)
  obtain ⟨r', k3, k4⟩ := C164_many h perfect_exact perfect_finds Interface.perfect_constrained draw true (.int 100) (fun _ => true) rfl (fun _ _ => nan) h1 .observed ex_excludes (v := 30) (by norm_num) h3 (j := 0)
    (by simp [exSimple]) (by
      have : at' (used exSimple Expected.observed.toExpect) 0 = 55 := by simp [used, exSimple, at', Expected.toExpect]
      have e : at' ([5, 2] : Vec) 0 = 5 := by simp [at']
      rw [this, e]
      have : misfit exSimple.data.length (fun i t => at' [50, 60] i + at' [3, 4] i * t + at' [1, 2] i * t ^ 2) pen (at' (used exSimple Expected.observed.toExpect)) (fun _ => 0) ≤ 1 := h5
      linarith) 0 (by simp)
  refine ⟨_, m, r, r', ⟨_, _, _, h⟩, (k1 _).mpr rfl, ?_, (k3 _).mpr rfl, k4⟩
  rw [h4] at k2
  have : √(2 * (0.08 / 7 * 7)) = (0.4 : ℝ) := by rw [show (2 * (0.08 / 7 * 7) : ℝ) = 0.4 ^ 2 by norm_num]; exact Real.sqrt_sq (by norm_num)
  rw [if_pos rfl, this] at k2
  linarith

/-- C163, C165: the upper limit exists. It is at most 29, and at least 0.035, up to the tolerance. -/
example (draw : Vec × List Vec → ℕ → List Vec) (inv : List (List ℝ) → Except Interface.Err (List (List ℝ))) (w : World) (hw : Plain 3 w) : ∃ E m mu n, (∃ bin pen lo, Simple E exSimple m [5, 2] bin pen lo) ∧
    (poiUpperLimit n (bisection 1e-3) (modelMethods perfect (plugged E draw m) true none (.int 100) (fun _ => true) fun _ _ => nan)
      (modelSigma perfect inv (plugged E draw m) true (.int 100) (fun _ => true) fun _ _ => nan) true .observed 0.95 (some 1) (some 2) .nominal w).1 = .ok (some (.one (fin mu))) ∧
    mu ≤ 29 + 1e-3 ∧ 0.035 ≤ mu + 1e-3 := by
  obtain ⟨m, lo, pen, h⟩ := exMatrix
  obtain ⟨h1, h2, h3, h4⟩ := ex_yields
  have h5 : misfit exSimple.data.length (fun i t => at' [50, 60] i + at' [3, 4] i * t + at' [1, 2] i * t ^ 2) pen (at' (used exSimple Expected.observed.toExpect)) (fun _ => 0) ≤ 1 := ex_misfit pen
  have e1 : at' (used exSimple Expected.observed.toExpect) 0 = 55 := by simp [used, exSimple, at', Expected.toExpect]
  have e2 : at' ([5, 2] : Vec) 0 = 5 := by simp [at']
  obtain ⟨L, k1, k2, n, k3⟩ := C165_exists h perfect_exact perfect_finds Interface.perfect_constrained draw true (.int 100) (fun _ => true) rfl (fun _ _ => nan) h1 .observed inv 0.95 (bisection 1e-3)
    (bisection_stays _) (fun _ => 1e-3) (bisection_sound (by norm_num)) .nominal h2 ex_excludes h3 (j := 0) (by simp [exSimple]) (by rw [e2]; norm_num) (bisection_succeeds (by norm_num)) 1 2 (by norm_num) (by norm_num)
    (by norm_num) (by simp) (.inl (by norm_num))
    (by
      rw [h4, if_pos rfl]
      have : √(2 * (1e-10 * 7)) ≤ (0.5 : ℝ) := Real.sqrt_le_iff.mpr ⟨by norm_num, by norm_num⟩
      linarith)
    (by rw [e1, e2]; linarith)
  have hl : L.values.length = 1 := by rw [← k2.length_eq]; rfl
  cases L with
  | one x =>
    cases k2 with
    | cons k k' =>
      obtain ⟨mu, rfl, -, k4, k5⟩ := k
      refine ⟨_, m, mu, n, ⟨_, _, _, h⟩, (k3 n le_rfl w hw).1, ?_, ?_⟩
      · refine k4.trans ?_
        have : max 10 ((25 + 2 * at' (used exSimple Expected.observed.toExpect) 0 +
          5 * misfit exSimple.data.length (fun i t => at' [50, 60] i + at' [3, 4] i * t + at' [1, 2] i * t ^ 2) pen (at' (used exSimple Expected.observed.toExpect)) (fun _ => 0)) / at' ([5, 2] : Vec) 0) ≤ 29 := by
          refine max_le (by norm_num) ?_
          rw [e1, e2, div_le_iff₀ (by norm_num)]
          linarith
        linarith
      · rw [h4, if_pos rfl] at k5
        by_contra hn
        push Not at hn
        have h6 : (mu + 1e-3) * 7 ≤ 0.245 := by linarith
        have h7 : √(2 * ((mu + 1e-3) * 7)) ≤ 0.701 := (Real.sqrt_le_sqrt (mul_le_mul_of_nonneg_left h6 zero_le_two)).trans (Real.sqrt_le_iff.mpr ⟨by norm_num, by norm_num⟩)
        linarith
  | many l => exact absurd k1 (by simp [Limit.Shaped, Entries])

end Verif.Reach
