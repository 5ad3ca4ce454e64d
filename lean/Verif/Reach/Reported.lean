import Verif.Reach.Likelihood
import Mathlib.Analysis.Complex.ExponentialBounds

/-!
# Lemmas: bounds on the reported levels
-/

namespace Verif.Reach
open Verif.Py F Verif.Chain Verif.Hypotest
open Verif.Interface (Data World Size Plain Solver)
open Verif.Backend (Ext Vec Args at')
open Verif.Stats (Expect Calc Levels levelsOf)
open Verif.UpperLimit (Expected Band Entries)
open Verif.Uncorrelated (answer_eq answer_levels entry entry_mono level_list entries_lt)

theorem entry_small (e : Expected) {q qA c : ℝ} (hq : 0 ≤ q) (hA : 0 ≤ qA) (h1 : q ≤ 2 * c) (h2 : qA ≤ 2 * c) (i : ℕ) :
    entry e q qA i ≤ c + (if e = .observed then 1 else 3) * √(2 * c) := by
  have hs := Real.sqrt_le_sqrt h2
  have key : ∀ e : Expected, e ≠ .observed → 1 - Phi ((i : ℝ) - 2 - √qA) / Phi ((i : ℝ) - 2) ≤ c + (if e = .observed then 1 else 3) * √(2 * c) := by
    intro e he
    have := expected_small (n := (i : ℝ) - 2) (by linarith [Nat.cast_nonneg (α := ℝ) i]) hA
    rw [if_neg he]
    linarith
  cases e
  · have := observed_small hq hA
    have h3 := max_le h1 h2
    simp only [entry, if_true]
    linarith
  · exact key .apriori (by simp)
  · exact key .aposteriori (by simp)

theorem tail_strict {m M CL : ℝ} (h : Excludes M CL) (hm : M < m) : Phi (2 - √m) < (1 - CL) / 2 :=
  lt_of_lt_of_le (Phi_strictMono (by linarith [Real.sqrt_lt_sqrt h.2.1 hm])) (tail_small h.1 h.2.2)

theorem ratio_strict {n m CL : ℝ} (hn : n ≤ 2) (h : Phi (2 - √m) < (1 - CL) / 2) : CL < 1 - Phi (n - √m) / Phi n := by
  have := ratio_large (CL := 1 - 2 * Phi (2 - √m)) hn (m := m) (by linarith)
  linarith

theorem entry_equal (e : Expected) {m : ℝ} (hm : 0 ≤ m) {i : ℕ} (hi : i < (if e = .observed then 1 else 5)) : ∃ n : ℝ, n ≤ 2 ∧ entry e m m i = 1 - Phi (n - √m) / Phi n := by
  have key : i < 5 → (i : ℝ) - 2 ≤ 2 := fun h => by
    have : (i : ℝ) ≤ 4 := by exact_mod_cast Nat.lt_succ_iff.mp h
    linarith
  cases e
  · exact ⟨0, by norm_num, by simp only [entry]; rw [observed_equal hm, zero_sub]⟩
  · exact ⟨_, key (by simpa using hi), rfl⟩
  · exact ⟨_, key (by simpa using hi), rfl⟩

theorem entry_large (e : Expected) {q qA M CL : ℝ} (h : Excludes M CL) (h1 : M ≤ q) (h2 : M ≤ qA) {i : ℕ} (hi : i < (if e = .observed then 1 else 5)) : CL ≤ entry e q qA i := by
  obtain ⟨n, hn, k⟩ := entry_equal e h.2.1 hi
  refine le_trans ?_ (entry_mono e h.2.1 h1 h.2.1 h2 i)
  rw [k]
  exact ratio_large hn (tail_small h.1 h.2.2)

theorem entry_larger (e : Expected) {q qA M CL : ℝ} (h : Excludes M CL) (h1 : M < q) (h2 : M < qA) {i : ℕ} (hi : i < (if e = .observed then 1 else 5)) : CL < entry e q qA i := by
  have h0 : 0 ≤ min q qA := le_min (h.2.1.trans h1.le) (h.2.1.trans h2.le)
  obtain ⟨n, hn, k⟩ := entry_equal e h0 hi
  refine lt_of_lt_of_le ?_ (entry_mono e h0 (min_le_left _ _) h0 (min_le_right _ _) i)
  rw [k]
  exact ratio_strict hn (tail_strict h (lt_min h1 h2))

theorem log_two : Real.log 2 ≤ 0.6931471808 ∧ 0 ≤ Real.log 2 := ⟨Real.log_two_lt_d9.le, Real.log_nonneg (by norm_num)⟩

theorem used_nonneg {a : Args} (hb : ∀ i < a.data.length, 0 ≤ at' a.background i) (hd : ∀ i < a.data.length, 0 ≤ at' a.data i) (e : Expect) : ∀ i < a.data.length, 0 ≤ at' (used a e) i := by
  cases e <;> simpa [used]

section
variable {E : Ext} {a : Args} {m : Backend.Model} {y : Vec} {bin : ℕ → ℝ → ℝ} {pen : (ℕ → ℝ) → ℝ} {lo : ℝ} (h : Simple E a m y bin pen lo)
  {S : Solver} (hS : Exact S) (hT : Finds S) (hC : Interface.Constrained S) (draw : Vec × List Vec → ℕ → List Vec)
  (g : Bool) (ntoys : Size) (available : Calc → Bool) (hav : available .asymptotic = true) (percentile : List F → F → F) (hd : ∀ i < a.data.length, 0 ≤ at' a.data i)
include h hS hT hC hav hd

/-- The level of one entry, and the bounds on its two statistics. -/
theorem reported_entry (e : Expected) {v : ℝ} (hv : 0 ≤ v) : ∃ q qA, 0 ≤ q ∧ 0 ≤ qA ∧
    ((∀ i < a.data.length, 0 ≤ at' y i) → q ≤ 2 * (v * ∑ i ∈ Finset.range a.data.length, at' y i) ∧ qA ≤ 2 * (v * ∑ i ∈ Finset.range a.data.length, at' y i)) ∧
    (10 ≤ v → ∀ θ, Admissible a.data.length bin θ → ∀ j < a.data.length,
      v * at' y j - 2 * at' (used a e.toExpect) j - 5 * misfit a.data.length bin pen (at' (used a e.toExpect)) θ ≤ min q qA) ∧
    ∀ i < (if e = .observed then 1 else 5), ∀ x, Reported (Plain (a.data.length + 1)) (modelMethods S (plugged E draw m) g none ntoys available percentile) e i v x ↔ x = fin (entry e q qA i) := by
  obtain ⟨best, l, lv, l0, θ0, A, bestA, lA, lvA, l0A, h1, ⟨θ1, h2⟩, h3, rfl, h5, ⟨θ2, h6⟩, -, hE⟩ :=
    C117_levels hS hT hC draw h e.toExpect false (mu := .float v) rfl hv g ntoys available percentile rfl rfl rfl
  simp only [Bool.false_eq_true, if_false] at h1 h5
  have hD := used_nonneg h.background hd e.toExpect
  have hA : ∀ i < a.data.length, 0 ≤ expectedIn (at' y) bin 0 θ0 i := fun i _ => (expectedIn_pos 0 θ0 i).le
  have hpen := pen_le h.model
  obtain ⟨q, k1, k2⟩ := stat_exists (v := v) (l := l) (lv := lv) h1.1 (fin (-l0))
  obtain ⟨qA, k3, k4⟩ := stat_exists (v := v) (l := lA) (lv := lvA) h5.1 (fin (-l0A))
  refine ⟨q, qA, k1.nonneg, k3.nonneg, fun hs => ?_, fun h10 θ hok j hj => ?_, ?_⟩
  · have hsum : 0 ≤ ∑ i ∈ Finset.range a.data.length, at' y i := Finset.sum_nonneg fun i hi => hs i (Finset.mem_range.mp hi)
    have step : ∀ u, 0 ≤ u → (v - u) * ∑ i ∈ Finset.range a.data.length, at' y i ≤ v * ∑ i ∈ Finset.range a.data.length, at' y i :=
      fun u hu => mul_le_mul_of_nonneg_right (by linarith) hsum
    exact ⟨stat_small k1 h1 h2 (mul_nonneg hv hsum) fun u θ hu huv _ => (less_signal hD hs huv θ).trans (step u hu),
      stat_small k3 h5 h6 (mul_nonneg hv hsum) fun u θ hu huv _ => (less_signal hA hs huv θ).trans (step u hu)⟩
  · -- the misfit of the best parameters
    have hmis : misfit a.data.length bin pen (at' (used a e.toExpect)) θ0 ≤ misfit a.data.length bin pen (at' (used a e.toExpect)) θ := by
      have := h3.2.2 θ hok
      rw [h3.2.1, likelihood_zero, likelihood_zero] at this
      linarith
    have h0 := misfit_nonneg (bin := bin) hpen hD θ0
    have hDj := hD j hj
    obtain ⟨hl1, hl0⟩ := log_two
    have b1 := stat_large h10 k1 h1 h2 hok (likelihood_zero (γ := E.gammaln) (s := at' y) θ).ge fun θ' hθ' => much_signal hpen hD hθ' hj
    have b2 := stat_large h10 k3 h5 h6 h3.1 (likelihood_zero (γ := E.gammaln) (s := at' y) θ0).ge fun θ' hθ' => much_signal hpen hA hθ' hj
    rw [misfit_asimov] at b2
    have b3 := expected_le (s := at' y) (bin := bin) hpen hD θ0 hj
    have b4 := misfit_price (bin := bin) hpen hD θ0
    have b5 : at' (used a e.toExpect) j * Real.log 2 ≤ at' (used a e.toExpect) j * 0.6931471808 := mul_le_mul_of_nonneg_left hl1 hDj
    have b6 : expectedIn (at' y) bin 0 θ0 j * Real.log 2 ≤ expectedIn (at' y) bin 0 θ0 j * 0.6931471808 := mul_le_mul_of_nonneg_left hl1 (hA j hj)
    exact le_min (by linarith) (by linarith)
  · have hE' : Ends (Plain (a.data.length + 1)) (exclusion (modelMethods S (plugged E draw m) g none ntoys available percentile) (.float v) e.toExpect false .asymptotic)
        (.ok (levelsOf e.toExpect false q qA)) := by
      rw [answer_eq k1.nonneg k3.nonneg k2 k4 e.toExpect, hav, answer_levels _ k1.nonneg k3.nonneg] at hE
      exact hE
    obtain ⟨l, hl, hi⟩ := level_list e q qA
    refine fun i hlt x => ⟨?_, ?_⟩
    · rintro ⟨l', hE2, hx⟩
      have hw : Plain (a.data.length + 1) ⟨List.replicate (a.data.length + 1) 0, none, none⟩ := ⟨rfl, rfl, by simp⟩
      have := (hE2 _ hw).1
      rw [(hE' _ hw).1, hl] at this
      simp only [Except.ok.injEq, Levels.one.injEq] at this
      subst this
      rw [hi i hlt] at hx
      exact (Option.some.inj hx).symm
    · rintro rfl
      exact ⟨l, by rw [← hl]; exact hE', hi i hlt⟩

end

end Verif.Reach
