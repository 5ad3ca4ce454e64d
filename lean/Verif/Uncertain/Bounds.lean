import Verif.Uncertain.Props
import Verif.Reach.Reported

/-!
# Lemmas: bounds on the statistics of models with an uncertain signal
-/

namespace Verif.Uncertain
open Verif.Py F Verif.Chain Verif.Hypotest Verif.Reach
open Verif.Interface (Data World Size Plain Solver perfect)
open Verif.Backend (Ext Vec Args at' stdLog sourceCount)
open Verif.Stats (Expect Calc Levels levelsOf)
open Verif.UpperLimit (Expected Band Limit Entries)
open Verif.Uncorrelated (entry answer_eq level_list answer_levels)

/-! ## How much the signal varies -/

theorem factor_between {s up dn a : ℝ} (hs : 0 ≤ s) : ∃ z : ℝ, Synth.factor s up dn a = Real.exp z ∧ |z| ≤ |a| * Real.log (max 1 (1 + max up dn / s)) := by
  have h0 : 0 ≤ Real.log (max 1 (1 + max up dn / s)) := Real.log_nonneg (le_max_left _ _)
  unfold Synth.factor
  split
  · exact ⟨0, by simp, by rw [abs_zero]; positivity⟩
  · next hne =>
    have hk : ∀ x, x ≤ max up dn → Real.log (max 1 (1 + x / s)) ≤ Real.log (max 1 (1 + max up dn / s)) := fun x hx =>
      Real.log_le_log (lt_of_lt_of_le one_pos (le_max_left _ _)) (max_le_max_left _ (by gcongr))
    have hp : ∀ x : ℝ, 0 < max 1 x := fun x => lt_of_lt_of_le one_pos (le_max_left _ _)
    refine ⟨Real.log (max 1 (1 + (if 0 < a then up else dn) / s)) * a, by rw [Real.rpow_def_of_pos (hp _)], ?_⟩
    rw [abs_mul, abs_of_nonneg (Real.log_nonneg (le_max_left _ _)), mul_comm]
    refine mul_le_mul_of_nonneg_left (hk _ ?_) (abs_nonneg _)
    split
    · exact le_max_left _ _
    · exact le_max_right _ _

theorem variation_between (y : Vec) {i n : ℕ} (hy : y.length = n) (hi : i < n) (h0 : 0 ≤ at' y i) {θ : ℕ → ℝ} : ∀ (ss : List Synth.Source) (st : ℕ),
    ∃ z : ℝ, variation y θ i st ss = Real.exp z ∧ z ^ 2 ≤ (∑ j ∈ Finset.range (sourceCount n ss), θ (st + j) ^ 2) * spread y i ss
  | [], _ => ⟨0, by simp [variation], by simp [spread, sourceCount]⟩
  | s :: l, st => by
    obtain ⟨z, h1, h2⟩ := variation_between y hy hi h0 l (st + if s.shape then y.length else 1)
    obtain ⟨x, h3, h4⟩ := factor_between (up := s.up i) (dn := s.dn i) (a := θ (if s.shape then st + i else st)) h0
    refine ⟨x + z, by unfold variation; rw [h1, h3, Real.exp_add], ?_⟩
    have hc : sourceCount n (s :: l) = (if s.shape then n else 1) + sourceCount n l := by simp [sourceCount]
    have hsp : spread y i (s :: l) = Real.log (max 1 (1 + max (s.up i) (s.dn i) / at' y i)) ^ 2 + spread y i l := by simp [spread]
    have hsn : 0 ≤ spread y i l := by
      unfold spread
      exact List.sum_nonneg fun x hx => by obtain ⟨s, -, rfl⟩ := List.mem_map.mp hx; positivity
    rw [hc, hsp, Finset.sum_range_add]
    set κ := Real.log (max 1 (1 + max (s.up i) (s.dn i) / at' y i))
    set K := spread y i l
    have hR : ∑ j ∈ Finset.range (sourceCount n l), θ (st + (if s.shape then y.length else 1) + j) ^ 2 =
        ∑ j ∈ Finset.range (sourceCount n l), θ (st + ((if s.shape then n else 1) + j)) ^ 2 := by
      rw [hy]; exact Finset.sum_congr rfl fun j _ => by rw [Nat.add_assoc]
    rw [hR] at h2
    set R := ∑ j ∈ Finset.range (sourceCount n l), θ (st + ((if s.shape then n else 1) + j)) ^ 2
    have hRn : 0 ≤ R := Finset.sum_nonneg fun j _ => sq_nonneg _
    set t := θ (if s.shape then st + i else st)
    have ht : t ^ 2 ≤ ∑ j ∈ Finset.range (if s.shape then n else 1), θ (st + j) ^ 2 := by
      cases hsh : s.shape
      · simp [t, hsh]
      · simp only [t, hsh, if_true]
        exact Finset.single_le_sum (f := fun j => θ (st + j) ^ 2) (fun j _ => sq_nonneg _) (Finset.mem_range.mpr hi)
    set P := ∑ j ∈ Finset.range (if s.shape then n else 1), θ (st + j) ^ 2
    have hx2 : x ^ 2 ≤ t ^ 2 * κ ^ 2 := by
      rw [← mul_pow, ← sq_abs x, ← sq_abs (t * κ), abs_mul]
      have : 0 ≤ κ := Real.log_nonneg (le_max_left _ _)
      rw [abs_of_nonneg this]
      exact pow_le_pow_left₀ (abs_nonneg x) h4 2
    have hx3 : x ^ 2 ≤ P * κ ^ 2 := hx2.trans (mul_le_mul_of_nonneg_right ht (sq_nonneg _))
    -- the inequality of Cauchy and Schwarz
    have hPn : 0 ≤ P := (sq_nonneg t).trans ht
    have hxz : 2 * (x * z) ≤ P * K + R * κ ^ 2 := by
      have h5 : (x * z) ^ 2 ≤ (P * K) * (R * κ ^ 2) := by
        calc (x * z) ^ 2 = x ^ 2 * z ^ 2 := by ring
          _ ≤ (P * κ ^ 2) * (R * K) := mul_le_mul hx3 h2 (sq_nonneg _) (by positivity)
          _ = (P * K) * (R * κ ^ 2) := by ring
      have h6 : 0 ≤ P * K := by positivity
      have h7 : 0 ≤ R * κ ^ 2 := by positivity
      nlinarith [sq_nonneg (P * K - R * κ ^ 2), abs_le_of_sq_le_sq' (a := 2 * (x * z)) (b := P * K + R * κ ^ 2) (by nlinarith [sq_nonneg (P * K - R * κ ^ 2)]) (by positivity)]
    nlinarith

/-- The uncertainties only depend on their own parameters. -/
theorem variation_from (y : Vec) {i n : ℕ} (hy : y.length = n) (hi : i < n) {θ θ' : ℕ → ℝ} (ss : List Synth.Source) (st : ℕ) (he : ∀ j, st ≤ j → θ j = θ' j) :
    variation y θ i st ss = variation y θ' i st ss := by
  induction ss generalizing st with
  | nil => rfl
  | cons s l ih =>
    unfold variation
    rw [ih (st + if s.shape then y.length else 1) fun j hj => he j (by omega), he (if s.shape then st + i else st) (by split <;> omega)]

/-- Parameters of the signal from `t`, and those of the background from `θ`. -/
def place (p n : ℕ) (t θ : ℕ → ℝ) (i : ℕ) : ℝ := if p ≤ i ∧ i < p + n then θ (i - p) else t i

theorem place_background {p n : ℕ} (t θ : ℕ → ℝ) {i : ℕ} (hi : i < n) : place p n t θ (p + i) = θ i := by
  unfold place
  rw [if_pos ⟨by omega, by omega⟩]
  congr 1
  omega

theorem place_signal {p n : ℕ} (t θ : ℕ → ℝ) {i : ℕ} (hi : i < p ∨ p + n ≤ i) : place p n t θ i = t i := if_neg (by omega)

theorem place_pulls {p n k : ℕ} (t θ : ℕ → ℝ) : pulls p n k (place p n t θ) = pulls p n k t :=
  Finset.sum_congr rfl fun j _ => by rw [place_signal t θ (.inr (by omega))]

theorem pulls_nonneg (p n k : ℕ) (θ : ℕ → ℝ) : 0 ≤ pulls p n k θ := Finset.sum_nonneg fun _ _ => sq_nonneg _

/-! ## Likelihoods -/

section
variable {γ : ℝ → ℝ} {p n k : ℕ} {sig : (ℕ → ℝ) → ℕ → ℝ} {bin : ℕ → ℝ → ℝ} {pen : (ℕ → ℝ) → ℝ} {D : ℕ → ℝ}

theorem likelihood_split (mu : ℝ) (θ : ℕ → ℝ) : likelihoodWith γ p n k sig bin pen D mu θ =
    logLikelihood γ n (sig θ) bin pen D mu (fun i => θ (p + i)) + k * stdLog 0 - pulls p n k θ / 2 := by
  have : ∑ j ∈ Finset.range k, stdLog (θ (p + n + j)) = k * stdLog 0 - pulls p n k θ / 2 := by
    unfold pulls
    rw [Finset.sum_div, ← nsmul_eq_mul, ← Finset.card_range k, ← Finset.sum_const, Finset.card_range, ← Finset.sum_sub_distrib]
    refine Finset.sum_congr rfl fun j _ => ?_
    unfold stdLog
    ring
  unfold likelihoodWith logLikelihood
  rw [this]
  have : ∀ i, expectedWith p sig bin mu θ i = expectedIn (sig θ) bin mu (fun i => θ (p + i)) i := fun i => rfl
  simp only [this]
  ring

/-- The log-likelihood of perfect agreement. -/
noncomputable def full (γ : ℝ → ℝ) (n k : ℕ) (pen : (ℕ → ℝ) → ℝ) (D : ℕ → ℝ) : ℝ := saturated γ n pen D + k * stdLog 0

theorem likelihood_background (θ : ℕ → ℝ) :
    likelihoodWith γ p n k sig bin pen D 0 θ = full γ n k pen D - misfit n bin pen D (fun i => θ (p + i)) - pulls p n k θ / 2 := by
  rw [likelihood_split, likelihood_zero]
  unfold full
  ring

variable (hpen : ∀ θ, pen θ ≤ pen fun _ => 0)
include hpen

theorem likelihood_le (hD : ∀ i < n, 0 ≤ D i) (mu : ℝ) (θ : ℕ → ℝ) : likelihoodWith γ p n k sig bin pen D mu θ ≤ full γ n k pen D - pulls p n k θ / 2 := by
  rw [likelihood_split, likelihood_eq]
  have h1 : 0 ≤ ∑ i ∈ Finset.range n, deviance (D i) (expectedIn (sig θ) bin mu (fun i => θ (p + i)) i) :=
    Finset.sum_nonneg fun i hi => deviance_nonneg (hD i (Finset.mem_range.mp hi)) (expectedIn_pos _ _ _)
  have h2 := hpen fun i => θ (p + i)
  unfold full
  linarith

theorem likelihood_much (hD : ∀ i < n, 0 ≤ D i) {v : ℝ} {θ : ℕ → ℝ} (hok : Admissible n bin fun i => θ (p + i)) {j : ℕ} (hj : j < n) :
    likelihoodWith γ p n k sig bin pen D v θ ≤ full γ n k pen D - pulls p n k θ / 2 - (v * sig θ j / 2 - D j * Real.log 2) := by
  have := much_signal (γ := γ) (s := sig θ) hpen hD (v := v) hok hj
  rw [likelihood_split]
  unfold full
  linarith

omit hpen in
theorem likelihood_less (hD : ∀ i < n, 0 ≤ D i) {θ : ℕ → ℝ} (hs : ∀ i < n, 0 ≤ sig θ i) {u v : ℝ} (huv : u ≤ v) :
    likelihoodWith γ p n k sig bin pen D u θ - likelihoodWith γ p n k sig bin pen D v θ ≤ (v - u) * ∑ i ∈ Finset.range n, sig θ i := by
  have := less_signal (γ := γ) (bin := bin) (pen := pen) hD hs huv (fun i => θ (p + i))
  rw [likelihood_split, likelihood_split]
  linarith

end

/-! ## Statistics of the fits -/

section
variable {γ : ℝ → ℝ} {p n k : ℕ} {sig : (ℕ → ℝ) → ℕ → ℝ} {bin : ℕ → ℝ → ℝ} {pen : (ℕ → ℝ) → ℝ} {D : ℕ → ℝ} {l u : ℕ → ℝ} (hpen : ∀ θ, pen θ ≤ pen fun _ => 0) (hD : ∀ i < n, 0 ≤ D i)
  {v best lb lv q M : ℝ} {θ0 θ1 : ℕ → ℝ} (hq : Stat v best lb lv q)
  (h1 : GlobalMax (Region p n l u bin) (likelihoodWith γ p n k sig bin pen D) 0 10 best lb) (h2 : ProfileMax (Region p n l u bin) (likelihoodWith γ p n k sig bin pen D) v lv θ1)
  (h0 : Region p n l u bin θ0) (hM : full γ n k pen D - M ≤ likelihoodWith γ p n k sig bin pen D 0 θ0)
include hpen hD hq h1 h2 h0 hM

theorem stat_few (hv : 0 ≤ v) (hs : ∀ θ, Region p n l u bin θ → ∀ i < n, 0 ≤ sig θ i) {B : ℝ} (hB : ∀ θ, Region p n l u bin θ → pulls p n k θ ≤ 2 * M → ∑ i ∈ Finset.range n, sig θ i ≤ B) (hB0 : 0 ≤ B) :
    q ≤ 2 * (v * B) := by
  have hvB := mul_nonneg hv hB0
  obtain ⟨h3, h4, ⟨θ', h5, rfl⟩, h6⟩ := h1
  rcases le_or_gt best v with hb | hb
  · rw [hq.below hb]
    refine max_le ?_ (by linarith)
    have k1 := likelihood_le (γ := γ) (p := p) (k := k) (sig := sig) (bin := bin) hpen hD best θ'
    have k2 := h6 0 θ0 le_rfl (by norm_num) h0
    have k3 := hB θ' h5 (by linarith)
    have k4 := likelihood_less (γ := γ) (p := p) (k := k) (bin := bin) (pen := pen) hD (hs θ' h5) hb
    have k5 := h2.2.2 θ' h5
    have k6 : (v - best) * ∑ i ∈ Finset.range n, sig θ' i ≤ v * B :=
      mul_le_mul (by linarith) k3 (Finset.sum_nonneg fun i hi => hs θ' h5 i (Finset.mem_range.mp hi)) hv
    linarith
  · rw [hq.beyond hb]; linarith

theorem stat_many (hv : 10 ≤ v) {X b : ℝ} {j : ℕ} (hj : j < n) (hb : ∀ θ, Region p n l u bin θ → pulls p n k θ ≤ X → b ≤ sig θ j) (hs : ∀ θ, Region p n l u bin θ → 0 ≤ sig θ j) :
    min (X + 2 * (D j * Real.log 2)) (v * b) ≤ q + 2 * M + 2 * (D j * Real.log 2) := by
  have key := stat_large (a := full γ n k pen D - M) (b := full γ n k pen D - (min (X + 2 * (D j * Real.log 2)) (v * b) / 2 - D j * Real.log 2)) hv hq h1 h2 h0 hM fun θ hθ => ?_
  · linarith
  · rcases le_or_gt (pulls p n k θ) X with hp | hp
    · have k1 := likelihood_much (γ := γ) (k := k) (sig := sig) hpen hD (v := v) hθ.1 hj
      have k2 := mul_le_mul_of_nonneg_left (hb θ hθ hp) (by linarith : 0 ≤ v)
      have k3 := min_le_right (X + 2 * (D j * Real.log 2)) (v * b)
      have k4 := pulls_nonneg p n k θ
      linarith
    · have k1 := likelihood_le (γ := γ) (p := p) (k := k) (sig := sig) (bin := bin) hpen hD v θ
      have k3 := min_le_left (X + 2 * (D j * Real.log 2)) (v * b)
      linarith

/-- Parameters at which the model with strength `v` has little signal. -/
theorem stat_hidden (hv : 0 ≤ v) {θ : ℕ → ℝ} (hθ : Region p n l u bin θ) (hs : ∀ i < n, 0 ≤ sig θ i) (hm : misfit n bin pen D (fun i => θ (p + i)) ≤ M) :
    q ≤ 2 * (M + v * ∑ i ∈ Finset.range n, sig θ i) + pulls p n k θ := by
  have hsum : 0 ≤ ∑ i ∈ Finset.range n, sig θ i := Finset.sum_nonneg fun i hi => hs i (Finset.mem_range.mp hi)
  have hvs := mul_nonneg hv hsum
  have hp := pulls_nonneg p n k θ
  have hM0 : 0 ≤ M := (misfit_nonneg hpen hD _).trans hm
  obtain ⟨h3, h4, ⟨θ', h5, rfl⟩, h6⟩ := h1
  rcases le_or_gt best v with hb | hb
  · rw [hq.below hb]
    refine max_le ?_ (by linarith)
    have k1 := likelihood_le (γ := γ) (p := p) (k := k) (sig := sig) (bin := bin) hpen hD best θ'
    have k2 := h2.2.2 θ hθ
    have k4 := likelihood_less (γ := γ) (p := p) (k := k) (bin := bin) (pen := pen) hD hs hv
    rw [likelihood_background] at k4
    have k5 := pulls_nonneg p n k θ'
    linarith
  · rw [hq.beyond hb]; linarith

end

/-! ## The reported levels -/

section
variable {E : Ext} {a : Args} {m : Backend.Model} {ss : List Synth.Source} {bin : ℕ → ℝ → ℝ} {pen : (ℕ → ℝ) → ℝ} {l u : ℕ → ℝ} {lo : F} (h : Setting E a m ss bin pen l u lo)
include h

theorem signal_place {i : ℕ} (hi : i < a.data.length) (t θ : ℕ → ℝ) : signalIn a ss (place a.nsp a.data.length t θ) i = signalIn a ss t i := by
  have hf := h.fits.2
  unfold signalIn
  cases hs : a.signal with
  | array y =>
    rw [hs] at hf
    dsimp only
    rw [variation_from y hf hi ss _ fun j hj => place_signal t θ (.inr hj)]
  | function f =>
    dsimp only
    congr 2
    exact List.map_congr_left fun j hj => place_signal t θ (.inl (List.mem_range.mp hj))

theorem region_place {t θ : ℕ → ℝ} (ht : ∀ j < a.nsp, l j ≤ t j ∧ t j ≤ u j) (hθ : Admissible a.data.length bin θ) : Region a.nsp a.data.length l u bin (place a.nsp a.data.length t θ) :=
  ⟨fun i hi => by dsimp only; rw [place_background t θ hi]; exact hθ i hi, fun j hj => by rw [place_signal t θ (.inl hj)]; exact ht j hj⟩

theorem misfit_place (D t θ : ℕ → ℝ) : misfit a.data.length bin pen D (fun i => place a.nsp a.data.length t θ (a.nsp + i)) = misfit a.data.length bin pen D θ := by
  have hp := (h.model.tame h.feasible).few (fun i => place a.nsp a.data.length t θ (a.nsp + i)) θ fun i hi => place_background t θ hi
  unfold misfit
  rw [hp]
  congr 1
  exact Finset.sum_congr rfl fun i hi => by dsimp only; rw [place_background t θ (Finset.mem_range.mp hi)]

variable {S : Solver} (hS : Exact S) (hT : Finds S) (hC : Interface.Constrained S) (draw : Vec × List Vec → ℕ → List Vec)
  (g : Bool) (ntoys : Size) (available : Calc → Bool) (hav : available .asymptotic = true) (percentile : List F → F → F) (hd : ∀ i < a.data.length, 0 ≤ at' a.data i)
include hS hT hC hav hd

/-- The level of one entry, and the bounds on its two statistics. `M` is a bound on the misfit of the data and the background. -/
theorem uncertain_entry (e : Expected) {v M : ℝ} (hv : 0 ≤ v) {θ : ℕ → ℝ} (hθ : Admissible a.data.length bin θ) (hM : misfit a.data.length bin pen (at' (used a e.toExpect)) θ ≤ M) :
    ∃ q qA, 0 ≤ q ∧ 0 ≤ qA ∧
    ((∀ θ, Region a.nsp a.data.length l u bin θ → ∀ i < a.data.length, 0 ≤ signalIn a ss θ i) →
      ∀ B, 0 ≤ B → (∀ θ, Region a.nsp a.data.length l u bin θ → pulls a.nsp a.data.length (sourceCount a.data.length ss) θ ≤ 2 * M → ∑ i ∈ Finset.range a.data.length, signalIn a ss θ i ≤ B) →
      q ≤ 2 * (v * B) ∧ qA ≤ 2 * (v * B)) ∧
    (10 ≤ v → ∀ j < a.data.length, (∀ θ, Region a.nsp a.data.length l u bin θ → 0 ≤ signalIn a ss θ j) → ∀ X b,
      (∀ θ, Region a.nsp a.data.length l u bin θ → pulls a.nsp a.data.length (sourceCount a.data.length ss) θ ≤ X → b ≤ signalIn a ss θ j) →
      min (X - 2 * M) (v * b - 2 * at' (used a e.toExpect) j - 5 * M) ≤ min q qA) ∧
    (∀ t : ℕ → ℝ, (∀ j < a.nsp, l j ≤ t j ∧ t j ≤ u j) → (∀ i < a.data.length, 0 ≤ signalIn a ss t i) →
      max q qA ≤ 2 * (M + v * ∑ i ∈ Finset.range a.data.length, signalIn a ss t i) + pulls a.nsp a.data.length (sourceCount a.data.length ss) t) ∧
    ∀ i < (if e = .observed then 1 else 5), ∀ x, Reported (Plain (count a ss + 1)) (modelMethods S (plugged E draw m) g none ntoys available percentile) e i v x ↔ x = fin (entry e q qA i) := by
  obtain ⟨best, lb, lv, l0, θ0, A, bestA, lA, lvA, l0A, h1, ⟨θ1, h2⟩, h3, rfl, h5, ⟨θ2, h6⟩, -, hE⟩ :=
    C169_levels hS hT hC draw h g ntoys available percentile e.toExpect false (mu := .float v) rfl hv rfl rfl rfl
  have hD := used_nonneg h.background hd e.toExpect
  have hA : ∀ i < a.data.length, 0 ≤ expectedWith a.nsp (signalIn a ss) bin 0 θ0 i := fun i _ => (expectedIn_pos (s := signalIn a ss θ0) (bin := bin) 0 (fun i => θ0 (a.nsp + i)) i).le
  have hpen := pen_le h.model
  have hAeq : expectedWith a.nsp (signalIn a ss) bin 0 θ0 = expectedIn (signalIn a ss θ0) bin 0 (fun i => θ0 (a.nsp + i)) := rfl
  obtain ⟨q, k1, k2⟩ := stat_exists (v := v) (l := lb) (lv := lv) h1.1 (fin (-l0))
  obtain ⟨qA, k3, k4⟩ := stat_exists (v := v) (l := lA) (lv := lvA) h5.1 (fin (-l0A))
  -- the misfit of the best parameters
  have hmis : misfit a.data.length bin pen (at' (used a e.toExpect)) (fun i => θ0 (a.nsp + i)) + pulls a.nsp a.data.length (sourceCount a.data.length ss) θ0 / 2 ≤ M := by
    have hr : Region a.nsp a.data.length l u bin (place a.nsp a.data.length (fun j => if j < a.nsp then l j else 0) θ) :=
      region_place h (fun j hj => by rw [if_pos hj]; exact ⟨le_rfl, h.nonempty j hj⟩) hθ
    have := h3.2.2 _ hr
    rw [h3.2.1, likelihood_background, likelihood_background, misfit_place h, place_pulls] at this
    have hz : pulls a.nsp a.data.length (sourceCount a.data.length ss) (fun j => if j < a.nsp then l j else 0) = 0 :=
      Finset.sum_eq_zero fun j _ => by dsimp only; rw [if_neg (by omega)]; ring
    rw [hz] at this
    linarith
  have hp0 := pulls_nonneg a.nsp a.data.length (sourceCount a.data.length ss) θ0
  have hfD : full E.gammaln a.data.length (sourceCount a.data.length ss) pen (at' (used a e.toExpect)) - M ≤
      likelihoodWith E.gammaln a.nsp a.data.length (sourceCount a.data.length ss) (signalIn a ss) bin pen (at' (used a e.toExpect)) 0 θ0 := by
    rw [likelihood_background]; linarith
  have hprice := misfit_price (bin := bin) hpen hD fun i => θ0 (a.nsp + i)
  have hmA : misfit a.data.length bin pen (expectedWith a.nsp (signalIn a ss) bin 0 θ0) (fun i => θ0 (a.nsp + i)) ≤ M := by
    rw [hAeq, misfit_asimov]; linarith
  have hfA : full E.gammaln a.data.length (sourceCount a.data.length ss) pen (expectedWith a.nsp (signalIn a ss) bin 0 θ0) - M ≤
      likelihoodWith E.gammaln a.nsp a.data.length (sourceCount a.data.length ss) (signalIn a ss) bin pen (expectedWith a.nsp (signalIn a ss) bin 0 θ0) 0 θ0 := by
    rw [likelihood_background, hAeq, misfit_asimov]; linarith
  refine ⟨q, qA, k1.nonneg, k3.nonneg, fun hs B hB0 hB => ?_, fun h10 j hj hs X b hb => ?_, fun t ht hs => ?_, ?_⟩
  · exact ⟨stat_few hpen hD k1 h1 h2 h3.1 hfD hv hs hB hB0, stat_few hpen hA k3 h5 h6 h3.1 hfA hv hs hB hB0⟩
  · have hDj := hD j hj
    obtain ⟨hl1, hl0⟩ := log_two
    have b1 := stat_many hpen hD k1 h1 h2 h3.1 hfD h10 hj hb hs
    have b2 := stat_many hpen hA k3 h5 h6 h3.1 hfA h10 hj hb hs
    have b3 := expected_le (s := signalIn a ss θ0) (bin := bin) hpen hD (fun i => θ0 (a.nsp + i)) hj
    rw [← hAeq] at b3
    have b5 : at' (used a e.toExpect) j * Real.log 2 ≤ at' (used a e.toExpect) j * 0.6931471808 := mul_le_mul_of_nonneg_left hl1 hDj
    have b6 : expectedWith a.nsp (signalIn a ss) bin 0 θ0 j * Real.log 2 ≤ expectedWith a.nsp (signalIn a ss) bin 0 θ0 j * 0.6931471808 := mul_le_mul_of_nonneg_left hl1 (hA j hj)
    have hM0 : 0 ≤ M := (misfit_nonneg hpen hD _).trans hM
    refine le_min ?_ ?_
    · rcases min_le_iff.mp b1 with b | b
      · exact (min_le_left _ _).trans (by linarith)
      · exact (min_le_right _ _).trans (by linarith)
    · rcases min_le_iff.mp b2 with b | b
      · exact (min_le_left _ _).trans (by linarith)
      · exact (min_le_right _ _).trans (by linarith)
  · have hr := region_place h ht h3.1.1
    have hs' : ∀ i < a.data.length, 0 ≤ signalIn a ss (place a.nsp a.data.length t fun i => θ0 (a.nsp + i)) i := fun i hi => by rw [signal_place h hi]; exact hs i hi
    have hsum : ∑ i ∈ Finset.range a.data.length, signalIn a ss (place a.nsp a.data.length t fun i => θ0 (a.nsp + i)) i = ∑ i ∈ Finset.range a.data.length, signalIn a ss t i :=
      Finset.sum_congr rfl fun i hi => signal_place h (Finset.mem_range.mp hi) _ _
    have b1 := stat_hidden hpen hD k1 h1 h2 h3.1 hfD hv hr hs' (by rw [misfit_place h]; linarith)
    have b2 := stat_hidden hpen hA k3 h5 h6 h3.1 hfA hv hr hs' (by rw [misfit_place h]; exact hmA)
    rw [hsum, place_pulls] at b1 b2
    exact max_le b1 b2
  · have hE' : Ends (Plain (count a ss + 1)) (exclusion (modelMethods S (plugged E draw m) g none ntoys available percentile) (.float v) e.toExpect false .asymptotic)
        (.ok (levelsOf e.toExpect false q qA)) := by
      rw [answer_eq k1.nonneg k3.nonneg k2 k4 e.toExpect, hav, answer_levels _ k1.nonneg k3.nonneg] at hE
      exact hE
    obtain ⟨l, hl, hi⟩ := level_list e q qA
    refine fun i hlt x => ⟨?_, ?_⟩
    · rintro ⟨l', hE2, hx⟩
      have hw : Plain (count a ss + 1) ⟨List.replicate (count a ss + 1) 0, none, none⟩ := ⟨rfl, rfl, by simp⟩
      have := (hE2 _ hw).1
      rw [(hE' _ hw).1, hl] at this
      simp only [Except.ok.injEq, Levels.one.injEq] at this
      subst this
      rw [hi i hlt] at hx
      exact (Option.some.inj hx).symm
    · rintro rfl
      exact ⟨l, by rw [← hl]; exact hE', hi i hlt⟩

end

end Verif.Uncertain
