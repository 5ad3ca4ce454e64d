import Verif.Uncertain.Bounds
import Verif.Reach.Props
import Verif.Hypotest.Never

/-!
# C170, C171: what an uncertain signal, or one with parameters, means for levels and upper limits
-/

namespace Verif.Uncertain
open Verif.Py F Verif.Chain Verif.Hypotest Verif.Reach
open Verif.Interface (Data World Size Plain Solver perfect)
open Verif.Backend (Ext Vec Args at' stdLog sourceCount)
open Verif.Stats (Expect Calc Levels levelsOf)
open Verif.UpperLimit (Expected Band Limit Entries Sound Succeeds Reaches)
open Verif.Uncorrelated (entry entry_mono entries_lt forall_mem)

/-! ## C170 -/

/-- C170. How far the signal of one bin moves, for given yields `y` with uncertainties: if the squares of the nuisance parameters of the signal sum up to at most `X`, then by factors between
`exp (-√(X s))` and `exp √(X s)`, where `s` is the sum of the squares of `log (1 + Δ)` over all sources, and `Δ` is the larger relative uncertainty of the source in this bin. -/
theorem C170_signal {E : Ext} {a : Args} {m : Backend.Model} {ss : List Synth.Source} {bin : ℕ → ℝ → ℝ} {pen : (ℕ → ℝ) → ℝ} {l u : ℕ → ℝ} {lo : F} (h : Setting E a m ss bin pen l u lo)
    {y : Vec} (hy : a.signal = .array y) {i : ℕ} (hi : i < a.data.length) (h0 : 0 ≤ at' y i) {X : ℝ} {θ : ℕ → ℝ} (hX : pulls a.nsp a.data.length (sourceCount a.data.length ss) θ ≤ X) :
    at' y i * Real.exp (-√(X * spread y i ss)) ≤ signalIn a ss θ i ∧ signalIn a ss θ i ≤ at' y i * Real.exp √(X * spread y i ss) := by
  have hf := h.fits.2
  rw [hy] at hf
  obtain ⟨z, h1, h2⟩ := variation_between y hf hi h0 (θ := θ) ss (a.nsp + a.data.length)
  have hsn : 0 ≤ spread y i ss := by
    unfold spread
    exact List.sum_nonneg fun x hx => by obtain ⟨s, -, rfl⟩ := List.mem_map.mp hx; positivity
  have h3 : z ^ 2 ≤ X * spread y i ss := h2.trans (mul_le_mul_of_nonneg_right hX hsn)
  have h4 := abs_le.mp (Real.abs_le_sqrt h3)
  unfold signalIn
  rw [hy]
  dsimp only
  rw [h1]
  exact ⟨mul_le_mul_of_nonneg_left (Real.exp_le_exp.mpr h4.1) h0, mul_le_mul_of_nonneg_left (Real.exp_le_exp.mpr h4.2) h0⟩

section
variable {E : Ext} {a : Args} {m : Backend.Model} {ss : List Synth.Source} {bin : ℕ → ℝ → ℝ} {pen : (ℕ → ℝ) → ℝ} {l u : ℕ → ℝ} {lo : F} (h : Setting E a m ss bin pen l u lo)
  {S : Solver} (hS : Exact S) (hT : Finds S) (hC : Interface.Constrained S) (draw : Vec × List Vec → ℕ → List Vec)
  (g : Bool) (ntoys : Size) (available : Calc → Bool) (hav : available .asymptotic = true) (percentile : List F → F → F) (hd : ∀ i < a.data.length, 0 ≤ at' a.data i) (e : Expected)
  {M : ℝ} {θ : ℕ → ℝ} (hθ : Admissible a.data.length bin θ) (hM : misfit a.data.length bin pen (at' (used a e.toExpect)) θ ≤ M)
include h hS hT hC hav hd hθ hM

/-- C170. A strength `v` at which few signal events are expected is not excluded: if at strength one no more than `B` are expected in all bins together, for all parameters whose price is at most the misfit
`M` of the data and the background, then every level reported by `exclusion_confidence_level` is at most `v B + √(2 v B)`, and the expected levels, up to two standard deviations, at most
`v B + 3 √(2 v B)`. No signal is negative. -/
theorem C170_few (hs : ∀ θ, Region a.nsp a.data.length l u bin θ → ∀ i < a.data.length, 0 ≤ signalIn a ss θ i) {B : ℝ} (hB0 : 0 ≤ B)
    (hB : ∀ θ, Region a.nsp a.data.length l u bin θ → pulls a.nsp a.data.length (sourceCount a.data.length ss) θ ≤ 2 * M → ∑ i ∈ Finset.range a.data.length, signalIn a ss θ i ≤ B)
    {v : ℝ} (hv : 0 ≤ v) (i : ℕ) (hi : i < (if e = .observed then 1 else 5)) :
    ∃ r, (∀ x, Reported (Plain (count a ss + 1)) (modelMethods S (plugged E draw m) g none ntoys available percentile) e i v x ↔ x = fin r) ∧
      r ≤ v * B + (if e = .observed then 1 else 3) * √(2 * (v * B)) := by
  obtain ⟨q, qA, h1, h2, h3, -, -, h4⟩ := uncertain_entry h hS hT hC draw g ntoys available hav percentile hd e hv hθ hM
  exact ⟨_, h4 i hi, entry_small e h1 h2 (h3 hs B hB0 hB).1 (h3 hs B hB0 hB).2 i⟩

/-- C170. A strength from 10 on, at which one bin `j` expects many signal events, is excluded at the level `CL`: if at strength one at least `b` are expected, for all parameters whose squares sum up to at most
`Q` and twice the misfit, where `Q` depends only on `CL`; and if `v b` is at least `Q`, twice the data of this bin, and five times the misfit. -/
theorem C170_many {Q CL : ℝ} (hQ : Excludes Q CL) {v : ℝ} (hv : 10 ≤ v) {j : ℕ} (hj : j < a.data.length) (hs : ∀ θ, Region a.nsp a.data.length l u bin θ → 0 ≤ signalIn a ss θ j) {b : ℝ}
    (hb : ∀ θ, Region a.nsp a.data.length l u bin θ → pulls a.nsp a.data.length (sourceCount a.data.length ss) θ ≤ Q + 2 * M → b ≤ signalIn a ss θ j)
    (hm : Q + 2 * at' (used a e.toExpect) j + 5 * M ≤ v * b) (i : ℕ) (hi : i < (if e = .observed then 1 else 5)) :
    ∃ r, (∀ x, Reported (Plain (count a ss + 1)) (modelMethods S (plugged E draw m) g none ntoys available percentile) e i v x ↔ x = fin r) ∧ CL ≤ r := by
  obtain ⟨q, qA, -, -, -, h3, -, h4⟩ := uncertain_entry h hS hT hC draw g ntoys available hav percentile hd e (by linarith : 0 ≤ v) hθ hM
  have := le_min_iff.mp ((le_min (by linarith) (by linarith)).trans (h3 hv j hj hs _ _ hb) : Q ≤ min q qA)
  exact ⟨_, h4 i hi, entry_large e hQ this.1 this.2 hi⟩

/-- With more signal events the level is above `CL`. -/
theorem uncertain_strict {Q CL : ℝ} (hQ : Excludes Q CL) {v : ℝ} (hv : 10 ≤ v) {j : ℕ} (hj : j < a.data.length) (hs : ∀ θ, Region a.nsp a.data.length l u bin θ → 0 ≤ signalIn a ss θ j) {b X : ℝ}
    (hX : Q + 2 * M < X) (hb : ∀ θ, Region a.nsp a.data.length l u bin θ → pulls a.nsp a.data.length (sourceCount a.data.length ss) θ ≤ X → b ≤ signalIn a ss θ j)
    (hm : Q + 2 * at' (used a e.toExpect) j + 5 * M < v * b) (i : ℕ) (hi : i < (if e = .observed then 1 else 5)) {r : ℝ}
    (hr : Reported (Plain (count a ss + 1)) (modelMethods S (plugged E draw m) g none ntoys available percentile) e i v (fin r)) : CL < r := by
  obtain ⟨q, qA, -, -, -, h3, -, h4⟩ := uncertain_entry h hS hT hC draw g ntoys available hav percentile hd e (by linarith : 0 ≤ v) hθ hM
  have := lt_min_iff.mp (lt_of_lt_of_le (lt_min (by linarith) (by linarith)) (h3 hv j hj hs _ _ hb) : Q < min q qA)
  have hx := (h4 i hi _).mp hr
  simp only [fin.injEq] at hx
  rw [hx]
  exact entry_larger e hQ this.1 this.2 hi

/-- Where a strength at which the level is reached lies. -/
theorem uncertain_between (hs : ∀ θ, Region a.nsp a.data.length l u bin θ → ∀ i < a.data.length, 0 ≤ signalIn a ss θ i) {B : ℝ} (hB0 : 0 ≤ B)
    (hB : ∀ θ, Region a.nsp a.data.length l u bin θ → pulls a.nsp a.data.length (sourceCount a.data.length ss) θ ≤ 2 * M → ∑ i ∈ Finset.range a.data.length, signalIn a ss θ i ≤ B)
    {Q CL : ℝ} (hQ : Excludes Q CL) {j : ℕ} (hj : j < a.data.length) {b X : ℝ} (hb0 : 0 < b) (hX : Q + 2 * M < X)
    (hb : ∀ θ, Region a.nsp a.data.length l u bin θ → pulls a.nsp a.data.length (sourceCount a.data.length ss) θ ≤ X → b ≤ signalIn a ss θ j)
    (i : ℕ) (hi : i < (if e = .observed then 1 else 5)) {mu t : ℝ}
    (hr : Reaches (fun x y => 1e-10 ≤ x ∧ Reported (Plain (count a ss + 1)) (modelMethods S (plugged E draw m) g none ntoys available percentile) e i x y) CL t mu) :
    mu ≤ max 10 ((Q + 2 * at' (used a e.toExpect) j + 5 * M) / b) + t ∧ CL ≤ (mu + t) * B + (if e = .observed then 1 else 3) * √(2 * ((mu + t) * B)) := by
  obtain ⟨⟨x, r, x1, ⟨x2, x3⟩, x4⟩, z, r', y1, ⟨y2, y3⟩, y4⟩ := hr
  obtain ⟨x5, x6⟩ := abs_le.mp x1
  obtain ⟨y5, y6⟩ := abs_le.mp y1
  have hz : (0 : ℝ) ≤ z := le_trans (by norm_num) y2
  constructor
  · by_contra hn
    push Not at hn
    have hx : max 10 ((Q + 2 * at' (used a e.toExpect) j + 5 * M) / b) < x := by linarith
    obtain ⟨k1, k2⟩ := max_lt_iff.mp hx
    have := uncertain_strict h hS hT hC draw g ntoys available hav percentile hd e hθ hM hQ k1.le hj (fun θ hθ => hs θ hθ j hj) hX hb ((div_lt_iff₀ hb0).mp k2) i hi x3
    linarith
  · obtain ⟨r2, k1, k2⟩ := C170_few h hS hT hC draw g ntoys available hav percentile hd e hθ hM hs hB0 hB hz i hi
    have hx := (k1 _).mp y3
    simp only [fin.injEq] at hx
    have hle : z * B ≤ (mu + t) * B := mul_le_mul_of_nonneg_right (by linarith) hB0
    have hsq := Real.sqrt_le_sqrt (mul_le_mul_of_nonneg_left hle zero_le_two)
    have hc : (0 : ℝ) ≤ if e = .observed then 1 else 3 := by split <;> norm_num
    have := mul_le_mul_of_nonneg_left hsq hc
    linarith

variable (inv : List (List ℝ) → Except Interface.Err (List (List ℝ))) (CL : ℝ) (T : Finder) (hstay : T.Stays) (tol : ℝ → ℝ) (hsound : Sound tol T.solver) (band : Band)
include hstay hsound

/-- C170. So the finite upper limits that `poi_upper_limit` returns are, up to the tolerance of the root finder: not above 10 and the strength at which many events are expected in bin `j`; and at `c` expected
events or more, for `c + 3 √(2 c)` at least the confidence level. -/
theorem C170_limit (hs : ∀ θ, Region a.nsp a.data.length l u bin θ → ∀ i < a.data.length, 0 ≤ signalIn a ss θ i) {B : ℝ} (hB0 : 0 ≤ B)
    (hB : ∀ θ, Region a.nsp a.data.length l u bin θ → pulls a.nsp a.data.length (sourceCount a.data.length ss) θ ≤ 2 * M → ∑ i ∈ Finset.range a.data.length, signalIn a ss θ i ≤ B)
    {Q : ℝ} (hQ : Excludes Q CL) {j : ℕ} (hj : j < a.data.length) {b X : ℝ} (hb0 : 0 < b) (hX : Q + 2 * M < X)
    (hb : ∀ θ, Region a.nsp a.data.length l u bin θ → pulls a.nsp a.data.length (sourceCount a.data.length ss) θ ≤ X → b ≤ signalIn a ss θ j)
    (fuel : ℕ) (low hig : Option ℝ)
    (hlow : (∃ l u, low = some l ∧ hig = some u ∧ 1e-10 ≤ l ∧ 0 ≤ u) ∨ (low = none ∨ hig = none) ∧
      ∀ v, 1e-8 < v → ∃ s, Ends (Plain (count a ss + 1)) (modelSigma S inv (plugged E draw m) g ntoys available percentile e.toExpect v) (.ok (fin s)))
    (w : World) (hw : Plain (count a ss + 1) w) (L : Limit)
    (hr : (poiUpperLimit fuel T (modelMethods S (plugged E draw m) g none ntoys available percentile) (modelSigma S inv (plugged E draw m) g ntoys available percentile) true e CL low hig band w).1 =
      .ok (some L)) (mu : ℝ) (hmu : fin mu ∈ L.values) :
    mu ≤ max 10 ((Q + 2 * at' (used a e.toExpect) j + 5 * M) / b) + tol mu ∧ CL ≤ (mu + tol mu) * B + (if e = .observed then 1 else 3) * √(2 * ((mu + tol mu) * B)) := by
  obtain ⟨-, hF⟩ := C169_limit h hS hT hC draw g ntoys available hav percentile inv e CL T hstay tol hsound band fuel low hig hlow w hw L hr
  obtain ⟨n, hn⟩ := List.mem_iff_getElem?.mp hmu
  have hlen := hF.length_eq
  have hn2 : n < L.values.length := (List.getElem?_eq_some_iff.mp hn).1
  have hx : L.values[n] = fin mu := (List.getElem?_eq_some_iff.mp hn).2
  have hrel := (List.forall₂_iff_get.mp hF).2 n (by omega) hn2
  simp only [List.get_eq_getElem] at hrel
  rw [hx] at hrel
  have hmem : (Entries e band)[n]'(by omega) ∈ Entries e band := List.getElem_mem _
  rcases hrel with ⟨mu', he, hreach⟩ | ⟨hne, -⟩
  · simp only [fin.injEq] at he
    subst he
    exact uncertain_between h hS hT hC draw g ntoys available hav percentile hd e hθ hM hs hB0 hB hQ hj hb0 hX hb _ (entries_lt hmem) hreach
  · exact absurd hne (by simp)

/-- C170. And these limits exist: few signal events at `1e-10`, and many at `1e5` in some bin. Equal starting points must not be on the limit. -/
theorem C170_exists (hs : ∀ θ, Region a.nsp a.data.length l u bin θ → ∀ i < a.data.length, 0 ≤ signalIn a ss θ i) {B : ℝ} (hB0 : 0 ≤ B)
    (hB : ∀ θ, Region a.nsp a.data.length l u bin θ → pulls a.nsp a.data.length (sourceCount a.data.length ss) θ ≤ 2 * M → ∑ i ∈ Finset.range a.data.length, signalIn a ss θ i ≤ B)
    {Q : ℝ} (hQ : Excludes Q CL) {j : ℕ} (hj : j < a.data.length) {b X : ℝ} (hb0 : 0 < b) (hX : Q + 2 * M < X)
    (hb : ∀ θ, Region a.nsp a.data.length l u bin θ → pulls a.nsp a.data.length (sourceCount a.data.length ss) θ ≤ X → b ≤ signalIn a ss θ j)
    (hok : Succeeds T.solver) (low hig : ℝ) (h2 : 1e-10 ≤ low) (h3 : low ≤ hig) (h4 : hig ≤ 1e5) (hbd : band ≠ .unknown)
    (hne : low < hig ∨ ∀ i ∈ Entries e band, ∀ r, Reported (Plain (count a ss + 1)) (modelMethods S (plugged E draw m) g none ntoys available percentile) e i low (fin r) → r ≠ CL)
    (hfew : 1e-10 * B + (if e = .observed then 1 else 3) * √(2 * (1e-10 * B)) ≤ CL) (hmany : Q + 2 * at' (used a e.toExpect) j + 5 * M ≤ 1e5 * b) :
    ∃ L : Limit, L.Shaped (Entries e band).length ∧
      List.Forall₂ (fun i x => ∃ mu, x = fin mu ∧
        Reaches (fun x y => 1e-10 ≤ x ∧ Reported (Plain (count a ss + 1)) (modelMethods S (plugged E draw m) g none ntoys available percentile) e i x y) CL (tol mu) mu ∧
        mu ≤ max 10 ((Q + 2 * at' (used a e.toExpect) j + 5 * M) / b) + tol mu ∧ CL ≤ (mu + tol mu) * B + (if e = .observed then 1 else 3) * √(2 * ((mu + tol mu) * B)))
        (Entries e band) L.values ∧
      ∃ n₀, ∀ n ≥ n₀, Ends (Plain (count a ss + 1)) (poiUpperLimit n T (modelMethods S (plugged E draw m) g none ntoys available percentile)
        (modelSigma S inv (plugged E draw m) g ntoys available percentile) true e CL (some low) (some hig) band) (.ok (some L)) := by
  have h0 : 0 ≤ CL := le_trans (add_nonneg (mul_nonneg (by norm_num) hB0) (mul_nonneg (by split <;> norm_num) (Real.sqrt_nonneg _))) hfew
  obtain ⟨L, k1, k2, k3⟩ := C169_exists h hS hT hC draw g ntoys available hav percentile inv e CL T hstay tol hsound band hok h0 hQ.1.le low hig h2 h3 h4 hbd hne
    (fun i hi r hr => by
      obtain ⟨r2, c1, c2⟩ := C170_few h hS hT hC draw g ntoys available hav percentile hd e hθ hM hs hB0 hB (v := 1e-10) (by norm_num) i (entries_lt hi)
      have hx := (c1 _).mp hr
      simp only [fin.injEq] at hx
      linarith)
    (fun i hi r hr => by
      obtain ⟨r2, c1, c2⟩ := C170_many h hS hT hC draw g ntoys available hav percentile hd e hθ hM hQ (v := 1e5) (by norm_num) hj (fun θ hθ => hs θ hθ j hj)
        (fun θ hθ hp => hb θ hθ (hp.trans hX.le)) hmany i (entries_lt hi)
      have hx := (c1 _).mp hr
      simp only [fin.injEq] at hx
      linarith)
  refine ⟨L, k1, forall_mem k2 fun i hi x => ?_, k3⟩
  rintro ⟨mu, rfl, hr⟩
  exact ⟨mu, rfl, hr, uncertain_between h hS hT hC draw g ntoys available hav percentile hd e hθ hM hs hB0 hB hQ hj hb0 hX hb i (entries_lt hi) hr⟩

end

/-! ### Backgrounds 50 and 60, data 55 and 58, signal yields 5 and 10 with an uncertainty of 20 %, at the confidence level 0.95 -/

def exNorm : Args := ⟨.array [5, 10], [50, 60], [55, 58], some [⟨some "normalization", some (.sym [fin 1, fin 2]), some "lumi"⟩], 0, none⟩

def exNormSources : List Synth.Source := [⟨false, fun i => if i = 0 then 1 else 2, fun i => if i = 0 then 1 else 2⟩]

theorem exNorm_model (E : Ext) : ∃ m lo, Setting E exNorm m exNormSources (fun i t => at' [50, 60] i + at' [3, 4] i * t) (fun θ => ∑ i ∈ Finset.range 2, stdLog (θ i)) (fun _ => 0) (fun _ => 0) lo := by
  have hf : Backend.Fits exNorm := ⟨rfl, rfl⟩
  have hs : Backend.Sources exNorm exNormSources := by
    refine .inr ⟨_, _, rfl, rfl, ?_, trivial⟩
    exact .sym rfl (by simp [List.range_succ]) fun i hi => rfl
  obtain ⟨m, hm⟩ := Backend.simplified_accepts exNorm hf exNormSources hs rfl 2 (Backend.linear [50, 60] [3, 4]) (.normal (List.replicate 2 0) (List.replicate 2 1) (.slice 1 2))
  have h : Nuisance E exNorm m _ _ := .uncorrelated [3, 4] hm rfl
  refine ⟨m, _, h, hf, hs, .inl rfl, fun j hj => absurd hj (Nat.not_lt_zero j), fun f hf => by simp [exNorm] at hf, fun i hi => ?_, ⟨fun _ => 0, fun i hi => ?_⟩, rfl⟩
  · have hi : i < 2 := hi
    interval_cases i <;> simp [exNorm, at']
  · have hi : i < 2 := hi
    interval_cases i <;> simp [at']

theorem exNorm_spread {i : ℕ} (hi : i < 2) : spread [5, 10] i exNormSources = Real.log (6 / 5) ^ 2 := by
  interval_cases i
  · simp only [spread, exNormSources, at', List.map_cons, List.map_nil, List.sum_cons, List.sum_nil, List.getD_cons_zero, if_true, max_self]
    norm_num
  · simp only [spread, exNormSources, at', List.map_cons, List.map_nil, List.sum_cons, List.sum_nil, List.getD_cons_zero, List.getD_cons_succ, max_self]
    norm_num

theorem exNorm_exp {X : ℝ} {n : ℕ} (hX : X ≤ n ^ 2) {i : ℕ} (hi : i < 2) : Real.exp √(X * spread [5, 10] i exNormSources) ≤ (6 / 5) ^ n := by
  have h0 : 0 ≤ Real.log (6 / 5 : ℝ) := Real.log_nonneg (by norm_num)
  rw [exNorm_spread hi]
  have : √(X * Real.log (6 / 5) ^ 2) ≤ n * Real.log (6 / 5) :=
    Real.sqrt_le_iff.mpr ⟨by positivity, by rw [mul_pow]; exact mul_le_mul_of_nonneg_right hX (sq_nonneg _)⟩
  calc Real.exp √(X * Real.log (6 / 5) ^ 2) ≤ Real.exp (n * Real.log (6 / 5)) := Real.exp_le_exp.mpr this
    _ = (6 / 5) ^ n := by rw [Real.exp_nat_mul, Real.exp_log (by norm_num)]

theorem exNorm_misfit (e : Expected) : misfit 2 (fun i t => at' [50, 60] i + at' [3, 4] i * t) (fun θ => ∑ i ∈ Finset.range 2, stdLog (θ i)) (at' (used exNorm e.toExpect)) (fun _ => 0) ≤ 1 := by
  have k : ∀ d l : ℝ, 0 ≤ d → 0 < l → deviance d l ≤ (d - l) ^ 2 / l := fun d l => deviance_le_square
  have key : ∀ d1 d2 : ℝ, 0 ≤ d1 → 0 ≤ d2 → (d1 - 50) ^ 2 / 50 + (d2 - 60) ^ 2 / 60 ≤ 1 → deviance d1 50 + deviance d2 60 ≤ 1 := fun d1 d2 h1 h2 h3 => by
    have := k d1 50 h1 (by norm_num)
    have := k d2 60 h2 (by norm_num)
    linarith
  unfold misfit
  rw [sub_self, _root_.add_zero, Finset.sum_range_succ, Finset.sum_range_one]
  have e1 : max (at' [50, 60] 0 + at' [3, 4] 0 * 0) (1 / 10 ^ 20) = (50 : ℝ) := by simp [at']; norm_num
  have e2 : max (at' [50, 60] 1 + at' [3, 4] 1 * 0) (1 / 10 ^ 20) = (60 : ℝ) := by simp [at']; norm_num
  rw [e1, e2]
  cases e <;> refine key _ _ ?_ ?_ ?_ <;> simp [used, exNorm, at', Expected.toExpect] <;> norm_num

/-- The upper limit, observed or expected with its band, exists. It is at most 84 and at least 0.001, up to the tolerance. -/
example (E : Ext) (draw : Vec × List Vec → ℕ → List Vec) (inv : List (List ℝ) → Except Interface.Err (List (List ℝ))) (e : Expected) (w : World) (hw : Plain 4 w) : ∃ m L n,
    (poiUpperLimit n (bisection 1e-3) (modelMethods perfect (plugged E draw m) true none (.int 100) (fun _ => true) fun _ _ => nan)
      (modelSigma perfect inv (plugged E draw m) true (.int 100) (fun _ => true) fun _ _ => nan) true e 0.95 (some 1) (some 2) .sigma2 w).1 = .ok (some L) ∧
    L.Shaped (Entries e .sigma2).length ∧ ∀ x ∈ L.values, ∃ mu, x = fin mu ∧ mu ≤ 84 + 1e-3 ∧ 0.001 ≤ mu + 1e-3 := by
  obtain ⟨m, lo, h⟩ := exNorm_model E
  have hpos : ∀ i < 2, 0 ≤ at' [5, 10] i := fun i hi => by interval_cases i <;> simp [at']
  have hsig := fun (i : ℕ) (hi : i < 2) (X : ℝ) (θ : ℕ → ℝ) hX => C170_signal h rfl (i := i) hi (hpos i hi) (X := X) (θ := θ) hX
  have hs : ∀ θ, Region exNorm.nsp exNorm.data.length (fun _ => 0) (fun _ => 0) (fun i t => at' [50, 60] i + at' [3, 4] i * t) θ → ∀ i < exNorm.data.length, 0 ≤ signalIn exNorm exNormSources θ i :=
    fun θ _ i hi => le_trans (mul_nonneg (hpos i hi) (Real.exp_pos _).le) (hsig i hi _ θ le_rfl).1
  have hd : ∀ i < exNorm.data.length, 0 ≤ at' exNorm.data i := fun i hi => by
    have hi : i < 2 := hi
    interval_cases i <;> simp [exNorm, at']
  have hB : ∀ θ, Region exNorm.nsp exNorm.data.length (fun _ => 0) (fun _ => 0) (fun i t => at' [50, 60] i + at' [3, 4] i * t) θ →
      pulls exNorm.nsp exNorm.data.length (sourceCount exNorm.data.length exNormSources) θ ≤ 2 * 1 → ∑ i ∈ Finset.range exNorm.data.length, signalIn exNorm exNormSources θ i ≤ 22 := fun θ _ hp => by
    have h1 := (hsig 0 (by norm_num) _ θ hp).2
    have h2 := (hsig 1 (by norm_num) _ θ hp).2
    have e1 := exNorm_exp (X := 2 * 1) (n := 2) (by norm_num) (i := 0) (by norm_num)
    have e2 := exNorm_exp (X := 2 * 1) (n := 2) (by norm_num) (i := 1) (by norm_num)
    have y1 : at' [5, 10] 0 = (5 : ℝ) := by simp [at']
    have y2 : at' [5, 10] 1 = (10 : ℝ) := by simp [at']
    rw [y1] at h1
    rw [y2] at h2
    show ∑ i ∈ Finset.range 2, _ ≤ _
    rw [Finset.sum_range_succ, Finset.sum_range_one]
    norm_num at e1 e2 h1 h2 ⊢
    linarith
  have hb : ∀ θ, Region exNorm.nsp exNorm.data.length (fun _ => 0) (fun _ => 0) (fun i t => at' [50, 60] i + at' [3, 4] i * t) θ →
      pulls exNorm.nsp exNorm.data.length (sourceCount exNorm.data.length exNormSources) θ ≤ 36 → 5 / 3 ≤ signalIn exNorm exNormSources θ 0 := fun θ _ hp => by
    have h1 := (hsig 0 (by norm_num) _ θ hp).1
    have e1 := exNorm_exp (X := 36) (n := 6) (by norm_num) (i := 0) (by norm_num)
    have y1 : at' [5, 10] 0 = (5 : ℝ) := by simp [at']
    rw [y1, Real.exp_neg] at h1
    have : (1 / 3 : ℝ) ≤ (Real.exp √(36 * spread [5, 10] 0 exNormSources))⁻¹ := by
      rw [one_div]
      exact inv_anti₀ (Real.exp_pos _) (e1.trans (by norm_num))
    linarith
  have hdata : 25 + 2 * at' (used exNorm e.toExpect) 0 + 5 * 1 ≤ (140 : ℝ) := by
    cases e <;> simp [used, exNorm, at', Expected.toExpect] <;> norm_num
  obtain ⟨L, k1, k2, n, k3⟩ := C170_exists h perfect_exact perfect_finds Interface.perfect_constrained draw true (.int 100) (fun _ => true) rfl (fun _ _ => nan) hd e (M := 1) (θ := fun _ => 0)
    (fun i hi => by have hi : i < 2 := hi; interval_cases i <;> simp [at']) (exNorm_misfit e) inv 0.95 (bisection 1e-3)
    (bisection_stays _) (fun _ => 1e-3) (bisection_sound (by norm_num)) .sigma2 hs (B := 22) (by norm_num) hB ex_excludes (j := 0) (by simp [exNorm]) (b := 5 / 3) (X := 36) (by norm_num) (by norm_num) hb
    (bisection_succeeds (by norm_num)) 1 2 (by norm_num) (by norm_num) (by norm_num) (by simp) (.inl (by norm_num))
    (by
      have : √(2 * (1e-10 * 22)) ≤ (0.1 : ℝ) := Real.sqrt_le_iff.mpr ⟨by norm_num, by norm_num⟩
      split <;> linarith)
    (hdata.trans (by norm_num))
  refine ⟨m, L, n, (k3 n le_rfl w hw).1, k1, fun x hx => ?_⟩
  obtain ⟨j, hj, hjx⟩ := List.getElem_of_mem hx
  have hrel := (List.forall₂_iff_get.mp k2).2 j (by rw [k2.length_eq]; exact hj) hj
  simp only [List.get_eq_getElem] at hrel
  rw [hjx] at hrel
  obtain ⟨mu, rfl, -, k4, k5⟩ := hrel
  refine ⟨mu, rfl, k4.trans ?_, ?_⟩
  · have : max 10 ((25 + 2 * at' (used exNorm e.toExpect) 0 + 5 * 1) / (5 / 3)) ≤ (84 : ℝ) := max_le (by norm_num) (by rw [div_le_iff₀ (by norm_num)]; linarith)
    linarith
  · by_contra hn
    push Not at hn
    have h6 : (mu + 1e-3) * 22 ≤ 0.022 := by linarith
    have h7 : √(2 * ((mu + 1e-3) * 22)) ≤ 0.21 := (Real.sqrt_le_sqrt (mul_le_mul_of_nonneg_left h6 zero_le_two)).trans (Real.sqrt_le_iff.mpr ⟨by norm_num, by norm_num⟩)
    split at k5 <;> linarith

/-! ## C171 -/

section
variable {E : Ext} {a : Args} {m : Backend.Model} {ss : List Synth.Source} {bin : ℕ → ℝ → ℝ} {pen : (ℕ → ℝ) → ℝ} {l u : ℕ → ℝ} {lo : F} (h : Setting E a m ss bin pen l u lo)
  {S : Solver} (hS : Exact S) (hT : Finds S) (hC : Interface.Constrained S) (draw : Vec × List Vec → ℕ → List Vec)
  (g : Bool) (ntoys : Size) (available : Calc → Bool) (hav : available .asymptotic = true) (percentile : List F → F → F) (hd : ∀ i < a.data.length, 0 ≤ at' a.data i) (e : Expected)
  {M : ℝ} {θ : ℕ → ℝ} (hθ : Admissible a.data.length bin θ) (hM : misfit a.data.length bin pen (at' (used a e.toExpect)) θ ≤ M)
  {t : ℕ → ℝ} (ht : ∀ j < a.nsp, l j ≤ t j ∧ t j ≤ u j)
include h hS hT hC hav hd hθ hM ht

/-- C171. A signal that can be made small cannot be excluded: for all parameters `t` of the signal inside their bounds, every reported level at strength `v` is at most that of a statistic equal to
the sum of: twice the misfit of the data and the background, twice the signal events expected at `t`, and the squares of the nuisance parameters of the signal in `t`. -/
theorem C171_hidden (hs : ∀ i < a.data.length, 0 ≤ signalIn a ss t i) {v : ℝ} (hv : 0 ≤ v) {q : ℝ}
    (hq : q = 2 * (M + v * ∑ i ∈ Finset.range a.data.length, signalIn a ss t i) + pulls a.nsp a.data.length (sourceCount a.data.length ss) t) (i : ℕ) (hi : i < (if e = .observed then 1 else 5)) {n : ℝ}
    (hn : n = if e = .observed then 0 else (i : ℝ) - 2) :
    ∃ r, (∀ x, Reported (Plain (count a ss + 1)) (modelMethods S (plugged E draw m) g none ntoys available percentile) e i v x ↔ x = fin r) ∧ r ≤ 1 - Phi (n - √q) / Phi n := by
  obtain ⟨q', qA, h1, h2, -, -, h3, h4⟩ := uncertain_entry h hS hT hC draw g ntoys available hav percentile hd e hv hθ hM
  have h5 := max_le_iff.mp (h3 t ht hs)
  rw [← hq] at h5
  refine ⟨_, h4 i hi, (entry_mono e h1 h5.1 h2 h5.2 i).trans_eq ?_⟩
  subst hn
  cases e
  · simp only [entry, if_true]
    rw [observed_equal (h1.trans h5.1), zero_sub]
  all_goals simp [entry]

/-- C171. If the signal vanishes at `t`, then these bounds do not depend on the strength, and `poi_upper_limit` returns infinity for confidence levels above them. -/
theorem C171_never (hs : ∀ i < a.data.length, signalIn a ss t i = 0) {q : ℝ} (hq : q = 2 * M + pulls a.nsp a.data.length (sourceCount a.data.length ss) t)
    (inv : List (List ℝ) → Except Interface.Err (List (List ℝ))) (CL : ℝ) (h0 : 0 ≤ CL) (h1 : CL ≤ 1) (T : Finder) (hstay : T.Stays) (band : Band) (hbd : band ≠ .unknown)
    (hCL : ∀ i ∈ Entries e band, 1 - Phi ((if e = .observed then 0 else (i : ℝ) - 2) - √q) / Phi (if e = .observed then 0 else (i : ℝ) - 2) < CL)
    (low hig : ℝ) (h2 : 1e-10 ≤ low) (h3 : 0 < hig) :
    ∃ L : Limit, (∀ x ∈ L.values, x = pinf) ∧ ∃ n₀, ∀ n ≥ n₀, Ends (Plain (count a ss + 1)) (poiUpperLimit n T (modelMethods S (plugged E draw m) g none ntoys available percentile)
        (modelSigma S inv (plugged E draw m) g ntoys available percentile) true e CL (some low) (some hig) band) (.ok (some L)) := by
  obtain ⟨mu, lb, Lf, mA, lA, LA, hf⟩ := (h.wide draw).fits_from hS hT hC e.toExpect g ntoys available percentile
  refine limit_never hav ⟨⟨List.replicate (count a ss + 1) 0, none, none⟩, rfl, rfl, by simp⟩ hf _ hstay h0 h1 h2 h3 band hbd fun i hi v r hv hr => ?_
  have hz : ∑ i ∈ Finset.range a.data.length, signalIn a ss t i = 0 := Finset.sum_eq_zero fun i hi => hs i (Finset.mem_range.mp hi)
  obtain ⟨r', k1, k2⟩ := C171_hidden h hS hT hC draw g ntoys available hav percentile hd e hθ hM ht (fun i hi => (hs i hi).ge) hv (q := q) (by rw [hq, hz]; ring) i (entries_lt hi) rfl
  have hx := (k1 _).mp hr
  simp only [fin.injEq] at hx
  rw [hx]
  exact lt_of_le_of_lt k2 (hCL i hi)

end

/-- A signal with a free fraction between zero and one. -/
def exFraction : Args := ⟨.function fun v => [5 * at' v 0, 10 * at' v 0], [50, 60], [55, 58], none, 1, some [some (some (fin 0), some (fin 1))]⟩

theorem exFraction_model (E : Ext) : ∃ m, Setting E exFraction m [] (fun i t => at' [50, 60] i + at' [3, 4] i * t) (fun θ => ∑ i ∈ Finset.range 2, stdLog (θ i)) (fun _ => 0) (fun _ => 1) ninf := by
  have hf : Backend.Fits exFraction := ⟨rfl, fun v => rfl⟩
  obtain ⟨m, hm⟩ : ∃ m, Backend.uncorrelated exFraction [3, 4] = .ok m := by
    simp only [Backend.uncorrelated, Backend.simplified, exFraction, Backend.signalUncertainty, Backend.baseConfig, Backend.minimumPoi, Backend.sigBounds]
    exact ⟨_, rfl⟩
  have h : Nuisance E exFraction m _ _ := .uncorrelated [3, 4] hm rfl
  refine ⟨m, h, hf, .inl ⟨rfl, rfl⟩, .inr rfl, fun j _ => by norm_num, fun f hf i hi => ?_, fun i hi => ?_, ⟨fun _ => 0, fun i hi => ?_⟩, ?_⟩
  · have hi : i < 2 := hi
    cases hf
    interval_cases i
    · simp only [exFraction, at', List.range_one, List.map_cons, List.map_nil, List.getD_cons_zero]
      exact continuous_const.mul (continuous_apply _)
    · simp only [exFraction, at', List.range_one, List.map_cons, List.map_nil, List.getD_cons_zero, List.getD_cons_succ]
      exact continuous_const.mul (continuous_apply _)
  · have hi : i < 2 := hi
    interval_cases i <;> simp [exFraction, at']
  · have hi : i < 2 := hi
    interval_cases i <;> simp [at']
  · exact Backend.C52_function exFraction m (.simplified _ (.uncorrelated [3, 4] hm rfl)) hf _ rfl

/-- It is never excluded: the a priori limits are infinite at the confidence level 0.95, and at all others. -/
example (E : Ext) (draw : Vec × List Vec → ℕ → List Vec) (inv : List (List ℝ) → Except Interface.Err (List (List ℝ))) (CL : ℝ) (h0 : 0 < CL) (h1 : CL ≤ 1) (w : World) (hw : Plain 4 w) : ∃ m L n,
    (poiUpperLimit n (bisection 1e-3) (modelMethods perfect (plugged E draw m) true none (.int 100) (fun _ => true) fun _ _ => nan)
      (modelSigma perfect inv (plugged E draw m) true (.int 100) (fun _ => true) fun _ _ => nan) true .apriori CL (some 1) (some 2) .sigma2 w).1 = .ok (some L) ∧ ∀ x ∈ L.values, x = pinf := by
  obtain ⟨m, h⟩ := exFraction_model E
  have hd : ∀ i < exFraction.data.length, 0 ≤ at' exFraction.data i := fun i hi => by
    have hi : i < 2 := hi
    interval_cases i <;> simp [exFraction, at']
  have hM : misfit exFraction.data.length (fun i t => at' [50, 60] i + at' [3, 4] i * t) (fun θ => ∑ i ∈ Finset.range 2, stdLog (θ i)) (at' (used exFraction Expected.apriori.toExpect)) (fun _ => 0) ≤ 0 := by
    show misfit 2 _ _ _ _ ≤ 0
    unfold misfit
    rw [sub_self, _root_.add_zero, Finset.sum_range_succ, Finset.sum_range_one]
    have e1 : max (at' [50, 60] 0 + at' [3, 4] 0 * 0) (1 / 10 ^ 20) = (50 : ℝ) := by simp [at']; norm_num
    have e2 : max (at' [50, 60] 1 + at' [3, 4] 1 * 0) (1 / 10 ^ 20) = (60 : ℝ) := by simp [at']; norm_num
    rw [e1, e2]
    simp [used, exFraction, at', Expected.toExpect, deviance]
  obtain ⟨L, k1, n, k2⟩ := C171_never h perfect_exact perfect_finds Interface.perfect_constrained draw true (.int 100) (fun _ => true) rfl (fun _ _ => nan) hd .apriori (M := 0) (θ := fun _ => 0)
    (fun i hi => by have hi : i < 2 := hi; interval_cases i <;> simp [at']) hM (t := fun _ => 0) (fun j _ => by norm_num)
    (fun i hi => by have hi : i < 2 := hi; interval_cases i <;> simp [signalIn, exFraction, at']) (q := 0) (by simp [pulls]) inv CL h0.le h1 (bisection 1e-3) (bisection_stays _) .sigma2 (by simp)
    (fun i _ => by rw [Real.sqrt_zero, sub_zero, div_self (Phi_pos _).ne', sub_self]; exact h0) 1 2 (by norm_num) (by norm_num)
  exact ⟨m, L, n, (k2 n le_rfl w hw).1, k1⟩

end Verif.Uncertain
