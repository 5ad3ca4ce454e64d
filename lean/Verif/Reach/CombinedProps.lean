import Verif.Reach.Combined
import Verif.Reach.Props
import Verif.Uncorrelated.CombinedProps

/-!
# C167: what few and many signal events mean for a combination, and where its upper limits lie
-/

namespace Verif.Reach
open Verif.Py F Verif.Chain Verif.Hypotest Verif.Joint
open Verif.Interface (Data World Size Plain Solver perfect)
open Verif.Backend (Ext Vec Args at')
open Verif.Stats (Expect Calc Levels levelsOf)
open Verif.UpperLimit (Expected Band Limit Entries Sound Succeeds Reaches)
open Verif.Uncorrelated (Bin counts_single entry entries_lt forall_mem exCounts exCounts_valid exCounts_sigma exNames start_counts argsOf argsOf_fits)

section
variable {fit : Minimizer (ℕ → World)} (hfit : Reliable fit) {S : Solver} (hS : Exact S) (hT : Finds S) (hC : Interface.Constrained S) {E : Ext} (draw : Vec × List Vec → ℕ → List Vec)
    {n : ℕ} (hn : 0 < n) {m : ℕ → Backend.Model} {P : ℕ → Part} {lo : ℕ → ℝ} {N : ℕ → ℕ} {e : Expected} (h : ∀ i < n, Described E e.toExpect (m i) (P i) (lo i) (N i))
    {k : ℕ → ℕ} {y : ℕ → ℕ → ℝ} {bin : ℕ → ℕ → ℝ → ℝ} {pen : ℕ → (ℕ → ℝ) → ℝ} (hc : ∀ i < n, Counts E.gammaln (P i) (k i) (y i) (bin i) (pen i))
    {name : ℕ → String} (hname : Distinct n name) (inv : List (List ℝ) → Except Interface.Err (List (List ℝ))) (g : Bool) (ntoys : Size) (available : ℕ → Calc → Bool)
    (hav : ∀ i < n, available i .asymptotic = true) (percentile percentile' : List F → F → F) {M : Methods (ℕ → World)}
    (hM : M = combined fit (members n name S inv E draw m g ntoys available percentile') percentile)
    {s : ℕ → World} (hs : All n N s) {start : ℝ} (hstart : (guess (members n name S inv E draw m g ntoys available percentile') e.toExpect s).1 = .ok (fin start))
include hfit hS hT hC hn h hc hname hM hs hstart hav

/-- C167. A strength at which few signal events are expected is not excluded by a combination of simplified likelihoods and Poisson models: if these are `c` in all bins of all models together, then every level
that `exclusion_confidence_level` reports is at most `c + √(2 c)`, and the expected levels, up to two standard deviations, at most `c + 3 √(2 c)`. No signal yield is negative. -/
theorem C167_few (hy : ∀ i < n, ∀ j < k i, 0 ≤ y i j) {v c : ℝ} (hv : 0 ≤ v) (hcv : c = v * ∑ i ∈ Finset.range n, ∑ j ∈ Finset.range (k i), y i j) (x : ℕ) (hx : x < (if e = .observed then 1 else 5)) :
    ∃ r, (∀ z, Reported (All n N) M e x v z ↔ z = fin r) ∧ r ≤ c + (if e = .observed then 1 else 3) * √(2 * c) := by
  obtain ⟨q, qA, h1, h2, h3, -, h4⟩ := joint_entry hfit hS hT hC draw hn h hc hname inv g ntoys available hav percentile percentile' hM hs hstart hv
  subst hcv
  exact ⟨_, h4 x hx, entry_small e h1 h2 (h3 hy).1 (h3 hy).2 x⟩

/-- C167. A strength from 10 on, at which one bin `j` of one model `i` expects many signal events, is excluded at the level `CL`: more than a number `Q` that depends only on `CL`, twice the data of this
bin, and five times the misfit of the data and the background of all models, for any nuisance parameters. -/
theorem C167_many {Q CL : ℝ} (hQ : Excludes Q CL) {v : ℝ} (hv : 10 ≤ v) {θ : ℕ → ℕ → ℝ} (hθ : ∀ i < n, Admissible (k i) (bin i) (θ i)) {i : ℕ} (hi : i < n) {j : ℕ} (hj : j < k i)
    (hm : Q + 2 * (P i).data j + 5 * ∑ i ∈ Finset.range n, misfit (k i) (bin i) (pen i) (P i).data (θ i) ≤ v * y i j) (x : ℕ) (hx : x < (if e = .observed then 1 else 5)) :
    ∃ r, (∀ z, Reported (All n N) M e x v z ↔ z = fin r) ∧ CL ≤ r := by
  obtain ⟨q, qA, -, -, -, h3, h4⟩ := joint_entry hfit hS hT hC draw hn h hc hname inv g ntoys available hav percentile percentile' hM hs hstart (by linarith : 0 ≤ v)
  have := le_min_iff.mp (h3 hv θ hθ i hi j hj)
  exact ⟨_, h4 x hx, entry_large e hQ (by linarith [this.1]) (by linarith [this.2]) hx⟩

/-- With more signal events the level is above `CL`. -/
theorem joint_strict {Q CL : ℝ} (hQ : Excludes Q CL) {v : ℝ} (hv : 10 ≤ v) {θ : ℕ → ℕ → ℝ} (hθ : ∀ i < n, Admissible (k i) (bin i) (θ i)) {i : ℕ} (hi : i < n) {j : ℕ} (hj : j < k i)
    (hm : Q + 2 * (P i).data j + 5 * ∑ i ∈ Finset.range n, misfit (k i) (bin i) (pen i) (P i).data (θ i) < v * y i j) (x : ℕ) (hx : x < (if e = .observed then 1 else 5)) {r : ℝ}
    (hr : Reported (All n N) M e x v (fin r)) : CL < r := by
  obtain ⟨q, qA, -, -, -, h3, h4⟩ := joint_entry hfit hS hT hC draw hn h hc hname inv g ntoys available hav percentile percentile' hM hs hstart (by linarith : 0 ≤ v)
  have := le_min_iff.mp (h3 hv θ hθ i hi j hj)
  have hx' := (h4 x hx _).mp hr
  simp only [fin.injEq] at hx'
  rw [hx']
  exact entry_larger e hQ (by linarith [this.1]) (by linarith [this.2]) hx

/-- Where a strength at which the level is reached lies. -/
theorem joint_between (hy : ∀ i < n, ∀ j < k i, 0 ≤ y i j) {Q CL : ℝ} (hQ : Excludes Q CL) {θ : ℕ → ℕ → ℝ} (hθ : ∀ i < n, Admissible (k i) (bin i) (θ i)) {i : ℕ} (hi : i < n) {j : ℕ} (hj : j < k i)
    (hp : 0 < y i j) (x : ℕ) (hx : x < (if e = .observed then 1 else 5)) {mu t : ℝ} (hr : Reaches (fun v z => 1e-10 ≤ v ∧ Reported (All n N) M e x v z) CL t mu) :
    mu ≤ max 10 ((Q + 2 * (P i).data j + 5 * ∑ i ∈ Finset.range n, misfit (k i) (bin i) (pen i) (P i).data (θ i)) / y i j) + t ∧
      CL ≤ (mu + t) * ∑ i ∈ Finset.range n, ∑ j ∈ Finset.range (k i), y i j + (if e = .observed then 1 else 3) * √(2 * ((mu + t) * ∑ i ∈ Finset.range n, ∑ j ∈ Finset.range (k i), y i j)) := by
  obtain ⟨⟨x0, r, x1, ⟨x2, x3⟩, x4⟩, z, r', y1, ⟨y2, y3⟩, y4⟩ := hr
  obtain ⟨x5, x6⟩ := abs_le.mp x1
  obtain ⟨y5, y6⟩ := abs_le.mp y1
  have hz : (0 : ℝ) ≤ z := le_trans (by norm_num) y2
  constructor
  · by_contra hn'
    push Not at hn'
    obtain ⟨k1, k2⟩ := max_lt_iff.mp (lt_of_lt_of_le (lt_sub_iff_add_lt.mpr hn') (by linarith : mu - t ≤ x0))
    have := joint_strict hfit hS hT hC draw hn h hc hname inv g ntoys available hav percentile percentile' hM hs hstart hQ k1.le hθ hi hj ((div_lt_iff₀ hp).mp k2) x hx x3
    linarith
  · obtain ⟨r2, k1, k2⟩ := C167_few hfit hS hT hC draw hn h hc hname inv g ntoys available hav percentile percentile' hM hs hstart hy hz rfl x hx
    have hx' := (k1 _).mp y3
    simp only [fin.injEq] at hx'
    have hsum : 0 ≤ ∑ i ∈ Finset.range n, ∑ j ∈ Finset.range (k i), y i j :=
      Finset.sum_nonneg fun i hi => Finset.sum_nonneg fun j hj => hy i (Finset.mem_range.mp hi) j (Finset.mem_range.mp hj)
    have hle : z * ∑ i ∈ Finset.range n, ∑ j ∈ Finset.range (k i), y i j ≤ (mu + t) * ∑ i ∈ Finset.range n, ∑ j ∈ Finset.range (k i), y i j := mul_le_mul_of_nonneg_right (by linarith) hsum
    have hsq := Real.sqrt_le_sqrt (mul_le_mul_of_nonneg_left hle zero_le_two)
    have hc : (0 : ℝ) ≤ if e = .observed then 1 else 3 := by split <;> norm_num
    have := mul_le_mul_of_nonneg_left hsq hc
    linarith

variable (CL : ℝ) (T : Finder) (hstay : T.Stays) (tol : ℝ → ℝ) (hsound : Sound tol T.solver) (band : Band)
include hstay hsound

/-- C167. Where the upper limits of a combination lie. At a finite limit `mu` that `poi_upper_limit` returns, up to the tolerance of the root finder: not above 10 and the strength at which, in bin `j` of model
`i`, many events are expected; and with `c` events expected in all bins of all models, `c + 3 √(2 c)` is at least the confidence level. -/
theorem C167_limit (hy : ∀ i < n, ∀ j < k i, 0 ≤ y i j) {Q : ℝ} (hQ : Excludes Q CL) {θ : ℕ → ℕ → ℝ} (hθ : ∀ i < n, Admissible (k i) (bin i) (θ i)) {i : ℕ} (hi : i < n) {j : ℕ} (hj : j < k i)
    (hp : 0 < y i j) (fuel : ℕ) (low hig : Option ℝ) (hlow : low = none ∨ hig = none ∨ ∃ a b, low = some a ∧ hig = some b ∧ 1e-10 ≤ a ∧ 0 ≤ b) {s₀ : ℕ → World} (hs₀ : All n N s₀) (L : Limit)
    (hr : (poiUpperLimit fuel T M (fun e v => sigmaMu M none (.float v) e "qtilde") true e CL low hig band s₀).1 = .ok (some L)) (mu : ℝ) (hmu : fin mu ∈ L.values) :
    mu ≤ max 10 ((Q + 2 * (P i).data j + 5 * ∑ i ∈ Finset.range n, misfit (k i) (bin i) (pen i) (P i).data (θ i)) / y i j) + tol mu ∧
      CL ≤ (mu + tol mu) * ∑ i ∈ Finset.range n, ∑ j ∈ Finset.range (k i), y i j + (if e = .observed then 1 else 3) * √(2 * ((mu + tol mu) * ∑ i ∈ Finset.range n, ∑ j ∈ Finset.range (k i), y i j)) := by
  obtain ⟨-, hF⟩ := C156_limit hfit hS hT hC draw hn h hname inv g ntoys available hav percentile percentile' hM hs hstart fuel T hstay tol hsound CL low hig hlow band hs₀ L hr
  obtain ⟨a, ha⟩ := List.mem_iff_getElem?.mp hmu
  have hlen := hF.length_eq
  have ha2 : a < L.values.length := (List.getElem?_eq_some_iff.mp ha).1
  have hx : L.values[a] = fin mu := (List.getElem?_eq_some_iff.mp ha).2
  have hrel := (List.forall₂_iff_get.mp hF).2 a (by omega) ha2
  simp only [List.get_eq_getElem] at hrel
  rw [hx] at hrel
  have hmem : (Entries e band)[a]'(by omega) ∈ Entries e band := List.getElem_mem _
  rcases hrel with ⟨mu', he, hreach⟩ | ⟨hne, -⟩
  · simp only [fin.injEq] at he
    subst he
    exact joint_between hfit hS hT hC draw hn h hc hname inv g ntoys available hav percentile percentile' hM hs hstart hy hQ hθ hi hj hp _ (entries_lt hmem) hreach
  · exact absurd hne (by simp)

/-- C167. And these limits exist: a condition on the yields alone. Few signal events at `1e-10`, and many at `1e5` in some bin. Equal starting points must not be on the limit. -/
theorem C167_exists (hy : ∀ i < n, ∀ j < k i, 0 ≤ y i j) {Q : ℝ} (hQ : Excludes Q CL) {θ : ℕ → ℕ → ℝ} (hθ : ∀ i < n, Admissible (k i) (bin i) (θ i)) {i : ℕ} (hi : i < n) {j : ℕ} (hj : j < k i)
    (hp : 0 < y i j) (hok : Succeeds T.solver) (low hig : ℝ) (h2 : 1e-10 ≤ low) (h3 : low ≤ hig) (h4 : hig ≤ 1e5) (hb : band ≠ .unknown)
    (hne : low < hig ∨ ∀ x ∈ Entries e band, ∀ r, Reported (All n N) M e x low (fin r) → r ≠ CL)
    (hfew : 1e-10 * ∑ i ∈ Finset.range n, ∑ j ∈ Finset.range (k i), y i j +
      (if e = .observed then 1 else 3) * √(2 * (1e-10 * ∑ i ∈ Finset.range n, ∑ j ∈ Finset.range (k i), y i j)) ≤ CL)
    (hmany : Q + 2 * (P i).data j + 5 * ∑ i ∈ Finset.range n, misfit (k i) (bin i) (pen i) (P i).data (θ i) ≤ 1e5 * y i j) :
    ∃ L : Limit, L.Shaped (Entries e band).length ∧
      List.Forall₂ (fun x z => ∃ mu, z = fin mu ∧ Reaches (fun v z => 1e-10 ≤ v ∧ Reported (All n N) M e x v z) CL (tol mu) mu ∧
        mu ≤ max 10 ((Q + 2 * (P i).data j + 5 * ∑ i ∈ Finset.range n, misfit (k i) (bin i) (pen i) (P i).data (θ i)) / y i j) + tol mu ∧
      CL ≤ (mu + tol mu) * ∑ i ∈ Finset.range n, ∑ j ∈ Finset.range (k i), y i j + (if e = .observed then 1 else 3) * √(2 * ((mu + tol mu) * ∑ i ∈ Finset.range n, ∑ j ∈ Finset.range (k i), y i j)))
        (Entries e band) L.values ∧
      ∃ N₀, ∀ f ≥ N₀, Ends (All n N) (poiUpperLimit f T M (fun e v => sigmaMu M none (.float v) e "qtilde") true e CL (some low) (some hig) band) (.ok (some L)) := by
  have hsum : 0 ≤ ∑ i ∈ Finset.range n, ∑ j ∈ Finset.range (k i), y i j :=
    Finset.sum_nonneg fun i hi => Finset.sum_nonneg fun j hj => hy i (Finset.mem_range.mp hi) j (Finset.mem_range.mp hj)
  have h0 : 0 ≤ CL := le_trans (add_nonneg (mul_nonneg (by norm_num) hsum) (mul_nonneg (by split <;> norm_num) (Real.sqrt_nonneg _))) hfew
  obtain ⟨L, k1, k2, k3⟩ := C156_exists hfit hS hT hC draw hn h hname inv g ntoys available hav percentile percentile' hM hs hstart T hstay tol hsound hok CL h0 hQ.1.le low hig h2 h3 h4 band hb hne
    (fun x hx r hr => by
      obtain ⟨r2, c1, c2⟩ := C167_few hfit hS hT hC draw hn h hc hname inv g ntoys available hav percentile percentile' hM hs hstart hy (v := 1e-10) (by norm_num) rfl x (entries_lt hx)
      have hx := (c1 _).mp hr
      simp only [fin.injEq] at hx
      linarith)
    (fun x hx r hr => by
      obtain ⟨r2, c1, c2⟩ := C167_many hfit hS hT hC draw hn h hc hname inv g ntoys available hav percentile percentile' hM hs hstart hQ (v := 1e5) (by norm_num) hθ hi hj hmany x (entries_lt hx)
      have hx := (c1 _).mp hr
      simp only [fin.injEq] at hx
      linarith)
  refine ⟨L, k1, forall_mem k2 fun x hx z => ?_, k3⟩
  rintro ⟨mu, rfl, hr⟩
  exact ⟨mu, rfl, hr, joint_between hfit hS hT hC draw hn h hc hname inv g ntoys available hav percentile percentile' hM hs hstart hy hQ hθ hi hj hp x (entries_lt hx) hr⟩

end

/-! ## A Poisson model and the third-moment model of C117 at the confidence level 0.95

Backgrounds 50 and 60, data 55 and 58, signal yields 5 and 2, in both. -/

/-- The library of `exMatrix`. -/
noncomputable def exExt : Ext := ⟨fun _ => 0, fun _ => [[2, -1], [-1, 2]], fun _ => 0⟩

theorem exMixed (draw : Vec × List Vec → ℕ → List Vec) : ∃ (m : ℕ → Backend.Model) (P : ℕ → Part) (lo : ℕ → ℝ) (bin : ℕ → ℕ → ℝ → ℝ) (pen : ℕ → (ℕ → ℝ) → ℝ),
    (∀ i < 2, Described exExt .observed (m i) (P i) (lo i) (if i = 0 then 1 else 3)) ∧ (∀ i < 2, Counts exExt.gammaln (P i) 2 (at' [5, 2]) (bin i) (pen i)) ∧
    (∀ i < 2, Admissible 2 (bin i) fun _ => 0) ∧ ((P 1).data 0 = 55) ∧ (∑ i ∈ Finset.range 2, misfit 2 (bin i) (pen i) (P i).data (fun _ => 0) ≤ 2) ∧
    ∀ s, All 2 (fun i => if i = 0 then 1 else 3) s →
      (guess (members 2 (fun i => if i = 0 then "a" else "b") perfect noInverse exExt draw m true (.int 100) (fun _ _ => true) fun _ _ => nan) .observed s).1 = .ok (fin 0) := by
  obtain ⟨m0, h0⟩ := Backend.poisson_accepts (exCounts.map Bin.s) (exCounts.map Bin.b) (exCounts.map Bin.d) (by simp)
  obtain ⟨m1, lo1, pen, h1⟩ := exMatrix
  obtain ⟨y1, y2, y3, -⟩ := ex_yields
  have hct : Counting (argsOf exCounts) m0 (exCounts.map Bin.s) := ⟨h0, argsOf_fits _, rfl, rfl, rfl, rfl, ⟨0, by simp [argsOf, exCounts], by simp [exCounts, at']⟩, fun i hi => by
    have hi : i < 2 := hi
    interval_cases i <;> simp [argsOf, exCounts, at']⟩
  obtain ⟨lo0, hlo⟩ : ∃ lo, m0.config.minimumPoi = fin lo := by
    obtain ⟨lo, hB⟩ := counts_single exExt draw h0 exCounts_valid
    exact ⟨lo, by simpa only [plugged, Backend.configOf, and_self, if_true] using hB.minimum true⟩
  have hd0 : ∀ i < (argsOf exCounts).data.length, 0 ≤ at' (argsOf exCounts).data i := fun i hi => by
    have hi : i < 2 := hi
    interval_cases i <;> simp [argsOf, exCounts, at']
  have c0 := counting_counts (E := exExt) (y := exCounts.map Bin.s) hct.background hd0 .observed
  have c1 := simple_counts h1 y1 .observed
  have hm0 : misfit 2 (fun i _ => at' [50, 60] i) (fun _ => 0) (at' [55, 58]) (fun _ => 0) ≤ 1 := by
    have := ex_misfit fun _ => 0
    simpa [misfit] using this
  obtain ⟨P0, d0, c0, e0⟩ : ∃ P, Described exExt .observed m0 P lo0 1 ∧ Counts exExt.gammaln P 2 (at' [5, 2]) (fun i _ => at' [50, 60] i) (fun _ => 0) ∧ P.data = at' [55, 58] :=
    ⟨_, .counting hct hlo, c0, rfl⟩
  obtain ⟨P1, d1, c1, e1⟩ : ∃ P, Described exExt .observed m1 P lo1 3 ∧ Counts exExt.gammaln P 2 (at' [5, 2]) (fun i t => at' [50, 60] i + at' [3, 4] i * t + at' [1, 2] i * t ^ 2) pen ∧
      P.data = at' [55, 58] := ⟨_, .simple h1, c1, rfl⟩
  refine ⟨fun i => if i = 0 then m0 else m1, fun i => if i = 0 then P0 else P1, fun i => if i = 0 then lo0 else lo1,
    fun i => if i = 0 then fun i _ => at' [50, 60] i else fun i t => at' [50, 60] i + at' [3, 4] i * t + at' [1, 2] i * t ^ 2, fun i => if i = 0 then fun _ => 0 else pen,
    fun i hi => ?_, fun i hi => ?_, fun i hi => ?_, ?_, ?_, fun s hs => ?_⟩
  · interval_cases i
    · exact d0
    · exact d1
  · interval_cases i
    · exact c0
    · exact c1
  · interval_cases i
    · exact hct.background
    · exact y3
  · simp [e1, at']
  · have := ex_misfit pen
    simp only [Finset.sum_range_succ, Finset.sum_range_zero, one_ne_zero, if_true, if_false, e0, e1]
    linarith
  · exact start_counts perfect_exact perfect_finds Interface.perfect_constrained draw h0 exCounts_valid (by norm_num) rfl _ true (.int 100) _ _ _ .observed hs

theorem ex_sum : ∑ i ∈ Finset.range 2, ∑ j ∈ Finset.range ((fun _ => 2 : ℕ → ℕ) i), (fun _ => at' [5, 2] : ℕ → ℕ → ℝ) i j = 14 := by
  simp [Finset.sum_range_succ, at']
  norm_num

theorem ex_pos : ∀ i < 2, ∀ j < (fun _ => 2 : ℕ → ℕ) i, 0 ≤ (fun _ => at' [5, 2] : ℕ → ℕ → ℝ) i j := by
  intro i _ j hj
  have hj : j < 2 := hj
  interval_cases j <;> simp [at']

/-- With 0.08 signal events the level is at most 0.48, and at the strength 40, with 200 in one bin, at least 0.95. -/
example (draw : Vec × List Vec → ℕ → List Vec) : ∃ (m : ℕ → Backend.Model) (M : Methods (ℕ → World)) (r r' : ℝ),
    M = combined ideal (members 2 (fun i => if i = 0 then "a" else "b") perfect noInverse exExt draw m true (.int 100) (fun _ _ => true) fun _ _ => nan) (fun _ _ => nan) ∧
    Reported (All 2 fun i => if i = 0 then 1 else 3) M .observed 0 (0.08 / 14) (fin r) ∧ r ≤ 0.48 ∧ Reported (All 2 fun i => if i = 0 then 1 else 3) M .observed 0 40 (fin r') ∧ 0.95 ≤ r' := by
  obtain ⟨m, P, lo, bin, pen, h1, h2, h3, h4, h5, h6⟩ := exMixed draw
  have hs : All 2 (fun i => if i = 0 then 1 else 3) fun i => ⟨List.replicate (if i = 0 then 1 else 3) 0, none, none⟩ := fun i _ => ⟨rfl, rfl, by simp⟩
  obtain ⟨r, k1, k2⟩ := C167_few (e := .observed) (k := fun _ => 2) (y := fun _ => at' [5, 2]) ideal_reliable perfect_exact perfect_finds Interface.perfect_constrained draw (by norm_num) h1 h2 exNames noInverse true
    (.int 100) (fun _ _ => true) (fun _ _ => rfl) (fun _ _ => nan) (fun _ _ => nan) rfl hs (h6 _ hs) ex_pos (v := 0.08 / 14) (by norm_num) rfl 0 (by simp)
  obtain ⟨r', k3, k4⟩ := C167_many (e := .observed) (k := fun _ => 2) (y := fun _ => at' [5, 2]) ideal_reliable perfect_exact perfect_finds Interface.perfect_constrained draw (by norm_num) h1 h2 exNames noInverse true
    (.int 100) (fun _ _ => true) (fun _ _ => rfl) (fun _ _ => nan) (fun _ _ => nan) rfl hs (h6 _ hs) ex_excludes (v := 40) (by norm_num) (θ := fun _ _ => 0) h3 (i := 1) (by norm_num) (j := 0) (by norm_num)
    (by
      have e : at' ([5, 2] : Vec) 0 = 5 := by simp [at']
      rw [h4, e]
      linarith) 0 (by simp)
  refine ⟨m, _, r, r', rfl, (k1 _).mpr rfl, ?_, (k3 _).mpr rfl, k4⟩
  rw [ex_sum] at k2
  have : √(2 * (0.08 / 14 * 14)) = (0.4 : ℝ) := by rw [show (2 * (0.08 / 14 * 14) : ℝ) = 0.4 ^ 2 by norm_num]; exact Real.sqrt_sq (by norm_num)
  rw [if_pos rfl, this] at k2
  linarith

/-- The upper limit exists. It is at most 29, and at least 0.0175, up to the tolerance. -/
example (draw : Vec × List Vec → ℕ → List Vec) : ∃ (m : ℕ → Backend.Model) (M : Methods (ℕ → World)) (mu : ℝ) (f : ℕ),
    M = combined ideal (members 2 (fun i => if i = 0 then "a" else "b") perfect noInverse exExt draw m true (.int 100) (fun _ _ => true) fun _ _ => nan) (fun _ _ => nan) ∧
    Ends (All 2 fun i => if i = 0 then 1 else 3) (poiUpperLimit f (bisection 1e-3) M (fun e v => sigmaMu M none (.float v) e "qtilde") true .observed 0.95 (some 1) (some 2) .nominal)
      (.ok (some (.one (fin mu)))) ∧ mu ≤ 29 + 1e-3 ∧ 0.0175 ≤ mu + 1e-3 := by
  obtain ⟨m, P, lo, bin, pen, h1, h2, h3, h4, h5, h6⟩ := exMixed draw
  have hs : All 2 (fun i => if i = 0 then 1 else 3) fun i => ⟨List.replicate (if i = 0 then 1 else 3) 0, none, none⟩ := fun i _ => ⟨rfl, rfl, by simp⟩
  have e2 : at' ([5, 2] : Vec) 0 = 5 := by simp [at']
  obtain ⟨L, k1, k2, f, k3⟩ := C167_exists (e := .observed) (k := fun _ => 2) (y := fun _ => at' [5, 2]) ideal_reliable perfect_exact perfect_finds Interface.perfect_constrained draw (by norm_num) h1 h2 exNames noInverse
    true (.int 100) (fun _ _ => true) (fun _ _ => rfl) (fun _ _ => nan) (fun _ _ => nan) rfl hs (h6 _ hs) 0.95 (bisection 1e-3) (bisection_stays _) (fun _ => 1e-3) (bisection_sound (by norm_num)) .nominal ex_pos
    ex_excludes (θ := fun _ _ => 0) h3 (i := 1) (by norm_num) (j := 0) (by norm_num) (by rw [e2]; norm_num) (bisection_succeeds (by norm_num)) 1 2 (by norm_num) (by norm_num)
    (by norm_num) (by simp) (.inl (by norm_num))
    (by
      rw [ex_sum, if_pos rfl]
      have : √(2 * (1e-10 * 14)) ≤ (0.5 : ℝ) := Real.sqrt_le_iff.mpr ⟨by norm_num, by norm_num⟩
      linarith)
    (by rw [h4, e2]; linarith)
  cases L with
  | one x =>
    cases k2 with
    | cons k k' =>
      obtain ⟨mu, rfl, -, k4, k5⟩ := k
      refine ⟨m, _, mu, f, rfl, k3 f le_rfl, ?_, ?_⟩
      · refine k4.trans ?_
        rw [h4, e2]
        have : (25 + 2 * 55 + 5 * ∑ i ∈ Finset.range 2, misfit 2 (bin i) (pen i) (P i).data (fun _ => 0)) / 5 ≤ 29 := by
          rw [div_le_iff₀ (by norm_num)]
          linarith
        linarith [max_le (by norm_num : (10 : ℝ) ≤ 29) this]
      · rw [ex_sum, if_pos rfl] at k5
        by_contra hn
        push Not at hn
        have h6 : (mu + 1e-3) * 14 ≤ 0.245 := by linarith
        have h7 : √(2 * ((mu + 1e-3) * 14)) ≤ 0.701 := (Real.sqrt_le_sqrt (mul_le_mul_of_nonneg_left h6 zero_le_two)).trans (Real.sqrt_le_iff.mpr ⟨by norm_num, by norm_num⟩)
        linarith
  | many l => exact absurd k1 (by simp [Limit.Shaped, Entries])

end Verif.Reach
