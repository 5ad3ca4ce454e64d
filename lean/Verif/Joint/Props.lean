import Verif.Joint.Witness

/-!
# C122: hypothesis tests of a combination

`UnCorrStatisticsCombiner` with models of spey: all fits of the tests end with the best points of the joint likelihood.
-/

namespace Verif.Joint
open Verif.Py F Verif.Hypotest Verif.Chain
open Verif.Interface (MuHat Data World Size Plain Solver perfect)
open Verif.Stats (Expect Calc)
open Verif.Backend (Ext Vec Args Fits at')

/-- The models of spey `m 0`, …, `m (n - 1)` with names `name 0`, … in a combination. -/
noncomputable def members (n : ℕ) (name : ℕ → String) (S : Solver) (inv : List (List ℝ) → Except Interface.Err (List (List ℝ))) (E : Ext) (draw : Vec × List Vec → ℕ → List Vec)
    (m : ℕ → Backend.Model) (g : Bool) (ntoys : Size) (available : ℕ → Calc → Bool) (percentile : List F → F → F) : List (Member (ℕ → World)) :=
  (List.range n).map fun i => member i (name i) S inv (plugged E draw (m i)) g ntoys (available i) percentile

/-- No two of the first `n` names are the same. -/
def Distinct (n : ℕ) (name : ℕ → String) : Prop := ∀ i < n, ∀ j < n, name i = name j → i = j

theorem Distinct.nodup {n : ℕ} {name : ℕ → String} (h : Distinct n name) : ((List.range n).map name).Nodup :=
  List.Nodup.map_on (fun i hi j hj hij => h i (List.mem_range.mp hi) j (List.mem_range.mp hj) hij) List.nodup_range

theorem members_minimum {S : Solver} (hS : Exact S) (hT : Finds S) (hC : Interface.Constrained S) {E : Ext} (draw) {e : Expect} {n : ℕ} (hn : 0 < n) {m : ℕ → Backend.Model}
    {P : ℕ → Part} {lo : ℕ → ℝ} {N : ℕ → ℕ} (h : ∀ i < n, Described E e (m i) (P i) (lo i) (N i)) (name inv g ntoys available percentile) {b : ℝ}
    (hb : IsGreatest {x | ∃ i < n, x = lo i} b) : minimumPoi (members n name S inv E draw m g ntoys available percentile) = .ok (fin b) := by
  obtain ⟨b', h1, -, h2, h3⟩ := minimum_ends hn fun i hi => (h i hi).piece hS hT hC draw hi rfl (name i) inv g ntoys (available i) percentile
  have : b' = b := le_antisymm (hb.2 h3) (by
    obtain ⟨i, hi, rfl⟩ := hb.1
    exact h2 i hi)
  rw [← this]
  exact h1

theorem members_available {n : ℕ} {name : ℕ → String} {S : Solver} {inv E draw m g ntoys percentile} {available : ℕ → Calc → Bool} {fit : Minimizer (ℕ → World)}
    {percentile' : List F → F → F} (h : ∀ i < n, available i .asymptotic = true) :
    (combined fit (members n name S inv E draw m g ntoys available percentile') percentile).available .asymptotic = true := by
  simp only [combined, members, List.all_map, List.all_eq_true, List.mem_range, Function.comp_apply]
  exact fun i hi => h i hi

/-- The significance from the fits. -/
theorem significance_fits {b bA l l0 lA l0A : ℝ} (hb : 0 ≤ b) (hbA : 0 ≤ bA) (h : l0 ≤ l) (hA : l0A ≤ lA) :
    Stats.significance (fitOf 0 b (fin (-l)) (fin (-l0)) (fin (-l0))) (fitOf 0 bA (fin (-lA)) (fin (-l0A)) (fin (-l0A))) =
      .ok (Stats.discovery (√(2 * (lA - l0A))) (√(2 * (l - l0)))) := by
  have key : ∀ b x y : ℝ, 0 ≤ b → y ≤ x → (fitOf 0 b (fin (-x)) (fin (-y)) (fin (-y))).stat Stats.q0 (fin 0) = fin (2 * (x - y)) := by
    intro b x y hb hxy
    simp only [Stats.Fit.stat, Stats.q0, fitOf, lt, not_lt.mpr hb, if_false, if_true, neg, sub, add, scale, clip0]
    exact Stats.clip_eq (by ring) (by linarith)
  exact Stats.C11_significance _ _ _ _ (by linarith) (by linarith) (key _ _ _ hb h) (key _ _ _ hbA hA)

/-! ## C122 -/

/-- C122. `exclusion_confidence_level` of a combination of models of spey, when the minimisers are exact. All its fits exist, and the level is that of the asymptotic
formulae (`Verif.Stats`) for the joint likelihood: the best signal strength `best` from zero (or the largest of the smallest strengths that the models allow) to
10, and its log-likelihood `l`; the largest log-likelihoods `lv` and `l0` at the tested strength and without signal; and the same for the Asimov data, the expected
events without signal at the nuisance parameters `θ` which are best without signal. The names of the models are different, and the starting value, the mean of the
individual results, is a number. -/
theorem C122_levels {fit : Minimizer (ℕ → World)} (hfit : Reliable fit) {S : Solver} (hS : Exact S) (hT : Finds S) (hC : Interface.Constrained S) {E : Ext} (draw)
    {e : Expect} {n : ℕ} (hn : 0 < n) {m : ℕ → Backend.Model} {P : ℕ → Part} {lo : ℕ → ℝ} {N : ℕ → ℕ} (h : ∀ i < n, Described E e (m i) (P i) (lo i) (N i))
    {name : ℕ → String} (hname : Distinct n name) (inv : List (List ℝ) → Except Interface.Err (List (List ℝ))) (g : Bool) (ntoys : Size) (available : ℕ → Calc → Bool)
    (percentile percentile' : List F → F → F) {ms : List (Member (ℕ → World))} (hms : ms = members n name S inv E draw m g ntoys available percentile')
    {s : ℕ → World} (hs : All n N s) {start : ℝ} (hstart : (guess ms e s).1 = .ok (fin start)) (negative : Bool) {mu : Mu} {v : ℝ} (hmu : mu.Is v) (hv : 0 ≤ v)
    {ok : (ℕ → ℕ → ℝ) → Prop} (hok : ok = jointOk n P) {L : (ℕ → ℕ → ℝ) → ℝ → (ℕ → ℕ → ℝ) → ℝ} (hL : L = jointLog n P) {D : ℕ → ℕ → ℝ} (hD : D = fun i => (P i).data)
    {b low : ℝ} (hb : IsGreatest {x | ∃ i < n, x = lo i} b) (hlow : low = if negative then b else 0) :
    ∃ best l lv l0 θ A bestA lA lvA l0A, GlobalMax ok (L D) low 10 best l ∧ (∃ θ', ProfileMax ok (L D) v lv θ') ∧ ProfileMax ok (L D) 0 l0 θ ∧
      (A = fun i => (P i).expected 0 (θ i)) ∧ GlobalMax ok (L A) low 10 bestA lA ∧ (∃ θ', ProfileMax ok (L A) v lvA θ') ∧ (∃ θ', ProfileMax ok (L A) 0 l0A θ') ∧
      Ends (All n N) (exclusion (combined fit ms percentile) mu e negative .asymptotic)
        ((Stats.exclusionConfidenceLevel ⟨fitOf v best (fin (-l)) (fin (-lv)) (fin (-l0)), fitOf v bestA (fin (-lA)) (fin (-lvA)) (fin (-l0A)), [], [],
          percentile, (combined fit ms percentile).available⟩ (fin v) e negative .asymptotic).mapError .stats) := by
  subst hms
  have hmin := members_minimum hS hT hC draw hn h name inv g ntoys available percentile' hb
  have hneg : Interface.mayBeNegative (if negative then "q" else "qtilde") = negative := by cases negative <;> simp [Interface.mayBeNegative]
  have hst : strength (if negative then "q" else "qtilde") = 0 := by cases negative <;> simp [strength]
  obtain ⟨best, l, lv, l0, l1, θ, bestA, lA, lvA, l0A, k1, k2, ⟨θ0, k3⟩, k4, k5, k6, k7, f1, f2⟩ :=
    joint_fits hfit hn (fun i hi => (h i hi).piece hS hT hC draw hi rfl (name i) inv g ntoys (available i) percentile') hname.nodup hs hstart hmin
      (if negative then "q" else "qtilde") hv percentile
  simp only [hneg, hst] at k1 k4 k5 k6 k7 f1
  have hl : l1 = l0 := profile_unique k4 k3
  subst hl
  subst hok hL hD hlow
  exact ⟨best, l, lv, l1, θ, _, bestA, lA, lvA, l0A, k1, k2, k4, rfl, k5, k6, k7,
    C107_levels (I := All n N) (combined fit (members n name S inv E draw m g ntoys available percentile') percentile) ⟨s, hs⟩ mu v hmu e negative .asymptotic
      best _ _ _ f1 bestA _ _ _ (fun _ => f2) [] [] [] [] (by simp) (by simp) (by simp) (by simp) (by simp)⟩

/-- The hypotheses hold for the combination of a Gaussian model and a simplified likelihood. -/
example (E : Ext) (draw) : ∃ (m : ℕ → Backend.Model) (P : ℕ → Part) (lo : ℕ → ℝ) (N : ℕ → ℕ) (best l : ℝ), GlobalMax (jointOk 2 P) (jointLog 2 P fun i => (P i).data) 0 10 best l ∧ (P 1).expected 1 (fun _ => 0) 0 = 55 ∧ N 0 = 1 ∧ N 1 = 3 ∧
    (∀ i < 2, Described E .observed (m i) (P i) (lo i) (N i)) ∧ ∃ r, Ends (All 2 N) (exclusion (combined ideal (members 2 (fun i => if i = 0 then "a" else "b") perfect noInverse E draw m true
      (.int 100) (fun _ _ => true) fun _ _ => nan) fun _ _ => nan) (.float 1) .observed false .asymptotic) (.ok (.one [r])) := by
  obtain ⟨m, P, lo, N, h, h0, h1, h2, h3⟩ := exPair E .observed draw
  have hd : Distinct 2 fun i => if i = 0 then "a" else "b" := by
    intro i hi j hj hij
    interval_cases i <;> interval_cases j <;> simp_all
  have hb : ∃ b, IsGreatest {x | ∃ i < 2, x = lo i} b := by
    obtain ⟨b, -, -, k1, i, hi, k2⟩ := minimum_ends (by norm_num) fun i hi => (h i hi).piece perfect_exact perfect_finds Interface.perfect_constrained draw hi rfl "" noInverse true
      (.int 100) (fun _ => true) fun _ _ => nan
    refine ⟨b, ⟨i, hi, k2⟩, ?_⟩
    rintro x ⟨j, hj, rfl⟩
    exact k1 j hj
  obtain ⟨b, hb⟩ := hb
  have hs : All 2 N fun i => ⟨List.replicate (N i) 0, none, none⟩ := fun i _ => ⟨rfl, rfl, by simp⟩
  obtain ⟨best, l, lv, l0, θ, A, bestA, lA, lvA, l0A, k1, -, -, -, -, -, -, hE⟩ := C122_levels ideal_reliable perfect_exact perfect_finds Interface.perfect_constrained draw
    (by norm_num) h hd noInverse true (.int 100) (fun _ _ => true) (fun _ _ => nan) (fun _ _ => nan) rfl hs (h3 _ true (.int 100) _ _ _ hs) false (mu := .float 1) rfl zero_le_one rfl rfl rfl hb rfl
  refine ⟨m, P, lo, N, best, l, by simpa using k1, h2, h0, h1, h, ?_⟩
  obtain ⟨r, hr, hw⟩ := Stats.C13_range_and_shape ⟨fitOf 1 best (fin (-l)) (fin (-lv)) (fin (-l0)), fitOf 1 bestA (fin (-lA)) (fin (-lvA)) (fin (-l0A)), [], [], fun _ _ => nan,
    (combined ideal (members 2 (fun i => if i = 0 then "a" else "b") perfect noInverse E draw m true (.int 100) (fun _ _ => true) fun _ _ => nan) fun _ _ => nan).available⟩ (fin 1)
    .observed false .asymptotic (by simp) (members_available (fit := ideal) (percentile := fun _ _ => nan) fun _ _ => rfl)
  rw [hr] at hE
  cases r with
  | one L =>
    obtain ⟨-, hL, -⟩ := hw
    obtain ⟨x, rfl⟩ := List.length_eq_one_iff.mp (hL.trans (if_pos rfl))
    exact ⟨x, hE⟩
  | both _ _ => simp [Stats.WellShaped] at hw

/-- C122. `significance` of a combination: the square root of twice the difference between the largest joint log-likelihood and the largest one without signal,
for the data and for the Asimov data, the expected events with signal strength one at the nuisance parameters `θ` which are best for this strength. -/
theorem C122_significance {fit : Minimizer (ℕ → World)} (hfit : Reliable fit) {S : Solver} (hS : Exact S) (hT : Finds S) (hC : Interface.Constrained S) {E : Ext} (draw)
    {e : Expect} {n : ℕ} (hn : 0 < n) {m : ℕ → Backend.Model} {P : ℕ → Part} {lo : ℕ → ℝ} {N : ℕ → ℕ} (h : ∀ i < n, Described E e (m i) (P i) (lo i) (N i))
    {name : ℕ → String} (hname : Distinct n name) (inv : List (List ℝ) → Except Interface.Err (List (List ℝ))) (g : Bool) (ntoys : Size) (available : ℕ → Calc → Bool)
    (percentile percentile' : List F → F → F) {ms : List (Member (ℕ → World))} (hms : ms = members n name S inv E draw m g ntoys available percentile')
    {s : ℕ → World} (hs : All n N s) {start : ℝ} (hstart : (guess ms e s).1 = .ok (fin start))
    {ok : (ℕ → ℕ → ℝ) → Prop} (hok : ok = jointOk n P) {L : (ℕ → ℕ → ℝ) → ℝ → (ℕ → ℕ → ℝ) → ℝ} (hL : L = jointLog n P) {D : ℕ → ℕ → ℝ} (hD : D = fun i => (P i).data) :
    ∃ best l l0 l1 θ A bestA lA l0A, GlobalMax ok (L D) 0 10 best l ∧ (∃ θ', ProfileMax ok (L D) 0 l0 θ') ∧ ProfileMax ok (L D) 1 l1 θ ∧
      (A = fun i => (P i).expected 1 (θ i)) ∧ GlobalMax ok (L A) 0 10 bestA lA ∧ (∃ θ', ProfileMax ok (L A) 0 l0A θ') ∧
      Ends (All n N) (significance (combined fit ms percentile) e) (.ok (Stats.discovery (√(2 * (lA - l0A))) (√(2 * (l - l0))))) := by
  subst hms
  obtain ⟨b, hmin, -⟩ := minimum_ends hn fun i hi => (h i hi).piece hS hT hC draw hi rfl (name i) inv g ntoys (available i) percentile'
  have hneg : Interface.mayBeNegative "q0" = false := by simp [Interface.mayBeNegative]
  have hst : strength "q0" = 1 := by simp [strength]
  obtain ⟨best, l, lv, l0, l1, θ, bestA, lA, lvA, l0A, k1, -, ⟨θ0, k3⟩, k4, k5, -, ⟨θA, k7⟩, f1, f2⟩ :=
    joint_fits hfit hn (fun i hi => (h i hi).piece hS hT hC draw hi rfl (name i) inv g ntoys (available i) percentile') hname.nodup hs hstart hmin
      "q0" le_rfl percentile
  simp only [hneg, hst, Bool.false_eq_true, if_false] at k1 k4 k5 k7 f1
  have h1 : l0 ≤ l := by rw [k3.2.1]; exact k1.2.2.2 0 _ le_rfl (by norm_num) k3.1
  have h2 : l0A ≤ lA := by rw [k7.2.1]; exact k5.2.2.2 0 _ le_rfl (by norm_num) k7.1
  have hsig := C107_significance (combined fit (members n name S inv E draw m g ntoys available percentile') percentile) ⟨s, hs⟩ e _ _ _ ⟨f1.best, f1.null, f1.null⟩ _ _ _
    ⟨f2.best, f2.null, f2.null⟩
  subst hok hL hD
  refine ⟨best, l, l0, l1, θ, _, bestA, lA, l0A, k1, ⟨_, k3⟩, k4, rfl, k5, ⟨_, k7⟩, ?_⟩
  have hp := significance_fits k1.1 k5.1 h1 h2
  rw [hp] at hsig
  exact hsig

example (E : Ext) (draw) : ∃ (m : ℕ → Backend.Model) (P : ℕ → Part) (N : ℕ → ℕ) (best l : ℝ) (A : ℕ → ℕ → ℝ) (bestA lA : ℝ), GlobalMax (jointOk 2 P) (jointLog 2 P fun i => (P i).data) 0 10 best l ∧
    GlobalMax (jointOk 2 P) (jointLog 2 P A) 0 10 bestA lA ∧ N 0 = 1 ∧ N 1 = 3 ∧ (P 1).expected 1 (fun _ => 0) 0 = 55 ∧ ∃ z zA, Ends (All 2 N) (significance (combined ideal
      (members 2 (fun i => if i = 0 then "a" else "b") perfect noInverse E draw m true (.int 100) (fun _ _ => true) fun _ _ => nan) fun _ _ => nan) .observed)
      (.ok (Stats.discovery zA z)) := by
  obtain ⟨m, P, lo, N, h, h0, h1, h2, h3⟩ := exPair E .observed draw
  have hd : Distinct 2 fun i => if i = 0 then "a" else "b" := by
    intro i hi j hj hij
    interval_cases i <;> interval_cases j <;> simp_all
  have hs : All 2 N fun i => ⟨List.replicate (N i) 0, none, none⟩ := fun i _ => ⟨rfl, rfl, by simp⟩
  obtain ⟨best, l, l0, l1, θ, A, bestA, lA, l0A, k1, -, -, -, k2, -, hE⟩ := C122_significance ideal_reliable perfect_exact perfect_finds Interface.perfect_constrained draw
    (by norm_num) h hd noInverse true (.int 100) (fun _ _ => true) (fun _ _ => nan) (fun _ _ => nan) rfl hs (h3 _ true (.int 100) _ _ _ hs) rfl rfl rfl
  exact ⟨m, P, N, best, l, A, bestA, lA, k1, k2, h0, h1, h2, _, _, hE⟩

end Verif.Joint
