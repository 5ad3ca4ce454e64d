import Verif.Uncorrelated.Combined
import Verif.Joint.Witness

/-!
# C154: combining models is joining their bins
-/

namespace Verif.Uncorrelated
open Verif.Py F Verif.Config Verif.Optimizer Verif.Hypotest Verif.Chain Verif.Joint
open Verif.Interface (World Size Plain Solver perfect)
open Verif.Backend (Ext Vec Args at')
open Verif.Stats (Expect Calc Levels)

section
variable {S : Solver} (hS : Exact S) (hT : Finds S) (hC : Interface.Constrained S) {fit : Minimizer (ℕ → World)} (hfit : Reliable fit) {E : Ext} (draw) {n : ℕ} (hn : 0 < n)
  {bins : ℕ → List Bin} {m : ℕ → Backend.Model} {N : ℕ → ℕ} (h : ∀ i < n, Describes (bins i) (m i) (N i)) (hv : ∀ i < n, Valid (bins i))
  {name : ℕ → String} (hname : Distinct n name) (inv : List (List ℝ) → Except Interface.Err (List (List ℝ))) (g : Bool) (ntoys : Size) {available : ℕ → Calc → Bool}
  (hav : ∀ i < n, available i .asymptotic = true) (percentile percentile' : List F → F → F) {ms : List (Member (ℕ → World))}
  (hms : ms = members n name S inv E draw m g ntoys available percentile') {e : Expect} {s : ℕ → World} (hs : All n N s) {start : ℝ} (hstart : (guess ms e s).1 = .ok (fin start))
  {S' : Solver} (hS' : Exact S') (hT' : Finds S') (hC' : Interface.Constrained S') (draw') {bins' : List Bin} {m' : Backend.Model} {N' : ℕ} (h' : Describes bins' m' N') (hv' : Valid bins')
  (g' : Bool) (ntoys' : Size) {available' : Calc → Bool} (hav' : available' .asymptotic = true) (percentile'' : List F → F → F)
  (hp : ((List.range n).flatMap bins).Perm bins') {w : World} (hw : Plain N' w)
include hS hT hC hfit hn h hv hname hms hs hstart hS' hT' hC' h' hv' hp hw

include hav hav' in
/-- C154. A combination (`UnCorrStatisticsCombiner`) of the models `default_pdf.poisson` (without uncertainties) and `default_pdf.uncorrelated_background` gives the same levels as the one model
whose bins are the bins of all of them, in any order: `exclusion_confidence_level` returns the same numbers for all signal strengths and expectations. So it does not matter how bins are
distributed over models, nor in which order models are combined. The minimisers are exact, the names of the models differ, and the starting value of the combination is a number. -/
theorem C154_levels {mu mu' : Mu} {v : ℝ} (hmu : mu.Is v) (hmu' : mu'.Is v) (hv0 : 0 ≤ v) :
    Ends (All n N) (exclusion (combined fit ms percentile) mu e false .asymptotic)
      (exclusion (modelMethods S' (plugged E draw' m') g' none ntoys' available' percentile'') mu' e false .asymptotic w).1 := by
  obtain ⟨q, qA, h1, h2, h3⟩ := combined_levels hS hT hC hfit draw hn h hv hname inv g ntoys percentile percentile' hms hs hstart hmu hv0
  obtain ⟨q', qA', h1', h2', h3'⟩ := levels hS' hT' hC' (E := E) draw' g' ntoys' available' percentile'' h' hv' e hmu' hv0
  have e1 : q = q' := stat_unique (profile_concave _ (seen_valid e hv').1) (stat_shift hv0 (fun _ _ => profile_perm _ (seen_perm e hp) _) h1) h1'
  have e2 : qA = qA' := stat_unique (profile_concave _ (asimov_valid 0 (seen_valid e hv')).1) (stat_shift hv0 (fun _ _ => profile_perm _ ((seen_perm e hp).map _) _) h2) h2'
  rw [h3' w hw, ← e1, ← e2, hav']
  subst hms
  rw [members_available hav] at h3
  exact h3

/-- C154, for the significance of the combination. -/
theorem C154_significance : Ends (All n N) (significance (combined fit ms percentile) e)
    (significance (modelMethods S' (plugged E draw' m') g' none ntoys' available' percentile'') e w).1 := by
  obtain ⟨q, qA, h1, h2, h3⟩ := combined_significance hS hT hC hfit draw hn h hv hname inv g ntoys percentile percentile' hms hs hstart
  obtain ⟨q', qA', h1', h2', h3'⟩ := discoveries hS' hT' hC' (E := E) draw' g' ntoys' available' percentile'' h' hv' e
  have e1 : q = q' := discovery_unique (discovery_shift (fun _ _ => profile_perm _ (seen_perm e hp) _) h1) h1'
  have e2 : qA = qA' := discovery_unique (discovery_shift (fun _ _ => profile_perm _ ((seen_perm e hp).map _) _) h2) h2'
  rw [h3' w hw, ← e1, ← e2]
  exact h3

end

/-- The starting value is a number if the first model has no uncertainties and the library cannot invert matrices (the individual fits raise, and it is zero). -/
theorem start_counts {S : Solver} (hS : Exact S) (hT : Finds S) (hC : Interface.Constrained S) {E : Ext} (draw) {bins : List Bin} {m : Backend.Model}
    (h : Backend.poisson (bins.map Bin.s) (bins.map Bin.b) (bins.map Bin.d) none = .ok m) (hv : Valid bins) {n : ℕ} (hn : 0 < n) {N : ℕ → ℕ} (hN : N 0 = 1) (name : String) (g : Bool) (ntoys : Size)
    (available : Calc → Bool) (percentile : List F → F → F) (l : List (Member (ℕ → World))) (e : Expect) {s : ℕ → World} (hs : All n N s) :
    (guess (member 0 name S noInverse (plugged E draw m) g ntoys available percentile :: l) e s).1 = .ok (fin 0) := by
  have hf := argsOf_fits bins
  have hB : Backend.Built (argsOf bins) m := .poisson _ none ⟨rfl, rfl, rfl, rfl⟩ h
  obtain ⟨-, -, h3⟩ := Backend.C52_minimum _ m hB hf _ rfl
  obtain ⟨lo, h4, -, h5⟩ := h3 (signal_index hv)
  obtain ⟨lo', hB'⟩ := counts_single E draw h hv
  have : lo = lo' := by
    have := hB'.minimum true
    simp only [plugged, Backend.configOf, and_self, if_true, h4, fin.injEq] at this
    exact this
  subst this
  have hlo : lo ≤ 0 := by
    by_contra hlt
    obtain ⟨j, hj, -, k7⟩ := h5 0 (not_le.mp hlt)
    rw [argsOf_length] at hj
    have : 0 ≤ at' (argsOf bins).background j := by
      show 0 ≤ at' (bins.map Bin.b) j
      rw [at_map _ hj]
      exact le_trans (by norm_num) (hv.1 _ (bin_mem hj)).2.1
    linarith
  obtain ⟨mu, r, k1, -, k3⟩ := single_fit hS hT hC hB' hlo (counts_continuous E.gammaln (seen e bins)) (counts_none E draw h e) g ntoys available percentile
  exact start_single hS hT hB' (counts_none E draw h e) (H := fun x => match Backend.hessianLogpdf E m (expectation e) none x with
    | .ok h => h
    | .error _ => []) rfl g ntoys available percentile k1 k3 hn hN name l hs

/-- Two models of two bins each, one without and one with uncertainties, and the model of the four bins in another order. -/
def exParts (i : ℕ) : List Bin := if i = 0 then exCounts else exBins
def exAll : List Bin := exBins ++ exCounts

theorem exParts_valid (i : ℕ) : Valid (exParts i) := by
  unfold exParts
  split
  · exact exCounts_valid
  · exact exBins_valid

theorem exAll_valid : Valid exAll := by
  refine ⟨fun x hx => ?_, ?_⟩
  · rcases List.mem_append.mp hx with h | h
    · exact exBins_valid.1 x h
    · exact exCounts_valid.1 x h
  · obtain ⟨x, hx, h0⟩ := exBins_valid.2
    exact ⟨x, List.mem_append_left _ hx, h0⟩

theorem exPerm : ((List.range 2).flatMap exParts).Perm exAll := by
  have : (List.range 2).flatMap exParts = exCounts ++ exBins := by simp [List.range_succ, exParts]
  rw [this]
  exact List.perm_append_comm

/-- The two models as a combination, whose starting value is zero. -/
theorem exTwo (E : Ext) (draw) (e : Expect) : ∃ (m : ℕ → Backend.Model) (N : ℕ → ℕ), (∀ i < 2, Describes (exParts i) (m i) (N i)) ∧ N 0 = 1 ∧ N 1 = 3 ∧ ∀ s, All 2 N s →
    (guess (members 2 (fun i => if i = 0 then "a" else "b") perfect noInverse E draw m true (.int 100) (fun _ _ => true) fun _ _ => nan) e s).1 = .ok (fin 0) := by
  obtain ⟨m0, h0⟩ := Backend.poisson_accepts (exCounts.map Bin.s) (exCounts.map Bin.b) (exCounts.map Bin.d) (by simp)
  obtain ⟨m1, h1⟩ := uncorrelated_exists exBins
  refine ⟨fun i => if i = 0 then m0 else m1, fun i => if i = 0 then 1 else 3, fun i hi => ?_, rfl, rfl, fun s hs => ?_⟩
  · interval_cases i
    · exact .poisson h0 exCounts_sigma
    · exact h1
  · exact start_counts perfect_exact perfect_finds Interface.perfect_constrained draw h0 exCounts_valid (by norm_num) rfl _ true (.int 100) _ _ _ e hs

theorem exNames : Distinct 2 fun i => if i = 0 then "a" else "b" := by
  intro i hi j hj hij
  interval_cases i <;> interval_cases j <;> simp_all

/-- The model of the four bins has five parameters, those of the parts one and three. -/
example (E : Ext) (draw) (e : Expect) : ∃ m m' N, N 0 = 1 ∧ N 1 = 3 ∧ Ends (All 2 N) (exclusion (combined ideal (members 2 (fun i => if i = 0 then "a" else "b") perfect noInverse E draw m true (.int 100)
    (fun _ _ => true) fun _ _ => nan) fun _ _ => nan) (.float 2) e false .asymptotic) (exclusion (modelMethods perfect (plugged E draw m') true none (.int 100) (fun _ => true) fun _ _ => nan)
      (.float 2) e false .asymptotic ⟨[1, 0, 0, 0, 0], none, none⟩).1 := by
  obtain ⟨m, N, h1, h2, h3, h4⟩ := exTwo E draw e
  obtain ⟨m', h'⟩ := uncorrelated_exists exAll
  have hs : All 2 N fun i => ⟨List.replicate (N i) 0, none, none⟩ := fun i _ => ⟨rfl, rfl, by simp⟩
  exact ⟨m, m', N, h2, h3, C154_levels perfect_exact perfect_finds Interface.perfect_constrained ideal_reliable draw (by norm_num) h1 (fun i _ => exParts_valid i) exNames noInverse true (.int 100)
    (fun _ _ => rfl) _ _ rfl hs (h4 _ hs) perfect_exact perfect_finds Interface.perfect_constrained draw h' exAll_valid true (.int 100) rfl _ exPerm ⟨rfl, rfl, rfl⟩ rfl rfl zero_le_two⟩

example (E : Ext) (draw) (e : Expect) : ∃ m m' N, N 0 = 1 ∧ N 1 = 3 ∧ Ends (All 2 N) (significance (combined ideal (members 2 (fun i => if i = 0 then "a" else "b") perfect noInverse E draw m true (.int 100)
    (fun _ _ => true) fun _ _ => nan) fun _ _ => nan) e) (significance (modelMethods perfect (plugged E draw m') true none (.int 100) (fun _ => true) fun _ _ => nan)
      e ⟨[1, 0, 0, 0, 0], none, none⟩).1 := by
  obtain ⟨m, N, h1, h2, h3, h4⟩ := exTwo E draw e
  obtain ⟨m', h'⟩ := uncorrelated_exists exAll
  have hs : All 2 N fun i => ⟨List.replicate (N i) 0, none, none⟩ := fun i _ => ⟨rfl, rfl, by simp⟩
  exact ⟨m, m', N, h2, h3, C154_significance perfect_exact perfect_finds Interface.perfect_constrained ideal_reliable draw (by norm_num) h1 (fun i _ => exParts_valid i) exNames noInverse true (.int 100)
    _ _ rfl hs (h4 _ hs) perfect_exact perfect_finds Interface.perfect_constrained draw h' exAll_valid true (.int 100) _ exPerm ⟨rfl, rfl, rfl⟩⟩

end Verif.Uncorrelated
