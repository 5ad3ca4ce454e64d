import Verif.Uncorrelated.Props
import Verif.Uncorrelated.Order

/-!
# C149 to C151: larger strengths, more events, larger uncertainties
-/

namespace Verif.Uncorrelated
open Verif.Py F Verif.Config Verif.Optimizer Verif.Hypotest Verif.Chain
open Verif.Interface (Data World Size Plain Solver perfect)
open Verif.Backend (Ext Vec Args Built at' poissonLog stdLog)
open Verif.Stats (Expect Calc Levels levelsOf NotAbove)

section
variable {S S' : Solver} (hS : Exact S) (hT : Finds S) (hC : Interface.Constrained S) (hS' : Exact S') (hT' : Finds S') (hC' : Interface.Constrained S') {E : Ext}
  (draw draw' : Vec × List Vec → ℕ → List Vec) {bins bins' : List Bin} {m m' : Backend.Model} {N N' : ℕ} (h : Describes bins m N) (hv : Valid bins)
  (h' : Describes bins' m' N') (hv' : Valid bins') (g g' : Bool) (ntoys ntoys' : Size) (available : Calc → Bool) (percentile percentile' : List F → F → F)
include hS hT hC hS' hT' hC' h hv

/-- C149. A larger signal strength is excluded at least as strongly, observed and expected, whatever calls were made in between: `exclusion_confidence_level` never decreases with the strength. -/
theorem C149_levels (hav : available .asymptotic = true) (e : Expect) {mu mu' : Mu} {v v' : ℝ} (hmu : mu.Is v) (hmu' : mu'.Is v') (hv0 : 0 ≤ v) (hvv : v ≤ v') :
    ∃ L L', NotAbove L L' ∧ ∀ w w', Plain N w → Plain N w' →
      (exclusion (modelMethods S (plugged E draw m) g none ntoys available percentile) mu e false .asymptotic w).1 = .ok L ∧
      (exclusion (modelMethods S' (plugged E draw' m) g' none ntoys' available percentile') mu' e false .asymptotic w').1 = .ok L' := by
  obtain ⟨q, qA, a1, a2, a3⟩ := C143_levels hS hT hC (E := E) draw h hv g ntoys available percentile hav e hmu hv0
  obtain ⟨q', qA', b1, b2, b3⟩ := C143_levels hS' hT' hC' (E := E) draw' h hv g' ntoys' available percentile' hav e hmu' (hv0.trans hvv)
  exact ⟨_, _, Stats.levelsOf_mono e false (stat_nonneg a1) (stat_strength (profile_concave _ (seen_valid e hv).1) hvv a1 b1) (stat_nonneg a2)
    (stat_strength (profile_concave _ (asimov_valid 0 (seen_valid e hv)).1) hvv a2 b2), fun w w' hw hw' => ⟨a3 w hw, b3 w' hw'⟩⟩

omit hS hT hC hS' hT' hC' h hv in
theorem seen_more (e : Expect) (hd : List.Forall₂ More bins bins') : List.Forall₂ More (seen e bins) (seen e bins') := by
  unfold seen
  split
  · induction hd with
    | nil => exact .nil
    | cons ha _ ih => exact .cons ⟨ha.1, ha.2.1, ha.2.2.1, by simp [Bin.prior, ha.2.1]⟩ ih
  · exact hd

include h' hv'

/-- C150. More events, in any of the bins, never exclude a signal more strongly: no level of `exclusion_confidence_level`, observed or expected, is larger. -/
theorem C150_levels (hav : available .asymptotic = true) (hd : List.Forall₂ More bins bins') (e : Expect) {mu mu' : Mu} {v : ℝ} (hmu : mu.Is v) (hmu' : mu'.Is v) (hv0 : 0 ≤ v) :
    ∃ L L', NotAbove L' L ∧ ∀ w w', Plain N w → Plain N' w' →
      (exclusion (modelMethods S (plugged E draw m) g none ntoys available percentile) mu e false .asymptotic w).1 = .ok L ∧
      (exclusion (modelMethods S' (plugged E draw' m') g' none ntoys' available percentile') mu' e false .asymptotic w').1 = .ok L' := by
  obtain ⟨q, qA, a1, a2, a3⟩ := C143_levels hS hT hC (E := E) draw h hv g ntoys available percentile hav e hmu hv0
  obtain ⟨q', qA', b1, b2, b3⟩ := C143_levels hS' hT' hC' (E := E) draw' h' hv' g' ntoys' available percentile' hav e hmu' hv0
  have s1 := (seen_valid e hv).1
  have s2 := (asimov_valid 0 (seen_valid e hv)).1
  exact ⟨_, _, Stats.levelsOf_mono e false (stat_nonneg b1) (stat_falls (profile_concave _ s1) (profile_rises _ s1 (seen_more e hd)) a1 b1) (stat_nonneg b2)
    (stat_falls (profile_concave _ s2) (profile_rises _ s2 (more_asimov 0 s1 (seen_more e hd))) a2 b2), fun w w' hw hw' => ⟨a3 w hw, b3 w' hw'⟩⟩

/-- C150. More events never make a discovery less significant. -/
theorem C150_significance (hd : List.Forall₂ More bins bins') (e : Expect) :
    ∃ Z ZA Z' ZA', Z ≤ Z' ∧ ZA ≤ ZA' ∧ ∀ w w', Plain N w → Plain N' w' →
      (significance (modelMethods S (plugged E draw m) g none ntoys available percentile) e w).1 = .ok (Stats.discovery ZA Z) ∧
      (significance (modelMethods S' (plugged E draw' m') g' none ntoys' available percentile') e w').1 = .ok (Stats.discovery ZA' Z') := by
  obtain ⟨q, qA, a1, a2, a3⟩ := C143_significance hS hT hC (E := E) draw h hv g ntoys available percentile e
  obtain ⟨q', qA', b1, b2, b3⟩ := C143_significance hS' hT' hC' (E := E) draw' h' hv' g' ntoys' available percentile' e
  have s1 := (seen_valid e hv).1
  have s2 := (asimov_valid 1 (seen_valid e hv)).1
  exact ⟨_, _, _, _, Real.sqrt_le_sqrt (discovery_rises (profile_rises _ s1 (seen_more e hd)) a1 b1),
    Real.sqrt_le_sqrt (discovery_rises (profile_rises _ s2 (more_asimov 1 s1 (seen_more e hd))) a2 b2), fun w w' hw hw' => ⟨a3 w hw, b3 w' hw'⟩⟩

omit hS hT hC hS' hT' hC' h hv h' hv' in
theorem vaguer_prior (G : ℝ → ℝ) (hp : ∀ x ∈ bins, x.Proper) (hd : List.Forall₂ Vaguer bins bins') {u : ℝ} (hu : 0 ≤ u) :
    profile G (bins.map Bin.prior) u ≤ profile G (bins'.map Bin.prior) u ∧ profile G (bins.map Bin.prior) 0 = profile G (bins'.map Bin.prior) 0 := by
  unfold profile
  induction hd with
  | nil => simp
  | @cons a a' l l' ha hl ih =>
    obtain ⟨p1, p2, p3, p4⟩ := hp a (by simp)
    obtain ⟨h1, h2, h3, h4⟩ := ha
    obtain ⟨i1, i2⟩ := ih fun z hz => hp z (by simp [hz])
    have hb : 0 ≤ a.b := le_trans (by norm_num) p2
    have k := bin_vaguer G hb p2 p3 h4 (mul_nonneg hu p1)
    simp only [List.map_cons, List.sum_cons, Bin.prior, h1, h2, zero_mul] at i1 i2 ⊢
    refine ⟨by linarith, ?_⟩
    rw [i2]
    congr 1
    unfold binLog
    rw [fitted_prior p2, fitted_prior p2, sub_zero, sub_self, zero_div, zero_div]

/-- C151. Larger uncertainties of the backgrounds never improve the sensitivity that is expected before the measurement. -/
theorem C151_levels (hav : available .asymptotic = true) (hd : List.Forall₂ Vaguer bins bins') {mu mu' : Mu} {v : ℝ} (hmu : mu.Is v) (hmu' : mu'.Is v) (hv0 : 0 < v) :
    ∃ L L', NotAbove L' L ∧ ∀ w w', Plain N w → Plain N' w' →
      (exclusion (modelMethods S (plugged E draw m) g none ntoys available percentile) mu .apriori false .asymptotic w).1 = .ok L ∧
      (exclusion (modelMethods S' (plugged E draw' m') g' none ntoys' available percentile') mu' .apriori false .asymptotic w').1 = .ok L' := by
  obtain ⟨q, qA, a1, a2, a3⟩ := C143_levels hS hT hC (E := E) draw h hv g ntoys available percentile hav .apriori hmu hv0.le
  obtain ⟨q', qA', b1, b2, b3⟩ := C143_levels hS' hT' hC' (E := E) draw' h' hv' g' ntoys' available percentile' hav .apriori hmu' hv0.le
  obtain ⟨-, eA⟩ := C143_sensitive E.gammaln hv .apriori (.inl rfl) hv0 a2
  obtain ⟨-, eA'⟩ := C143_sensitive E.gammaln hv' .apriori (.inl rfl) hv0 b2
  obtain ⟨k1, k2⟩ := vaguer_prior E.gammaln hv.1 hd hv0.le
  refine ⟨_, _, ?_, fun w w' hw hw' => ⟨a3 w hw, b3 w' hw'⟩⟩
  show Stats.Below (Stats.expectedOf qA') (Stats.expectedOf qA)
  exact Stats.expected_sensitive (by rw [eA, eA', k2]; linarith)

end

/-- C149, for the strengths 1 and 2. -/
example (E : Ext) (draw) : ∃ m, ∃ l l' : ℝ, l ≤ l' ∧
    (exclusion (modelMethods perfect (plugged E draw m) true none (.int 100) (fun _ => true) fun _ _ => nan) (.float 1) .observed false .asymptotic
      (⟨[1, 0, 0], none, none⟩ : World)).1 = .ok (.one [fin l]) ∧
    (exclusion (modelMethods perfect (plugged E draw m) true none (.int 100) (fun _ => true) fun _ _ => nan) (.float 2) .observed false .asymptotic
      (⟨[1, 0, 0], none, none⟩ : World)).1 = .ok (.one [fin l']) := by
  obtain ⟨m, hm⟩ := uncorrelated_exists exBins
  obtain ⟨q, qA, a1, a2, a3⟩ := C143_levels perfect_exact perfect_finds Interface.perfect_constrained (E := E) draw hm exBins_valid true (.int 100) (fun _ => true)
    (fun _ _ => nan) rfl .observed (mu := .float 1) rfl zero_le_one
  obtain ⟨L, L', hl, k⟩ := C149_levels perfect_exact perfect_finds Interface.perfect_constrained perfect_exact perfect_finds Interface.perfect_constrained (E := E) draw draw hm exBins_valid
    true true (.int 100) (.int 100) (fun _ => true) (fun _ _ => nan) (fun _ _ => nan) rfl .observed (mu := .float 1) (mu' := .float 2) (v' := 2) rfl rfl zero_le_one one_le_two
  obtain ⟨q', qA', b1, b2, b3⟩ := C143_levels perfect_exact perfect_finds Interface.perfect_constrained (E := E) draw hm exBins_valid true (.int 100) (fun _ => true)
    (fun _ _ => nan) rfl .observed (mu := .float 2) rfl zero_le_two
  have hw : Plain (exBins.length + 1) (⟨[1, 0, 0], none, none⟩ : World) := ⟨rfl, rfl, rfl⟩
  obtain ⟨k1, k2⟩ := k _ _ hw hw
  have e1 := (a3 _ hw).symm.trans k1
  have e2 := (b3 _ hw).symm.trans k2
  simp only [Except.ok.injEq] at e1 e2
  subst e1 e2
  obtain ⟨x, y, hx, hy, hxy⟩ := (List.forall₂_cons.mp hl).1
  simp only [fin.injEq] at hx hy
  refine ⟨m, _, _, ?_, k1, k2⟩
  rw [hx, hy]
  exact hxy

/-- C150 and C151: three events more, and backgrounds that are known less well. -/
example : List.Forall₂ More exBins [⟨5, 50, 3, 58⟩, ⟨2, 60, 4, 58⟩] ∧ List.Forall₂ Vaguer exCounts exBins ∧ Valid [⟨5, 50, 3, 58⟩, ⟨2, 60, 4, 58⟩] := by
  refine ⟨.cons ⟨rfl, rfl, rfl, by norm_num⟩ (.cons ⟨rfl, rfl, rfl, le_rfl⟩ .nil), .cons ⟨rfl, rfl, rfl, by norm_num⟩ (.cons ⟨rfl, rfl, rfl, by norm_num⟩ .nil), fun x hx => ?_,
    ⟨5, 50, 3, 58⟩, by simp, by norm_num⟩
  simp only [List.mem_cons, List.not_mem_nil, or_false] at hx
  rcases hx with rfl | rfl <;> norm_num [Bin.Proper]

end Verif.Uncorrelated
