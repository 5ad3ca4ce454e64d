import Verif.Uncorrelated.CombinedLimitProps

/-!
# C181: more bins, more models
-/

namespace Verif.Uncorrelated
open Verif.Py F Verif.Config Verif.Optimizer Verif.Hypotest Verif.Chain Verif.Joint
open Verif.Interface (Data World Size Plain Solver StartFree perfect)
open Verif.Backend (Ext Vec Args Built at' poissonLog stdLog)
open Verif.Stats (Expect Calc Levels levelsOf observedOf NotAbove)
open Verif.UpperLimit (Expected Band Limit Entries Sound Reaches)

/-- The second list has all bins of the first, and perhaps others, in any order. -/
def Within (bins bins' : List Bin) : Prop := ∃ extra, (bins ++ extra).Perm bins'

/-- Without data, signals never fit better than none. -/
theorem prior_falls (G : ℝ → ℝ) {l : List Bin} (hl : ∀ x ∈ l, x.Proper) {v : ℝ} (hv : 0 ≤ v) : profile G (l.map Bin.prior) v ≤ profile G (l.map Bin.prior) 0 := by
  unfold profile
  induction l with
  | nil => simp
  | cons x l ih =>
    obtain ⟨p1, p2, p3, -⟩ := hl x (by simp)
    have i1 := ih fun z hz => hl z (by simp [hz])
    have k1 := (prior_best G p2 p3 (mul_nonneg hv p1)).1
    simp only [List.map_cons, List.sum_cons, Bin.prior, zero_mul] at i1 ⊢
    linarith

theorem profile_append (G : ℝ → ℝ) (a b : List Bin) (v : ℝ) : profile G (a ++ b) v = profile G a v + profile G b v := by simp [profile]

/-- The Asimov statistic before the measurement grows with the bins. -/
theorem within_stat (G : ℝ → ℝ) {bins bins' : List Bin} (hv : Valid bins) (hv' : Valid bins') (hb : Within bins bins') {v qA qA' : ℝ} (h0 : 0 < v)
    (h : IsStat (profile G ((seen .apriori bins).map (Bin.asimov 0))) v qA) (h' : IsStat (profile G ((seen .apriori bins').map (Bin.asimov 0))) v qA') : qA ≤ qA' := by
  obtain ⟨-, eA⟩ := C143_sensitive G hv .apriori (.inl rfl) h0 h
  obtain ⟨-, eA'⟩ := C143_sensitive G hv' .apriori (.inl rfl) h0 h'
  obtain ⟨extra, hp⟩ := hb
  have e : ∀ u, profile G (bins'.map Bin.prior) u = profile G (bins.map Bin.prior) u + profile G (extra.map Bin.prior) u := by
    intro u
    rw [← profile_append, ← List.map_append]
    have := profile_perm G (hp.map Bin.prior) u
    linarith
  have := prior_falls G (l := extra) (fun x hx => hv'.1 x (hp.subset (List.mem_append_right _ hx))) h0.le
  rw [eA, eA', e, e]
  linarith

theorem within_weaker (G : ℝ → ℝ) {bins bins' : List Bin} (hv : Valid bins) (hv' : Valid bins') (hb : Within bins bins') (i : ℕ) : Weaker G bins' bins .apriori i 1 := by
  rintro v r r' h0 ⟨q, qA, -, a2, rfl⟩ ⟨q', qA', -, b2, rfl⟩
  rw [one_mul] at a2
  have := entry_mono .apriori le_rfl le_rfl (stat_nonneg b2) (within_stat G hv hv' hb h0 b2 a2) i (q := 0)
  exact this

section
variable {S S' : Solver} (hS : Exact S) (hT : Finds S) (hC : Interface.Constrained S) (hS' : Exact S') (hT' : Finds S') (hC' : Interface.Constrained S') {E : Ext}
  (draw draw' : Vec × List Vec → ℕ → List Vec) {bins bins' : List Bin} {m m' : Backend.Model} {N N' : ℕ} (h : Describes bins m N) (hv : Valid bins)
  (h' : Describes bins' m' N') (hv' : Valid bins') (g g' : Bool) (ntoys ntoys' : Size) (available : Calc → Bool) (hav : available .asymptotic = true) (percentile percentile' : List F → F → F)
include hS hT hC hS' hT' hC' h hv h' hv' hav

/-- C181. More bins never weaken the exclusion that is expected before the measurement: none of the five levels falls when bins are added to a model. -/
theorem C181_bins (hb : Within bins bins') {mu mu' : Mu} {v : ℝ} (hmu : mu.Is v) (hmu' : mu'.Is v) (hv0 : 0 < v) :
    ∃ L L', NotAbove L L' ∧ ∀ w w', Plain N w → Plain N' w' →
      (exclusion (modelMethods S (plugged E draw m) g none ntoys available percentile) mu .apriori false .asymptotic w).1 = .ok L ∧
      (exclusion (modelMethods S' (plugged E draw' m') g' none ntoys' available percentile') mu' .apriori false .asymptotic w').1 = .ok L' := by
  obtain ⟨q, qA, a1, a2, a3⟩ := C143_levels hS hT hC (E := E) draw h hv g ntoys available percentile hav .apriori hmu hv0.le
  obtain ⟨q', qA', b1, b2, b3⟩ := C143_levels hS' hT' hC' (E := E) draw' h' hv' g' ntoys' available percentile' hav .apriori hmu' hv0.le
  refine ⟨_, _, ?_, fun w w' hw hw' => ⟨a3 w hw, b3 w' hw'⟩⟩
  show Stats.Below (Stats.expectedOf qA) (Stats.expectedOf qA')
  exact Stats.expected_sensitive (within_stat _ hv hv' hb hv0 a2 b2)

end

section
variable {S : Solver} (hS : Exact S) (hT : Finds S) (hC : Interface.Constrained S) {fit : Minimizer (ℕ → World)} (hfit : Reliable fit) {E : Ext} (draw) {n : ℕ} (hn : 0 < n)
  {bins : ℕ → List Bin} {m : ℕ → Backend.Model} {N : ℕ → ℕ} (h : ∀ i < n, Describes (bins i) (m i) (N i)) (hv : ∀ i < n, Valid (bins i))
  {name : ℕ → String} (hname : Distinct n name) (inv : List (List ℝ) → Except Interface.Err (List (List ℝ))) (g : Bool) (ntoys : Size) {available : ℕ → Calc → Bool}
  (hav : ∀ i < n, available i .asymptotic = true) (percentile percentile' : List F → F → F) {M : Methods (ℕ → World)}
  (hM : M = combined fit (members n name S inv E draw m g ntoys available percentile') percentile)
  {e : Expected} {s : ℕ → World} (hs : All n N s) {start : ℝ} (hstart : (guess (members n name S inv E draw m g ntoys available percentile') e.toExpect s).1 = .ok (fin start))
include hS hT hC hfit hn h hv hname hav hM hs hstart

theorem combined_answer {mu : Mu} {v : ℝ} (hmu : mu.Is v) (hv0 : 0 ≤ v) : ∃ q qA, IsStat (profile E.gammaln (seen e.toExpect (together n bins))) v q ∧
    IsStat (profile E.gammaln ((seen e.toExpect (together n bins)).map (Bin.asimov 0))) v qA ∧ Ends (All n N) (exclusion M mu e.toExpect false .asymptotic) (.ok (levelsOf e.toExpect false q qA)) := by
  obtain ⟨q, qA, h1, h2, h3⟩ := combined_levels hS hT hC hfit draw hn h hv hname inv g ntoys percentile percentile' rfl hs hstart hmu hv0
  rw [members_available hav, ← hM, answer_levels e.toExpect (stat_nonneg h1) (stat_nonneg h2)] at h3
  exact ⟨q, qA, h1, h2, h3⟩

/-- C181. For a combination too, a larger signal strength is excluded at least as strongly, observed and expected. -/
theorem C181_strength {mu mu' : Mu} {v v' : ℝ} (hmu : mu.Is v) (hmu' : mu'.Is v') (hv0 : 0 ≤ v) (hvv : v ≤ v') :
    ∃ L L', NotAbove L L' ∧ Ends (All n N) (exclusion M mu e.toExpect false .asymptotic) (.ok L) ∧ Ends (All n N) (exclusion M mu' e.toExpect false .asymptotic) (.ok L') := by
  have hV := together_valid hn hv
  obtain ⟨q, qA, a1, a2, a3⟩ := combined_answer hS hT hC hfit draw hn h hv hname inv g ntoys hav percentile percentile' hM hs hstart hmu hv0
  obtain ⟨q', qA', b1, b2, b3⟩ := combined_answer hS hT hC hfit draw hn h hv hname inv g ntoys hav percentile percentile' hM hs hstart hmu' (hv0.trans hvv)
  exact ⟨_, _, Stats.levelsOf_mono e.toExpect false (stat_nonneg a1) (stat_strength (profile_concave _ (seen_valid e.toExpect hV).1) hvv a1 b1) (stat_nonneg a2)
    (stat_strength (profile_concave _ (asimov_valid 0 (seen_valid e.toExpect hV)).1) hvv a2 b2), a3, b3⟩

section
variable {S' : Solver} (hS' : Exact S') (hT' : Finds S') (hC' : Interface.Constrained S') (draw') {bins' : List Bin} {m' : Backend.Model} {N' : ℕ} (h' : Describes bins' m' N')
  (hv' : Valid bins') (g' : Bool) (ntoys' : Size) {available' : Calc → Bool} (hav' : available' .asymptotic = true) (percentile'' : List F → F → F) (he : e = .apriori)
  (hb : Within bins' ((List.range n).flatMap bins))
include hS' hT' hC' h' hv' hav' he hb

/-- C181. Combining models never weakens the exclusion that is expected before the measurement: the five levels of a combination are at least those of a model with some of its bins, for example
one of the combined models. -/
theorem C181_combination {mu mu' : Mu} {v : ℝ} (hmu : mu.Is v) (hmu' : mu'.Is v) (hv0 : 0 < v) :
    ∃ L L', NotAbove L L' ∧ Ends (All n N) (exclusion M mu e.toExpect false .asymptotic) (.ok L') ∧
      ∀ w, Plain N' w → (exclusion (modelMethods S' (plugged E draw' m') g' none ntoys' available' percentile'') mu' e.toExpect false .asymptotic w).1 = .ok L := by
  subst he
  obtain ⟨q, qA, a1, a2, a3⟩ := C143_levels hS' hT' hC' (E := E) draw' h' hv' g' ntoys' available' percentile'' hav' .apriori hmu' hv0.le
  obtain ⟨q', qA', b1, b2, b3⟩ := combined_answer hS hT hC hfit draw hn h hv hname inv g ntoys hav percentile percentile' hM hs hstart hmu hv0.le
  refine ⟨_, _, ?_, b3, a3⟩
  show Stats.Below (Stats.expectedOf qA) (Stats.expectedOf qA')
  exact Stats.expected_sensitive (within_stat _ hv' (together_valid hn hv) hb hv0 a2 b2)

/-- C181. The upper limits that are expected before the measurement are never higher for a combination than for a model with some of its bins, up to the tolerances of the root finders (each entry
that is finite in both). -/
theorem C181_limit (hF' : StartFree S') (fuel : ℕ) (T : Finder) (hstay : T.Stays) (tol : ℝ → ℝ) (hsound : Sound tol T.solver) (CL : ℝ) (h0 : 0 < CL) (low hig : Option ℝ)
    (hlow : low = none ∨ hig = none ∨ ∃ a b, low = some a ∧ hig = some b ∧ 1e-10 ≤ a ∧ 0 ≤ b) (band : Band) {s₀ : ℕ → World} (hs₀ : All n N s₀) (L : Limit)
    (hr : (poiUpperLimit fuel T M (fun e v => sigmaMu M none (.float v) e "qtilde") true e CL low hig band s₀).1 = .ok (some L))
    (inv' : List (List ℝ) → Except Interface.Err (List (List ℝ))) (fuel' : ℕ) (T' : Finder) (tol' : ℝ → ℝ) (hsound' : Sound tol' T'.solver)
    (low' hig' : Option ℝ) (hlow' : low' = none ∨ hig' = none ∨ ∃ z, low' = some z ∧ 1e-10 ≤ z) (w' w₁' : World) (hw' : Plain N' w') (L' : Limit)
    (hr' : poiUpperLimit fuel' T' (modelMethods S' (plugged E draw' m') g' none ntoys' available' percentile'') (modelSigma S' inv' (plugged E draw' m') g' ntoys' available' percentile'') true e CL
      low' hig' band w' = (.ok (some L'), w₁')) : Higher tol tol' 1 L.values L'.values := by
  have a := combined_separates hS hT hC hfit draw hn h hv hname inv g ntoys hav percentile percentile' hM hs hstart fuel T hstay tol hsound CL low hig hlow band hs₀ L hr
  have b := model_separates hF' hS' hT' hC' draw' h' hv' g' ntoys' available' hav' percentile'' inv' fuel' T' tol' hsound' low' hig' hlow' w' w₁' hw' L' e CL band hr'
  subst he
  exact all_order (together_valid hn hv) one_pos h0 (fun i => within_weaker _ hv' (together_valid hn hv) hb i) a b

end

section
variable {bins₂ : ℕ → List Bin} {m₂ : ℕ → Backend.Model} {N₂ : ℕ → ℕ} (h₂ : ∀ i < n, Describes (bins₂ i) (m₂ i) (N₂ i)) (hv₂ : ∀ i < n, Valid (bins₂ i)) {M₂ : Methods (ℕ → World)}
  (hM₂ : M₂ = combined fit (members n name S inv E draw m₂ g ntoys available percentile') percentile) {s₂ : ℕ → World} (hs₂ : All n N₂ s₂) {start₂ : ℝ}
  (hstart₂ : (guess (members n name S inv E draw m₂ g ntoys available percentile') e.toExpect s₂).1 = .ok (fin start₂))
include h₂ hv₂ hM₂ hs₂ hstart₂

/-- C181. More events, in any bins of any of the combined models, never strengthen the exclusion by the combination. -/
theorem C181_data (hd : ∀ i < n, List.Forall₂ More (bins i) (bins₂ i)) {mu mu' : Mu} {v : ℝ} (hmu : mu.Is v) (hmu' : mu'.Is v) (hv0 : 0 ≤ v) :
    ∃ L L', NotAbove L' L ∧ Ends (All n N) (exclusion M mu e.toExpect false .asymptotic) (.ok L) ∧ Ends (All n N₂) (exclusion M₂ mu' e.toExpect false .asymptotic) (.ok L') := by
  have hV := together_valid hn hv
  have hd' : List.Forall₂ More (together n bins) (together n bins₂) := by
    clear h hv hname hav hM hs hstart h₂ hv₂ hM₂ hs₂ hstart₂ hV hn
    induction n with
    | zero => exact .nil
    | succ n ih =>
      rw [together_succ, together_succ]
      exact List.rel_append (ih fun i hi => hd i (by omega)) (hd n (by omega))
  obtain ⟨q, qA, a1, a2, a3⟩ := combined_answer hS hT hC hfit draw hn h hv hname inv g ntoys hav percentile percentile' hM hs hstart hmu hv0
  obtain ⟨q', qA', b1, b2, b3⟩ := combined_answer hS hT hC hfit draw hn h₂ hv₂ hname inv g ntoys hav percentile percentile' hM₂ hs₂ hstart₂ hmu' hv0
  have s1 := (seen_valid e.toExpect hV).1
  have s2 := (asimov_valid 0 (seen_valid e.toExpect hV)).1
  exact ⟨_, _, Stats.levelsOf_mono e.toExpect false (stat_nonneg b1) (stat_falls (profile_concave _ s1) (profile_rises _ s1 (seen_more e.toExpect hd')) a1 b1) (stat_nonneg b2)
    (stat_falls (profile_concave _ s2) (profile_rises _ s2 (more_asimov 0 s1 (seen_more e.toExpect hd'))) a2 b2), a3, b3⟩

end

end

/-- Each of the two models of `exTwo` has some of the bins of the combination. -/
theorem exWithin (i : ℕ) (hi : i < 2) : Within (exParts i) ((List.range 2).flatMap exParts) := by
  have : (List.range 2).flatMap exParts = exCounts ++ exBins := by simp [List.range_succ, exParts]
  rw [this]
  interval_cases i
  · exact ⟨exBins, List.Perm.refl _⟩
  · exact ⟨exCounts, List.perm_append_comm⟩

example (E : Ext) (draw) : ∃ m m' L L', NotAbove L L' ∧
    (exclusion (modelMethods perfect (plugged E draw m) true none (.int 100) (fun _ => true) fun _ _ => nan) (.float 1) .apriori false .asymptotic (⟨[1, 0, 0], none, none⟩ : World)).1 = .ok L ∧
    (exclusion (modelMethods perfect (plugged E draw m') true none (.int 100) (fun _ => true) fun _ _ => nan) (.float 1) .apriori false .asymptotic (⟨[1, 0, 0, 0, 0], none, none⟩ : World)).1 = .ok L' := by
  obtain ⟨m, h⟩ := uncorrelated_exists exBins
  obtain ⟨m', h'⟩ := uncorrelated_exists exAll
  obtain ⟨L, L', h1, h2⟩ := C181_bins perfect_exact perfect_finds Interface.perfect_constrained perfect_exact perfect_finds Interface.perfect_constrained (E := E) draw draw h exBins_valid h' exAll_valid
    true true (.int 100) (.int 100) (fun _ => true) rfl (fun _ _ => nan) (fun _ _ => nan) ⟨exCounts, List.Perm.refl _⟩ (mu := .float 1) (mu' := .float 1) (v := 1) rfl rfl one_pos
  obtain ⟨h3, h4⟩ := h2 ⟨[1, 0, 0], none, none⟩ ⟨[1, 0, 0, 0, 0], none, none⟩ ⟨rfl, rfl, rfl⟩ ⟨rfl, rfl, rfl⟩
  exact ⟨m, m', L, L', h1, h3, h4⟩

/-- The combination of two models: between its levels for the strengths 1 and 2, and not below those of the second model alone. -/
example (E : Ext) (draw) : ∃ m N L L' L'', NotAbove L L' ∧ NotAbove L' L'' ∧
    (exclusion (modelMethods perfect (plugged E draw (m 1)) true none (.int 100) (fun _ => true) fun _ _ => nan) (.float 1) .apriori false .asymptotic (⟨[1, 0, 0], none, none⟩ : World)).1 = .ok L ∧
    Ends (All 2 N) (exclusion (combined ideal (members 2 (fun i => if i = 0 then "a" else "b") perfect noInverse E draw m true (.int 100) (fun _ _ => true) fun _ _ => nan) fun _ _ => nan)
      (.float 1) .apriori false .asymptotic) (.ok L') ∧
    Ends (All 2 N) (exclusion (combined ideal (members 2 (fun i => if i = 0 then "a" else "b") perfect noInverse E draw m true (.int 100) (fun _ _ => true) fun _ _ => nan) fun _ _ => nan)
      (.float 2) .apriori false .asymptotic) (.ok L'') := by
  obtain ⟨m, N, h1, h2, h3, h4⟩ := exTwo E draw .apriori
  have hs : All 2 N fun i => ⟨List.replicate (N i) 0, none, none⟩ := fun i _ => ⟨rfl, rfl, by simp⟩
  obtain ⟨L, L', a1, a2, a3⟩ := C181_combination perfect_exact perfect_finds Interface.perfect_constrained ideal_reliable draw (by norm_num) h1 (fun i _ => exParts_valid i) exNames noInverse true
    (.int 100) (available := fun _ _ => true) (fun _ _ => rfl) (fun _ _ => nan) (fun _ _ => nan) rfl (e := .apriori) hs (h4 _ hs) perfect_exact perfect_finds Interface.perfect_constrained draw
    (h1 1 (by norm_num)) (exParts_valid 1) true (.int 100) (available' := fun _ => true) rfl (fun _ _ => nan) rfl (exWithin 1 (by norm_num)) (mu := .float 1) (mu' := .float 1) (v := 1) rfl rfl one_pos
  obtain ⟨K, K', b1, b2, b3⟩ := C181_strength perfect_exact perfect_finds Interface.perfect_constrained ideal_reliable draw (by norm_num) h1 (fun i _ => exParts_valid i) exNames noInverse true
    (.int 100) (available := fun _ _ => true) (fun _ _ => rfl) (fun _ _ => nan) (fun _ _ => nan) rfl (e := .apriori) hs (h4 _ hs) (mu := .float 1) (mu' := .float 2) (v := 1) (v' := 2) rfl rfl
    zero_le_one one_le_two
  have e : K = L' := Except.ok.inj ((b2 _ hs).1.symm.trans (a2 _ hs).1)
  subst e
  exact ⟨m, N, L, K, K', a1, b1, a3 _ ⟨rfl, rfl, h3.symm⟩, b2, b3⟩

/-- The expected level of the first model for the strength 1 is reached by the combination between the strengths 1e-10 and 1. -/
theorem ex_reach {G : ℝ → ℝ} {CL r : ℝ} (hl : IsLevel G exCounts .apriori 2 1 CL) (hr : IsLevel G (together 2 exParts) .apriori 2 1e-10 r) : r ≤ CL := by
  obtain ⟨q, qA, -, a2, rfl⟩ := hl
  obtain ⟨q', qA', -, b2, rfl⟩ := hr
  have hV : Valid (together 2 exParts) := together_valid (by norm_num) fun i _ => exParts_valid i
  refine entry_mono .apriori le_rfl le_rfl (stat_nonneg b2) ?_ 2 (q := 0)
  obtain ⟨-, eA⟩ := C143_sensitive G exCounts_valid .apriori (.inl rfl) one_pos a2
  obtain ⟨-, eB⟩ := C143_sensitive G hV .apriori (.inl rfl) (by norm_num) b2
  have et : together 2 exParts = exCounts ++ exBins := by simp [together, List.range_succ, exParts]
  have vag : List.Forall₂ Vaguer exCounts exBins := .cons ⟨rfl, rfl, rfl, by norm_num⟩ (.cons ⟨rfl, rfl, rfl, by norm_num⟩ .nil)
  obtain ⟨v1, v2⟩ := vaguer_prior G exCounts_valid.1 vag (u := 1e-10) (by norm_num)
  have c := profile_concave G (bins := exCounts.map Bin.prior) (fun x hx => by
    obtain ⟨y, hy, rfl⟩ := List.mem_map.mp hx
    obtain ⟨p1, p2, p3, -⟩ := exCounts_valid.1 y hy
    exact ⟨p1, p2, p3, (by norm_num : (0 : ℝ) ≤ 1 / 10 ^ 20).trans p2⟩) 0 1 (1 - 1e-10) 1e-10 le_rfl zero_le_one (by norm_num) (by norm_num) (by norm_num)
  have f := prior_falls G exCounts_valid.1 zero_le_one
  rw [mul_zero, mul_one, _root_.zero_add] at c
  rw [eA, eB, et, List.map_append, profile_append, profile_append]
  nlinarith

/-- Finite limits of the combination and of its first model for the same level: the former is not the higher one, up to the tolerances. -/
example (E : Ext) (draw : Vec × List Vec → ℕ → List Vec) (inv : List (List ℝ) → Except Interface.Err (List (List ℝ))) : ∃ (m : ℕ → Backend.Model) (N : ℕ → ℕ)
    (M : Methods (ℕ → World)) (CL mu mu' : ℝ) (k : ℕ), N 0 = 1 ∧ N 1 = 3 ∧
    M = combined ideal (members 2 (fun i => if i = 0 then "a" else "b") perfect noInverse E draw m true (.int 100) (fun _ _ => true) fun _ _ => nan) (fun _ _ => nan) ∧
    Ends (All 2 N) (poiUpperLimit k (bisection 1e-3) M (fun e v => sigmaMu M none (.float v) e "qtilde") true .apriori CL (some 1) (some 2) .nominal) (.ok (some (.one (fin mu)))) ∧
    Ends (Plain 1) (poiUpperLimit k (bisection 1e-4) (modelMethods perfect (plugged E draw (m 0)) true none (.int 100) (fun _ => true) fun _ _ => nan)
      (modelSigma perfect inv (plugged E draw (m 0)) true (.int 100) (fun _ => true) fun _ _ => nan) true .apriori CL (some 3) (some 7) .nominal) (.ok (some (.one (fin mu')))) ∧
    mu ≤ mu' + (1e-3 + 1e-4) := by
  obtain ⟨m, N, h1, h2, h3, h4⟩ := exTwo E draw .apriori
  have hs : All 2 N fun i => ⟨List.replicate (N i) 0, none, none⟩ := fun i _ => ⟨rfl, rfl, by simp⟩
  have hw : Plain 1 (⟨List.replicate 1 0, none, none⟩ : World) := ⟨rfl, rfl, by simp⟩
  have h' : Describes exCounts (m 0) 1 := h2 ▸ h1 0 (by norm_num)
  obtain ⟨M, hM⟩ : ∃ M, M = combined ideal (members 2 (fun i => if i = 0 then "a" else "b") perfect noInverse E draw m true (.int 100) (fun _ _ => true) fun _ _ => nan) (fun _ _ => nan) := ⟨_, rfl⟩
  have hV : Valid (together 2 exParts) := together_valid (by norm_num) fun i _ => exParts_valid i
  obtain ⟨CL, hl⟩ := level_exists E exCounts_valid .apriori (i := 2) (by simp) zero_le_one
  obtain ⟨c1, c2⟩ := ex_level exCounts_valid hl
  have hi : ∀ r, IsLevel E.gammaln (together 2 exParts) .apriori 2 1e5 r → CL ≤ r := fun r hr => by
    obtain ⟨r', hr'⟩ := level_exists E hV .apriori (i := 2) (by simp) zero_le_one
    exact (within_weaker _ exCounts_valid hV (exWithin 0 (by norm_num)) 2 1 _ _ one_pos (by rwa [one_mul]) hl).trans (level_mono hV (by norm_num) hr' hr)
  obtain ⟨mu, n0, a⟩ := ex_reached draw h1 h4 hM c1 c2 (fun r hr => ex_reach hl hr) hi
  obtain ⟨mu', n0', b⟩ := ex_run draw inv h' exCounts_valid hl (low := 3) (hig := 7) (t := 1e-4) (by norm_num) (by norm_num) (by norm_num) (by norm_num)
  have ha := a (max n0 n0') (le_max_left _ _)
  have hb := b (max n0 n0') (le_max_right _ _)
  refine ⟨m, N, M, CL, mu, mu', _, h2, h3, hM, ha, hb, ?_⟩
  have sa : Sound (fun _ => 1e-3) (bisection 1e-3).solver := bisection_sound (by norm_num)
  have sb : Sound (fun _ => 1e-4) (bisection 1e-4).solver := bisection_sound (by norm_num)
  have order := C181_limit (e := .apriori) perfect_exact perfect_finds Interface.perfect_constrained ideal_reliable draw (by norm_num) h1 (fun i _ => exParts_valid i) exNames noInverse true (.int 100)
    (fun _ _ => rfl) (fun _ _ => nan) (fun _ _ => nan) hM hs (h4 _ hs) perfect_exact perfect_finds Interface.perfect_constrained draw h' exCounts_valid true (.int 100) (available' := fun _ => true)
    rfl (fun _ _ => nan) rfl (exWithin 0 (by norm_num)) Interface.perfect_free (max n0 n0') (bisection 1e-3) (bisection_stays _) (fun _ => 1e-3) sa CL c1 (some 1) (some 2)
    (.inr (.inr ⟨1, 2, rfl, rfl, by norm_num, by norm_num⟩)) .nominal hs (.one (fin mu)) (ha _ hs).1 inv (max n0 n0') (bisection 1e-4)
    (fun _ => 1e-4) sb (some 3) (some 7) (.inr (.inr ⟨3, rfl, by norm_num⟩)) _ _ hw (.one (fin mu')) (Prod.ext (hb _ hw).1 rfl)
  cases order with
  | cons k _ =>
    have := k mu mu' rfl rfl
    simpa only [one_mul] using this

/-- The second model of `exParts` with three events more in its first bin. -/
def exMore (i : ℕ) : List Bin := if i = 0 then exCounts else [⟨5, 50, 3, 58⟩, ⟨2, 60, 4, 58⟩]

theorem exMore_valid (i : ℕ) : Valid (exMore i) := by
  unfold exMore
  split
  · exact exCounts_valid
  · refine ⟨fun x hx => ?_, ⟨5, 50, 3, 58⟩, by simp, by norm_num⟩
    simp only [List.mem_cons, List.not_mem_nil, or_false] at hx
    rcases hx with rfl | rfl <;> norm_num [Bin.Proper]

theorem exMore_more (i : ℕ) : List.Forall₂ More (exParts i) (exMore i) := by
  unfold exMore exParts
  split
  · exact .cons ⟨rfl, rfl, rfl, le_rfl⟩ (.cons ⟨rfl, rfl, rfl, le_rfl⟩ .nil)
  · exact .cons ⟨rfl, rfl, rfl, by norm_num⟩ (.cons ⟨rfl, rfl, rfl, le_rfl⟩ .nil)

example (E : Ext) (draw) (e : Expected) : ∃ m N m' N' L L', (∀ i < 2, Describes (exParts i) (m i) (N i)) ∧ (∀ i < 2, Describes (exMore i) (m' i) (N' i)) ∧ NotAbove L' L ∧
    Ends (All 2 N) (exclusion (combined ideal (members 2 (fun i => if i = 0 then "a" else "b") perfect noInverse E draw m true (.int 100) (fun _ _ => true) fun _ _ => nan) fun _ _ => nan)
      (.float 1) e.toExpect false .asymptotic) (.ok L) ∧
    Ends (All 2 N') (exclusion (combined ideal (members 2 (fun i => if i = 0 then "a" else "b") perfect noInverse E draw m' true (.int 100) (fun _ _ => true) fun _ _ => nan) fun _ _ => nan)
      (.float 1) e.toExpect false .asymptotic) (.ok L') := by
  obtain ⟨m, N, h1, h2, h3, h4⟩ := exTwo E draw e.toExpect
  obtain ⟨m0, h0⟩ := Backend.poisson_accepts (exCounts.map Bin.s) (exCounts.map Bin.b) (exCounts.map Bin.d) (by simp)
  obtain ⟨m1, k1⟩ := uncorrelated_exists [⟨5, 50, 3, 58⟩, ⟨2, 60, 4, 58⟩]
  have k : ∀ i < 2, Describes (exMore i) (if i = 0 then m0 else m1) (if i = 0 then 1 else 3) := fun i hi => by
    interval_cases i
    · exact .poisson h0 exCounts_sigma
    · exact k1
  have hs : All 2 N fun i => ⟨List.replicate (N i) 0, none, none⟩ := fun i _ => ⟨rfl, rfl, by simp⟩
  have hs' : All 2 (fun i => if i = 0 then 1 else 3) fun i => ⟨List.replicate (if i = 0 then 1 else 3) 0, none, none⟩ := fun i _ => ⟨rfl, rfl, by simp⟩
  obtain ⟨L, L', a, b, c⟩ := C181_data perfect_exact perfect_finds Interface.perfect_constrained ideal_reliable draw (by norm_num) h1 (fun i _ => exParts_valid i) exNames noInverse true
    (.int 100) (available := fun _ _ => true) (fun _ _ => rfl) (fun _ _ => nan) (fun _ _ => nan) rfl (e := e) hs (h4 _ hs) (m₂ := fun i => if i = 0 then m0 else m1) k (fun i _ => exMore_valid i) rfl hs'
    (start_counts perfect_exact perfect_finds Interface.perfect_constrained draw h0 exCounts_valid (by norm_num) rfl _ true (.int 100) _ _ _ e.toExpect hs') (fun i _ => exMore_more i)
    (mu := .float 1) (mu' := .float 1) (v := 1) rfl rfl zero_le_one
  exact ⟨m, N, _, _, L, L', h1, k, a, b, c⟩

/-- After the measurement this is false: a bin with an excess of events weakens the observed exclusion. -/
theorem C181_observed_fails (E : Ext) (draw : Vec × List Vec → ℕ → List Vec) : ∃ m m' l l',
    Describes [⟨10, 1, 0, 1⟩] m 1 ∧ Describes [⟨10, 1, 0, 1⟩, ⟨10, 1, 0, 41⟩] m' 1 ∧
    (exclusion (modelMethods perfect (plugged E draw m) true none (.int 100) (fun _ => true) fun _ _ => nan) (.float 1) .observed false .asymptotic (⟨[1], none, none⟩ : World)).1 = .ok (.one [fin l]) ∧
    (exclusion (modelMethods perfect (plugged E draw m') true none (.int 100) (fun _ => true) fun _ _ => nan) (.float 1) .observed false .asymptotic (⟨[1], none, none⟩ : World)).1 = .ok (.one [fin l']) ∧
    l' < 1 / 2 ∧ 1 / 2 < l := by
  have hv : Valid [⟨10, 1, 0, 1⟩] := ⟨fun x hx => by
    simp only [List.mem_cons, List.not_mem_nil, or_false] at hx
    subst hx
    norm_num [Bin.Proper], ⟨10, 1, 0, 1⟩, by simp, by norm_num⟩
  have hv' : Valid [⟨10, 1, 0, 1⟩, ⟨10, 1, 0, 41⟩] := ⟨fun x hx => by
    simp only [List.mem_cons, List.not_mem_nil, or_false] at hx
    rcases hx with rfl | rfl <;> norm_num [Bin.Proper], ⟨10, 1, 0, 1⟩, by simp, by norm_num⟩
  obtain ⟨m, hm⟩ := poisson_exists [⟨10, 1, 0, 1⟩] (by simp)
  obtain ⟨m', hm'⟩ := poisson_exists [⟨10, 1, 0, 1⟩, ⟨10, 1, 0, 41⟩] (by simp)
  obtain ⟨q, qA, a1, a2, a3⟩ := C143_levels perfect_exact perfect_finds Interface.perfect_constrained (E := E) draw hm hv true (.int 100) (fun _ => true) (fun _ _ => nan) rfl .observed
    (mu := .float 1) (v := 1) rfl zero_le_one
  obtain ⟨q', qA', b1, b2, b3⟩ := C143_levels perfect_exact perfect_finds Interface.perfect_constrained (E := E) draw hm' hv' true (.int 100) (fun _ => true) (fun _ _ => nan) rfl .observed
    (mu := .float 1) (v := 1) rfl zero_le_one
  refine ⟨m, m', _, _, hm, hm', a3 _ ⟨rfl, rfl, rfl⟩, b3 _ ⟨rfl, rfl, rfl⟩, ?_, ?_⟩
  · have key : ∀ mu, 0 ≤ mu → profile E.gammaln [⟨10, 1, 0, 1⟩, ⟨10, 1, 0, 41⟩] mu =
        42 * Real.log (mu * 10 + 1) - 2 * (mu * 10 + 1) - (E.gammaln (1 + 1) + E.gammaln (41 + 1)) + 2 * stdLog 0 := by
      intro mu hmu
      simp only [profile, List.map_cons, List.map_nil, List.sum_cons, List.sum_nil, _root_.add_zero]
      rw [binLog_none _ rfl (by norm_num) (by linarith), binLog_none _ rfl (by norm_num) (by linarith), max_eq_left (by norm_num; linarith)]
      unfold poissonLog
      ring
    have e0 : q' = 0 := by
      obtain ⟨best, hb, -, h2⟩ := b1
      refine h2 (lt_of_not_ge fun hle => ?_)
      have s1 : seen .observed [(⟨10, 1, 0, 1⟩ : Bin), ⟨10, 1, 0, 41⟩] = [⟨10, 1, 0, 1⟩, ⟨10, 1, 0, 41⟩] := by simp [seen]
      rw [s1] at hb
      have h3 := hb.2.2 2 (by norm_num) (by norm_num)
      have hb0 := hb.1
      rw [key 2 (by norm_num), key best hb0] at h3
      have l1 := Real.log_lt_sub_one_of_pos (div_pos (by linarith : 0 < best * 10 + 1) (by norm_num : (0 : ℝ) < 21)) (fun h => by rw [div_eq_one_iff_eq (by norm_num)] at h; linarith)
      rw [Real.log_div (by linarith) (by norm_num)] at l1
      norm_num at h3 l1
      linarith
    subst e0
    unfold observedOf
    rw [if_neg (by simp)]
    simp only [Bool.false_eq_true, if_false]
    rw [Stats.eq66, if_pos (stat_nonneg b2), Real.sqrt_zero, zero_sub, neg_neg, sub_self, Phi_zero]
    have := (div_lt_div_iff_of_pos_left (by norm_num : (0 : ℝ) < 1 / 2) one_pos (Phi_pos (√qA'))).mpr (Phi_lt_one _)
    linarith
  · have key : ∀ mu, 0 ≤ mu → profile E.gammaln [⟨10, 1, 0, 1⟩] mu = Real.log (mu * 10 + 1) - (mu * 10 + 1) - E.gammaln (1 + 1) + stdLog 0 := by
      intro mu hmu
      simp only [profile, List.map_cons, List.map_nil, List.sum_cons, List.sum_nil, _root_.add_zero]
      rw [binLog_none _ rfl (by norm_num) (by linarith), max_eq_left (by norm_num; linarith)]
      unfold poissonLog
      ring
    have ep : [(⟨10, 1, 0, 1⟩ : Bin)].map Bin.prior = [⟨10, 1, 0, 1⟩] := rfl
    have ea : (seen .observed [(⟨10, 1, 0, 1⟩ : Bin)]).map (Bin.asimov 0) = [⟨10, 1, 0, 1⟩] := by
      have : (⟨10, 1, 0, 1⟩ : Bin).asimov 0 = ⟨10, 1, 0, 1⟩ := by
        unfold Bin.asimov
        rw [fitted_none (by norm_num) (by norm_num)]
        norm_num
      simp [seen, this]
    obtain ⟨-, eA⟩ := C143_sensitive E.gammaln hv .observed (.inr (by simp)) one_pos a2
    rw [ep, key 0 le_rfl, key 1 zero_le_one] at eA
    have eq : q = qA := by
      rw [ea] at a2
      exact stat_unique (profile_concave _ hv.1) a1 a2
    have hq : 2 ≤ qA := by
      have l1 := Real.log_le_sub_one_of_pos (by norm_num : (0 : ℝ) < 11 / 4)
      have l2 := Real.log_le_sub_one_of_pos (by norm_num : (0 : ℝ) < 4)
      rw [Real.log_div (by norm_num) (by norm_num)] at l1
      norm_num at eA
      linarith
    subst eq
    unfold observedOf
    rw [if_neg (fun h => by linarith [h.2.1])]
    simp only [Bool.false_eq_true, if_false]
    rw [Stats.eq66, if_pos le_rfl, sub_self, neg_zero, Phi_zero]
    have r := Phi_ratio_exp (Real.sqrt_nonneg q) 0
    rw [mul_zero, Real.sq_sqrt (by linarith), Phi_zero] at r
    have e1 : Real.exp (0 - q / 2) < 1 / 2 := by
      have : Real.exp (0 - q / 2) ≤ Real.exp (-1) := Real.exp_le_exp.mpr (by linarith)
      have h2 := Real.add_one_lt_exp (one_ne_zero)
      have : Real.exp (-1) < 1 / 2 := by
        rw [Real.exp_neg, ← one_div]
        exact (div_lt_div_iff_of_pos_left one_pos (Real.exp_pos 1) (by norm_num)).mpr (by linarith)
      linarith
    linarith

end Verif.Uncorrelated
