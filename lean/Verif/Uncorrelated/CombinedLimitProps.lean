import Verif.Uncorrelated.UniqueProps
import Verif.Uncorrelated.CombinedProps
import Verif.Joint.LimitProps

/-!
# C154 for upper limits: combining models is joining their bins
-/

namespace Verif.Uncorrelated
open Verif.Py F Verif.Config Verif.Optimizer Verif.Hypotest Verif.Chain Verif.Joint
open Verif.Interface (Data World Size Plain Solver StartFree perfect)
open Verif.Backend (Ext Vec Args Built at' poissonLog stdLog)
open Verif.Stats (Expect Calc Levels levelsOf NotAbove)
open Verif.UpperLimit (Expected Band Limit Entries Sound Reaches)

section
variable {S : Solver} (hS : Exact S) (hT : Finds S) (hC : Interface.Constrained S) {fit : Minimizer (ℕ → World)} (hfit : Reliable fit) {E : Ext} (draw) {n : ℕ} (hn : 0 < n)
  {bins : ℕ → List Bin} {m : ℕ → Backend.Model} {N : ℕ → ℕ} (h : ∀ i < n, Describes (bins i) (m i) (N i)) (hv : ∀ i < n, Valid (bins i))
  {name : ℕ → String} (hname : Distinct n name) (inv : List (List ℝ) → Except Interface.Err (List (List ℝ))) (g : Bool) (ntoys : Size) {available : ℕ → Calc → Bool}
  (hav : ∀ i < n, available i .asymptotic = true) (percentile percentile' : List F → F → F) {M : Methods (ℕ → World)}
  (hM : M = combined fit (members n name S inv E draw m g ntoys available percentile') percentile)
  {e : Expected} {s : ℕ → World} (hs : All n N s) {start : ℝ} (hstart : (guess (members n name S inv E draw m g ntoys available percentile') e.toExpect s).1 = .ok (fin start))
include hS hT hC hfit hn h hv hname hav hM hs hstart

/-- The levels that a combination reports are those of all bins together. -/
theorem combined_reported {v : ℝ} (hv0 : 0 ≤ v) {i : ℕ} (hi : i < (if e = .observed then 1 else 5)) :
    ∃ r, IsLevel E.gammaln (together n bins) e i v r ∧ ∀ x, Reported (All n N) M e i v x ↔ x = fin r := by
  obtain ⟨q, qA, h1, h2, h3⟩ := combined_levels hS hT hC hfit draw hn h hv hname inv g ntoys percentile percentile' rfl hs hstart (mu := .float v) rfl hv0
  rw [members_available hav, ← hM, answer_levels e.toExpect (stat_nonneg h1) (stat_nonneg h2)] at h3
  obtain ⟨l, hl, hli⟩ := level_list e q qA
  refine ⟨_, ⟨q, qA, h1, h2, rfl⟩, fun x => ⟨?_, ?_⟩⟩
  · rintro ⟨l', hE, hx⟩
    have a := (hE _ hs).1
    rw [(h3 _ hs).1] at a
    simp only [hl, Except.ok.injEq, Levels.one.injEq] at a
    subst a
    rw [hli i hi] at hx
    exact (Option.some.inj hx).symm
  · rintro rfl
    exact ⟨l, by rwa [hl] at h3, hli i hi⟩

section
variable (fuel : ℕ) (T : Finder) (hstay : T.Stays) (tol : ℝ → ℝ) (hsound : Sound tol T.solver) (CL : ℝ) (low hig : Option ℝ)
  (hlow : low = none ∨ hig = none ∨ ∃ a b, low = some a ∧ hig = some b ∧ 1e-10 ≤ a ∧ 0 ≤ b) (band : Band) {s₀ : ℕ → World} (hs₀ : All n N s₀) (L : Limit)
  (hr : (poiUpperLimit fuel T M (fun e v => sigmaMu M none (.float v) e "qtilde") true e CL low hig band s₀).1 = .ok (some L))
include hstay hsound hlow hs₀ hr

/-- The upper limit of a combination separates the strengths. -/
theorem combined_separates : AllSeparate E.gammaln (together n bins) e CL tol (Entries e band) L.values := by
  obtain ⟨P, lo, c, hP, -, -⟩ := parts (E := E) h hv e.toExpect
  have key := (C156_limit hfit hS hT hC draw hn hP hname inv g ntoys available hav percentile percentile' hM hs hstart fuel T hstay tol hsound CL low hig hlow band hs₀ L hr).2
  refine forall_mem key fun i hi x hx mu hmu => ?_
  subst hmu
  rcases hx with ⟨mu', hm, ⟨x, r, x1, ⟨x2, x3⟩, x4⟩, y, r', y1, ⟨y2, y3⟩, y4⟩ | ⟨hm, -⟩
  · obtain rfl : mu = mu' := by simpa using hm
    have hp : (0 : ℝ) < 1e-10 := by norm_num
    have hV := together_valid hn hv
    obtain ⟨x5, x6⟩ := abs_le.mp x1
    obtain ⟨y5, y6⟩ := abs_le.mp y1
    have rep := fun {u : ℝ} (hu : 0 ≤ u) => combined_reported hS hT hC hfit draw hn h hv hname inv g ntoys hav percentile percentile' hM hs hstart hu (entries_lt hi)
    obtain ⟨ρ, l1, l2⟩ := rep (hp.le.trans x2)
    obtain ⟨ρ', l1', l2'⟩ := rep (hp.le.trans y2)
    have e1 := (l2 _).mp x3
    have e2 := (l2' _).mp y3
    simp only [fin.injEq] at e1 e2
    subst e1 e2
    refine ⟨by linarith, by linarith, fun v hv0 => ?_⟩
    obtain ⟨r0, m1, -⟩ := rep hv0
    exact ⟨r0, m1, fun hle => (level_mono hV (by linarith) m1 l1).trans x4, fun hle => y4.trans (level_mono hV (by linarith) l1' m1)⟩
  · simp at hm

/-- C154 for upper limits. `poi_upper_limit` of a combination and `poi_upper_limit` of the one model whose bins are the bins of all of them, in any order, return limits that agree up to the
tolerances of the root finders (each entry that is finite in both). -/
theorem C154_limit {S' : Solver} (hF' : StartFree S') (hS' : Exact S') (hT' : Finds S') (hC' : Interface.Constrained S') (draw' : Vec × List Vec → ℕ → List Vec) {bins' : List Bin}
    {m' : Backend.Model} {N' : ℕ} (h' : Describes bins' m' N') (hv' : Valid bins') (g' : Bool) (ntoys' : Size) (available' : Calc → Bool) (hav' : available' .asymptotic = true)
    (percentile'' : List F → F → F) (inv' : List (List ℝ) → Except Interface.Err (List (List ℝ))) (fuel' : ℕ) (T' : Finder) (tol' : ℝ → ℝ) (hsound' : Sound tol' T'.solver)
    (low' hig' : Option ℝ) (hlow' : low' = none ∨ hig' = none ∨ ∃ z, low' = some z ∧ 1e-10 ≤ z) (w' w₁' : World) (hw' : Plain N' w') (L' : Limit)
    (hr' : poiUpperLimit fuel' T' (modelMethods S' (plugged E draw' m') g' none ntoys' available' percentile'') (modelSigma S' inv' (plugged E draw' m') g' ntoys' available' percentile'') true e CL
      low' hig' band w' = (.ok (some L'), w₁')) (h0 : 0 < CL) (hp : ((List.range n).flatMap bins).Perm bins') : Agree tol tol' L.values L'.values := by
  have a := combined_separates hS hT hC hfit draw hn h hv hname inv g ntoys hav percentile percentile' hM hs hstart fuel T hstay tol hsound CL low hig hlow band hs₀ L hr
  have b := model_separates hF' hS' hT' hC' draw' h' hv' g' ntoys' available' hav' percentile'' inv' fuel' T' tol' hsound' low' hig' hlow' w' w₁' hw' L' e CL band hr'
  exact agree_of (all_order (together_valid hn hv) one_pos h0 (fun i => weaker_perm _ hv' hp e i) a b) (all_order hv' one_pos h0 (fun i => weaker_perm _ (together_valid hn hv) hp.symm e i) b a)

end

end

/-- The two models of `exTwo` have a finite limit for levels that are reached between the strengths at which the search begins and ends. -/
theorem ex_reached {E : Ext} (draw : Vec × List Vec → ℕ → List Vec) {m : ℕ → Backend.Model} {N : ℕ → ℕ} (h1 : ∀ i < 2, Describes (exParts i) (m i) (N i))
    (h4 : ∀ s, All 2 N s → (guess (members 2 (fun i => if i = 0 then "a" else "b") perfect noInverse E draw m true (.int 100) (fun _ _ => true) fun _ _ => nan) .apriori s).1 = .ok (fin 0))
    {M : Methods (ℕ → World)} (hM : M = combined ideal (members 2 (fun i => if i = 0 then "a" else "b") perfect noInverse E draw m true (.int 100) (fun _ _ => true) fun _ _ => nan) (fun _ _ => nan))
    {CL : ℝ} (c1 : 0 < CL) (c2 : CL ≤ 1) (hlo : ∀ r, IsLevel E.gammaln (together 2 exParts) .apriori 2 1e-10 r → r ≤ CL)
    (hhi : ∀ r, IsLevel E.gammaln (together 2 exParts) .apriori 2 1e5 r → CL ≤ r) : ∃ mu n0, ∀ k ≥ n0,
      Ends (All 2 N) (poiUpperLimit k (bisection 1e-3) M (fun e v => sigmaMu M none (.float v) e "qtilde") true .apriori CL (some 1) (some 2) .nominal) (.ok (some (.one (fin mu)))) := by
  have hs : All 2 N fun i => ⟨List.replicate (N i) 0, none, none⟩ := fun i _ => ⟨rfl, rfl, by simp⟩
  have rep : ∀ {u : ℝ}, 0 ≤ u → ∃ r, IsLevel E.gammaln (together 2 exParts) .apriori 2 u r ∧ ∀ x, Reported (All 2 N) M .apriori 2 u x ↔ x = fin r := fun {u : ℝ} (hu : 0 ≤ u) =>
    combined_reported perfect_exact perfect_finds Interface.perfect_constrained ideal_reliable draw (by norm_num) h1 (fun i _ => exParts_valid i) exNames noInverse
      true (.int 100) (fun _ _ => rfl) _ _ hM (e := .apriori) hs (h4 _ hs) hu (i := 2) (by simp)
  obtain ⟨P, lo, c, hP, -, -⟩ := parts (E := E) h1 (fun i _ => exParts_valid i) .apriori
  obtain ⟨L, hL, hf, n0, hE⟩ := C156_exists ideal_reliable perfect_exact perfect_finds Interface.perfect_constrained draw (by norm_num) (e := .apriori) hP exNames noInverse true (.int 100)
    (fun _ _ => true) (fun _ _ => rfl) _ _ hM hs (h4 _ hs) (bisection 1e-3) (bisection_stays _) _ (bisection_sound (by norm_num)) (bisection_succeeds (by norm_num)) _ c1.le c2 1 2 (by norm_num)
    (by norm_num) (by norm_num) .nominal (by simp) (.inl (by norm_num))
    (fun i hi r hr => by
      simp only [Entries, List.mem_singleton] at hi
      subst hi
      obtain ⟨r', c1, c2⟩ := rep (u := 1e-10) (by norm_num)
      have := (c2 _).mp hr
      simp only [fin.injEq] at this
      rw [this]
      exact hlo _ c1)
    (fun i hi r hr => by
      simp only [Entries, List.mem_singleton] at hi
      subst hi
      obtain ⟨r', c1, c2⟩ := rep (u := 1e5) (by norm_num)
      have := (c2 _).mp hr
      simp only [fin.injEq] at this
      rw [this]
      exact hhi _ c1)
  cases L with
  | many l => exact absurd hL (by simp [Limit.Shaped, Entries])
  | one x =>
    cases hf with
    | cons a _ =>
      obtain ⟨mu, rfl, -⟩ := a
      exact ⟨mu, n0, hE⟩

/-- The two models of `exTwo` have a finite limit for the expected level of the strength 1. -/
theorem ex_combined {E : Ext} (draw : Vec × List Vec → ℕ → List Vec) {m : ℕ → Backend.Model} {N : ℕ → ℕ} (h1 : ∀ i < 2, Describes (exParts i) (m i) (N i))
    (h4 : ∀ s, All 2 N s → (guess (members 2 (fun i => if i = 0 then "a" else "b") perfect noInverse E draw m true (.int 100) (fun _ _ => true) fun _ _ => nan) .apriori s).1 = .ok (fin 0))
    {M : Methods (ℕ → World)} (hM : M = combined ideal (members 2 (fun i => if i = 0 then "a" else "b") perfect noInverse E draw m true (.int 100) (fun _ _ => true) fun _ _ => nan) (fun _ _ => nan))
    {CL : ℝ} (hl : IsLevel E.gammaln (together 2 exParts) .apriori 2 1 CL) : ∃ mu n0, ∀ k ≥ n0,
      Ends (All 2 N) (poiUpperLimit k (bisection 1e-3) M (fun e v => sigmaMu M none (.float v) e "qtilde") true .apriori CL (some 1) (some 2) .nominal) (.ok (some (.one (fin mu)))) := by
  have hV : Valid (together 2 exParts) := together_valid (by norm_num) fun i _ => exParts_valid i
  obtain ⟨c1, c2⟩ := ex_level hV hl
  exact ex_reached draw h1 h4 hM c1 c2 (fun r hr => level_mono hV (by norm_num) hr hl) fun r hr => level_mono hV (by norm_num) hl hr

/-- A combination and the model of all bins that both have a finite limit, for the expected level of the strength 1. -/
example (E : Ext) (draw : Vec × List Vec → ℕ → List Vec) (inv : List (List ℝ) → Except Interface.Err (List (List ℝ))) : ∃ (m : ℕ → Backend.Model) (m' : Backend.Model) (N : ℕ → ℕ)
    (M : Methods (ℕ → World)) (CL mu mu' : ℝ) (k : ℕ), N 0 = 1 ∧ N 1 = 3 ∧
    M = combined ideal (members 2 (fun i => if i = 0 then "a" else "b") perfect noInverse E draw m true (.int 100) (fun _ _ => true) fun _ _ => nan) (fun _ _ => nan) ∧
    Ends (All 2 N) (poiUpperLimit k (bisection 1e-3) M (fun e v => sigmaMu M none (.float v) e "qtilde") true .apriori CL (some 1) (some 2) .nominal) (.ok (some (.one (fin mu)))) ∧
    Ends (Plain 5) (poiUpperLimit k (bisection 1e-4) (modelMethods perfect (plugged E draw m') true none (.int 100) (fun _ => true) fun _ _ => nan)
      (modelSigma perfect inv (plugged E draw m') true (.int 100) (fun _ => true) fun _ _ => nan) true .apriori CL (some 3) (some 7) .nominal) (.ok (some (.one (fin mu')))) ∧
    |mu - mu'| ≤ 1e-3 + 1e-4 := by
  obtain ⟨m, N, h1, h2, h3, h4⟩ := exTwo E draw .apriori
  obtain ⟨m', h'⟩ : ∃ m', Describes exAll m' 5 := uncorrelated_exists exAll
  have hs : All 2 N fun i => ⟨List.replicate (N i) 0, none, none⟩ := fun i _ => ⟨rfl, rfl, by simp⟩
  have hw : Plain 5 (⟨List.replicate 5 0, none, none⟩ : World) := ⟨rfl, rfl, by simp⟩
  obtain ⟨M, hM⟩ : ∃ M, M = combined ideal (members 2 (fun i => if i = 0 then "a" else "b") perfect noInverse E draw m true (.int 100) (fun _ _ => true) fun _ _ => nan) (fun _ _ => nan) := ⟨_, rfl⟩
  have hV : Valid (together 2 exParts) := together_valid (by norm_num) fun i _ => exParts_valid i
  obtain ⟨CL, hl⟩ := level_exists E hV .apriori (i := 2) (by simp) zero_le_one
  have hl' : IsLevel E.gammaln exAll .apriori 2 1 CL := by
    obtain ⟨CL', hl'⟩ := level_exists E exAll_valid .apriori (i := 2) (by simp) zero_le_one
    have : CL' = CL := le_antisymm (weaker_perm _ exAll_valid exPerm .apriori 2 1 _ _ one_pos (by rwa [one_mul]) hl') (weaker_perm _ hV exPerm.symm .apriori 2 1 _ _ one_pos (by rwa [one_mul]) hl)
    rwa [this] at hl'
  obtain ⟨mu, n0, a⟩ := ex_combined draw h1 h4 hM hl
  obtain ⟨mu', n0', b⟩ := ex_run draw inv h' exAll_valid hl' (low := 3) (hig := 7) (t := 1e-4) (by norm_num) (by norm_num) (by norm_num) (by norm_num)
  have ha := a (max n0 n0') (le_max_left _ _)
  have hb := b (max n0 n0') (le_max_right _ _)
  refine ⟨m, m', N, M, CL, mu, mu', _, h2, h3, hM, ha, hb, ?_⟩
  have sa : Sound (fun _ => 1e-3) (bisection 1e-3).solver := bisection_sound (by norm_num)
  have sb : Sound (fun _ => 1e-4) (bisection 1e-4).solver := bisection_sound (by norm_num)
  have agree := C154_limit (e := .apriori) perfect_exact perfect_finds Interface.perfect_constrained ideal_reliable draw (by norm_num) h1 (fun i _ => exParts_valid i) exNames noInverse true (.int 100)
    (fun _ _ => rfl) (fun _ _ => nan) (fun _ _ => nan) hM hs (h4 _ hs) (max n0 n0') (bisection 1e-3) (bisection_stays _) (fun _ => 1e-3) sa CL (some 1) (some 2)
    (.inr (.inr ⟨1, 2, rfl, rfl, by norm_num, by norm_num⟩)) .nominal hs (.one (fin mu)) (ha _ hs).1
    Interface.perfect_free perfect_exact perfect_finds Interface.perfect_constrained draw h' exAll_valid true (.int 100) (fun _ => true) rfl (fun _ _ => nan) inv (max n0 n0') (bisection 1e-4)
    (fun _ => 1e-4) sb (some 3) (some 7) (.inr (.inr ⟨3, rfl, by norm_num⟩)) _ _ hw (.one (fin mu')) (Prod.ext (hb _ hw).1 rfl) (ex_level hV hl).1 exPerm
  cases agree with
  | cons k _ => exact k mu mu' rfl rfl

end Verif.Uncorrelated
