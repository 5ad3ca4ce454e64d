import Verif.Uncorrelated.Unique

/-!
# C155: upper limits agree, and are ordered as the levels are
-/

namespace Verif.Uncorrelated
open Verif.Py F Verif.Config Verif.Optimizer Verif.Hypotest Verif.Chain
open Verif.Interface (Data World Size Plain Solver StartFree perfect)
open Verif.Backend (Ext Vec Args Built at' poissonLog stdLog)
open Verif.Stats (Expect Calc Levels levelsOf NotAbove)
open Verif.UpperLimit (Expected Band Limit Entries Sound Reaches)

/-- The finite limits of the second list are, times `c`, not below those of the first, up to the tolerances. -/
def Higher (tol tol' : ℝ → ℝ) (c : ℝ) (l l' : List F) : Prop :=
  List.Forall₂ (fun x x' => ∀ mu mu', x = fin mu → x' = fin mu' → mu ≤ c * mu' + (tol mu + c * tol' mu')) l l'

/-- The finite limits of both lists agree up to the tolerances. -/
def Agree (tol tol' : ℝ → ℝ) (l l' : List F) : Prop :=
  List.Forall₂ (fun x x' => ∀ mu mu', x = fin mu → x' = fin mu' → |mu - mu'| ≤ tol mu + tol' mu') l l'

/-- All finite entries separate the strengths. -/
def AllSeparate (G : ℝ → ℝ) (bins : List Bin) (e : Expected) (CL : ℝ) (tol : ℝ → ℝ) (is : List ℕ) (l : List F) : Prop :=
  List.Forall₂ (fun i x => ∀ mu, x = fin mu → 1e-10 ≤ mu + tol mu ∧ Separates G bins e i CL (tol mu) mu) is l

theorem all_order {G : ℝ → ℝ} {bins bins' : List Bin} (hv : Valid bins) {e : Expected} {CL c : ℝ} {tol tol' : ℝ → ℝ} (hc : 0 < c) (h0 : 0 < CL) {is : List ℕ} {l l' : List F}
    (hw : ∀ i, Weaker G bins bins' e i c) (h : AllSeparate G bins e CL tol is l) (h' : AllSeparate G bins' e CL tol' is l') : Higher tol tol' c l l' := by
  unfold AllSeparate at h h'
  unfold Higher
  induction h generalizing l' with
  | nil => cases h'; exact .nil
  | @cons i x is l h1 h2 ih =>
    cases h' with
    | cons k1 k2 =>
      refine .cons (fun mu mu' hx hx' => ?_) (ih k2)
      have := separates_order hv hc h0 (hw i) (h1 mu hx).2 (k1 mu' hx').2 (lt_of_lt_of_le (by norm_num) (k1 mu' hx').1)
      linarith

theorem agree_of {tol tol' : ℝ → ℝ} {l l' : List F} (h : Higher tol tol' 1 l l') (h' : Higher tol' tol 1 l' l) : Agree tol tol' l l' := by
  unfold Higher at h h'
  unfold Agree
  induction h with
  | nil => exact .nil
  | cons h1 _ ih =>
    cases h' with
    | cons k1 k2 =>
      refine .cons (fun mu mu' hx hx' => abs_le.mpr ?_) (ih k2)
      have a := h1 mu mu' hx hx'
      have b := k1 mu' mu hx' hx
      constructor <;> linarith

section
variable {S : Solver} (hF : StartFree S) (hS : Exact S) (hT : Finds S) (hC : Interface.Constrained S) {E : Ext} (draw : Vec × List Vec → ℕ → List Vec) {bins : List Bin}
  {m : Backend.Model} {N : ℕ} (h : Describes bins m N) (hv : Valid bins) (g : Bool) (ntoys : Size) (available : Calc → Bool) (hav : available .asymptotic = true)
  (percentile : List F → F → F) (inv : List (List ℝ) → Except Interface.Err (List (List ℝ))) (fuel : ℕ) (T : Finder) (tol : ℝ → ℝ) (hsound : Sound tol T.solver)
  (low hig : Option ℝ) (hlow : low = none ∨ hig = none ∨ ∃ z, low = some z ∧ 1e-10 ≤ z) (w w₁ : World) (hw : Plain N w) (L : Limit)
  (e : Expected) (CL : ℝ) (band : Band)
  (hr : poiUpperLimit fuel T (modelMethods S (plugged E draw m) g none ntoys available percentile) (modelSigma S inv (plugged E draw m) g ntoys available percentile) true e CL low hig band w =
      (.ok (some L), w₁))
include hF hS hT hC h hv hav hsound hlow hw hr

theorem model_separates : AllSeparate E.gammaln bins e CL tol (Entries e band) L.values := by
  refine forall_mem (C153_limit hF hS hT hC (E := E) draw h hv g ntoys available hav percentile inv fuel T tol hsound e CL low hig hlow band w w₁ hw L hr).2 fun i hi x hx mu hmu => ?_
  subst hmu
  rcases hx with ⟨mu', hm, k1, k2⟩ | ⟨hm, -⟩
  · obtain rfl : mu = mu' := by simpa using hm
    refine ⟨k1, le_trans (by norm_num) k1, fun v hv0 => ?_⟩
    obtain ⟨r, r1, r2⟩ := k2 v hv0
    obtain ⟨q, qA, q1, q2, q3⟩ := reported hF hS hT hC (E := E) draw h hv g ntoys available hav percentile e hv0
    have := (q3 i (entries_lt hi) _).mp r1
    simp only [fin.injEq] at this
    exact ⟨r, ⟨q, qA, q1, q2, this⟩, r2⟩
  · simp at hm

variable {S' : Solver} (hF' : StartFree S') (hS' : Exact S') (hT' : Finds S') (hC' : Interface.Constrained S') (draw' : Vec × List Vec → ℕ → List Vec) {bins' : List Bin}
  {m' : Backend.Model} {N' : ℕ} (h' : Describes bins' m' N') (hv' : Valid bins') (g' : Bool) (ntoys' : Size) (available' : Calc → Bool) (hav' : available' .asymptotic = true)
  (percentile' : List F → F → F) (inv' : List (List ℝ) → Except Interface.Err (List (List ℝ))) (fuel' : ℕ) (T' : Finder) (tol' : ℝ → ℝ) (hsound' : Sound tol' T'.solver)
  (low' hig' : Option ℝ) (hlow' : low' = none ∨ hig' = none ∨ ∃ z, low' = some z ∧ 1e-10 ≤ z) (w' w₁' : World) (hw' : Plain N' w') (L' : Limit)
  (hr' : poiUpperLimit fuel' T' (modelMethods S' (plugged E draw' m') g' none ntoys' available' percentile') (modelSigma S' inv' (plugged E draw' m') g' ntoys' available' percentile') true e CL
    low' hig' band w' = (.ok (some L'), w₁')) (h0 : 0 < CL)
include hF' hS' hT' hC' h' hv' hav' hsound' hlow' hw' hr' h0

/-- C155. The upper limit is a property of the bins: two calls of `poi_upper_limit` for the same bins, in any order, return limits that agree up to the tolerances of the root finders, whatever
the starting points, the minimisers, the root finders, the history and the other settings (each entry that is finite in both). -/
theorem C155_unique (hp : bins.Perm bins') : Agree tol tol' L.values L'.values := by
  have a := model_separates hF hS hT hC draw h hv g ntoys available hav percentile inv fuel T tol hsound low hig hlow w w₁ hw L e CL band hr
  have b := model_separates hF' hS' hT' hC' draw' h' hv' g' ntoys' available' hav' percentile' inv' fuel' T' tol' hsound' low' hig' hlow' w' w₁' hw' L' e CL band hr'
  exact agree_of (all_order hv one_pos h0 (fun i => weaker_perm _ hv' hp e i) a b) (all_order hv' one_pos h0 (fun i => weaker_perm _ hv hp.symm e i) b a)

/-- C155. More events, in any of the bins, never lower an upper limit. -/
theorem C155_data (hd : List.Forall₂ More bins bins') : Higher tol tol' 1 L.values L'.values := by
  have a := model_separates hF hS hT hC draw h hv g ntoys available hav percentile inv fuel T tol hsound low hig hlow w w₁ hw L e CL band hr
  have b := model_separates hF' hS' hT' hC' draw' h' hv' g' ntoys' available' hav' percentile' inv' fuel' T' tol' hsound' low' hig' hlow' w' w₁' hw' L' e CL band hr'
  exact all_order hv one_pos h0 (fun i => weaker_more _ hv hd e i) a b

/-- C155. Larger uncertainties of the background never lower the limits that are expected before the measurement. -/
theorem C155_uncertainty (hd : List.Forall₂ Vaguer bins bins') (he : e = .apriori) : Higher tol tol' 1 L.values L'.values := by
  subst he
  have a := model_separates hF hS hT hC draw h hv g ntoys available hav percentile inv fuel T tol hsound low hig hlow w w₁ hw L _ CL band hr
  have b := model_separates hF' hS' hT' hC' draw' h' hv' g' ntoys' available' hav' percentile' inv' fuel' T' tol' hsound' low' hig' hlow' w' w₁' hw' L' _ CL band hr'
  exact all_order hv one_pos h0 (fun i => weaker_vaguer _ hv hv' hd i) a b

/-- C152 for upper limits, under the same condition as for the levels: with signal yields `c` times as large the limit is smaller by the factor `c`. (Missing: strong excesses, see
`C152_bound_fails`.) -/
theorem C152_limit_partial {c : ℝ} (hc : 0 < c) (hx : Explained (min 10 (10 * c)) bins) (hb : bins' = bins.map (Bin.scaled c)) :
    List.Forall₂ (fun x x' => ∀ mu mu', x = fin mu → x' = fin mu' → |mu - c * mu'| ≤ tol mu + c * tol' mu') L.values L'.values := by
  subst hb
  have a := model_separates hF hS hT hC draw h hv g ntoys available hav percentile inv fuel T tol hsound low hig hlow w w₁ hw L e CL band hr
  have b := model_separates hF' hS' hT' hC' draw' h' hv' g' ntoys' available' hav' percentile' inv' fuel' T' tol' hsound' low' hig' hlow' w' w₁' hw' L' e CL band hr'
  refine (forall_both (all_order hv hc h0 (fun i => weaker_scaled _ hv hc hx e i) a b)
    (all_order hv' (one_div_pos.mpr hc) h0 (fun i => stronger_scaled _ hv hc hx e i) b a).flip).imp fun x x' k mu mu' e1 e2 => abs_le.mpr ?_
  have k1 := k.1 mu mu' e1 e2
  have k2 := mul_le_mul_of_nonneg_left (k.2 mu' mu e2 e1) hc.le
  have : c * (1 / c * mu + (tol' mu' + 1 / c * tol mu)) = mu + c * tol' mu' + tol mu := by field_simp; ring
  constructor <;> linarith

end

/-- The expected level of the strength 1 is positive and at most one. -/
theorem ex_level {G : ℝ → ℝ} {bins : List Bin} (hv : Valid bins) {CL : ℝ} (h : IsLevel G bins .apriori 2 1 CL) : 0 < CL ∧ CL ≤ 1 := by
  obtain ⟨q, qA, -, h2, rfl⟩ := h
  obtain ⟨hA, -⟩ := C143_sensitive G hv .apriori (.inl rfl) one_pos h2
  refine ⟨?_, ?_⟩
  · rw [← entry_zero .apriori q 2]
    exact Stats.expected_strict le_rfl hA _
  · have := div_nonneg (Phi_nonneg (((2 : ℕ) : ℝ) - 2 - √qA)) (Phi_nonneg (((2 : ℕ) : ℝ) - 2))
    show 1 - Phi (((2 : ℕ) : ℝ) - 2 - √qA) / Phi (((2 : ℕ) : ℝ) - 2) ≤ 1
    linarith

/-- The limits for the expected level of the strength 1 are finite. -/
theorem ex_run {E : Ext} (draw : Vec × List Vec → ℕ → List Vec) (inv : List (List ℝ) → Except Interface.Err (List (List ℝ))) {m : Backend.Model} {bins : List Bin} {N : ℕ} (h : Describes bins m N)
    (hv : Valid bins) {CL : ℝ} (hl : IsLevel E.gammaln bins .apriori 2 1 CL) {low hig t : ℝ} (k1 : 1e-10 ≤ low) (k2 : low < hig) (k3 : hig ≤ 1e5) (k4 : 0 < t) : ∃ mu n0, ∀ n ≥ n0,
      Ends (Plain N) (poiUpperLimit n (bisection t) (modelMethods perfect (plugged E draw m) true none (.int 100) (fun _ => true) fun _ _ => nan)
      (modelSigma perfect inv (plugged E draw m) true (.int 100) (fun _ => true) fun _ _ => nan) true .apriori CL (some low) (some hig) .nominal)
        (.ok (some (.one (fin mu)))) := by
  obtain ⟨c1, c2⟩ := ex_level hv hl
  obtain ⟨q, qA, h1, h2, h3⟩ := reported Interface.perfect_free perfect_exact perfect_finds Interface.perfect_constrained (E := E) draw h hv true (.int 100) (fun _ => true) rfl
    (fun _ _ => nan) .apriori (v := 1) (by norm_num)
  have hr := (h3 2 (by simp) _).mpr rfl
  have : entry .apriori q qA 2 = CL := le_antisymm (weaker_refl _ hv .apriori 2 1 _ _ one_pos (by rwa [one_mul]) ⟨q, qA, h1, h2, rfl⟩)
    (weaker_refl _ hv .apriori 2 1 _ _ one_pos ⟨q, qA, by rwa [one_mul], by rwa [one_mul], rfl⟩ hl)
  rw [this] at hr
  obtain ⟨L, ⟨n0, hn⟩, hL, hf⟩ := C153_exists Interface.perfect_free perfect_exact perfect_finds Interface.perfect_constrained (E := E) draw h hv true (.int 100) (fun _ => true) rfl
    (fun _ _ => nan) inv (bisection t) _ (bisection_sound k4.le) (bisection_succeeds k4) (bisection_stays _) .apriori _ c1.le c2 low hig k1 k2.le k3 .nominal (by simp) (.inl k2)
    (fun i hi => by
      simp only [Entries, List.mem_singleton] at hi
      subst hi
      exact ⟨1, 1, _, _, by norm_num, by norm_num, by norm_num, le_rfl, le_rfl, hr, hr⟩)
  cases L with
  | one x =>
    cases hf with
    | cons a _ =>
      obtain ⟨mu, rfl, -⟩ := a
      exact ⟨mu, n0, fun n hn0 => hn n hn0⟩
  | many l => exact absurd hL (by simp [Limit.Shaped, Entries])

theorem level_exists (E : Ext) {bins : List Bin} (hv : Valid bins) (e : Expected) {i : ℕ} (hi : i < (if e = .observed then 1 else 5)) {v : ℝ} (hv0 : 0 ≤ v) : ∃ r, IsLevel E.gammaln bins e i v r := by
  obtain ⟨m, hm⟩ := uncorrelated_exists bins
  obtain ⟨q, qA, h1, h2, -⟩ := reported Interface.perfect_free perfect_exact perfect_finds Interface.perfect_constrained (E := E) (fun _ _ => []) hm hv true (.int 100) (fun _ => true) rfl
    (fun _ _ => nan) e hv0
  exact ⟨_, q, qA, h1, h2, rfl⟩

/-- Two calls with different starting points and root finders that return finite limits, for the expected level of the strength 1. -/
example (E : Ext) (draw : Vec × List Vec → ℕ → List Vec) (inv : List (List ℝ) → Except Interface.Err (List (List ℝ))) (m : Backend.Model) (h : Describes exBins m (exBins.length + 1))
    (w : World) (hw : Plain (exBins.length + 1) w) : ∃ CL mu mu' n, 0 < CL ∧ |mu - mu'| ≤ 1e-3 + 1e-4 ∧
    (poiUpperLimit n (bisection 1e-3) (modelMethods perfect (plugged E draw m) true none (.int 100) (fun _ => true) fun _ _ => nan)
      (modelSigma perfect inv (plugged E draw m) true (.int 100) (fun _ => true) fun _ _ => nan) true .apriori CL (some 1) (some 2) .nominal w).1 = .ok (some (.one (fin mu))) ∧
    (poiUpperLimit n (bisection 1e-4) (modelMethods perfect (plugged E draw m) true none (.int 100) (fun _ => true) fun _ _ => nan)
      (modelSigma perfect inv (plugged E draw m) true (.int 100) (fun _ => true) fun _ _ => nan) true .apriori CL (some 3) (some 7) .nominal w).1 = .ok (some (.one (fin mu'))) := by
  obtain ⟨CL, hl⟩ := level_exists E exBins_valid .apriori (i := 2) (by simp) zero_le_one
  have hCL := (ex_level exBins_valid hl).1
  obtain ⟨mu, n0, a⟩ := ex_run draw inv h exBins_valid hl (low := 1) (hig := 2) (t := 1e-3) (by norm_num) (by norm_num) (by norm_num) (by norm_num)
  obtain ⟨mu', n0', b⟩ := ex_run draw inv h exBins_valid hl (low := 3) (hig := 7) (t := 1e-4) (by norm_num) (by norm_num) (by norm_num) (by norm_num)
  have ha := (a (max n0 n0') (le_max_left _ _) w hw).1
  have hb := (b (max n0 n0') (le_max_right _ _) w hw).1
  refine ⟨_, mu, mu', max n0 n0', hCL, ?_, ha, hb⟩
  have := C155_unique Interface.perfect_free perfect_exact perfect_finds Interface.perfect_constrained (E := E) draw h exBins_valid true (.int 100) (fun _ => true) rfl
    (fun _ _ => nan) inv _ _ _ (bisection_sound (by norm_num)) _ _ (.inr (.inr ⟨1, rfl, by norm_num⟩)) w _ hw _ _ _ _ (Prod.ext ha rfl)
    Interface.perfect_free perfect_exact perfect_finds Interface.perfect_constrained draw h exBins_valid true (.int 100) (fun _ => true) rfl
    (fun _ _ => nan) inv _ _ _ (bisection_sound (by norm_num)) _ _ (.inr (.inr ⟨3, rfl, by norm_num⟩)) w _ hw _ (Prod.ext hb rfl) hCL (.refl _)
  cases this with
  | cons k _ => exact k mu mu' rfl rfl

end Verif.Uncorrelated
