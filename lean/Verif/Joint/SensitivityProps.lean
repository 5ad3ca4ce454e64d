import Verif.Joint.GaussianProps

/-!
# Property C194: combinations expect more than their parts
-/

namespace Verif.Joint
open Verif.Py F Verif.Hypotest Verif.Chain
open Verif.Interface (World Size Plain Solver perfect)
open Verif.Stats (Expect Calc gaussianLevel)
open Verif.Backend (Ext Vec Args at')
open Verif.UpperLimit (Expected Band Limit Entries Sound Succeeds)

/-- The standard deviation of the weighted mean falls with every measurement. -/
theorem pooledDeviation_falls {n n' : ℕ} (hn : 0 < n) (hnn : n < n') {σ : ℕ → ℝ} (hσ : ∀ i < n', 0 < σ i) : pooledDeviation n' σ < pooledDeviation n σ := by
  unfold pooledDeviation
  have h1 : 0 < ∑ i ∈ Finset.range n, 1 / σ i ^ 2 := weights_pos hn fun i hi => hσ i (hi.trans hnn)
  refine one_div_lt_one_div_of_lt (Real.sqrt_pos.mpr h1) (Real.sqrt_lt_sqrt h1.le ?_)
  refine Finset.sum_lt_sum_of_subset (i := n) (Finset.range_subset_range.mpr hnn.le) (Finset.mem_range.mpr hnn) (by simp) ?_ fun i hi _ => ?_
  · have := hσ n hnn
    positivity
  · have := hσ i (Finset.mem_range.mp hi)
    positivity

/-- Expected levels grow with the precision. -/
theorem level_precision {σ σ' v : ℝ} (hσ' : 0 < σ') (h : σ' < σ) (hv : 0 < v) (k : ℝ) : gaussianLevel σ (k * σ) v < gaussianLevel σ' (k * σ') v := by
  have hσ : 0 < σ := hσ'.trans h
  unfold gaussianLevel
  rw [sub_div, sub_div, mul_div_assoc, mul_div_assoc, div_self hσ.ne', div_self hσ'.ne', mul_one]
  have h1 : Phi (k - v / σ') < Phi (k - v / σ) := Phi_strictMono (by
    have := div_lt_div_of_pos_left hv hσ' h
    linarith)
  have := div_lt_div_of_pos_right h1 (Phi_pos k)
  linarith

theorem forall₂_both {α β γ : Type} {R : α → β → Prop} {R' : α → γ → Prop} {Q : β → γ → Prop} : ∀ {l : List α} {l₁ : List β} {l₂ : List γ}, List.Forall₂ R l l₁ → List.Forall₂ R' l l₂ →
    (∀ i ∈ l, ∀ x y, R i x → R' i y → Q x y) → List.Forall₂ Q l₁ l₂
  | _, _, _, .nil, .nil, _ => .nil
  | _, _, _, .cons h t, .cons h' t', k => .cons (k _ (by simp) _ _ h h') (forall₂_both t t' fun i hi => k i (by simp [hi]))

section
variable {fit : Minimizer (ℕ → World)} (hfit : Reliable fit) {S : Solver} (hS : Exact S) (hT : Finds S) {E : Ext} (draw : Vec × List Vec → ℕ → List Vec) {n n' : ℕ} (hn : 0 < n) (hnn : n < n')
  {a : ℕ → Args} {m : ℕ → Backend.Model} {Q : ℕ → ℕ → ℕ → ℝ} {y : ℕ → Vec} (h : ∀ i < n', Case E (a i) (m i) (Q i) (y i)) {name : ℕ → String}
  (hname : Distinct n' name) {inv : List (List ℝ) → Except Interface.Err (List (List ℝ))} (hinv : InvertsNumbers inv) (g : Bool) (ntoys : Size)
  (available : ℕ → Calc → Bool) (percentile percentile' : List F → F → F)
include hfit hS hT hn hnn h hname hinv

/-- C194. Independent Gaussian models of spey added to a combination raise all five expected levels of `exclusion_confidence_level`, whatever the data, for every positive strength. -/
theorem C194_expected (hav : ∀ i < n', available i .asymptotic = true) {mu : Mu} {v : ℝ} (hmu : mu.Is v) (hv : 0 < v) :
    ∃ l l' : List ℝ, l.length = 5 ∧ List.Forall₂ (· < ·) l l' ∧
      Ends (All n fun _ => 1) (exclusion (combined fit (members n name S inv E draw m g ntoys available percentile') percentile) mu .apriori false .asymptotic) (.ok (.one (l.map fin))) ∧
      Ends (All n' fun _ => 1) (exclusion (combined fit (members n' name S inv E draw m g ntoys available percentile') percentile) mu .apriori false .asymptotic) (.ok (.one (l'.map fin))) := by
  have key : ∀ k, 0 < k → k ≤ n' → Ends (All k fun _ => 1) (exclusion (combined fit (members k name S inv E draw m g ntoys available percentile') percentile) mu .apriori false .asymptotic)
      (.ok (.one (([-2, -1, 0, 1, 2].map fun j => gaussianLevel (pooledDeviation k fun i => deviation (a i).data.length (Q i) (at' (y i))) (j * pooledDeviation k fun i => deviation (a i).data.length (Q i) (at' (y i))) v).map fin))) := by
    intro k hk hk'
    have := (C123_levels hfit hS hT draw hk (fun i hi => h i (hi.trans_le hk')) (fun i hi j hj => hname i (hi.trans_le hk') j (hj.trans_le hk')) hinv g ntoys available (fun i hi => hav i (hi.trans_le hk')) percentile percentile' .apriori
      (est := fun _ => 0) (dev := fun i => deviation (a i).data.length (Q i) (at' (y i))) (fun i hi => by simp [used, estimate, form]) (fun i hi => rfl) (x := 0) (by simp [pooled]) rfl false (by simp) (by norm_num) hmu hv).2
      (.inl rfl)
    rw [List.map_map]
    exact this
  have hpos : ∀ i < n', 0 < deviation (a i).data.length (Q i) (at' (y i)) := fun i hi => deviation_pos (h i hi).informative
  refine ⟨_, _, ?_, ?_, key n hn hnn.le, key n' (hn.trans hnn) le_rfl⟩
  · simp
  · have := level_precision (pooledDeviation_pos (hn.trans hnn) hpos) (pooledDeviation_falls hn hnn hpos) hv
    simp only [List.map_cons, List.map_nil, List.forall₂_cons, this, true_and, List.forall₂_nil_left_iff]

/-- C194. They raise the expected significance and lower all five expected p-values of `significance`. -/
theorem C194_discovery : ∃ (Z Z' : ℝ) (p p' : List ℝ), Z < Z' ∧ p.length = 5 ∧ List.Forall₂ (· < ·) p' p ∧
    (∃ z q, Ends (All n fun _ => 1) (significance (combined fit (members n name S inv E draw m g ntoys available percentile') percentile) .apriori) (.ok (fin Z, z, q, p.map fin))) ∧
    ∃ z q, Ends (All n' fun _ => 1) (significance (combined fit (members n' name S inv E draw m g ntoys available percentile') percentile) .apriori) (.ok (fin Z', z, q, p'.map fin)) := by
  have key : ∀ k, 0 < k → k ≤ n' → Ends (All k fun _ => 1) (significance (combined fit (members k name S inv E draw m g ntoys available percentile') percentile) .apriori)
      (.ok (Stats.discovery (1 / pooledDeviation k fun i => deviation (a i).data.length (Q i) (at' (y i))) (max 0 0 / pooledDeviation k fun i => deviation (a i).data.length (Q i) (at' (y i))))) := by
    intro k hk hk'
    exact C123_significance hfit hS hT draw hk (fun i hi => h i (hi.trans_le hk')) (fun i hi j hj => hname i (hi.trans_le hk') j (hj.trans_le hk')) hinv g ntoys available percentile percentile' .apriori
      (est := fun _ => 0) (dev := fun i => deviation (a i).data.length (Q i) (at' (y i))) (fun i hi => by simp [used, estimate, form]) (fun i hi => rfl) (x := 0) (by simp [pooled]) rfl (by norm_num)
  have hpos : ∀ i < n', 0 < deviation (a i).data.length (Q i) (at' (y i)) := fun i hi => deviation_pos (h i hi).informative
  have hlt := one_div_lt_one_div_of_lt (pooledDeviation_pos (hn.trans hnn) hpos) (pooledDeviation_falls hn hnn hpos)
  have k1 := key n hn hnn.le
  have k2 := key n' (hn.trans hnn) le_rfl
  unfold Stats.discovery at k1 k2
  rw [show (fun j => fin (1 - Phi ((1 / pooledDeviation n fun i => deviation (a i).data.length (Q i) (at' (y i))) + j))) = fin ∘ fun j => 1 - Phi ((1 / pooledDeviation n fun i => deviation (a i).data.length (Q i) (at' (y i))) + j) from rfl, ← List.map_map] at k1
  rw [show (fun j => fin (1 - Phi ((1 / pooledDeviation n' fun i => deviation (a i).data.length (Q i) (at' (y i))) + j))) = fin ∘ fun j => 1 - Phi ((1 / pooledDeviation n' fun i => deviation (a i).data.length (Q i) (at' (y i))) + j) from rfl, ← List.map_map] at k2
  refine ⟨_, _, _, _, hlt, ?_, ?_, ⟨_, _, k1⟩, ⟨_, _, k2⟩⟩
  · simp
  · have : ∀ j : ℝ, Phi ((1 / pooledDeviation n fun i => deviation (a i).data.length (Q i) (at' (y i))) + j) < Phi ((1 / pooledDeviation n' fun i => deviation (a i).data.length (Q i) (at' (y i))) + j) := fun j => Phi_strictMono (by linarith)
    simp only [List.map_cons, List.map_nil, List.forall₂_cons, sub_lt_sub_iff_left, this, true_and, List.forall₂_nil_left_iff]

/-- C194. They lower the expected upper limits of `poi_upper_limit`, up to the tolerance of the root finder. `z` and `z'` are the exact limits, in the range of the search. -/
theorem C194_limit (hav : ∀ i < n', available i .asymptotic = true) {dev : ℕ → ℝ} (hdev : ∀ i < n', dev i = deviation (a i).data.length (Q i) (at' (y i))) {CL : ℝ} (hCL : 1 / 2 < CL) (hCL' : CL ≤ 1) (T : Finder)
    (tol : ℝ → ℝ) (hs : Sound tol T.solver) (hok : Succeeds T.solver) (band : Band) (hb : band ≠ .unknown) (low hig : Option ℝ) (z z' : ℕ → ℝ)
    (hz : ∀ i ∈ Entries .apriori band, gaussianLevel (pooledDeviation n dev) (((i : ℝ) - 2) * pooledDeviation n dev) (z i) = CL ∧ 1e-10 ≤ z i ∧ z i ≤ 1e5 ∧ Reasonable (z i) low hig)
    (hz' : ∀ i ∈ Entries .apriori band, gaussianLevel (pooledDeviation n' dev) (((i : ℝ) - 2) * pooledDeviation n' dev) (z' i) = CL ∧ 1e-10 ≤ z' i ∧ z' i ≤ 1e5 ∧ Reasonable (z' i) low hig)
    {M M' : Methods (ℕ → World)} (hM : M = combined fit (members n name S inv E draw m g ntoys available percentile') percentile)
    (hM' : M' = combined fit (members n' name S inv E draw m g ntoys available percentile') percentile) :
    ∃ L L' : Limit, List.Forall₂ (fun x x' => ∃ mu mu', x = fin mu ∧ x' = fin mu' ∧ mu' < mu + tol mu + tol mu') L.values L'.values ∧ L.values.length = (Entries .apriori band).length ∧ ∃ N, ∀ k ≥ N,
      Ends (All n fun _ => 1) (poiUpperLimit k T M (fun e v => sigmaMu M none (.float v) e "qtilde") ((List.range n).any fun i => Backend.isAlive (a i).signal) .apriori CL low hig band) (.ok (some L)) ∧
      Ends (All n' fun _ => 1) (poiUpperLimit k T M' (fun e v => sigmaMu M' none (.float v) e "qtilde") ((List.range n').any fun i => Backend.isAlive (a i).signal) .apriori CL low hig band) (.ok (some L')) := by
  have hpos : ∀ i < n', 0 < dev i := fun i hi => hdev i hi ▸ deviation_pos (h i hi).informative
  obtain ⟨L, -, l2, N, l3⟩ := C124_limit hfit hS hT draw hn (fun i hi => h i (hi.trans hnn)) (fun i hi j hj => hname i (hi.trans hnn) j (hj.trans hnn)) hinv g ntoys available (fun i hi => hav i (hi.trans hnn)) percentile
    percentile' .apriori (est := fun _ => 0) (dev := dev) (fun i hi => by simp [used, estimate, form, Expected.toExpect]) (fun i hi => hdev i (hi.trans hnn)) (x := 0) (by simp [pooled]) rfl (by norm_num) hCL hCL' T tol hs hok band hb
    low hig z (fun i hi => ⟨by simpa [ExactLimit, centre] using (hz i hi).1, (hz i hi).2⟩) hM rfl
  obtain ⟨L', -, m2, N', m3⟩ := C124_limit hfit hS hT draw (hn.trans hnn) h hname hinv g ntoys available hav percentile
    percentile' .apriori (est := fun _ => 0) (dev := dev) (fun i hi => by simp [used, estimate, form, Expected.toExpect]) hdev (x := 0) (by simp [pooled]) rfl (by norm_num) hCL hCL' T tol hs hok band hb
    low hig z' (fun i hi => ⟨by simpa [ExactLimit, centre] using (hz' i hi).1, (hz' i hi).2⟩) hM' rfl
  refine ⟨L, L', forall₂_both l2 m2 ?_, l2.length_eq.symm, max N N', fun k hk => ⟨l3 k ((le_max_left _ _).trans hk), m3 k ((le_max_right _ _).trans hk)⟩⟩
  rintro i hi x x' ⟨mu, rfl, e1⟩ ⟨mu', rfl, e2⟩
  refine ⟨mu, mu', rfl, rfl, ?_⟩
  obtain ⟨f1, f2, -⟩ := hz i hi
  obtain ⟨g1, -⟩ := hz' i hi
  have hlt : z' i < z i := by
    by_contra hge
    have hp' := pooledDeviation_pos (hn.trans hnn) hpos
    have k1 := level_precision hp' (pooledDeviation_falls hn hnn hpos) (lt_of_lt_of_le (by norm_num) f2) ((i : ℝ) - 2)
    rw [f1] at k1
    rcases (not_lt.mp hge).lt_or_eq with hlt | heq
    · have := level_mono (m := ((i : ℝ) - 2) * pooledDeviation n' dev) hp' hlt
      linarith
    · rw [heq, g1] at k1
      exact lt_irrefl _ k1
  linarith [(abs_le.mp e1).1, (abs_le.mp e2).2]

end

theorem exForm (x y : ℕ → ℝ) : form 2 (independent (at' [1, 1])) x y = x 0 * y 0 + x 1 * y 1 := by
  rw [form_independent]
  simp [Finset.sum_range_succ, at']

/-- Signal 2 and 1, background 5 and 5, uncertainty 1 in both bins, with any data. -/
theorem exAny (E : Ext) (d d' : ℝ) : ∃ m, Case E { exGaussArgs with data := [d, d'] } m (independent (at' [1, 1])) [2, 1] := by
  have : ∃ m, Backend.gaussian { exGaussArgs with data := [d, d'] } [1, 1] = .ok m := by
    unfold Backend.gaussian Backend.simpleConfig
    simp only [exGaussArgs, Backend.minimumPoi, exGauss_alive, if_true, Backend.ok_bind, Backend.sigBounds]
    exact ⟨_, rfl⟩
  obtain ⟨m, hm⟩ := this
  refine ⟨m, .normal [1, 1] hm rfl fun i hi => ?_, ⟨rfl, rfl⟩, rfl, rfl, rfl, ?_, ⟨0, by simp, by simp [at']⟩, fun i hi => ?_⟩
  · have hi : i < 2 := hi
    interval_cases i <;> simp [at']
  · change 0 < form 2 _ _ _
    rw [exForm]
    norm_num [at']
  · have hi : i < 2 := hi
    interval_cases i <;> simp [exGaussArgs, at']

/-- C194. The observed level may fall: the first model measures 1 and the second one, as precise, measures 3; together they exclude the strength 3 less than the first one alone. -/
theorem C194_observed_fails (E : Ext) (draw : Vec × List Vec → ℕ → List Vec) {fit : Minimizer (ℕ → World)} (hfit : Reliable fit) {S : Solver} (hS : Exact S) (hT : Finds S) {name : ℕ → String}
    (hname : Distinct 2 name) {inv : List (List ℝ) → Except Interface.Err (List (List ℝ))} (hinv : InvertsNumbers inv) (g : Bool) (ntoys : Size) (available : ℕ → Calc → Bool)
    (hav : ∀ i < 2, available i .asymptotic = true) (percentile percentile' : List F → F → F) : ∃ (a : ℕ → Args) (m : ℕ → Backend.Model) (l l' : ℝ),
    (∀ i < 2, Case E (a i) (m i) (independent (at' [1, 1])) [2, 1]) ∧ l' < l ∧
    Ends (All 1 fun _ => 1) (exclusion (combined fit (members 1 name S inv E draw m g ntoys available percentile') percentile) (.float 3) .observed false .asymptotic) (.ok (.one [fin l])) ∧
    Ends (All 2 fun _ => 1) (exclusion (combined fit (members 2 name S inv E draw m g ntoys available percentile') percentile) (.float 3) .observed false .asymptotic) (.ok (.one [fin l'])) := by
  obtain ⟨m0, h0⟩ := exAny E 7 6
  obtain ⟨m1, h1⟩ := exAny E 11 8
  obtain ⟨a, ha⟩ : ∃ a : ℕ → Args, a = fun i => if i = 0 then { exGaussArgs with data := [7, 6] } else { exGaussArgs with data := [11, 8] } := ⟨_, rfl⟩
  obtain ⟨m, hm⟩ : ∃ m : ℕ → Backend.Model, m = fun i => if i = 0 then m0 else m1 := ⟨_, rfl⟩
  have h : ∀ i < 2, Case E (a i) (m i) (independent (at' [1, 1])) [2, 1] := by
    intro i hi
    rw [ha, hm]
    interval_cases i
    · exact h0
    · exact h1
  have hest : ∀ i < 2, (if i = 0 then 1 else 3 : ℝ) = estimate (a i).data.length (independent (at' [1, 1])) (at' [2, 1]) (at' (a i).background) (at' (used (a i) .observed)) := by
    intro i hi
    rw [ha]
    interval_cases i
    · show (1 : ℝ) = estimate 2 _ _ (at' [5, 5]) (at' [7, 6])
      unfold estimate
      rw [exForm, exForm]
      norm_num [at']
    · show (3 : ℝ) = estimate 2 _ _ (at' [5, 5]) (at' [11, 8])
      unfold estimate
      rw [exForm, exForm]
      norm_num [at']
  have hdev : ∀ i < 2, (1 / √5 : ℝ) = deviation (a i).data.length (independent (at' [1, 1])) (at' [2, 1]) := by
    intro i hi
    have : (a i).data.length = 2 := by
      rw [ha]
      interval_cases i <;> rfl
    rw [this]
    unfold deviation
    rw [exForm]
    norm_num [at']
  have hsq : √5 ^ 2 = 5 := Real.sq_sqrt (by norm_num)
  have p1 : (1 : ℝ) = pooled 1 (fun i => if i = 0 then 1 else 3) fun _ => 1 / √5 := by
    norm_num [pooled, hsq]
  have p2 : (2 : ℝ) = pooled 2 (fun i => if i = 0 then 1 else 3) fun _ => 1 / √5 := by
    norm_num [pooled, Finset.sum_range_succ, hsq]
  have d1 : (1 / √5 : ℝ) = pooledDeviation 1 fun _ => 1 / √5 := by
    norm_num [pooledDeviation, hsq]
  have d2 : (1 / √10 : ℝ) = pooledDeviation 2 fun _ => 1 / √5 := by
    norm_num [pooledDeviation, Finset.sum_range_succ, hsq]
  refine ⟨a, m, _, _, h, ?_, (C123_levels hfit hS hT draw one_pos (fun i hi => h i (hi.trans one_lt_two)) (fun i hi j hj => hname i (hi.trans one_lt_two) j (hj.trans one_lt_two)) hinv g ntoys available
    (fun i hi => hav i (hi.trans one_lt_two)) percentile percentile' .observed (fun i hi => hest i (hi.trans one_lt_two)) (fun i hi => hdev i (hi.trans one_lt_two)) p1 d1 false (by simp) (by norm_num) (mu := .float 3)
    (v := 3) rfl (by norm_num)).1 rfl (by norm_num), (C123_levels hfit hS hT draw two_pos h hname hinv g ntoys available hav percentile percentile' .observed hest hdev p2 d2 false (by simp) (by norm_num)
    (mu := .float 3) (v := 3) rfl (by norm_num)).1 rfl (by norm_num)⟩
  have k5 : 0 < √5 := Real.sqrt_pos.mpr (by norm_num)
  have k10 : √10 = √5 * √2 := by
    rw [← Real.sqrt_mul (by norm_num)]
    norm_num
  have k2 : √2 ^ 2 = 2 := Real.sq_sqrt (by norm_num)
  have k2' : √2 ≤ 2 := by
    rw [Real.sqrt_le_left (by norm_num)]
    norm_num
  have k20 : 0 < √2 := Real.sqrt_pos.mpr (by norm_num)
  unfold gaussianLevel
  rw [show (1 - 3) / (1 / √5) = -√10 - (2 * √5 - √10) by field_simp; ring, show (2 - 3) / (1 / √10) = -√10 by field_simp; ring]
  have q1 := Phi_ratio_exp (a := 2 * √5 - √10) (by rw [k10]; nlinarith) (-√10)
  have q2 : (2 * √5 - √10) * -√10 - (2 * √5 - √10) ^ 2 / 2 = -5 := by
    rw [k10]
    have : √5 ^ 2 * √2 ^ 2 = 10 := by rw [hsq, k2]; norm_num
    nlinarith
  rw [q2] at q1
  have q3 : Real.exp (-5) ≤ 1 / 2 := by
    rw [Real.exp_neg, inv_eq_one_div]
    refine one_div_le_one_div_of_le two_pos ?_
    have := Real.add_one_le_exp (5 : ℝ)
    linarith
  have q4 := Phi_pos (-√10)
  have q5 : 1 / 2 < Phi (1 / (1 / √5)) := by
    have := Phi_strictMono (show (0 : ℝ) < 1 / (1 / √5) by positivity)
    rwa [Phi_zero] at this
  have q6 := Phi_lt_one (2 / (1 / √10))
  have q7 := Phi_pos (2 / (1 / √10))
  have q8 : Phi (-√10 - (2 * √5 - √10)) / Phi (1 / (1 / √5)) < Phi (-√10) := by
    rw [div_lt_iff₀ (by linarith)]
    calc _ ≤ Real.exp (-5) * Phi (-√10) := q1
      _ ≤ 1 / 2 * Phi (-√10) := mul_le_mul_of_nonneg_right q3 q4.le
      _ < _ := by nlinarith
  have q9 : Phi (-√10) < Phi (-√10) / Phi (2 / (1 / √10)) := by
    rw [lt_div_iff₀ q7]
    nlinarith
  linarith

example (E : Ext) (draw) : ∃ (a : ℕ → Args) (m : ℕ → Backend.Model) (l l' : ℝ), (∀ i < 2, Case E (a i) (m i) (independent (at' [1, 1])) [2, 1]) ∧ l' < l ∧
    Ends (All 1 fun _ => 1) (exclusion (combined ideal (members 1 (fun i => if i = 0 then "a" else "b") perfect exInverse E draw m true (.int 100) (fun _ _ => true) fun _ _ => nan) fun _ _ => nan) (.float 3)
      .observed false .asymptotic) (.ok (.one [fin l])) ∧
    Ends (All 2 fun _ => 1) (exclusion (combined ideal (members 2 (fun i => if i = 0 then "a" else "b") perfect exInverse E draw m true (.int 100) (fun _ _ => true) fun _ _ => nan) fun _ _ => nan) (.float 3)
      .observed false .asymptotic) (.ok (.one [fin l'])) :=
  C194_observed_fails E draw ideal_reliable perfect_exact perfect_finds exNames (fun _ _ => rfl) true (.int 100) (fun _ _ => true) (fun _ _ => rfl) (fun _ _ => nan) fun _ _ => nan

/-- A second measurement raises the expected levels of the strength 1/2 and the expected significance. -/
example (E : Ext) (draw) : ∃ m : ℕ → Backend.Model,
    (∃ l l' : List ℝ, l.length = 5 ∧ List.Forall₂ (· < ·) l l' ∧
      Ends (All 1 fun _ => 1) (exclusion (combined ideal (members 1 (fun i => if i = 0 then "a" else "b") perfect exInverse E draw m true (.int 100) (fun _ _ => true) fun _ _ => nan) fun _ _ => nan) (.float (1 / 2))
        .apriori false .asymptotic) (.ok (.one (l.map fin))) ∧
      Ends (All 2 fun _ => 1) (exclusion (combined ideal (members 2 (fun i => if i = 0 then "a" else "b") perfect exInverse E draw m true (.int 100) (fun _ _ => true) fun _ _ => nan) fun _ _ => nan) (.float (1 / 2))
        .apriori false .asymptotic) (.ok (.one (l'.map fin)))) ∧
    ∃ (Z Z' : ℝ) (p p' : List ℝ), Z < Z' ∧ p.length = 5 ∧ List.Forall₂ (· < ·) p' p ∧
      (∃ z q, Ends (All 1 fun _ => 1) (significance (combined ideal (members 1 (fun i => if i = 0 then "a" else "b") perfect exInverse E draw m true (.int 100) (fun _ _ => true) fun _ _ => nan) fun _ _ => nan) .apriori)
        (.ok (fin Z, z, q, p.map fin))) ∧
      ∃ z q, Ends (All 2 fun _ => 1) (significance (combined ideal (members 2 (fun i => if i = 0 then "a" else "b") perfect exInverse E draw m true (.int 100) (fun _ _ => true) fun _ _ => nan) fun _ _ => nan) .apriori)
        (.ok (fin Z', z, q, p'.map fin)) := by
  obtain ⟨a, m, Q, y, est, dev, h, -⟩ := exTwo E
  exact ⟨m, C194_expected ideal_reliable perfect_exact perfect_finds draw one_pos one_lt_two h exNames (inv := exInverse) (fun _ _ => rfl) true (.int 100) (fun _ _ => true) (fun _ _ => nan) (fun _ _ => nan)
      (fun _ _ => rfl) (mu := .float (1 / 2)) rfl (by norm_num),
    C194_discovery ideal_reliable perfect_exact perfect_finds draw one_pos one_lt_two h exNames (inv := exInverse) (fun _ _ => rfl) true (.int 100) (fun _ _ => true) (fun _ _ => nan) fun _ _ => nan⟩

/-- The expected upper limits of the first measurement and of both, at the confidence level of two standard deviations. -/
example (E : Ext) (draw) : ∃ (a : ℕ → Args) (m : ℕ → Backend.Model) (L L' : Limit), List.Forall₂ (fun x x' => ∃ mu mu', x = fin mu ∧ x' = fin mu' ∧ mu' < mu + 0.001 + 0.001) L.values L'.values ∧ L.values.length = 1 ∧ ∃ N, ∀ k ≥ N,
    Ends (All 1 fun _ => 1) (poiUpperLimit k (bisection 0.001)
      (combined ideal (members 1 (fun i => if i = 0 then "a" else "b") perfect exInverse E draw m true (.int 100) (fun _ _ => true) fun _ _ => nan) fun _ _ => nan)
      (fun e v => sigmaMu (combined ideal (members 1 (fun i => if i = 0 then "a" else "b") perfect exInverse E draw m true (.int 100) (fun _ _ => true) fun _ _ => nan) fun _ _ => nan) none (.float v) e "qtilde")
      ((List.range 1).any fun i => Backend.isAlive (a i).signal) .apriori (1 - 2 * Phi (-2)) none none .nominal) (.ok (some L)) ∧
    Ends (All 2 fun _ => 1) (poiUpperLimit k (bisection 0.001)
      (combined ideal (members 2 (fun i => if i = 0 then "a" else "b") perfect exInverse E draw m true (.int 100) (fun _ _ => true) fun _ _ => nan) fun _ _ => nan)
      (fun e v => sigmaMu (combined ideal (members 2 (fun i => if i = 0 then "a" else "b") perfect exInverse E draw m true (.int 100) (fun _ _ => true) fun _ _ => nan) fun _ _ => nan) none (.float v) e "qtilde")
      ((List.range 2).any fun i => Backend.isAlive (a i).signal) .apriori (1 - 2 * Phi (-2)) none none .nominal) (.ok (some L')) := by
  obtain ⟨m, h⟩ := exAny E 7 6
  have hsq : √5 ^ 2 = 5 := Real.sq_sqrt (by norm_num)
  have hdev : deviation 2 (independent (at' [1, 1])) (at' [2, 1]) = 1 / √5 := by
    unfold deviation
    rw [exForm]
    norm_num [at']
  have d1 : (pooledDeviation 1 fun _ => 1 / √5) = 1 / √5 := by
    norm_num [pooledDeviation, hsq]
  have d2 : (pooledDeviation 2 fun _ => 1 / √5) = 1 / √10 := by
    norm_num [pooledDeviation, Finset.sum_range_succ, hsq]
  have hlev : ∀ σ : ℝ, 0 < σ → gaussianLevel σ ((((2 : ℕ) : ℝ) - 2) * σ) (2 * σ) = 1 - 2 * Phi (-2) := by
    intro σ hσ
    unfold gaussianLevel
    have e1 : (((2 : ℕ) : ℝ) - 2) * σ = 0 := by norm_num
    rw [e1, zero_div, Phi_zero, show (0 - 2 * σ) / σ = -2 by field_simp; ring]
    ring
  have hP : Phi (-2) < 1 / 4 := by
    have k := Phi_ratio_exp (a := 2) (by norm_num) 0
    rw [Phi_zero] at k
    have k2 : Real.exp (2 * 0 - 2 ^ 2 / 2) ≤ 1 / 3 := by
      rw [show (2 * 0 - 2 ^ 2 / 2 : ℝ) = -2 by norm_num, Real.exp_neg, inv_eq_one_div]
      refine one_div_le_one_div_of_le (by norm_num) ?_
      have := Real.add_one_le_exp (2 : ℝ)
      linarith
    rw [show (0 - 2 : ℝ) = -2 by norm_num] at k
    linarith
  have s1 : ∀ q : ℝ, 1 ≤ q → q ≤ 16 → (1e-10 : ℝ) ≤ 2 * (1 / √q) ∧ 2 * (1 / √q) ≤ 1e5 := by
    intro q h1 h16
    have k1 : 1 ≤ √q := by rw [Real.le_sqrt (by norm_num) (by linarith)]; linarith
    have k2 : √q ≤ 4 := by rw [Real.sqrt_le_left (by norm_num)]; linarith
    have k3 : 1 / 4 ≤ 1 / √q := one_div_le_one_div_of_le (by linarith) k2
    have k4 : 1 / √q ≤ 1 / 1 := one_div_le_one_div_of_le one_pos k1
    constructor
    · refine le_trans ?_ (mul_le_mul_of_nonneg_left k3 (by norm_num))
      norm_num
    · refine le_trans (mul_le_mul_of_nonneg_left k4 (by norm_num)) ?_
      norm_num
  obtain ⟨L, L', r1, r2, r3⟩ := C194_limit ideal_reliable perfect_exact perfect_finds draw one_pos one_lt_two (a := fun _ => { exGaussArgs with data := [7, 6] }) (m := fun _ => m) (fun _ _ => h) exNames (inv := exInverse) (fun _ _ => rfl)
    true (.int 100) (fun _ _ => true) (fun _ _ => nan) (fun _ _ => nan) (fun _ _ => rfl) (dev := fun _ => 1 / √5) (fun _ _ => hdev.symm) (CL := 1 - 2 * Phi (-2)) (by linarith) (by linarith [Phi_pos (-2)])
    (bisection 0.001) (fun _ => 0.001) (bisection_sound (by norm_num)) (bisection_succeeds (by norm_num)) .nominal (by simp) none none (fun _ => 2 * (1 / √5)) (fun _ => 2 * (1 / √10))
    (by
      intro i hi
      simp only [Entries, List.mem_singleton] at hi
      rw [hi, d1]
      exact ⟨hlev _ (by positivity), (s1 5 (by norm_num) (by norm_num)).1, (s1 5 (by norm_num) (by norm_num)).2, trivial⟩)
    (by
      intro i hi
      simp only [Entries, List.mem_singleton] at hi
      rw [hi, d2]
      exact ⟨hlev _ (by positivity), (s1 10 (by norm_num) (by norm_num)).1, (s1 10 (by norm_num) (by norm_num)).2, trivial⟩) rfl rfl
  exact ⟨_, _, L, L', r1, r2, r3⟩

end Verif.Joint
