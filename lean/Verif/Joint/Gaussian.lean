import Verif.Joint.Members

/-!
# Lemmas about combinations of Gaussian models
-/

namespace Verif.Joint
open Verif.Py F Verif.Hypotest Verif.Chain
open Verif.Interface (MuHat Data World Size Plain Solver)
open Verif.Stats (Expect Calc gaussianLog)
open Verif.Backend (Ext Vec Args Fits at')

theorem weights_pos {n : ℕ} (hn : 0 < n) {σ : ℕ → ℝ} (hσ : ∀ i < n, 0 < σ i) : 0 < ∑ i ∈ Finset.range n, 1 / σ i ^ 2 :=
  Finset.sum_pos (fun i hi => by have := hσ i (Finset.mem_range.mp hi); positivity) ⟨0, Finset.mem_range.mpr hn⟩

theorem pooledDeviation_pos {n : ℕ} (hn : 0 < n) {σ : ℕ → ℝ} (hσ : ∀ i < n, 0 < σ i) : 0 < pooledDeviation n σ := div_pos one_pos (Real.sqrt_pos.mpr (weights_pos hn hσ))

/-- The product of Gaussian likelihoods is one. -/
theorem gaussian_sum {n : ℕ} (hn : 0 < n) {σ : ℕ → ℝ} (hσ : ∀ i < n, 0 < σ i) (x c : ℕ → ℝ) :
    ∃ k, ∀ y, ∑ i ∈ Finset.range n, gaussianLog (c i) (σ i) (x i) y = gaussianLog k (pooledDeviation n σ) (pooled n x σ) y := by
  have hW := weights_pos hn hσ
  obtain ⟨W, hWd⟩ : ∃ W, W = ∑ i ∈ Finset.range n, 1 / σ i ^ 2 := ⟨_, rfl⟩
  obtain ⟨T, hTd⟩ : ∃ T, T = ∑ i ∈ Finset.range n, x i / σ i ^ 2 := ⟨_, rfl⟩
  rw [← hWd] at hW
  refine ⟨∑ i ∈ Finset.range n, c i - (∑ i ∈ Finset.range n, x i ^ 2 / σ i ^ 2) / 2 + T ^ 2 / W / 2, fun y => ?_⟩
  have h1 : ∀ i ∈ Finset.range n, gaussianLog (c i) (σ i) (x i) y = c i - x i ^ 2 / σ i ^ 2 / 2 + y * (x i / σ i ^ 2) - y ^ 2 / 2 * (1 / σ i ^ 2) := by
    intro i hi
    have := hσ i (Finset.mem_range.mp hi)
    unfold gaussianLog
    field_simp
    ring
  rw [Finset.sum_congr rfl h1, Finset.sum_sub_distrib, Finset.sum_add_distrib, Finset.sum_sub_distrib, ← Finset.mul_sum, ← Finset.mul_sum, ← Finset.sum_div, ← hWd, ← hTd]
  unfold gaussianLog pooledDeviation pooled
  rw [← hWd, ← hTd, div_pow, one_pow, Real.sq_sqrt hW.le]
  field_simp
  ring

theorem pooled_const {n : ℕ} (hn : 0 < n) {σ : ℕ → ℝ} (hσ : ∀ i < n, 0 < σ i) (z : ℝ) : pooled n (fun _ => z) σ = z := by
  have hW := weights_pos hn hσ
  unfold pooled
  have : ∑ i ∈ Finset.range n, z / σ i ^ 2 = z * ∑ i ∈ Finset.range n, 1 / σ i ^ 2 := by
    rw [Finset.mul_sum]
    exact Finset.sum_congr rfl fun i _ => by ring
  rw [this]
  field_simp

/-- The weighted mean as the code computes it. -/
theorem weightedMean_fin (x σ : ℕ → ℝ) : ∀ l : List ℕ, (∀ i ∈ l, 0 < σ i) →
    Combiner.sumF ((l.map fun i => (fin (x i), fin (σ i))).map fun p => Combiner.invSq p.2) = fin ((l.map fun i => 1 / σ i ^ 2).sum) ∧
      Combiner.sumF ((l.map fun i => (fin (x i), fin (σ i))).map fun p => Combiner.overSq p.1 p.2) = fin ((l.map fun i => x i / σ i ^ 2).sum)
  | [], _ => ⟨rfl, rfl⟩
  | i :: l, h => by
    obtain ⟨h1, h2⟩ := weightedMean_fin x σ l fun j hj => h j (by simp [hj])
    have hi := h i (by simp)
    have e1 : Combiner.invSq (fin (σ i)) = fin (1 / σ i ^ 2) := by simp [Combiner.invSq, hi.ne']
    have e2 : Combiner.overSq (fin (x i)) (fin (σ i)) = fin (x i / σ i ^ 2) := by
      simp only [Combiner.overSq, F.mul, F.div, mul_self_ne_zero.mpr hi.ne', if_false]
      rw [sq]
    simp only [List.map_cons, Combiner.sumF, e1, e2, h1, h2, add, List.sum_cons, and_self]

theorem start_fin {n : ℕ} (hn : 0 < n) {σ : ℕ → ℝ} (hσ : ∀ i < n, 0 < σ i) (x : ℕ → ℝ) :
    Combiner.weightedMean ((List.range n).map fun i => (fin (x i), fin (σ i))) = fin (pooled n x σ) := by
  obtain ⟨h1, h2⟩ := weightedMean_fin x σ (List.range n) fun i hi => hσ i (List.mem_range.mp hi)
  have hW := weights_pos hn hσ
  have e1 : ((List.range n).map fun i => 1 / σ i ^ 2).sum = ∑ i ∈ Finset.range n, 1 / σ i ^ 2 := rfl
  have e2 : ((List.range n).map fun i => x i / σ i ^ 2).sum = ∑ i ∈ Finset.range n, x i / σ i ^ 2 := rfl
  unfold Combiner.weightedMean
  rw [h1, h2, e1, e2]
  simp only [F.div, hW.ne', if_false, F.mul]
  unfold pooled
  congr 1
  ring

section
variable {σ : Type} {I : σ → Prop} {e : Expect}

theorem individual_ends (M : ℕ → Member σ) (x d : ℕ → ℝ) (r : ℕ → F) : ∀ l : List ℕ, (∀ i ∈ l, Ends I ((M i).maximize e) (.ok (.one (x i), r i))) →
    (∀ i ∈ l, Ends I ((M i).sigma e (x i)) (.ok (fin (d i)))) → Ends I (individual e (l.map M)) (.ok (l.map fun i => (fin (x i), fin (d i))))
  | [], _, _ => ends_ret _
  | i :: l, h1, h2 => by
    refine (h1 i (by simp)).bind ?_
    exact (h2 i (by simp)).bind ((individual_ends M x d r l (fun j hj => h1 j (by simp [hj])) fun j hj => h2 j (by simp [hj])).bind (ends_ret _))

theorem guess_of_individual {ms : List (Member σ)} {l : List (F × F)} (h : Ends I (individual e ms) (.ok l)) : Ends I (guess ms e) (.ok (Combiner.weightedMean l)) := by
  intro s hs
  obtain ⟨h1, h2⟩ := h s hs
  unfold guess
  cases hr : individual e ms s with
  | mk r s' =>
    rw [hr] at h1 h2
    dsimp only at h1 h2
    subst h1
    exact ⟨rfl, h2⟩

/-- A fit of a Gaussian likelihood. -/
theorem gaussian_minimum {fit : Minimizer σ} (hfit : Reliable fit) {ms : List (Member σ)} {data : List (String × Data)} {c d x : ℝ} (hd : 0 < d)
    (h : ∀ v, Ends I (likelihood ms e data v) (.ok (fin (-(gaussianLog c d x v))))) (start : ℝ) {lo : ℝ} (hlo : lo ≤ 10) :
    Ends I (fit (twiceNll ms e data) (fin start) (fin lo) (fin 10)) (.ok (fin (2 * -(gaussianLog c d x (nearest lo x))), nearest lo x)) := by
  obtain ⟨k1, k2, k3⟩ := nearest_is_best (c := c) (x := x) hd hlo
  have hS : Smallest (fun v => 2 * -(gaussianLog c d x v)) lo 10 (nearest lo x) := ⟨k1, k2, fun y h1 h2 => by
    have := (k3 y h1 h2).1
    dsimp only
    linarith⟩
  obtain ⟨z, hz, hE⟩ := hfit I (twiceNll ms e data) (fun v => 2 * -(gaussianLog c d x v)) start lo 10 (fun v _ _ => (h v).bind (ends_ret _)) ⟨_, hS⟩
  have : z = nearest lo x := by
    apply (k3 z hz.1 hz.2.1).2
    have h1 := hz.2.2 _ k1 k2
    have h2 := (k3 z hz.1 hz.2.1).1
    dsimp only at h1
    linarith
  rw [this] at hE
  exact hE

end

/-- Everything about the calls of a combination of Gaussian models. -/
structure Calls (fit : Minimizer (ℕ → World)) (I : (ℕ → World) → Prop) (ms : List (Member (ℕ → World))) (e : Expect) (low σ x c : ℝ) (c' : String → ℝ) : Prop where
  likelihood : ∀ v, Ends I (likelihood ms e [] v) (.ok (fin (-(gaussianLog c σ x v))))
  asimov : ∀ ts v, Ends I (asimovLikelihood ms e ts v) (.ok (fin (-(gaussianLog (c' ts) σ (strength ts) v))))
  best : ∀ negative, Ends I (maximize fit ms e negative []) (.ok (.one (nearest (if negative then low else 0) x), fin (-(gaussianLog c σ x (nearest (if negative then low else 0) x)))))
  bestA : ∀ ts, Ends I (maximizeAsimov fit ms e ts) (.ok (.one (nearest (if Interface.mayBeNegative ts then low else 0) (strength ts)),
    fin (-(gaussianLog (c' ts) σ (strength ts) (nearest (if Interface.mayBeNegative ts then low else 0) (strength ts))))))

theorem gaussian_calls {fit : Minimizer (ℕ → World)} (hfit : Reliable fit) {S : Solver} (hS : Exact S) (hT : Finds S) {E : Ext} (draw) {n : ℕ} (hn : 0 < n)
    {a : ℕ → Args} {m : ℕ → Backend.Model} {Q : ℕ → ℕ → ℕ → ℝ} {y : ℕ → Vec} (h : ∀ i < n, Case E (a i) (m i) (Q i) (y i)) {name : ℕ → String}
    (hname : ((List.range n).map name).Nodup) {inv : List (List ℝ) → Except Interface.Err (List (List ℝ))} (hinv : InvertsNumbers inv) (g : Bool) (ntoys : Size)
    (available : ℕ → Calc → Bool) (percentile : List F → F → F) (e : Expect) {x σ : ℕ → ℝ}
    (hx : ∀ i < n, x i = estimate (a i).data.length (Q i) (at' (y i)) (at' (a i).background) (at' (used (a i) e)))
    (hσ : ∀ i < n, σ i = deviation (a i).data.length (Q i) (at' (y i))) :
    ∃ low c c', low ≤ 0 ∧ (∀ mu, (∀ i < n, ∀ j < (a i).data.length, 0 < at' (y i) j → 0 ≤ mu * at' (y i) j + at' (a i).background j) → low ≤ mu) ∧
      Calls fit (All n fun _ => 1) ((List.range n).map fun i => member i (name i) S inv (plugged E draw (m i)) g ntoys (available i) percentile) e low
        (pooledDeviation n σ) (pooled n x σ) c c' := by
  obtain ⟨M, hM⟩ : ∃ M, M = fun i => member i (name i) S inv (plugged E draw (m i)) g ntoys (available i) percentile := ⟨_, rfl⟩
  rw [← hM]
  have hpos : ∀ i < n, 0 < σ i := fun i hi => hσ i hi ▸ deviation_pos (h i hi).informative
  have hP := pooledDeviation_pos hn hpos
  -- the individual models
  have key : ∀ i, ∃ lo c, ∃ c' : ℝ → ℝ, i < n → Single (plugged E draw (m i)) lo ∧ lo ≤ 0 ∧
      (∀ mu, (∀ j < (a i).data.length, 0 < at' (y i) j → 0 ≤ mu * at' (y i) j + at' (a i).background j) → lo ≤ mu) ∧
      (∀ u, (plugged E draw (m i)).logpdf (expectation e) none [u] = fin (gaussianLog c (σ i) (x i) u)) ∧
      ∀ z, ∃ D, (plugged E draw (m i)).expectedData [z] = .ok D ∧ ∀ u, (plugged E draw (m i)).logpdf (expectation e) (some D) [u] = fin (gaussianLog (c' z) (σ i) z u) := by
    intro i
    by_cases hi : i < n
    · obtain ⟨lo, k1, k2, k3⟩ := (h i hi).single draw
      obtain ⟨c, hc⟩ := (h i hi).log draw e (used (a i) e) (used_length (h i hi).fits e)
      have := fun z => (h i hi).asimov draw e z
      choose D c' hD hc' using this
      refine ⟨lo, c, c', fun _ => ⟨k1, k2, k3, fun u => ?_, fun z => ⟨D z, hD z, fun u => ?_⟩⟩⟩
      · rw [plugged_none E draw (measurement_built (h i hi).model (h i hi).modifiers) (h i hi).fits, hc u, hx i hi, hσ i hi]
      · rw [hc' z u, hσ i hi]
    · exact ⟨0, 0, fun _ => 0, fun h => absurd h hi⟩
  choose lo c c' hk using key
  obtain ⟨w, hw⟩ := plain_exists 1
  -- the likelihoods
  obtain ⟨k, hsum⟩ := gaussian_sum hn hpos x c
  have hsumA := fun z => gaussian_sum hn hpos (fun _ => z) fun i => c' i z
  choose k' hsumA using hsumA
  simp only [pooled_const hn hpos] at hsumA
  have total : ∀ {data : List (String × Data)} {v : ℝ} (p : ℕ → ℝ), (∀ i < n, Ends (All n fun _ => 1) ((M i).likelihood e (dictGet (M i).name data) v) (.ok (fin (-p i)))) →
      Ends (All n fun _ => 1) (likelihood ((List.range n).map M) e data v) (.ok (fin (-∑ i ∈ Finset.range n, p i))) := by
    intro data v p hp
    have := sum_ends (I := All n fun _ => 1) M (fun i => -p i) (List.range n) 0 fun i hi => hp i (List.mem_range.mp hi)
    rw [show (0 : ℝ) + ((List.range n).map fun i => -p i).sum = -∑ i ∈ Finset.range n, p i by rw [_root_.zero_add, ← Finset.sum_neg_distrib]; rfl] at this
    exact this
  have hL : ∀ v, Ends (All n fun _ => 1) (likelihood ((List.range n).map M) e [] v) (.ok (fin (-(gaussianLog k (pooledDeviation n σ) (pooled n x σ) v)))) := by
    intro v
    rw [← hsum v]
    refine total _ fun i hi => ?_
    obtain ⟨h1, -, -, h2, -⟩ := hk i hi
    rw [hM]
    exact focus_ends hi ((model_ends hS h1.usual g ntoys (available i) percentile e w hw).1 none v _ (single_likelihood h1 h2 v true g w hw))
  have hA : ∀ ts, ∃ data, Ends (All n fun _ => 1) (asimovLoop e ts [] ((List.range n).map M)) (.ok data) ∧
      ∀ v, Ends (All n fun _ => 1) (likelihood ((List.range n).map M) e data v) (.ok (fin (-(gaussianLog (k' (strength ts)) (pooledDeviation n σ) (strength ts) v)))) := by
    intro ts
    have : ∀ i, ∃ D, i < n → (plugged E draw (m i)).expectedData [strength ts] = .ok D ∧
        ∀ u, (plugged E draw (m i)).logpdf (expectation e) (some D) [u] = fin (gaussianLog (c' i (strength ts)) (σ i) (strength ts) u) := by
      intro i
      by_cases hi : i < n
      · obtain ⟨D, hD⟩ := (hk i hi).2.2.2.2 (strength ts)
        exact ⟨D, fun _ => hD⟩
      · exact ⟨[], fun h => absurd h hi⟩
    choose D hD using this
    refine ⟨collect M D (List.range n) [], asimov_ends M D (List.range n) [] fun i hi => ?_, fun v => ?_⟩
    · have hi := List.mem_range.mp hi
      obtain ⟨h1, -, -, h2, -⟩ := hk i hi
      rw [hM]
      refine focus_ends hi (asimov_steady hS h1.usual e ts g hw ?_)
      rw [single_asimov hS hT h1 h2 ts g w hw]
      exact (hD i hi).1
    · rw [← hsumA (strength ts) v]
      refine total _ fun i hi => ?_
      have hnames : ((List.range n).map fun i => (M i).name).Nodup := by rw [hM]; exact hname
      rw [collect_get M D (List.range n) [] hnames i (List.mem_range.mpr hi), hM]
      obtain ⟨h1, -, -, h2, -⟩ := hk i hi
      exact focus_ends hi ((model_ends hS h1.usual g ntoys (available i) percentile e w hw).1 (some (D i)) v _ (single_likelihood h1 (hD i hi).2 v true g w hw))
  -- the smallest strength
  obtain ⟨low, hlow, hlow0, hlowi⟩ : ∃ low, minimumPoi ((List.range n).map M) = .ok (fin low) ∧ low ≤ 0 ∧ ∃ i < n, low = lo i := by
    have hleast : ∀ i < n, (M i).least = fin (lo i) := fun i hi => by rw [hM]; exact (hk i hi).1.minimum true
    obtain ⟨q, hq⟩ : ∃ q, n = q + 1 := ⟨n - 1, by omega⟩
    obtain ⟨b, h1, -, -, h4⟩ := pyMaxFrom_fin M lo ((List.range q).map Nat.succ) (lo 0) (fun i hi => by
      obtain ⟨j, hj, rfl⟩ := List.mem_map.mp hi
      exact hleast _ (by have := List.mem_range.mp hj; omega))
    have hex : ∃ i < n, b = lo i := by
      rcases h4 with h4 | ⟨i, hi, h4⟩
      · exact ⟨0, hn, h4⟩
      · obtain ⟨j, hj, rfl⟩ := List.mem_map.mp hi
        exact ⟨_, by have := List.mem_range.mp hj; omega, h4⟩
    refine ⟨b, ?_, ?_, hex⟩
    · rw [hq, List.range_succ_eq_map, List.map_cons, minimumPoi, hleast 0 hn, h1]
    · obtain ⟨i, hi, rfl⟩ := hex
      exact (hk i hi).2.1
  -- the starting value
  have hguess : Ends (All n fun _ => 1) (guess ((List.range n).map M) e) (.ok (fin (pooled n (fun i => nearest (lo i) (x i)) σ))) := by
    rw [← start_fin hn hpos]
    refine guess_of_individual (individual_ends M (fun i => nearest (lo i) (x i)) σ (fun i => fin (-(gaussianLog (c i) (σ i) (x i) (nearest (lo i) (x i))))) _ (fun i hi => ?_) fun i hi => ?_)
    · have hi := List.mem_range.mp hi
      obtain ⟨h1, h2, -, h3, -⟩ := hk i hi
      rw [hM]
      exact focus_ends hi ((model_ends hS h1.usual g ntoys (available i) percentile e w hw).2.1 none true _
        (single_best hS hT h1 h3 (n := true) (nearest_is_best (hpos i hi) (by rw [if_pos rfl]; linarith)) g w hw))
    · have hi := List.mem_range.mp hi
      obtain ⟨h1, h2, -, h3, -⟩ := hk i hi
      rw [hM, hσ i hi]
      exact focus_ends hi ((h i hi).sigma hS hT draw hinv h1 (le_min (le_max_right _ _) (by linarith)) e g ntoys (available i) percentile)
  have h10 : pooled n (fun i => nearest (lo i) (x i)) σ ≤ 10 := by
    unfold pooled
    rw [div_le_iff₀ (weights_pos hn hpos), Finset.mul_sum]
    refine Finset.sum_le_sum fun i hi => ?_
    rw [mul_one_div]
    have := hpos i (Finset.mem_range.mp hi)
    exact div_le_div_of_nonneg_right (min_le_right _ _) (by positivity)
  have half : ∀ t : ℝ, scale (1 / 2) (fin (2 * -t)) = fin (-t) := fun t => by
    rw [scale, fin.injEq]
    ring
  have hlf : ∀ b : Bool, (if b then fin low else fin 0) = fin (if b then low else 0) := fun b => by split <;> rfl
  have hl10 : ∀ b : Bool, (if b then low else 0) ≤ 10 := fun b => by split <;> linarith
  refine ⟨low, k, fun ts => k' (strength ts), hlow0, fun mu hmu => ?_, hL, fun ts v => ?_, fun negative => ?_, fun ts => ?_⟩
  · obtain ⟨i, hi, rfl⟩ := hlowi
    exact (hk i hi).2.2.1 mu (hmu i hi)
  · obtain ⟨data, h1, h2⟩ := hA ts
    exact h1.bind (h2 v)
  · unfold maximize
    rw [hlow]
    refine hguess.bind ((ends_lift _).bind ?_)
    simp only [hlf, upper_ten h10]
    refine (gaussian_minimum hfit hP hL _ (hl10 negative)).bind ?_
    dsimp only
    rw [half]
    exact ends_ret _
  · obtain ⟨data, h1, h2⟩ := hA ts
    unfold maximizeAsimov
    rw [hlow]
    refine (ends_lift _).bind (h1.bind ?_)
    simp only [hlf]
    refine (gaussian_minimum hfit hP h2 _ (hl10 _)).bind ?_
    dsimp only
    rw [half]
    exact ends_ret _

end Verif.Joint
