import Verif.Joint.Lemmas
import Verif.Hypotest.Props
import Verif.Stats.Props

/-!
# The fits of a combination are those of the joint likelihood
-/

namespace Verif.Joint
open Verif.Py F Verif.Hypotest Verif.Chain
open Verif.Interface (MuHat Data World Size)
open Verif.Stats (Expect Calc)
open Classical

/-- The strength at which Asimov data are generated. -/
noncomputable def strength (ts : String) : ℝ := if ts = "q0" then 1 else 0

/-- The fits of a member are those of the likelihood `P`. -/
structure Piece {σ : Type} (I : σ → Prop) (m : Member σ) (e : Expect) (lo : ℝ) (P : Part) : Prop where
  least : m.least = fin lo
  low : lo ≤ 0
  profile : ∀ D, ∃ p : ℝ → ℝ, UpperSemicontinuous p ∧ ∀ v, ∃ θ, ProfileMax P.ok (P.log D) v (p v) θ
  at' : ∀ v, lo ≤ v → ∃ l θ, ProfileMax P.ok (P.log P.data) v l θ ∧ Ends I (m.likelihood e none v) (.ok (fin (-l)))
  asimov : ∀ ts, ∃ l θ D, ProfileMax P.ok (P.log P.data) (strength ts) l θ ∧ Ends I (m.asimov e ts) (.ok D) ∧
    ∀ v, lo ≤ v → ∃ l θ', ProfileMax P.ok (P.log (P.expected (strength ts) θ)) v l θ' ∧ Ends I (m.likelihood e (some D) v) (.ok (fin (-l)))
  fit : ∃ mu r, mu ≤ 10 ∧ Ends I (m.maximize e) (.ok (.one mu, r))
  sigma : ∀ v, Steady I (m.sigma e v)

theorem joint_profile {n : ℕ} {P : ℕ → Part} {D : ℕ → ℕ → ℝ} {v : ℝ} {l : ℕ → ℝ} {θ : ℕ → ℕ → ℝ} (h : ∀ i < n, ProfileMax (P i).ok ((P i).log (D i)) v (l i) (θ i)) :
    ProfileMax (jointOk n P) (jointLog n P D) v (∑ i ∈ Finset.range n, l i) θ :=
  ⟨fun i hi => (h i hi).1, Finset.sum_congr rfl fun i hi => (h i (Finset.mem_range.mp hi)).2.1,
    fun θ' hθ' => Finset.sum_le_sum fun i hi => (h i (Finset.mem_range.mp hi)).2.2 _ (hθ' i (Finset.mem_range.mp hi))⟩

/-- Where the profile of the joint likelihood is largest, the joint likelihood is. -/
theorem joint_global {n : ℕ} {P : ℕ → Part} {D : ℕ → ℕ → ℝ} {lo hi x : ℝ} {p : ℕ → ℝ → ℝ}
    (hp : ∀ i < n, ∀ v, ∃ θ, ProfileMax (P i).ok ((P i).log (D i)) v (p i v) θ) (hx : Smallest (fun v => 2 * -∑ i ∈ Finset.range n, p i v) lo hi x) :
    GlobalMax (jointOk n P) (jointLog n P D) lo hi x (∑ i ∈ Finset.range n, p i x) := by
  obtain ⟨h1, h2, h3⟩ := hx
  have key : ∀ v, ∃ θ, ProfileMax (jointOk n P) (jointLog n P D) v (∑ i ∈ Finset.range n, p i v) θ := by
    intro v
    have : ∀ i, ∃ θ, i < n → ProfileMax (P i).ok ((P i).log (D i)) v (p i v) θ := by
      intro i
      by_cases hi : i < n
      · obtain ⟨θ, hθ⟩ := hp i hi v
        exact ⟨θ, fun _ => hθ⟩
      · exact ⟨fun _ => 0, fun h => absurd h hi⟩
    choose θ hθ using this
    exact ⟨θ, joint_profile hθ⟩
  obtain ⟨θ, hθ⟩ := key x
  refine ⟨h1, h2, ⟨θ, hθ.1, hθ.2.1⟩, fun mu θ' k1 k2 k3 => ?_⟩
  obtain ⟨θ2, hθ2⟩ := key mu
  have := h3 mu k1 k2
  dsimp only at this
  exact (hθ2.2.2 θ' k3).trans (by linarith)

theorem joint_smallest {n : ℕ} {p : ℕ → ℝ → ℝ} (hp : ∀ i < n, UpperSemicontinuous (p i)) {lo hi : ℝ} (hle : lo ≤ hi) :
    ∃ x, Smallest (fun v => 2 * -∑ i ∈ Finset.range n, p i v) lo hi x := by
  have husc : UpperSemicontinuous fun v => ∑ i ∈ Finset.range n, p i v := upperSemicontinuous_sum fun i hi => hp i (Finset.mem_range.mp hi)
  obtain ⟨x, hx, hmax⟩ := UpperSemicontinuousOn.exists_isMaxOn (s := Set.Icc lo hi) ⟨lo, le_rfl, hle⟩ isCompact_Icc (husc.upperSemicontinuousOn _)
  refine ⟨x, hx.1, hx.2, fun y h1 h2 => ?_⟩
  have : ∑ i ∈ Finset.range n, p i y ≤ ∑ i ∈ Finset.range n, p i x := hmax ⟨h1, h2⟩
  dsimp only
  linarith

section
variable {σ : Type} {I : σ → Prop} {fit : Minimizer σ} (hfit : Reliable fit) {n : ℕ} (hn : 0 < n) {M : ℕ → Member σ} {e : Expect} {lo : ℕ → ℝ} {P : ℕ → Part}
  (h : ∀ i < n, Piece I (M i) e (lo i) (P i))

/-- Likelihoods of given data. -/
theorem likelihood_ends {data : List (String × Data)} {D : ℕ → ℕ → ℝ} {v : ℝ}
    (hl : ∀ i < n, ∃ l θ, ProfileMax (P i).ok ((P i).log (D i)) v l θ ∧ Ends I ((M i).likelihood e (dictGet (M i).name data) v) (.ok (fin (-l))))
    {p : ℕ → ℝ → ℝ} (hp : ∀ i < n, ∀ v, ∃ θ, ProfileMax (P i).ok ((P i).log (D i)) v (p i v) θ) :
    Ends I (likelihood ((List.range n).map M) e data v) (.ok (fin (-∑ i ∈ Finset.range n, p i v))) := by
  have := sum_ends (I := I) (e := e) (data := data) (v := v) M (fun i => -p i v) (List.range n) 0 (fun i hi => by
    have hi := List.mem_range.mp hi
    obtain ⟨l, θ, h1, h2⟩ := hl i hi
    obtain ⟨θ', h3⟩ := hp i hi v
    rwa [profile_unique h3 h1])
  have e1 : (0 : ℝ) + ((List.range n).map fun i => -p i v).sum = -∑ i ∈ Finset.range n, p i v := by
    rw [_root_.zero_add, ← Finset.sum_neg_distrib]
    rfl
  rw [e1] at this
  exact this

include hn h in
omit hfit in
theorem minimum_ends : ∃ b, minimumPoi ((List.range n).map M) = .ok (fin b) ∧ b ≤ 0 ∧ (∀ i < n, lo i ≤ b) ∧ ∃ i < n, b = lo i := by
  obtain ⟨k, rfl⟩ : ∃ k, n = k + 1 := ⟨n - 1, by omega⟩
  have h0 := (h 0 hn).least
  obtain ⟨b, h1, h2, h3, h4⟩ := pyMaxFrom_fin M lo ((List.range k).map Nat.succ) (lo 0) (fun i hi => by
    obtain ⟨j, hj, rfl⟩ := List.mem_map.mp hi
    exact (h _ (by have := List.mem_range.mp hj; omega)).least)
  have hex : ∃ i < k + 1, b = lo i := by
    rcases h4 with h4 | ⟨i, hi, h4⟩
    · exact ⟨0, hn, h4⟩
    · obtain ⟨j, hj, rfl⟩ := List.mem_map.mp hi
      exact ⟨_, by have := List.mem_range.mp hj; omega, h4⟩
  refine ⟨b, ?_, ?_, ?_, hex⟩
  · rw [List.range_succ_eq_map, List.map_cons, minimumPoi, h0, h1]
  · obtain ⟨i, hi, rfl⟩ := hex
    exact (h i hi).low
  · intro i hi
    rcases Nat.eq_zero_or_pos i with rfl | hi0
    · exact h2
    · exact h3 i (List.mem_map.mpr ⟨i - 1, List.mem_range.mpr (by omega), by omega⟩)

include hfit h in
omit hn in
/-- The fit of a joint likelihood between bounds. -/
theorem fit_ends {data : List (String × Data)} {D : ℕ → ℕ → ℝ} {a b : ℝ} (hle : a ≤ b)
    (hl : ∀ v, a ≤ v → ∀ i < n, ∃ l θ, ProfileMax (P i).ok ((P i).log (D i)) v l θ ∧ Ends I ((M i).likelihood e (dictGet (M i).name data) v) (.ok (fin (-l))))
    (start : ℝ) : ∃ x l, GlobalMax (jointOk n P) (jointLog n P D) a b x l ∧
      Ends I (fit (twiceNll ((List.range n).map M) e data) (fin start) (fin a) (fin b)) (.ok (fin (2 * -l), x)) := by
  have : ∀ i, ∃ p : ℝ → ℝ, i < n → UpperSemicontinuous p ∧ ∀ v, ∃ θ, ProfileMax (P i).ok ((P i).log (D i)) v (p v) θ := by
    intro i
    by_cases hi : i < n
    · obtain ⟨p, hp⟩ := (h i hi).profile (D i)
      exact ⟨p, fun _ => hp⟩
    · exact ⟨fun _ => 0, fun h => absurd h hi⟩
  choose p hp using this
  obtain ⟨x, hx, hE⟩ := hfit I (twiceNll ((List.range n).map M) e data) (fun v => 2 * -∑ i ∈ Finset.range n, p i v) start a b
    (fun v h1 _ => (likelihood_ends (hl v h1) fun i hi => (hp i hi).2).bind (ends_ret _))
    (joint_smallest (fun i hi => (hp i hi).1) hle)
  exact ⟨x, _, joint_global (fun i hi => (hp i hi).2) hx, hE⟩

theorem upper_ten {x : ℝ} (h : x ≤ 10) : Combiner.upper (fin x) = fin 10 := by
  unfold Combiner.upper
  rw [if_neg]
  exact not_lt.mpr h

include hfit hn h in
/-- `maximize_likelihood` of the data of the models. -/
theorem maximize_ends (negative : Bool) {s : σ} (hs : I s) {start : ℝ} (hstart : (guess ((List.range n).map M) e s).1 = .ok (fin start)) {low : ℝ}
    (hlow : minimumPoi ((List.range n).map M) = .ok (fin low)) :
    ∃ x l, GlobalMax (jointOk n P) (jointLog n P fun i => (P i).data) (if negative then low else 0) 10 x l ∧
      Ends I (maximize fit ((List.range n).map M) e negative []) (.ok (.one x, fin (-l))) := by
  obtain ⟨b, h1, h2, h3, -⟩ := minimum_ends hn h
  rw [hlow, Except.ok.injEq, fin.injEq] at h1
  subst h1
  obtain ⟨h10, hg⟩ := guess_ends (I := I) (e := e) (l := (List.range n).map M)
    (fun m hm => by obtain ⟨i, hi, rfl⟩ := List.mem_map.mp hm; exact (h i (List.mem_range.mp hi)).fit)
    (fun m hm => by obtain ⟨i, hi, rfl⟩ := List.mem_map.mp hm; exact (h i (List.mem_range.mp hi)).sigma) hs hstart
  have hlo : ∀ i < n, lo i ≤ if negative then low else 0 := fun i hi => by
    split
    · exact h3 i hi
    · exact (h i hi).low
  obtain ⟨x, l, k1, k2⟩ := fit_ends hfit h (data := []) (D := fun i => (P i).data) (a := if negative then low else 0) (b := 10)
    (by split <;> linarith) (fun v hv i hi => (h i hi).at' v ((hlo i hi).trans hv)) start
  refine ⟨x, l, k1, ?_⟩
  have hlf : (if negative then fin low else fin 0) = fin (if negative then low else 0) := by split <;> rfl
  unfold maximize
  rw [hlow]
  have hend : Ends I (ret (MuHat.one x, scale (1 / 2) (fin (2 * -l))) : Comp σ (MuHat × F)) (.ok (.one x, fin (-l))) := by
    have : scale (1 / 2) (fin (2 * -l)) = fin (-l) := by
      rw [scale, fin.injEq]
      ring
    rw [this]
    exact ends_ret _
  refine hg.bind ((ends_lift _).bind ?_)
  simp only [hlf, upper_ten h10]
  exact k2.bind hend

include h in
omit hfit hn in
/-- `generate_asimov_data`. -/
theorem data_ends (hnames : ((List.range n).map fun i => (M i).name).Nodup) (ts : String) :
    ∃ l θ data, ProfileMax (jointOk n P) (jointLog n P fun i => (P i).data) (strength ts) l θ ∧ Ends I (asimovLoop e ts [] ((List.range n).map M)) (.ok data) ∧
      ∀ i < n, ∀ v, lo i ≤ v → ∃ l θ', ProfileMax (P i).ok ((P i).log ((P i).expected (strength ts) (θ i))) v l θ' ∧
        Ends I ((M i).likelihood e (dictGet (M i).name data) v) (.ok (fin (-l))) := by
  have : ∀ i, ∃ l θ D, i < n → ProfileMax (P i).ok ((P i).log (P i).data) (strength ts) l θ ∧ Ends I ((M i).asimov e ts) (.ok D) ∧
      ∀ v, lo i ≤ v → ∃ l θ', ProfileMax (P i).ok ((P i).log ((P i).expected (strength ts) θ)) v l θ' ∧ Ends I ((M i).likelihood e (some D) v) (.ok (fin (-l))) := by
    intro i
    by_cases hi : i < n
    · obtain ⟨l, θ, D, h1⟩ := (h i hi).asimov ts
      exact ⟨l, θ, D, fun _ => h1⟩
    · exact ⟨0, fun _ => 0, [], fun h => absurd h hi⟩
  choose l θ D hD using this
  refine ⟨∑ i ∈ Finset.range n, l i, θ, collect M D (List.range n) [], joint_profile fun i hi => (hD i hi).1,
    asimov_ends M D (List.range n) [] fun i hi => (hD i (List.mem_range.mp hi)).2.1, fun i hi v hv => ?_⟩
  rw [collect_get M D (List.range n) [] hnames i (List.mem_range.mpr hi)]
  exact (hD i hi).2.2 v hv

include hfit hn h in
/-- All fits of a hypothesis test. -/
theorem joint_fits (hnames : ((List.range n).map fun i => (M i).name).Nodup) {s : σ} (hs : I s) {start : ℝ}
    (hstart : (guess ((List.range n).map M) e s).1 = .ok (fin start)) {low : ℝ} (hlow : minimumPoi ((List.range n).map M) = .ok (fin low)) (ts : String)
    {v : ℝ} (hv : 0 ≤ v) (percentile : List F → F → F) :
    ∃ best l lv l0 l1 θ bestA lA lvA l0A, GlobalMax (jointOk n P) (jointLog n P fun i => (P i).data) (if Interface.mayBeNegative ts then low else 0) 10 best l ∧
      (∃ θ', ProfileMax (jointOk n P) (jointLog n P fun i => (P i).data) v lv θ') ∧ (∃ θ', ProfileMax (jointOk n P) (jointLog n P fun i => (P i).data) 0 l0 θ') ∧
      ProfileMax (jointOk n P) (jointLog n P fun i => (P i).data) (strength ts) l1 θ ∧
      GlobalMax (jointOk n P) (jointLog n P fun i => (P i).expected (strength ts) (θ i)) (if Interface.mayBeNegative ts then low else 0) 10 bestA lA ∧
      (∃ θ', ProfileMax (jointOk n P) (jointLog n P fun i => (P i).expected (strength ts) (θ i)) v lvA θ') ∧
      (∃ θ', ProfileMax (jointOk n P) (jointLog n P fun i => (P i).expected (strength ts) (θ i)) 0 l0A θ') ∧
      Fits I (combined fit ((List.range n).map M) percentile) e (Interface.mayBeNegative ts) none v best (fin (-l)) (fin (-lv)) (fin (-l0)) ∧
      FitsAsimov I (combined fit ((List.range n).map M) percentile) e ts v bestA (fin (-lA)) (fin (-lvA)) (fin (-l0A)) := by
  obtain ⟨best, l, k1, f1⟩ := maximize_ends hfit hn h (Interface.mayBeNegative ts) hs hstart hlow
  obtain ⟨l1, θ, data, k2, f2, hdata⟩ := data_ends h hnames ts
  have hlo : ∀ i < n, lo i ≤ if Interface.mayBeNegative ts then low else 0 := by
    obtain ⟨b, h1, -, h3, -⟩ := minimum_ends hn h
    rw [hlow, Except.ok.injEq, fin.injEq] at h1
    subst h1
    intro i hi
    split
    · exact h3 i hi
    · exact (h i hi).low
  have hl0 : low ≤ 0 := by
    obtain ⟨b, h1, h2, -⟩ := minimum_ends hn h
    rw [hlow, Except.ok.injEq, fin.injEq] at h1
    rwa [h1]
  obtain ⟨bestA, lA, k3, f3⟩ := fit_ends hfit h (data := data) (D := fun i => (P i).expected (strength ts) (θ i))
    (a := if Interface.mayBeNegative ts then low else 0) (b := 10) (by split <;> linarith) (fun v hv i hi => hdata i hi v ((hlo i hi).trans hv)) 0
  have : ∀ D : ℕ → ℕ → ℝ, ∃ p : ℕ → ℝ → ℝ, ∀ i < n, ∀ v, ∃ θ, ProfileMax (P i).ok ((P i).log (D i)) v (p i v) θ := by
    intro D
    have : ∀ i, ∃ p : ℝ → ℝ, i < n → ∀ v, ∃ θ, ProfileMax (P i).ok ((P i).log (D i)) v (p v) θ := by
      intro i
      by_cases hi : i < n
      · obtain ⟨p, hp⟩ := (h i hi).profile (D i)
        exact ⟨p, fun _ => hp.2⟩
      · exact ⟨fun _ => 0, fun h => absurd h hi⟩
    choose p hp using this
    exact ⟨p, hp⟩
  have prof : ∀ (D : ℕ → ℕ → ℝ) (p : ℕ → ℝ → ℝ), (∀ i < n, ∀ v, ∃ θ, ProfileMax (P i).ok ((P i).log (D i)) v (p i v) θ) → ∀ v,
      ∃ θ, ProfileMax (jointOk n P) (jointLog n P D) v (∑ i ∈ Finset.range n, p i v) θ := by
    intro D p hp v
    have : ∀ i, ∃ θ, i < n → ProfileMax (P i).ok ((P i).log (D i)) v (p i v) θ := by
      intro i
      by_cases hi : i < n
      · obtain ⟨θ, hθ⟩ := hp i hi v
        exact ⟨θ, fun _ => hθ⟩
      · exact ⟨fun _ => 0, fun h => absurd h hi⟩
    choose θ hθ using this
    exact ⟨θ, joint_profile hθ⟩
  obtain ⟨p, hp⟩ := this fun i => (P i).data
  obtain ⟨pA, hpA⟩ := this fun i => (P i).expected (strength ts) (θ i)
  have hL : ∀ u, 0 ≤ u → Ends I (likelihood ((List.range n).map M) e [] u) (.ok (fin (-∑ i ∈ Finset.range n, p i u))) := fun u hu =>
    likelihood_ends (D := fun i => (P i).data) (fun i hi => (h i hi).at' u ((h i hi).low.trans hu)) hp
  have hLA : ∀ u, 0 ≤ u → Ends I (asimovLikelihood ((List.range n).map M) e ts u) (.ok (fin (-∑ i ∈ Finset.range n, pA i u))) := fun u hu =>
    f2.bind (likelihood_ends (D := fun i => (P i).expected (strength ts) (θ i)) (fun i hi => hdata i hi u ((h i hi).low.trans hu)) hpA)
  refine ⟨best, l, _, _, l1, θ, bestA, lA, _, _, k1, prof _ p hp v, prof _ p hp 0, k2, k3, prof _ pA hpA v, prof _ pA hpA 0,
    ⟨f1, hL v hv, hL 0 le_rfl⟩, ⟨?_, hLA v hv, hLA 0 le_rfl⟩⟩
  have hend : Ends I (ret (MuHat.one bestA, scale (1 / 2) (fin (2 * -lA))) : Comp σ (MuHat × F)) (.ok (.one bestA, fin (-lA))) := by
    have : scale (1 / 2) (fin (2 * -lA)) = fin (-lA) := by
      rw [scale, fin.injEq]
      ring
    rw [this]
    exact ends_ret _
  have hlf : (if Interface.mayBeNegative ts then fin low else fin 0) = fin (if Interface.mayBeNegative ts then low else 0) := by split <;> rfl
  show Ends I (maximizeAsimov fit ((List.range n).map M) e ts) _
  unfold maximizeAsimov
  rw [hlow]
  refine (ends_lift _).bind (f2.bind ?_)
  simp only [hlf]
  exact f3.bind hend

end

end Verif.Joint
