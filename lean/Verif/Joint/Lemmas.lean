import Verif.Joint.Spec
import Verif.Hypotest.Lemmas
import Verif.Chain.Tame
import Mathlib.Topology.Semicontinuity.Basic
import Mathlib.Topology.Maps.Proper.Basic

/-!
# Lemmas about combinations
-/

namespace Verif.Joint
open Verif.Py F Verif.Hypotest Verif.Chain
open Verif.Interface (MuHat Data World Size)
open Verif.Stats (Expect Calc)
open Classical

/-! ### A minimiser that keeps the contract -/

/-- What a function does inside the bounds, seen from a state. -/
noncomputable def inside {σ : Type} (f : ℝ → Comp σ F) (lo hi : ℝ) (s : σ) (v : ℝ) : Option ℝ :=
  if lo ≤ v ∧ v ≤ hi then
    match (f v s).1 with
    | .ok (fin y) => some y
    | _ => none
  else none

/-- A minimiser of one variable that always finds the smallest value. -/
noncomputable def ideal {σ : Type} : Minimizer σ := fun f _ lo hi s =>
  match lo, hi with
  | fin lo, fin hi =>
    if h : ∃ x, Smallest (fun v => (inside f lo hi s v).getD 0) lo hi x then (.ok (fin ((inside f lo hi s h.choose).getD 0), h.choose), s)
    else (.error .type, s)
  | _, _ => (.error .type, s)

theorem ideal_reliable {σ : Type} : Reliable (ideal (σ := σ)) := by
  intro I f g start lo hi hf hx
  have h1 : ∀ s, I s → inside f lo hi s = fun v => if lo ≤ v ∧ v ≤ hi then some (g v) else none := by
    intro s hs
    funext v
    unfold inside
    by_cases hv : lo ≤ v ∧ v ≤ hi
    · rw [if_pos hv, if_pos hv, (hf v hv.1 hv.2 s hs).1]
    · rw [if_neg hv, if_neg hv]
  obtain ⟨k, hk⟩ : ∃ k : ℝ → Option ℝ, k = fun v => if lo ≤ v ∧ v ≤ hi then some (g v) else none := ⟨_, rfl⟩
  have h2 : ∀ v, lo ≤ v → v ≤ hi → (k v).getD 0 = g v := by
    intro v k1 k2
    rw [hk]
    simp [k1, k2]
  have h3 : ∀ x, Smallest (fun v => (k v).getD 0) lo hi x ↔ Smallest g lo hi x := by
    intro x
    constructor
    · rintro ⟨k1, k2, k3⟩
      refine ⟨k1, k2, fun y k4 k5 => ?_⟩
      have := k3 y k4 k5
      dsimp only at this
      rwa [h2 _ k1 k2, h2 _ k4 k5] at this
    · rintro ⟨k1, k2, k3⟩
      refine ⟨k1, k2, fun y k4 k5 => ?_⟩
      dsimp only
      rw [h2 _ k1 k2, h2 _ k4 k5]
      exact k3 y k4 k5
  have hx' : ∃ x, Smallest (fun v => (k v).getD 0) lo hi x := hx.imp fun x h => (h3 x).mpr h
  refine ⟨hx'.choose, (h3 _).mp hx'.choose_spec, fun s hs => ?_⟩
  have h4 := h1 s hs
  rw [← hk] at h4
  have h5 := hx'.choose_spec
  have : ideal f (fin start) (fin lo) (fin hi) s = (.ok (fin (g hx'.choose), hx'.choose), s) := by
    unfold ideal
    dsimp only
    simp only [h4]
    rw [dif_pos hx', h2 _ h5.1 h5.2.1]
  rw [this]
  exact ⟨rfl, hs⟩

/-! ### Sums and dicts -/

section
variable {σ : Type} {I : σ → Prop}

theorem sum_ends {e : Expect} {data : List (String × Data)} {v : ℝ} (M : ℕ → Member σ) (p : ℕ → ℝ) :
    ∀ (l : List ℕ) (a : ℝ), (∀ i ∈ l, Ends I ((M i).likelihood e (dictGet (M i).name data) v) (.ok (fin (p i)))) →
      Ends I (sumLoop e data v (fin a) (l.map M)) (.ok (fin (a + (l.map p).sum)))
  | [], a, _ => by
    simp only [List.map_nil, sumLoop, List.sum_nil, _root_.add_zero]
    exact ends_ret _
  | i :: l, a, h => by
    intro s hs
    obtain ⟨h1, h2⟩ := h i (by simp) s hs
    cases hr : (M i).likelihood e (dictGet (M i).name data) v s with
    | mk r s' =>
      rw [hr] at h1 h2
      dsimp only at h1 h2
      subst h1
      have := sum_ends M p l (a + p i) (fun j hj => h j (by simp [hj])) s' h2
      have hstep : sumLoop e data v (fin a) ((i :: l).map M) s = sumLoop e data v (fin (a + p i)) (l.map M) s' := by
        have hn : ¬ isNan (add (fin a) (fin (p i))) := id
        simp only [List.map_cons, sumLoop, hr]
        rw [if_neg hn]
        rfl
      rw [hstep, List.map_cons, List.sum_cons, ← _root_.add_assoc]
      exact this

/-- The dict of `generate_asimov_data`. -/
def collect (M : ℕ → Member σ) (D : ℕ → Data) (l : List ℕ) (d : List (String × Data)) : List (String × Data) :=
  l.foldl (fun d i => dictSet (M i).name (D i) d) d

theorem asimov_ends {e : Expect} {ts : String} (M : ℕ → Member σ) (D : ℕ → Data) : ∀ (l : List ℕ) (d : List (String × Data)),
    (∀ i ∈ l, Ends I ((M i).asimov e ts) (.ok (D i))) → Ends I (asimovLoop e ts d (l.map M)) (.ok (collect M D l d))
  | [], d, _ => ends_ret _
  | i :: l, d, h => (h i (by simp)).bind (asimov_ends M D l _ fun j hj => h j (by simp [hj]))

theorem collect_other (M : ℕ → Member σ) (D : ℕ → Data) (k : String) : ∀ (l : List ℕ) (d : List (String × Data)), (∀ i ∈ l, (M i).name ≠ k) →
    dictGet k (collect M D l d) = dictGet k d
  | [], _, _ => rfl
  | i :: l, d, h => by
    unfold collect
    rw [List.foldl_cons]
    have := collect_other M D k l (dictSet (M i).name (D i) d) fun j hj => h j (by simp [hj])
    unfold collect at this
    rw [this, dictGet_set, if_neg (Ne.symm (h i (by simp)))]

theorem collect_get (M : ℕ → Member σ) (D : ℕ → Data) : ∀ (l : List ℕ) (d : List (String × Data)), (l.map fun i => (M i).name).Nodup → ∀ i ∈ l,
    dictGet (M i).name (collect M D l d) = some (D i)
  | [], _, _, i, hi => by simp at hi
  | j :: l, d, hn, i, hi => by
    rw [List.map_cons, List.nodup_cons] at hn
    unfold collect
    rw [List.foldl_cons]
    rcases List.mem_cons.mp hi with rfl | hi
    · have := collect_other M D (M i).name l (dictSet (M i).name (D i) d) fun j hj he => hn.1 (List.mem_map.mpr ⟨j, hj, he⟩)
      unfold collect at this
      rw [this, dictGet_set, if_pos rfl]
    · exact collect_get M D l _ hn.2 i hi

/-- The largest of the smallest strengths. -/
theorem pyMaxFrom_fin (M : ℕ → Member σ) (p : ℕ → ℝ) : ∀ (l : List ℕ) (a : ℝ), (∀ i ∈ l, (M i).least = fin (p i)) →
    ∃ b, Combiner.pyMaxFrom (fin a) ((l.map M).map Member.least) = fin b ∧ a ≤ b ∧ (∀ i ∈ l, p i ≤ b) ∧ (b = a ∨ ∃ i ∈ l, b = p i)
  | [], a, _ => ⟨a, rfl, le_rfl, by simp, .inl rfl⟩
  | i :: l, a, h => by
    have hm := h i (by simp)
    obtain ⟨b, h1, h2, h3, h4⟩ := pyMaxFrom_fin M p l (if a < p i then p i else a) fun j hj => h j (by simp [hj])
    refine ⟨b, ?_, ?_, ?_, ?_⟩
    · rw [List.map_cons, List.map_cons, Combiner.pyMaxFrom, hm, ← h1]
      congr 1
      by_cases hlt : a < p i
      · have : lt (fin a) (fin (p i)) := hlt
        rw [if_pos this, if_pos hlt]
      · have : ¬ lt (fin a) (fin (p i)) := hlt
        rw [if_neg this, if_neg hlt]
    · split at h2 <;> linarith
    · intro j hj
      rcases List.mem_cons.mp hj with rfl | hj
      · split at h2 <;> linarith
      · exact h3 j hj
    · rcases h4 with h4 | ⟨j, hj, h4⟩
      · split at h4
        · exact .inr ⟨i, by simp, h4⟩
        · exact .inl h4
      · exact .inr ⟨j, by simp [hj], h4⟩

end

/-! ### The starting value -/

theorem weighted_sums : ∀ l : List (F × F), (∀ p ∈ l, ∃ mu : ℝ, p.1 = fin mu ∧ mu ≤ 10) →
    Combiner.sumF (l.map fun p => Combiner.invSq p.2) = nan ∨ Combiner.sumF (l.map fun p => Combiner.invSq p.2) = pinf ∨
      ∃ W T : ℝ, Combiner.sumF (l.map fun p => Combiner.invSq p.2) = fin W ∧ Combiner.sumF (l.map fun p => Combiner.overSq p.1 p.2) = fin T ∧ 0 ≤ W ∧ T ≤ 10 * W
  | [], _ => .inr (.inr ⟨0, 0, rfl, rfl, le_rfl, by simp⟩)
  | (m, s) :: l, h => by
    obtain ⟨mu, hm, h10⟩ := h (m, s) (by simp)
    dsimp only at hm
    subst hm
    simp only [List.map_cons, Combiner.sumF]
    have ih := weighted_sums l fun p hp => h p (by simp [hp])
    have key : Combiner.invSq s = nan ∨ Combiner.invSq s = pinf ∨ ∃ w t : ℝ, Combiner.invSq s = fin w ∧ Combiner.overSq (fin mu) s = fin t ∧ 0 ≤ w ∧ t ≤ 10 * w := by
      cases s with
      | nan => exact .inl rfl
      | fin x =>
        by_cases hx : x = 0
        · exact .inr (.inl (by simp [Combiner.invSq, hx]))
        · have hxx : x * x ≠ 0 := mul_ne_zero hx hx
          refine .inr (.inr ⟨1 / x ^ 2, mu / (x * x), by simp [Combiner.invSq, hx], by simp [Combiner.overSq, F.mul, F.div, hx], by positivity, ?_⟩)
          have : 0 < x * x := mul_self_pos.mpr hx
          rw [div_le_iff₀ this]
          field_simp
          exact h10
      | pinf => exact .inr (.inr ⟨0, 0, rfl, rfl, le_rfl, by simp⟩)
      | ninf => exact .inr (.inr ⟨0, 0, rfl, rfl, le_rfl, by simp⟩)
    rcases key with k | k | ⟨w, t, k1, k2, k3, k4⟩
    · left; rw [k]; rfl
    · rw [k]
      rcases ih with i | i | ⟨W, T, i1, -⟩
      · left; rw [i]; rfl
      · right; left; rw [i]; rfl
      · right; left; rw [i1]; rfl
    · rw [k1, k2]
      rcases ih with i | i | ⟨W, T, i1, i2, i3, i4⟩
      · left; rw [i]; rfl
      · right; left; rw [i]; rfl
      · right; right
        exact ⟨w + W, t + T, by rw [i1]; rfl, by rw [i2]; rfl, by linarith, by linarith⟩

/-- The weighted mean of values that are at most 10 is at most 10. -/
theorem weightedMean_le {l : List (F × F)} (h : ∀ p ∈ l, ∃ mu : ℝ, p.1 = fin mu ∧ mu ≤ 10) {x : ℝ} (hx : Combiner.weightedMean l = fin x) : x ≤ 10 := by
  unfold Combiner.weightedMean at hx
  rcases weighted_sums l h with k | k | ⟨W, T, k1, k2, k3, k4⟩
  · rw [k] at hx
    simp [F.div, F.mul] at hx
  · rw [k] at hx
    cases hs : Combiner.sumF (l.map fun p => Combiner.overSq p.1 p.2) <;> rw [hs] at hx <;> simp [F.div, F.mul] at hx
    rw [← hx]
    norm_num
  · rw [k1, k2] at hx
    rcases k3.eq_or_lt with k3 | k3
    · subst k3
      simp only [F.div, if_true, one_ne_zero, if_false, infOf, zero_lt_one, F.mul] at hx
      split_ifs at hx <;> simp [neg] at hx
    · simp only [F.div, k3.ne', if_false, F.mul, fin.injEq] at hx
      rw [← hx, one_div, inv_mul_le_iff₀ k3]
      linarith

section
variable {σ : Type} {I : σ → Prop}

theorem individual_steady {e : Expect} : ∀ (l : List (Member σ)), (∀ m ∈ l, Steady I (m.maximize e) ∧ ∀ v, Steady I (m.sigma e v)) → Steady I (individual e l)
  | [], _ => steady_ret _
  | m :: l, h => by
    refine ((h m (by simp)).1).bind fun r => ?_
    split
    · exact steady_lift _
    · exact ((h m (by simp)).2 _).bind fun _ => (individual_steady l fun m' hm' => h m' (by simp [hm'])).bind fun _ => steady_ret _

theorem individual_le {e : Expect} : ∀ (l : List (Member σ)), (∀ m ∈ l, ∃ mu r, mu ≤ 10 ∧ Ends I (m.maximize e) (.ok (.one mu, r))) →
    (∀ m ∈ l, ∀ v, Steady I (m.sigma e v)) → ∀ s, I s → ∀ r s', individual e l s = (.ok r, s') → ∀ p ∈ r, ∃ mu : ℝ, p.1 = fin mu ∧ mu ≤ 10
  | [], _, _, s, _, r, s', hr, p, hp => by
    simp only [individual, ret, Prod.mk.injEq, Except.ok.injEq] at hr
    rw [← hr.1] at hp
    simp at hp
  | m :: l, h, hs, s, hI, r, s', hr, p, hp => by
    obtain ⟨mu, x, h10, he⟩ := h m (by simp)
    unfold individual at hr
    obtain ⟨b, s1, h1, hr⟩ := bind_returned hr
    have k := he s hI
    rw [h1] at k
    obtain ⟨k1, k2⟩ := k
    simp only [Except.ok.injEq] at k1
    subst k1
    dsimp only at hr k2
    obtain ⟨sg, s2, h2, hr⟩ := bind_returned hr
    have hI2 : I s2 := by
      have := (hs m (by simp) mu s1 s1 k2 k2).2
      rwa [h2] at this
    obtain ⟨rest, s3, h3, hr⟩ := bind_returned hr
    simp only [ret, Prod.mk.injEq, Except.ok.injEq] at hr
    rw [← hr.1] at hp
    rcases List.mem_cons.mp hp with rfl | hp
    · exact ⟨mu, rfl, h10⟩
    · exact individual_le l (fun m' hm' => h m' (by simp [hm'])) (fun m' hm' => hs m' (by simp [hm'])) s2 hI2 rest s3 h3 p hp

theorem guess_steady {e : Expect} {l : List (Member σ)} (h : ∀ m ∈ l, Steady I (m.maximize e) ∧ ∀ v, Steady I (m.sigma e v)) : Steady I (guess l e) := by
  intro s s' hs hs'
  obtain ⟨h1, h2⟩ := individual_steady l h s s' hs hs'
  unfold guess
  cases hr : individual e l s with
  | mk r s1 =>
    cases hr' : individual e l s' with
    | mk r' s1' =>
      rw [hr, hr'] at h1
      rw [hr] at h2
      dsimp only at h1 h2
      subst h1
      cases r <;> exact ⟨rfl, h2⟩

theorem Ends.steady {α : Type} {c : Comp σ α} {r : Except Err α} (h : Ends I c r) : Steady I c := fun s s' hs hs' =>
  ⟨(h s hs).1.trans (h s' hs').1.symm, (h s hs).2⟩

theorem guess_ends {e : Expect} {l : List (Member σ)} (h : ∀ m ∈ l, ∃ mu r, mu ≤ 10 ∧ Ends I (m.maximize e) (.ok (.one mu, r)))
    (hs : ∀ m ∈ l, ∀ v, Steady I (m.sigma e v)) {s : σ} (hI : I s) {x : ℝ} (hx : (guess l e s).1 = .ok (fin x)) : x ≤ 10 ∧ Ends I (guess l e) (.ok (fin x)) := by
  have hst := guess_steady (I := I) (e := e) (l := l) fun m hm => ⟨by obtain ⟨_, _, _, h⟩ := h m hm; exact Ends.steady h, hs m hm⟩
  refine ⟨?_, fun s' hs' => ⟨(hst s' s hs' hI).1.trans hx, (hst s' s hs' hI).2⟩⟩
  unfold guess at hx
  cases hr : individual e l s with
  | mk r s1 =>
    rw [hr] at hx
    cases r with
    | error _ =>
      simp only [Except.ok.injEq, fin.injEq] at hx
      rw [← hx]
      norm_num
    | ok r =>
      simp only [Except.ok.injEq] at hx
      exact weightedMean_le (individual_le l h hs s hI r s1 hr) hx

end

/-! ### Where the profile likelihood is largest -/

theorem profile_unique {Θ : Type} {ok : Θ → Prop} {L : ℝ → Θ → ℝ} {mu l l' : ℝ} {θ θ' : Θ} (h : ProfileMax ok L mu l θ) (h' : ProfileMax ok L mu l' θ') :
    l = l' := le_antisymm (by rw [h.2.1]; exact h'.2.2 _ h.1) (by rw [h'.2.1]; exact h.2.2 _ h'.1)

/-- The profile likelihood of a binned model is upper semicontinuous. -/
theorem profile_semicontinuous {n : ℕ} {bin : ℕ → ℝ → ℝ} {pen : (ℕ → ℝ) → ℝ} (h : Tame n bin pen) (γ : ℝ → ℝ) (s D : ℕ → ℝ) {p : ℝ → ℝ}
    (hp : ∀ mu, ∃ θ, ProfileMax (Admissible n bin) (logLikelihood γ n s bin pen D) mu (p mu) θ) : UpperSemicontinuous p := by
  rw [upperSemicontinuous_iff_isClosed_preimage]
  intro c
  obtain ⟨K, b, hb, hK⟩ := logLikelihood_falls h γ s D
  obtain ⟨r, hr⟩ : ∃ r, r = (K - c) / b := ⟨_, rfl⟩
  let Box : Set (Fin n → ℝ) := Set.Icc (fun _ => -(r + 1)) (fun _ => r + 1)
  have : CompactSpace Box := isCompact_iff_compactSpace.mp isCompact_Icc
  have hg : Continuous fun z : ℝ × Box => extend n z.2.1 := (extend_continuous n).comp (continuous_subtype_val.comp continuous_snd)
  have hcl : IsClosed ({z : ℝ × Box | c ≤ logLikelihood γ n s bin pen D z.1 (extend n z.2.1)} ∩ {z : ℝ × Box | Admissible n bin (extend n z.2.1)}) :=
    (isClosed_le continuous_const (logLikelihood_continuous h γ s D continuous_fst hg)).inter (admissible_closed h hg)
  have himg := isClosedMap_fst_of_compactSpace _ hcl
  convert himg using 1
  ext mu
  constructor
  · intro hmu
    have hmu : c ≤ p mu := hmu
    obtain ⟨θ, h1, h2, h3⟩ := hp mu
    have hθ : ∀ i < n, extend n (fun j => θ j) i = θ i := fun i hi => extend_restrict θ hi
    have hle := hK mu θ
    rw [← h2] at hle
    have hsum : ∑ j : Fin n, θ j ^ 2 ≤ r := by
      rw [hr, le_div_iff₀ hb]
      have : ∑ j : Fin n, θ j ^ 2 = ∑ i ∈ Finset.range n, θ i ^ 2 := (Finset.sum_range fun i => θ i ^ 2).symm
      rw [this]
      linarith
    have hbox : (fun j : Fin n => θ j) ∈ Box := by
      have h3 : ∀ j : Fin n, |θ j| ≤ r + 1 := by
        intro j
        have h4 : θ j ^ 2 ≤ r := (Finset.single_le_sum (f := fun j : Fin n => θ j ^ 2) (fun i _ => sq_nonneg (θ i)) (Finset.mem_univ j)).trans hsum
        rw [← sq_abs] at h4
        by_contra hlt
        rw [not_le] at hlt
        have hr0 : 0 ≤ r := (sq_nonneg _).trans h4
        nlinarith [abs_nonneg (θ j)]
      exact ⟨fun j => (abs_le.mp (h3 j)).1, fun j => (abs_le.mp (h3 j)).2⟩
    refine ⟨(mu, ⟨_, hbox⟩), ⟨?_, ?_⟩, rfl⟩
    · show c ≤ logLikelihood γ n s bin pen D mu (extend n fun j => θ j)
      rw [logLikelihood_congr h γ s D hθ, ← h2]
      exact hmu
    · exact admissible_congr h (fun i hi => (hθ i hi).symm) h1
  · rintro ⟨⟨mu', x⟩, ⟨h1, h2⟩, rfl⟩
    obtain ⟨θ, -, -, h5⟩ := hp mu'
    have h1 : c ≤ logLikelihood γ n s bin pen D mu' (extend n x.1) := h1
    exact h1.trans (h5 _ h2)

end Verif.Joint
