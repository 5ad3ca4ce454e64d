import Verif.Uncorrelated.LimitProps
import Verif.Uncorrelated.ScaleProps

/-!
# The level of exclusion as a function of the signal strength
-/

namespace Verif.Uncorrelated
open Verif.Py F Verif.Hypotest Verif.Chain
open Verif.Stats (Expect)
open Verif.UpperLimit (Expected)

/-- Larger signal strengths have larger statistics, where they are positive. -/
theorem stat_strict {P : ℝ → ℝ} (hP : Concave P) {v v' q q' : ℝ} (hv : v < v') (h0 : 0 < q) (hq : IsStat P v q) (hq' : IsStat P v' q') : q < q' := by
  obtain ⟨b, hb, h1, h2⟩ := hq
  rcases le_or_gt b v with hbv | hbv
  · have e : q' = max (2 * (P b - P v')) 0 := stat_unique hP hq' ⟨b, hb, fun _ => rfl, fun h => absurd h (by linarith)⟩
    have h1 := h1 hbv
    have e0 : q = 2 * (P b - P v) := by
      rcases max_cases (2 * (P b - P v)) 0 with h | h
      · rw [h1, h.1]
      · rw [h1, h.1] at h0
        exact absurd h0 (lt_irrefl _)
    rcases hbv.eq_or_lt with rfl | hbv
    · linarith
    · have hd : 0 < v' - b := by linarith
      have c := hP b v' ((v' - v) / (v' - b)) ((v - b) / (v' - b)) hb.1 (by linarith [hb.1]) (div_nonneg (by linarith) hd.le) (div_nonneg (by linarith) hd.le) (by field_simp; ring)
      rw [show (v' - v) / (v' - b) * b + (v - b) / (v' - b) * v' = v by field_simp; ring] at c
      have e1 : (v' - v) / (v' - b) = 1 - (v - b) / (v' - b) := by field_simp; ring
      have t0 : 0 < (v - b) / (v' - b) := div_pos (by linarith) hd
      have t1 : (v - b) / (v' - b) < 1 := (div_lt_one hd).mpr (by linarith)
      rw [e1] at c
      have m1 := le_max_left (2 * (P b - P v')) 0
      rw [← e] at m1
      have k : q ≤ (v - b) / (v' - b) * (2 * (P b - P v')) := by rw [e0]; nlinarith
      have hp : 0 < 2 * (P b - P v') := by
        by_contra hn
        have := mul_nonpos_of_nonneg_of_nonpos t0.le (not_lt.mp hn)
        linarith
      nlinarith
  · rw [h2 hbv] at h0
    exact absurd h0 (lt_irrefl _)

/-- Without Asimov statistic nothing is excluded. -/
theorem entry_zero (e : Expected) (q : ℝ) (i : ℕ) : entry e q 0 i = 0 := by
  unfold entry
  have h1 : ∀ x : ℝ, 1 - Phi x / Phi x = 0 := fun x => by rw [div_self (Phi_pos x).ne', sub_self]
  cases e
  · show Stats.observedOf false q 0 = 0
    unfold Stats.observedOf
    split
    · rfl
    · rw [Real.sqrt_zero, sub_zero, h1]
  all_goals
    dsimp only
    rw [Real.sqrt_zero, sub_zero, h1]

theorem entry_strict (e : Expected) {q q' qA qA' : ℝ} (hq : 0 ≤ q) (hqq : q ≤ q') (hA : 0 ≤ qA) (hAA : qA < qA') (i : ℕ) : entry e q qA i < entry e q' qA' i := by
  unfold entry
  cases e
  · exact (Stats.observed_more false hq hqq hA).trans_lt (Stats.observed_strict false (hq.trans hqq) hA hAA)
  all_goals exact Stats.expected_strict hA hAA _

/-- `r` is the entry `i` of the level of the signal strength `v`, by the profile likelihood in closed form. -/
def IsLevel (G : ℝ → ℝ) (bins : List Bin) (e : Expected) (i : ℕ) (v r : ℝ) : Prop :=
  ∃ q qA, IsStat (profile G (seen e.toExpect bins)) v q ∧ IsStat (profile G ((seen e.toExpect bins).map (Bin.asimov 0))) v qA ∧ r = entry e q qA i

/-- The strengths above `mu` are excluded, those below not, up to `t`. -/
def Separates (G : ℝ → ℝ) (bins : List Bin) (e : Expected) (i : ℕ) (CL t mu : ℝ) : Prop :=
  0 ≤ mu + t ∧ ∀ v, 0 ≤ v → ∃ r, IsLevel G bins e i v r ∧ (v ≤ mu - t → r ≤ CL) ∧ (mu + t ≤ v → CL ≤ r)

theorem level_strict {G : ℝ → ℝ} {bins : List Bin} (hv : Valid bins) {e : Expected} {i : ℕ} {v v' r r' : ℝ} (hvv : v < v') (h0 : 0 < r) (h : IsLevel G bins e i v r)
    (h' : IsLevel G bins e i v' r') : r < r' := by
  obtain ⟨q, qA, a1, a2, rfl⟩ := h
  obtain ⟨q', qA', b1, b2, rfl⟩ := h'
  have hA := stat_nonneg a2
  have hA0 : 0 < qA := by
    rcases hA.eq_or_lt with h | h
    · rw [← h, entry_zero] at h0
      exact absurd h0 (lt_irrefl _)
    · exact h
  exact entry_strict e (stat_nonneg a1) (stat_strength (profile_concave _ (seen_valid e.toExpect hv).1) hvv.le a1 b1) hA
    (stat_strict (profile_concave _ (asimov_valid 0 (seen_valid e.toExpect hv)).1) hvv hA0 a2 b2) i

theorem level_mono {G : ℝ → ℝ} {bins : List Bin} (hv : Valid bins) {e : Expected} {i : ℕ} {v v' r r' : ℝ} (hvv : v ≤ v') (h : IsLevel G bins e i v r)
    (h' : IsLevel G bins e i v' r') : r ≤ r' := by
  obtain ⟨q, qA, a1, a2, rfl⟩ := h
  obtain ⟨q', qA', b1, b2, rfl⟩ := h'
  exact entry_mono e (stat_nonneg a1) (stat_strength (profile_concave _ (seen_valid e.toExpect hv).1) hvv a1 b1) (stat_nonneg a2)
    (stat_strength (profile_concave _ (asimov_valid 0 (seen_valid e.toExpect hv)).1) hvv a2 b2) i

/-- The level of `v` in the second model is not above that of `c v` in the first. -/
def Weaker (G : ℝ → ℝ) (bins bins' : List Bin) (e : Expected) (i : ℕ) (c : ℝ) : Prop :=
  ∀ v r r', 0 < v → IsLevel G bins e i (c * v) r → IsLevel G bins' e i v r' → r' ≤ r

/-- Where the levels are lower the limits are higher. -/
theorem separates_order {G : ℝ → ℝ} {bins bins' : List Bin} (hv : Valid bins) {e : Expected} {i : ℕ} {CL t t' mu mu' c : ℝ} (hc : 0 < c) (h0 : 0 < CL)
    (hw : Weaker G bins bins' e i c) (h : Separates G bins e i CL t mu) (h' : Separates G bins' e i CL t' mu') (hp : 0 < mu' + t') : mu - t ≤ c * (mu' + t') := by
  by_contra hn
  push Not at hn
  obtain ⟨r', l', -, hr'⟩ := h'.2 (mu' + t') hp.le
  obtain ⟨r, l, -, -⟩ := h.2 (c * (mu' + t')) (mul_pos hc hp).le
  obtain ⟨s, m, hs, -⟩ := h.2 (mu - t) ((mul_pos hc hp).trans hn).le
  have k1 := hw _ _ _ hp l l'
  have k2 := hr' le_rfl
  have k3 := level_strict hv hn (by linarith) l m
  linarith [hs le_rfl]

theorem weaker_refl (G : ℝ → ℝ) {bins : List Bin} (hv : Valid bins) (e : Expected) (i : ℕ) : Weaker G bins bins e i 1 := by
  rintro v r r' - ⟨q, qA, a1, a2, rfl⟩ ⟨q', qA', b1, b2, rfl⟩
  rw [one_mul] at a1 a2
  rw [stat_unique (profile_concave _ (seen_valid e.toExpect hv).1) a1 b1, stat_unique (profile_concave _ (asimov_valid 0 (seen_valid e.toExpect hv)).1) a2 b2]

theorem weaker_perm (G : ℝ → ℝ) {bins bins' : List Bin} (hv : Valid bins') (hp : bins.Perm bins') (e : Expected) (i : ℕ) : Weaker G bins bins' e i 1 := by
  rintro v r r' h0 ⟨q, qA, a1, a2, rfl⟩ ⟨q', qA', b1, b2, rfl⟩
  rw [one_mul] at a1 a2
  rw [stat_unique (profile_concave _ (seen_valid e.toExpect hv).1) (stat_shift h0.le (fun _ _ => profile_perm _ (seen_perm e.toExpect hp) _) a1) b1,
    stat_unique (profile_concave _ (asimov_valid 0 (seen_valid e.toExpect hv)).1) (stat_shift h0.le (fun _ _ => profile_perm _ ((seen_perm e.toExpect hp).map _) _) a2) b2]

theorem weaker_more (G : ℝ → ℝ) {bins bins' : List Bin} (hv : Valid bins) (hd : List.Forall₂ More bins bins') (e : Expected) (i : ℕ) : Weaker G bins bins' e i 1 := by
  rintro v r r' h0 ⟨q, qA, a1, a2, rfl⟩ ⟨q', qA', b1, b2, rfl⟩
  rw [one_mul] at a1 a2
  have s1 := (seen_valid e.toExpect hv).1
  have s2 := (asimov_valid 0 (seen_valid e.toExpect hv)).1
  exact entry_mono e (stat_nonneg b1) (stat_falls (profile_concave _ s1) (profile_rises _ s1 (seen_more e.toExpect hd)) a1 b1) (stat_nonneg b2)
    (stat_falls (profile_concave _ s2) (profile_rises _ s2 (more_asimov 0 s1 (seen_more e.toExpect hd))) a2 b2) i

theorem weaker_vaguer (G : ℝ → ℝ) {bins bins' : List Bin} (hv : Valid bins) (hv' : Valid bins') (hd : List.Forall₂ Vaguer bins bins') (i : ℕ) : Weaker G bins bins' .apriori i 1 := by
  rintro v r r' h0 ⟨q, qA, a1, a2, rfl⟩ ⟨q', qA', b1, b2, rfl⟩
  rw [one_mul] at a1 a2
  obtain ⟨-, eA⟩ := C143_sensitive G hv .apriori (.inl rfl) h0 a2
  obtain ⟨-, eA'⟩ := C143_sensitive G hv' .apriori (.inl rfl) h0 b2
  obtain ⟨k1, k2⟩ := vaguer_prior G hv.1 hd h0.le
  have hle : qA' ≤ qA := by rw [eA, eA', k2]; linarith
  have := entry_mono .apriori le_rfl le_rfl (stat_nonneg b2) hle i (q := 0)
  exact this

/-- Signal yields `c` times as large have at `v` the level that the original ones have at `c v`. -/
theorem level_scaled {G : ℝ → ℝ} {bins : List Bin} (hv : Valid bins) {c : ℝ} (hc : 0 < c) (hx : Explained (min 10 (10 * c)) bins) {e : Expected} {i : ℕ} {v r r' : ℝ}
    (h : IsLevel G bins e i (c * v) r) (h' : IsLevel G (bins.map (Bin.scaled c)) e i v r') : r' = r := by
  obtain ⟨q, qA, a1, a2, rfl⟩ := h
  obtain ⟨q', qA', b1, b2, rfl⟩ := h'
  have hK : (0 : ℝ) ≤ min 10 (10 * c) := le_min (by norm_num) (by linarith)
  have s1 := seen_valid e.toExpect hv
  have s2 := asimov_valid 0 s1
  rw [seen_scaled] at b1 b2
  rw [asimov_scaled] at b2
  rw [stat_scaled _ s1.1 hc (seen_explained e.toExpect hv.1 hK hx) a1 b1 (scaled_valid hc s1).1,
    stat_scaled _ s2.1 hc (asimov_explained s1.1 hK (seen_explained e.toExpect hv.1 hK hx)) a2 b2 (scaled_valid hc s2).1]

theorem weaker_scaled (G : ℝ → ℝ) {bins : List Bin} (hv : Valid bins) {c : ℝ} (hc : 0 < c) (hx : Explained (min 10 (10 * c)) bins) (e : Expected) (i : ℕ) :
    Weaker G bins (bins.map (Bin.scaled c)) e i c := fun _ _ _ _ h h' => (level_scaled hv hc hx h h').le

theorem stronger_scaled (G : ℝ → ℝ) {bins : List Bin} (hv : Valid bins) {c : ℝ} (hc : 0 < c) (hx : Explained (min 10 (10 * c)) bins) (e : Expected) (i : ℕ) :
    Weaker G (bins.map (Bin.scaled c)) bins e i (1 / c) := fun v r r' _ h h' =>
  (level_scaled hv hc hx (v := 1 / c * v) (by rw [← mul_assoc, mul_one_div_cancel hc.ne', one_mul]; exact h') h).ge

end Verif.Uncorrelated
