import Verif.Linear.Asimov
import Verif.Uncorrelated.Unique

/-!
# Lemmas: the levels that follow from two concave profile likelihoods
-/

namespace Verif.Linear
open Verif.Py F Verif.Hypotest Verif.Chain
open Verif.Interface (Data World Size Plain Solver)
open Verif.Backend (Ext Vec Args at')
open Verif.Stats (Expect Calc Levels levelsOf NotAbove)
open Verif.UpperLimit (Expected Band Entries)
open Verif.Uncorrelated (Concave IsBest IsStat fit_stat answer_eq answer_levels stat_nonneg stat_strength stat_strict entry entry_mono entry_strict entry_zero level_list entries_lt)

/-- The profile likelihoods of the data and of the Asimov data. -/
structure Curves {Θ : Type} (ok : Θ → Prop) (L : ℝ → Θ → ℝ) (LA : Θ → ℝ → Θ → ℝ) (P PA : ℝ → ℝ) : Prop where
  data : Profile ok L P
  asimov : ∀ l θ, ProfileMax ok L 0 l θ → Profile ok (LA θ) PA
  concave : Concave P
  concaveA : Concave PA

theorem profile_value {Θ : Type} {ok : Θ → Prop} {L : ℝ → Θ → ℝ} {P : ℝ → ℝ} (h : Profile ok L P) {v l : ℝ} (hv : 0 ≤ v) {θ : Θ} (hl : ProfileMax ok L v l θ) : l = P v := by
  obtain ⟨θ', h1, h2, h3⟩ := h v hv
  exact le_antisymm (by rw [hl.2.1]; exact h3 _ hl.1) (by rw [h2]; exact hl.2.2 _ h1)

theorem profile_best {Θ : Type} {ok : Θ → Prop} {L : ℝ → Θ → ℝ} {P : ℝ → ℝ} (h : Profile ok L P) {best l : ℝ} (hl : GlobalMax ok L 0 10 best l) : l = P best ∧ IsBest P best := by
  obtain ⟨h1, h2, ⟨θ, h3, rfl⟩, h4⟩ := hl
  have e : L best θ = P best := profile_value h h1 ⟨h3, rfl, fun θ' h' => h4 _ _ h1 h2 h'⟩
  refine ⟨e, h1, h2, fun mu k1 k2 => ?_⟩
  obtain ⟨θ', m1, m2, m3⟩ := h mu k1
  rw [m2, ← e]
  exact h4 _ _ k1 k2 m1

/-- The statistics for fits of these likelihoods. -/
theorem curve_answer {Θ : Type} {ok : Θ → Prop} {L : ℝ → Θ → ℝ} {LA : Θ → ℝ → Θ → ℝ} {P PA : ℝ → ℝ} (h : Curves ok L LA P PA) {best l lv l0 bestA lA lvA l0A v : ℝ} (hv : 0 ≤ v) {θ θv θA : Θ}
    (h1 : GlobalMax ok L 0 10 best l) (h2 : ProfileMax ok L v lv θv) (h3 : ProfileMax ok L 0 l0 θ) (h4 : GlobalMax ok (LA θ) 0 10 bestA lA) (h5 : ProfileMax ok (LA θ) v lvA θA)
    (e : Expect) (available : Calc → Bool) (percentile : List F → F → F) (hav : available .asymptotic = true) : ∃ q qA, IsStat P v q ∧ IsStat PA v qA ∧
      (Stats.exclusionConfidenceLevel ⟨fitOf v best (fin (-l)) (fin (-lv)) (fin (-l0)), fitOf v bestA (fin (-lA)) (fin (-lvA)) (fin (-l0A)), [], [],
          percentile, available⟩ (fin v) e false .asymptotic).mapError .stats = (.ok (levelsOf e false q qA) : Except Hypotest.Err Levels) := by
  obtain ⟨rfl, b1⟩ := profile_best h.data h1
  obtain rfl := profile_value h.data hv h2
  have hA := h.asimov _ _ h3
  obtain ⟨rfl, b2⟩ := profile_best hA h4
  obtain rfl := profile_value hA hv h5
  obtain ⟨q, k1, k2⟩ := fit_stat (v := v) (l0 := fin (-l0)) b1
  obtain ⟨qA, k3, k4⟩ := fit_stat (v := v) (l0 := fin (-l0A)) b2
  exact ⟨q, qA, k1, k3, by rw [answer_eq (stat_nonneg k1) (stat_nonneg k3) k2 k4 e, hav, answer_levels e (stat_nonneg k1) (stat_nonneg k3)]⟩

/-- The levels that are reported follow the curves. -/
structure Follows (e : Expected) (R : ℕ → ℝ → F → Prop) (P PA : ℝ → ℝ) : Prop where
  concave : Concave P
  concaveA : Concave PA
  level : ∀ v, 0 ≤ v → ∃ q qA, IsStat P v q ∧ IsStat PA v qA ∧ ∀ i < (if e = .observed then 1 else 5), ∀ x, R i v x ↔ x = fin (entry e q qA i)

/-- The strengths above `mu` are excluded, those below not, up to `t`. -/
def Separates (R : ℝ → F → Prop) (CL t mu : ℝ) : Prop := 1e-10 ≤ mu + t ∧ ∀ v, 0 ≤ v → ∃ r, R v (fin r) ∧ (v ≤ mu - t → r ≤ CL) ∧ (mu + t ≤ v → CL ≤ r)

section
variable {e : Expected} {R R' : ℕ → ℝ → F → Prop} {P PA : ℝ → ℝ} (h : Follows e R P PA) (h' : Follows e R' P PA) {i : ℕ} (hi : i < (if e = .observed then 1 else 5))
include h hi

theorem follows_some {v : ℝ} (hv : 0 ≤ v) : ∃ r, R i v (fin r) := by
  obtain ⟨q, qA, -, -, k⟩ := h.level v hv
  exact ⟨_, (k i hi _).mpr rfl⟩

include h'

theorem follows_mono {v v' r r' : ℝ} (hv : 0 ≤ v) (hvv : v ≤ v') (h1 : R i v (fin r)) (h2 : R' i v' (fin r')) : r ≤ r' := by
  obtain ⟨q, qA, a1, a2, a3⟩ := h.level v hv
  obtain ⟨q', qA', b1, b2, b3⟩ := h'.level v' (hv.trans hvv)
  have e1 := (a3 i hi _).mp h1
  have e2 := (b3 i hi _).mp h2
  simp only [fin.injEq] at e1 e2
  rw [e1, e2]
  exact entry_mono e (stat_nonneg a1) (stat_strength h.concave hvv a1 b1) (stat_nonneg a2) (stat_strength h.concaveA hvv a2 b2) i

theorem follows_strict {v v' r r' : ℝ} (hv : 0 ≤ v) (hvv : v < v') (h0 : 0 < r) (h1 : R i v (fin r)) (h2 : R' i v' (fin r')) : r < r' := by
  obtain ⟨q, qA, a1, a2, a3⟩ := h.level v hv
  obtain ⟨q', qA', b1, b2, b3⟩ := h'.level v' (hv.trans hvv.le)
  have e1 := (a3 i hi _).mp h1
  have e2 := (b3 i hi _).mp h2
  simp only [fin.injEq] at e1 e2
  have hA := stat_nonneg a2
  have hA0 : 0 < qA := by
    rcases hA.eq_or_lt with h | h
    · rw [e1, ← h, entry_zero] at h0
      exact absurd h0 (lt_irrefl _)
    · exact h
  rw [e1, e2]
  exact entry_strict e (stat_nonneg a1) (stat_strength h.concave hvv.le a1 b1) hA (stat_strict h.concaveA hvv hA0 a2 b2) i

theorem separates_le {CL t t' mu mu' : ℝ} (h0 : 0 < CL) (k : Separates (R i) CL t mu) (k' : Separates (R' i) CL t' mu') : mu - t ≤ mu' + t' := by
  by_contra hn
  push Not at hn
  have hp : 0 ≤ mu' + t' := le_trans (by norm_num) k'.1
  obtain ⟨r', l', -, hr'⟩ := k'.2 (mu' + t') hp
  obtain ⟨s, m, hs, -⟩ := k.2 (mu - t) (hp.trans hn.le)
  have k2 := hr' le_rfl
  have k3 := follows_strict h' h hi hp hn (by linarith) l' m
  linarith [hs le_rfl]

theorem separates_agree {CL t t' mu mu' : ℝ} (h0 : 0 < CL) (k : Separates (R i) CL t mu) (k' : Separates (R' i) CL t' mu') : |mu - mu'| ≤ t + t' := by
  have h1 := separates_le h h' hi h0 k k'
  have h2 := separates_le h' h hi h0 k' k
  exact abs_le.mpr ⟨by linarith, by linarith⟩

end

/-- From crossings to separation. -/
theorem separates_of {e : Expected} {R : ℕ → ℝ → F → Prop} {P PA : ℝ → ℝ} (h : Follows e R P PA) {i : ℕ} (hi : i < (if e = .observed then 1 else 5)) {CL t mu : ℝ}
    (hr : UpperLimit.Reaches (fun x y => 1e-10 ≤ x ∧ R i x y) CL t mu) : Separates (R i) CL t mu := by
  obtain ⟨⟨x, r, x1, ⟨x2, x3⟩, x4⟩, y, r', y1, ⟨y2, y3⟩, y4⟩ := hr
  obtain ⟨x5, x6⟩ := abs_le.mp x1
  obtain ⟨y5, y6⟩ := abs_le.mp y1
  refine ⟨by linarith, fun v hv0 => ?_⟩
  obtain ⟨s, hs⟩ := follows_some h hi hv0
  have hy0 : 0 ≤ y := le_trans (by norm_num) y2
  exact ⟨s, hs, fun hle => (follows_mono h h hi hv0 (by linarith) hs x3).trans x4, fun hle => y4.trans (follows_mono h h hi hy0 (by linarith) y3 hs)⟩

/-- From the answers to what is reported. -/
theorem follows_of {σ : Type} {I : σ → Prop} {M : Methods σ} (hI : ∃ s, I s) {e : Expected} {P PA : ℝ → ℝ} (hP : Concave P) (hPA : Concave PA)
    (h : ∀ v, 0 ≤ v → ∃ q qA, IsStat P v q ∧ IsStat PA v qA ∧ Ends I (exclusion M (.float v) e.toExpect false .asymptotic) (.ok (levelsOf e.toExpect false q qA))) :
    Follows e (Reported I M e) P PA := by
  refine ⟨hP, hPA, fun v hv => ?_⟩
  obtain ⟨q, qA, h1, h2, h3⟩ := h v hv
  obtain ⟨l, hl, hi⟩ := level_list e q qA
  refine ⟨q, qA, h1, h2, fun i hlt x => ⟨?_, ?_⟩⟩
  · rintro ⟨l', hE, hx⟩
    obtain ⟨w, hw⟩ := hI
    have := (hE w hw).1
    rw [(h3 w hw).1, hl] at this
    simp only [Except.ok.injEq, Levels.one.injEq] at this
    subst this
    rw [hi i hlt] at hx
    exact (Option.some.inj hx).symm
  · rintro rfl
    exact ⟨l, by rw [← hl]; exact h3, hi i hlt⟩

end Verif.Linear
