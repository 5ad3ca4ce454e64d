import Verif.UpperLimit.Lemmas
import Mathlib.Topology.Order.IntermediateValue

/-!
# C18-C21, C74: upper limits
-/

namespace Verif.UpperLimit
open Verif.Py F Verif.Stats
open Classical

/-! ## C18 -/

/-- C18: for every function (nan and infinities included) `find_root_limits` stops, with brackets `a` and `b` such that
`f(a) > loc` fails or `a` has reached the lower limit, and `f(b) < loc` fails or `b` has reached the upper limit. The
brackets only move outwards, stay within the limits, and the number of evaluations is logarithmic. Missing from the full
statement: upper starting points that are not positive, for which it is false (`C18_never_ends_fails`). -/
theorem C18_terminates_and_brackets_partial (f : ℝ → F) (loc lowIni higIni lowBound higBound : ℝ) (h1 : 0 < lowBound)
    (h2 : 0 < higIni) :
    ∃ (a b : ℝ) (ta tb : Trace),
      EndsWith (fun n => findRootLimits n f loc lowIni higIni lowBound higBound) ((a, f a) :: ta, (b, f b) :: tb) ∧
      (¬ lt (fin loc) (f a) ∨ a ≤ lowBound) ∧ (¬ lt (f b) (fin loc) ∨ higBound ≤ b) ∧
      a ≤ lowIni ∧ higIni ≤ b ∧ (lowBound ≤ lowIni → lowBound ≤ a) ∧ (higIni ≤ higBound → b ≤ higBound) ∧
      (0 < ta.length → lowBound * 5 ^ (ta.length - 1) < lowIni) ∧
      (0 < tb.length → higIni * 5 ^ (tb.length - 1) < higBound) := by
  obtain ⟨a, b, ta, tb, h, hb, ha, hb'⟩ := limits_spec f loc lowIni higIni lowBound higBound h1 h2
  exact ⟨a, b, ta, tb, h, hb.low, hb.high, hb.low_le, hb.high_ge, hb.low_bound, hb.high_bound, ha, hb'⟩

example : (0 : ℝ) < 1e-10 ∧ (0 : ℝ) < 1 := by norm_num

/-- Consequence: a target that is crossed between the limits is bracketed. -/
theorem C18_crossing_is_bracketed_partial (f : ℝ → F) (loc lowIni higIni lowBound higBound : ℝ) (h1 : 0 < lowBound)
    (h2 : 0 < higIni) (hl : lowBound ≤ lowIni) (hh : higIni ≤ higBound) (hf : ∀ x, Finite (f x))
    (hlow : le (f lowBound) (fin loc)) (hhig : le (fin loc) (f higBound)) :
    ∃ (a b : ℝ) (ta tb : Trace),
      EndsWith (fun n => findRootLimits n f loc lowIni higIni lowBound higBound) ((a, f a) :: ta, (b, f b) :: tb) ∧
      lowBound ≤ a ∧ a ≤ lowIni ∧ higIni ≤ b ∧ b ≤ higBound ∧ le (f a) (fin loc) ∧ le (fin loc) (f b) := by
  obtain ⟨a, b, ta, tb, h, hb, -, -⟩ := limits_spec f loc lowIni higIni lowBound higBound h1 h2
  refine ⟨a, b, ta, tb, h, hb.low_bound hl, hb.low_le, hb.high_ge, hb.high_bound hh, ?_, ?_⟩
  · rcases hb.low with g | g
    · obtain ⟨r, hr⟩ := hf a
      rw [hr] at g ⊢
      simpa [lt, le] using g
    · rw [le_antisymm g (hb.low_bound hl)]; exact hlow
  · rcases hb.high with g | g
    · obtain ⟨r, hr⟩ := hf b
      rw [hr] at g ⊢
      simpa [lt, le] using g
    · rw [le_antisymm (hb.high_bound hh) g]; exact hhig

example : ∃ f : ℝ → F, (∀ x, Finite (f x)) ∧ le (f 1e-10) (fin 0) ∧ le (fin 0) (f 1e5) ∧ f 1 = fin (-2) :=
  ⟨fun x => fin (x - 3), fun x => ⟨_, rfl⟩, by simp only [le]; norm_num, by simp only [le]; norm_num, by norm_num⟩

theorem highLoop_stuck {f : ℝ → F} {loc bound : ℝ} (hb : 0 < bound) (hf : ∀ x ≤ 0, lt (f x) (fin loc)) (n : ℕ) (t : Trace) (x : ℝ)
    (hx : x ≤ 0) : highLoop f loc bound n t x = none := by
  induction n generalizing t x with
  | zero => rfl
  | succ n ih =>
    rw [highLoop, if_pos ⟨hf x hx, lt_of_le_of_lt hx hb⟩]
    exact ih _ _ ((min_le_left _ _).trans (by linarith))

/-- With an upper starting point that is zero or negative the search never ends when the target is not reached there. -/
theorem C18_never_ends_fails (f : ℝ → F) (loc lowIni higIni lowBound higBound : ℝ) (h : higIni ≤ 0) (hb : 0 < higBound)
    (hf : ∀ x ≤ 0, lt (f x) (fin loc)) :
    NeverEnds (fun n => findRootLimits n f loc lowIni higIni lowBound higBound) := by
  intro n
  unfold findRootLimits
  beta_reduce
  rw [highLoop_stuck hb hf n [] higIni h]
  cases lowLoop f loc lowBound n [] lowIni <;> rfl

/-- The same through the public interface: `poi_upper_limit(low_init=1, hig_init=0)` never returns, for the ordinary
Gaussian model of `Verif/Stats` and every root finder. -/
theorem C18_poi_upper_limit_never_ends_fails (solve : Solver) (I : Inputs) (hI : I.alive = true) (hB : I.backend = gaussBackend) :
    NeverEnds (fun n => poiUpperLimit n solve I .observed 0.95 (some 1) (some 0) .nominal) := by
  have hf : computer gaussBackend .observed 0.95 false 0 0 = fin (-0.95) := by
    have hq : gaussBackend.data.stat qmuTilde (fin 0) = fin 0 := by
      simp [gaussBackend, Fit.stat, qmuTilde, lt]
    have hA : gaussBackend.asimov.stat qmuTilde (fin 0) = fin 0 := by
      simp [gaussBackend, Fit.stat, qmuTilde, lt, le, lift, sub, add, neg, scale, clip0]
    unfold computer
    dsimp only
    rw [if_neg (by simp), compute_eq get_qtilde, hq, hA, shift_fin (le_refl _) (le_refl _)]
    simp only [List.mem_cons, String.reduceEq, List.not_mem_nil, or_self, if_false, lt_irrefl, and_false,
      asymptoticLevel_eq (ts := "qtilde") _ _ (by simp), pvalues_fin, if_true, List.map_cons, List.map_nil]
    simp [eq66, (Phi_pos 0).ne', sub, add, F.neg]
  intro n
  have hstuck : highLoop (computer gaussBackend .observed 0.95 false 0) 0 1e5 n [] 0 = none := by
    have : ∀ n t, highLoop (computer gaussBackend .observed 0.95 false 0) 0 1e5 n t 0 = none := by
      intro n
      induction n with
      | zero => intro t; rfl
      | succ n ih =>
        intro t
        rw [highLoop, if_pos]
        · have : min ((0 : ℝ) * 5) 1e5 = 0 := by norm_num
          rw [this]; exact ih _
        · rw [hf]; refine ⟨?_, by norm_num⟩
          show (-0.95 : ℝ) < 0
          norm_num
    exact this n []
  have hone : limitAt n solve (computer gaussBackend .observed 0.95 false 0) 1 0 = none := by
    unfold limitAt findRootLimits
    rw [hstuck]
    cases lowLoop (computer gaussBackend .observed 0.95 false 0) 0 1e-10 n [] 1 <;> rfl
  simp only [poiUpperLimit, hI, hB, starts, findPoiUpperLimit, if_true, indexRange, limitsAt, reduceCtorEq, if_false,
    hone]
  rw [if_pos (by norm_num)]

/-- With a positive upper starting point (also when one is left to the default estimate) `poi_upper_limit` ends. -/
theorem C18_poi_upper_limit_ends_partial (solve : Solver) (I : Inputs) (e : Expected) (CL : ℝ) (low hig : Option ℝ)
    (band : Band) (h : low = none ∨ hig = none ∨ ∃ x, hig = some x ∧ 0 < x) :
    ∃ r, EndsWith (fun n => poiUpperLimit n solve I e CL low hig band) r := by
  have hpos : 0 < (starts I low hig).2 := by
    rcases low with _ | l <;> rcases hig with _ | x
    · exact lt_of_lt_of_le (by norm_num) (le_max_right _ _)
    · exact lt_of_lt_of_le (by norm_num) (le_max_right _ _)
    · exact lt_of_lt_of_le (by norm_num) (le_max_right _ _)
    · simpa [starts] using h
  by_cases hc : 0 ≤ CL ∧ CL ≤ 1
  · cases ha : I.alive with
    | false => exact ⟨_, 0, fun n _ => by simp only [poiUpperLimit, if_pos hc, ha]; rfl⟩
    | true =>
      by_cases hb : (if e = .observed then Band.nominal else band) = .unknown
      · refine ⟨.error .assertion, 0, fun n _ => ?_⟩
        simp only [poiUpperLimit, if_pos hc, ha, if_true, findPoiUpperLimit]
        rw [if_pos hb]
      · obtain ⟨r, ⟨N, hN⟩, -⟩ := limitsAt_spec solve (computer I.backend e CL false) (starts I low hig).1
          (starts I low hig).2 hpos (indexRange e (if e = .observed then .nominal
            else (if e = .observed then .nominal else band)))
        cases r with
        | error err =>
          refine ⟨.error err, N, fun n hn => ?_⟩
          simp only [poiUpperLimit, if_pos hc, ha, if_true, findPoiUpperLimit]
          rw [if_neg hb]
          have := hN n hn
          simp only at this
          rw [this]
        | ok l =>
          refine ⟨.ok (pack l), N, fun n hn => ?_⟩
          simp only [poiUpperLimit, if_pos hc, ha, if_true, findPoiUpperLimit]
          rw [if_neg hb]
          have := hN n hn
          simp only at this
          rw [this]
  · exact ⟨.error .assertion, 0, fun n _ => by simp only [poiUpperLimit, if_neg hc]⟩

example : ∃ low hig : Option ℝ, low = some 1 ∧ (low = none ∨ hig = none ∨ ∃ x, hig = some x ∧ 0 < x) :=
  ⟨some 1, some 1, rfl, Or.inr (Or.inr ⟨1, rfl, one_pos⟩)⟩

/-! ## C19 -/

/-- The exact root finder of the examples: a root in the interval if there is one. -/
noncomputable def exactSolve : Solver := fun f a b =>
  if h : a < b ∧ ∃ r, a ≤ r ∧ r ≤ b ∧ f r = fin 0 then .ok h.2.choose else .error .rootFinder

theorem exactSolve_sound : Sound (fun _ => 0) exactSolve := by
  have key : ∀ f a b r, exactSolve f a b = .ok r → a < b ∧ a ≤ r ∧ r ≤ b ∧ f r = fin 0 := by
    intro f a b r h
    unfold exactSolve at h
    split at h
    · rename_i hc
      simp only [Except.ok.injEq] at h
      subst h
      exact ⟨hc.1, hc.2.choose_spec⟩
    · simp at h
  refine ⟨fun f a b r h => ?_, fun f a b r h => ?_, fun f a b r h => ?_⟩
  · obtain ⟨h1, h2, h3, -⟩ := key f a b r h; exact ⟨h1, h2, h3⟩
  · obtain ⟨h1, h2, h3, h4⟩ := key f a b r h
    exact ⟨r, h2, h3, by simp, by rw [h4]; exact le_refl (0 : ℝ)⟩
  · obtain ⟨h1, h2, h3, h4⟩ := key f a b r h
    exact ⟨r, h2, h3, by simp, by rw [h4]; exact le_refl (0 : ℝ)⟩

/-- What a root finder with tolerance 1e-6 may answer. -/
def Answer (f : ℝ → F) (a b r : ℝ) : Prop :=
  a ≤ r ∧ r ≤ b ∧ (∃ x, a ≤ x ∧ x ≤ b ∧ |x - r| ≤ 1e-6 ∧ le (f x) (fin 0)) ∧
    (∃ x, a ≤ x ∧ x ≤ b ∧ |x - r| ≤ 1e-6 ∧ le (fin 0) (f x))

/-- A root finder that answers whenever there is an answer. Both contracts hold together for it. -/
noncomputable def toleranceSolve : Solver := fun f a b =>
  if h : a < b ∧ ∃ r, Answer f a b r then .ok h.2.choose else .error .rootFinder

theorem toleranceSolve_sound : Sound (fun _ => 1e-6) toleranceSolve := by
  have key : ∀ f a b r, toleranceSolve f a b = .ok r → a < b ∧ Answer f a b r := by
    intro f a b r h
    unfold toleranceSolve at h
    split at h
    · rename_i hc
      simp only [Except.ok.injEq] at h
      subst h
      exact ⟨hc.1, hc.2.choose_spec⟩
    · simp at h
  exact ⟨fun f a b r h => ⟨(key f a b r h).1, (key f a b r h).2.1, (key f a b r h).2.2.1⟩,
    fun f a b r h => (key f a b r h).2.2.2.1, fun f a b r h => (key f a b r h).2.2.2.2⟩

theorem exists_answer {P Q : ℝ → Prop} {a b : ℝ} (hab : a < b) (hPQ : ∀ x, a ≤ x → x ≤ b → P x ∨ Q x) (ha : P a) (hb : Q b) :
    ∃ r, a ≤ r ∧ r ≤ b ∧ (∃ x, a ≤ x ∧ x ≤ b ∧ |x - r| ≤ 1e-6 ∧ P x) ∧ (∃ x, a ≤ x ∧ x ≤ b ∧ |x - r| ≤ 1e-6 ∧ Q x) := by
  have hS : BddAbove {x | a ≤ x ∧ x ≤ b ∧ P x} := ⟨b, fun x hx => hx.2.1⟩
  have hne : {x | a ≤ x ∧ x ≤ b ∧ P x}.Nonempty := ⟨a, le_refl _, hab.le, ha⟩
  have h1 : a ≤ sSup {x | a ≤ x ∧ x ≤ b ∧ P x} := le_csSup hS ⟨le_refl _, hab.le, ha⟩
  have h2 : sSup {x | a ≤ x ∧ x ≤ b ∧ P x} ≤ b := csSup_le hne (fun x hx => hx.2.1)
  generalize hs : sSup {x | a ≤ x ∧ x ≤ b ∧ P x} = s at h1 h2
  refine ⟨s, h1, h2, ?_, ?_⟩
  · obtain ⟨x, hx, hlt⟩ := exists_lt_of_lt_csSup hne (show s - 1e-6 < sSup {x | a ≤ x ∧ x ≤ b ∧ P x} by rw [hs]; norm_num)
    have hxs : x ≤ s := hs ▸ le_csSup hS hx
    exact ⟨x, hx.1, hx.2.1, by rw [abs_le]; constructor <;> linarith, hx.2.2⟩
  · rcases h2.eq_or_lt with h | h
    · exact ⟨b, hab.le, le_refl _, by rw [h]; norm_num, hb⟩
    · have hm : s < min (s + 1e-6) b := lt_min (by norm_num) h
      have hm1 := min_le_left (s + 1e-6) b
      have hm2 := min_le_right (s + 1e-6) b
      refine ⟨min (s + 1e-6) b, by linarith, hm2, by rw [abs_le]; constructor <;> linarith, ?_⟩
      refine (hPQ _ (by linarith) hm2).resolve_left (fun hp => ?_)
      have := le_csSup hS (show min (s + 1e-6) b ∈ {x | a ≤ x ∧ x ≤ b ∧ P x} from ⟨by linarith, hm2, hp⟩)
      rw [hs] at this
      linarith

theorem toleranceSolve_succeeds : Succeeds toleranceSolve := by
  intro f a b hab hf hsign
  have hPQ : ∀ x, a ≤ x → x ≤ b → le (f x) (fin 0) ∨ le (fin 0) (f x) := by
    intro x h1 h2
    obtain ⟨r, hr⟩ := hf x h1 h2
    rw [hr]
    exact le_total r 0
  have : ∃ r, Answer f a b r := by
    rcases hsign with ⟨h1, h2⟩ | ⟨h1, h2⟩
    · exact exists_answer hab hPQ h1 h2
    · obtain ⟨r, g1, g2, g3, g4⟩ := exists_answer hab (fun x ha hb => (hPQ x ha hb).symm) h1 h2
      exact ⟨r, g1, g2, g4, g3⟩
  refine ⟨this.choose, ?_⟩
  unfold toleranceSolve
  rw [dif_pos ⟨hab, this⟩]

/-- C19: the returned limits have the documented shape, one per entry of `exclusion_confidence_level` that
`expected_pvalue` stands for. A finite limit is a point where the exclusion level reaches the confidence level, up to the
tolerance of the root finder. An infinite limit means that the level is still below the confidence level at or beyond
`1e5`, or already above it at or below `1e-10`. -/
theorem C19_finite_limit {tol : ℝ → ℝ} {solve : Solver} (hs : Sound tol solve) (I : Inputs) (hl : I.alive = true)
    (hav : I.backend.available .asymptotic = true) (e : Expected) (CL : ℝ) (low hig : Option ℝ) (band : Band)
    (fuel : ℕ) (L : Limit) (h : poiUpperLimit fuel solve I e CL low hig band = some (.ok L)) :
    L.Shaped (Entries e band).length ∧
    List.Forall₂ (fun i x =>
      (∃ mu, x = fin mu ∧ Reaches (Level I.backend e false i) CL (tol mu) mu) ∨
      (x = pinf ∧ ((∃ b r, 1e5 ≤ b ∧ Level I.backend e false i b (fin r) ∧ r < CL) ∨
        (∃ a r, a ≤ 1e-10 ∧ Level I.backend e false i a (fin r) ∧ CL < r)))) (Entries e band) L.values := by
  obtain ⟨-, h2, h3⟩ := poi_ended hl h
  refine ⟨h2, ?_⟩
  have hv : ∀ i ∈ Entries e band, Valid e i := fun i => entries_valid
  generalize Entries e band = is at h3 hv
  generalize L.values = vs at h3
  induction h3 with
  | nil => exact .nil
  | @cons i x is xs hx _ ih =>
    refine .cons ?_ (ih (fun j hj => hv j (List.mem_cons_of_mem _ hj)))
    have hi := hv i List.mem_cons_self
    obtain ⟨a, b, ha, hb, -, hr⟩ := limitAt_ended hx
    rcases hr with ⟨hsgn, rfl⟩ | ⟨r, hr, rfl⟩
    · refine Or.inr ⟨rfl, ?_⟩
      rcases hsgn with ⟨g1, g2⟩ | ⟨g1, g2⟩
      · right
        obtain ⟨r, hr, hlt⟩ := level_of_gt hi hav g1
        exact ⟨a, r, by tauto, hr, hlt⟩
      · left
        obtain ⟨r, hr, hlt⟩ := level_of_lt hi hav g2
        exact ⟨b, r, by tauto, hr, hlt⟩
    · refine Or.inl ⟨r, rfl, ?_, ?_⟩
      · obtain ⟨x, -, -, hx, hle⟩ := hs.below _ _ _ _ hr
        obtain ⟨s, hs1, hs2⟩ := level_of_le hi hav hle
        exact ⟨x, s, hx, hs1, hs2⟩
      · obtain ⟨x, -, -, hx, hle⟩ := hs.above _ _ _ _ hr
        obtain ⟨s, hs1, hs2⟩ := level_of_ge hi hav hle
        exact ⟨x, s, hx, hs1, hs2⟩

/-- C19: finite limits are positive, unless both starting points are given and the lower one is below `1e-10`. -/
theorem C19_positive {tol : ℝ → ℝ} {solve : Solver} (hs : Sound tol solve) (I : Inputs) (hl : I.alive = true)
    (e : Expected) (CL : ℝ) (low hig : Option ℝ) (band : Band) (fuel : ℕ) (L : Limit)
    (h : poiUpperLimit fuel solve I e CL low hig band = some (.ok L))
    (hst : low = none ∨ hig = none ∨ ∃ x, low = some x ∧ 1e-10 ≤ x) (mu : ℝ) (hmu : fin mu ∈ L.values) : 1e-10 ≤ mu := by
  have hlow : 1e-10 ≤ (starts I low hig).1 := by
    rcases low with _ | l <;> rcases hig with _ | x
    · exact le_max_right _ _
    · exact le_max_right _ _
    · exact le_max_right _ _
    · obtain ⟨y, h1, h2⟩ := (hst.resolve_left (by simp)).resolve_left (by simp)
      simp only [Option.some.injEq] at h1
      rw [h1]
      exact h2
  obtain ⟨-, -, h3⟩ := poi_ended hl h
  obtain ⟨i, hi⟩ : ∃ i, limitAt fuel solve (computer I.backend e CL false i) (starts I low hig).1
      (starts I low hig).2 = some (.ok (fin mu)) := by
    generalize Entries e band = is at h3
    generalize L.values = vs at h3 hmu
    induction h3 with
    | nil => simp at hmu
    | @cons i x is xs hx _ ih =>
      rcases List.mem_cons.1 hmu with rfl | g
      · exact ⟨i, hx⟩
      · exact ih g
  obtain ⟨a, b, -, -, ha, hr⟩ := limitAt_ended hi
  rcases hr with ⟨-, hr⟩ | ⟨r, hr, hm⟩
  · simp at hr
  · simp only [fin.injEq] at hm
    rw [hm]
    exact (ha hlow).trans (hs.inside _ _ _ _ hr).2.1

/-- C19, continuous levels: within the tolerance of a finite limit the exclusion level equals the confidence level. -/
theorem C19_level_attained (g : ℝ → ℝ) (hg : Continuous g) {level : ℝ → F → Prop} (hu : ∀ x y z, level x y → level x z → y = z)
    (hl : ∀ x, level x (fin (g x))) (CL t mu : ℝ) (h : Reaches level CL t mu) :
    ∃ z, |z - mu| ≤ t ∧ level z (fin CL) := by
  obtain ⟨⟨x, r, hx, hx1, hx2⟩, ⟨y, s, hy, hy1, hy2⟩⟩ := h
  obtain rfl : r = g x := by simpa using hu _ _ _ hx1 (hl x)
  obtain rfl : s = g y := by simpa using hu _ _ _ hy1 (hl y)
  obtain ⟨z, hz, hz'⟩ := intermediate_value_uIcc (f := g) (a := x) (b := y) hg.continuousOn
    (show CL ∈ Set.uIcc (g x) (g y) from Set.mem_uIcc.2 (Or.inl ⟨hx2, hy2⟩))
  refine ⟨z, ?_, by rw [← hz']; exact hl z⟩
  rw [abs_le] at hx hy ⊢
  rcases Set.mem_uIcc.1 hz with ⟨h1, h2⟩ | ⟨h1, h2⟩
  · exact ⟨by linarith, by linarith⟩
  · exact ⟨by linarith, by linarith⟩

/-- C19, existence: with finite likelihood values, if the confidence level is crossed between `1e-10` and `1e5`, and the starting points are different or not on the limit, every returned
limit is finite (and nothing is raised). -/
theorem C19_limit_exists_start {solve : Solver} (hok : Succeeds solve) (I : Inputs)
    (hl : I.alive = true) (hav : I.backend.available .asymptotic = true)
    (hf : ∀ mu : ℝ, FiniteInputs I.backend (fin mu) .asymptotic) (e : Expected) (CL : ℝ) (h0 : 0 ≤ CL) (h1 : CL ≤ 1)
    (low hig : ℝ) (h2 : 1e-10 ≤ low) (h3 : low ≤ hig) (h4 : hig ≤ 1e5) (band : Band) (hb : band ≠ .unknown)
    (hne : low < hig ∨ ∀ i ∈ Entries e band, ∀ r, Level I.backend e false i low (fin r) → r ≠ CL)
    (hlow : ∀ i ∈ Entries e band, ∀ r, Level I.backend e false i 1e-10 (fin r) → r ≤ CL)
    (hhig : ∀ i ∈ Entries e band, ∀ r, Level I.backend e false i 1e5 (fin r) → CL ≤ r) :
    ∃ L, EndsWith (fun n => poiUpperLimit n solve I e CL (some low) (some hig) band) (.ok L) ∧
      ∀ x ∈ L.values, Finite x := by
  have hpos : (0 : ℝ) < hig := by
    have : (0 : ℝ) < 1e-10 := by norm_num
    linarith
  have key : ∀ i ∈ Entries e band, ∃ mu, EndsWith (fun n => limitAt n solve (computer I.backend e CL false i) low hig) (.ok (fin mu)) := by
    intro i hi
    obtain ⟨a, b, hB, hE⟩ := limitAt_spec solve (computer I.backend e CL false i) low hig hpos
    have hv := entries_valid hi
    have hle : le (computer I.backend e CL false i a) (fin 0) := by
      rcases hB.low with g | g
      · obtain ⟨r, -, -, -, hr⟩ := computer_finite (CL := CL) (neg := false) hv hav (hf a)
        rw [hr] at g ⊢
        simpa [lt, le] using g
      · rw [le_antisymm g (hB.low_bound h2)]
        obtain ⟨r, -, -, hL, hr⟩ := computer_finite (CL := CL) (neg := false) hv hav (hf 1e-10)
        rw [hr]
        have := hlow i hi r hL
        show r - CL ≤ 0
        linarith
    have hge : le (fin 0) (computer I.backend e CL false i b) := by
      rcases hB.high with g | g
      · obtain ⟨r, -, -, -, hr⟩ := computer_finite (CL := CL) (neg := false) hv hav (hf b)
        rw [hr] at g ⊢
        simpa [lt, le] using g
      · rw [le_antisymm (hB.high_bound h4) g]
        obtain ⟨r, -, -, hL, hr⟩ := computer_finite (CL := CL) (neg := false) hv hav (hf 1e5)
        rw [hr]
        have := hhig i hi r hL
        show 0 ≤ r - CL
        linarith
    have hab : a < b := by
      refine lt_of_le_of_ne (hB.low_le.trans (h3.trans hB.high_ge)) fun hab => ?_
      rcases hne with h3' | hne
      · exact absurd (lt_of_le_of_lt hB.low_le (lt_of_lt_of_le h3' hB.high_ge)) (by rw [hab]; exact lt_irrefl _)
      · have hal : a = low := le_antisymm hB.low_le (by rw [hab]; exact h3.trans hB.high_ge)
        obtain ⟨r, -, -, hL, hr⟩ := computer_finite (CL := CL) (neg := false) hv hav (hf a)
        rw [← hab, hr] at hge
        rw [hr] at hle
        have k1 : r - CL ≤ 0 := hle
        have k2 : 0 ≤ r - CL := hge
        exact hne i hi r (hal ▸ hL) (by linarith)
    obtain ⟨r, hr⟩ := hok _ a b hab (fun x _ _ => by
      obtain ⟨r, -, -, -, hr⟩ := computer_finite (CL := CL) (neg := false) hv hav (hf x)
      exact ⟨_, hr⟩) (Or.inl ⟨hle, hge⟩)
    refine ⟨r, ?_⟩
    rw [if_neg, hr] at hE
    · exact hE
    · rintro (⟨g, -⟩ | ⟨-, g⟩)
      · exact lt_not_le g hle
      · exact lt_not_le g hge
  have all : ∀ is : List ℕ, (∀ i ∈ is, i ∈ Entries e band) → ∃ xs : List F, (∀ x ∈ xs, Finite x) ∧
      EndsWith (fun n => limitsAt n solve (computer I.backend e CL false) low hig is) (.ok xs) := by
    intro is
    induction is with
    | nil => exact fun _ => ⟨[], by simp, 0, fun n _ => rfl⟩
    | cons i is ih =>
      intro his
      obtain ⟨xs, hxs, N, hN⟩ := ih (fun j hj => his j (List.mem_cons_of_mem _ hj))
      obtain ⟨mu, M, hM⟩ := key i (his i List.mem_cons_self)
      refine ⟨fin mu :: xs, ?_, N + M, fun n hn => ?_⟩
      · intro x hx
        rcases List.mem_cons.1 hx with rfl | hx
        · exact ⟨mu, rfl⟩
        · exact hxs x hx
      · have g1 := hM n (by omega)
        have g2 := hN n (by omega)
        simp only at g1 g2
        simp only [limitsAt, g1, g2]
  obtain ⟨xs, hxs, N, hN⟩ := all _ (fun i hi => hi)
  refine ⟨pack xs, ⟨N, fun n hn => ?_⟩, by rw [pack_values]; exact hxs⟩
  have g := hN n hn
  simp only at g
  have hb' : (if e = .observed then Band.nominal else band) ≠ .unknown := by
    split
    · simp
    · exact hb
  simp only [poiUpperLimit, if_pos (And.intro h0 h1), hl, if_true, starts, findPoiUpperLimit]
  rw [if_neg hb', indexRange_eq e _ hb', entries_observed, g]

/-- C19, existence: the same for different starting points. -/
theorem C19_limit_exists {solve : Solver} (hok : Succeeds solve) (I : Inputs)
    (hl : I.alive = true) (hav : I.backend.available .asymptotic = true)
    (hf : ∀ mu : ℝ, FiniteInputs I.backend (fin mu) .asymptotic) (e : Expected) (CL : ℝ) (h0 : 0 ≤ CL) (h1 : CL ≤ 1)
    (low hig : ℝ) (h2 : 1e-10 ≤ low) (h3 : low < hig) (h4 : hig ≤ 1e5) (band : Band) (hb : band ≠ .unknown)
    (hlow : ∀ i ∈ Entries e band, ∀ r, Level I.backend e false i 1e-10 (fin r) → r ≤ CL)
    (hhig : ∀ i ∈ Entries e band, ∀ r, Level I.backend e false i 1e5 (fin r) → CL ≤ r) :
    ∃ L, EndsWith (fun n => poiUpperLimit n solve I e CL (some low) (some hig) band) (.ok L) ∧
      ∀ x ∈ L.values, Finite x :=
  C19_limit_exists_start hok I hl hav hf e CL h0 h1 low hig h2 h3.le h4 band hb (.inl h3) hlow hhig

/-- With equal starting points (the default, 1 and 1) at which the exclusion level is exactly the confidence level, an
exception is raised although the limit is known. -/
theorem C19_start_on_the_limit_fails {tol : ℝ → ℝ} {solve : Solver} (hs : Sound tol solve) (I : Inputs)
    (hl : I.alive = true) (hav : I.backend.available .asymptotic = true)
    (hf : FiniteInputs I.backend (fin 1) .asymptotic) (CL : ℝ) (h0 : 0 ≤ CL) (h1 : CL ≤ 1)
    (hlev : Level I.backend .observed false 0 1 (fin CL)) :
    ∃ err, EndsWith (fun n => poiUpperLimit n solve I .observed CL (some 1) (some 1) .nominal) (.error err) := by
  have hc : computer I.backend .observed CL false 0 1 = fin 0 := by
    obtain ⟨r, -, -, hL, hr⟩ := computer_finite (CL := CL) (neg := false) (i := 0) (e := .observed) (by simp [Valid]) hav hf
    obtain rfl : CL = r := by simpa using hlev.unique hL
    rw [hr, sub_self]
  cases hsv : solve (computer I.backend .observed CL false 0) 1 1 with
  | ok r => exact absurd (hs.inside _ _ _ _ hsv).1 (lt_irrefl _)
  | error err =>
    refine ⟨err, 1, fun n hn => ?_⟩
    obtain ⟨n, rfl⟩ : ∃ m, n = m + 1 := ⟨n - 1, by omega⟩
    have hlim : limitAt (n + 1) solve (computer I.backend .observed CL false 0) 1 1 = some (.error err) := by
      simp [limitAt, findRootLimits, lowLoop, highLoop, hc, lt, sameSign, hsv, Except.map]
    simp only [poiUpperLimit, if_pos (And.intro h0 h1), hl, if_true, starts, findPoiUpperLimit, indexRange, limitsAt,
      hlim, reduceCtorEq, if_false]

/-! ### The Gaussian model as an example -/

/-- The Gaussian model of `Verif/Stats` as input of `poi_upper_limit`. -/
noncomputable def gaussInputs : Inputs := ⟨true, gaussBackend, 1, fun _ => 1⟩

theorem gauss_finite (mu : ℝ) : FiniteInputs gaussBackend (fin mu) .asymptotic :=
  ⟨⟨_, rfl⟩, ⟨_, rfl⟩, ⟨_, rfl⟩, ⟨_, rfl⟩, ⟨_, rfl⟩, ⟨_, rfl⟩⟩

theorem gauss_asimov {mu : ℝ} (h : 0 ≤ mu) : gaussBackend.asimov.stat qmuTilde (fin mu) = fin (2 * mu ^ 2) := by
  have h0 : ¬ mu < 0 := not_lt.2 h
  have e : -2 * -mu ^ 2 = 2 * mu ^ 2 := by ring
  have h2 : 0 ≤ 2 * mu ^ 2 := by positivity
  simp [gaussBackend, Fit.stat, qmuTilde, lt, le, lift, sub, add, neg, scale, clip0, h0, e, h2]

theorem gauss_data {mu : ℝ} : gaussBackend.data.stat qmuTilde (fin mu) = fin (if mu < 1 then 0 else 2 * (mu - 1) ^ 2) := by
  have e : -2 * -(mu - 1) ^ 2 = 2 * (mu - 1) ^ 2 := by ring
  have h2 : 0 ≤ 2 * (mu - 1) ^ 2 := by positivity
  by_cases h : mu < 1 <;>
    simp [gaussBackend, Fit.stat, qmuTilde, lt, le, lift, sub, add, neg, scale, clip0, h, e, h2]

/-- Entry `i` of the expected levels of the Gaussian model. -/
theorem gauss_level {mu : ℝ} (h : 0 < mu) (i : ℕ) (hi : i < 5) :
    Level gaussBackend .apriori false i mu
      (fin (1 - Phi (-(nsigmas.getD i 0) - Real.sqrt (2 * mu ^ 2)) / Phi (-(nsigmas.getD i 0)))) := by
  have hA : 0 < 2 * mu ^ 2 := by positivity
  have hq : (0 : ℝ) ≤ (if mu < 1 then 0 else 2 * (mu - 1) ^ 2) := by split <;> positivity
  unfold Level exclusionConfidenceLevel
  simp only [show gaussBackend.available .asymptotic = true from rfl, if_true, calculatorPvalues, asymptoticPvalues]
  rw [if_neg (by simp), compute_eq get_qtilde, gauss_data, gauss_asimov h.le, shift_fin hq hA.le]
  simp only [List.mem_cons, String.reduceEq, List.not_mem_nil, or_self, if_false, hA.ne', false_and,
    asymptoticLevel_eq (ts := "qtilde") _ _ (by simp), expected_fin, Expected.toExpect]
  refine ⟨_, rfl, ?_⟩
  simp only [List.map_map, List.getElem?_map]
  have : nsigmas[i]? = some (nsigmas.getD i 0) := by
    have hl : i < nsigmas.length := by simpa [nsigmas] using hi
    rw [List.getD_eq_getElem?_getD, List.getElem?_eq_getElem hl]
    rfl
  rw [this]
  simp only [Option.map_some, Function.comp, level_fin]

theorem gauss_increasing {x y : ℝ} (hx : 0 < x) (hxy : x < y) (i : ℕ) (hi : i < 5) (r s : ℝ)
    (h : Level gaussBackend .apriori false i x (fin r)) (h' : Level gaussBackend .apriori false i y (fin s)) : r < s := by
  have e1 := h.unique (gauss_level hx i hi)
  have e2 := h'.unique (gauss_level (hx.trans hxy) i hi)
  simp only [fin.injEq] at e1 e2
  rw [e1, e2]
  have hs : Real.sqrt (2 * x ^ 2) < Real.sqrt (2 * y ^ 2) := Real.sqrt_lt_sqrt (by positivity) (by nlinarith)
  have := Phi_strictMono (show -(nsigmas.getD i 0) - Real.sqrt (2 * y ^ 2) < -(nsigmas.getD i 0) - Real.sqrt (2 * x ^ 2) by linarith)
  have hp := Phi_pos (-(nsigmas.getD i 0))
  have := div_lt_div_of_pos_right this hp
  linarith

-- C19_finite_limit applies to the Gaussian model: at the (finite) limit found the level equals the confidence level
example : Sound (fun _ => 0) exactSolve ∧ gaussInputs.alive = true ∧
    gaussInputs.backend.available .asymptotic = true ∧ Entries .apriori .sigma2 = [0, 1, 2, 3, 4] :=
  ⟨exactSolve_sound, rfl, rfl, rfl⟩

-- C19_positive: a negative lower starting point with the other one left out is replaced
example : (starts gaussInputs (some (-5)) none).1 = 1e-10 := by
  norm_num [starts, orElse, gaussInputs]

-- C19_limit_exists: both contracts hold together, the likelihoods are finite, and the levels rise
example : Sound (fun _ => 1e-6) toleranceSolve ∧ Succeeds toleranceSolve ∧
    (∀ mu : ℝ, FiniteInputs gaussInputs.backend (fin mu) .asymptotic) ∧
    ∃ CL, 0 ≤ CL ∧ CL ≤ 1 ∧ (∀ i ∈ Entries .apriori .nominal, ∀ r, Level gaussInputs.backend .apriori false i 1e-10 (fin r) → r ≤ CL) ∧
      (∀ i ∈ Entries .apriori .nominal, ∀ r, Level gaussInputs.backend .apriori false i 1e5 (fin r) → CL ≤ r) := by
  obtain ⟨CL, h0, h1, h, -⟩ := computer_finite (B := gaussBackend) (CL := 0) (neg := false) (i := 2) (e := .apriori)
    (by simp [Valid]) rfl (gauss_finite 2)
  refine ⟨toleranceSolve_sound, toleranceSolve_succeeds, gauss_finite, CL, h0, h1, ?_, ?_⟩
  · intro i hi r hr
    obtain rfl : i = 2 := by simpa [Entries] using hi
    exact (gauss_increasing (by norm_num) (by norm_num) 2 (by norm_num) r CL hr h).le
  · intro i hi r hr
    obtain rfl : i = 2 := by simpa [Entries] using hi
    exact (gauss_increasing (by norm_num) (by norm_num) 2 (by norm_num) CL r h hr).le

-- C19_start_on_the_limit_fails: take as confidence level the level at 1
example : ∃ CL, 0 ≤ CL ∧ CL ≤ 1 ∧ Level gaussBackend .observed false 0 1 (fin CL) := by
  obtain ⟨r, h0, h1, h, -⟩ := computer_finite (B := gaussBackend) (CL := 0) (neg := false) (i := 0) (e := .observed)
    (by simp [Valid]) rfl (gauss_finite 1)
  exact ⟨r, h0, h1, h⟩

/-! ## C20 -/

/-- C20: a model without signal gets an infinite limit in the documented shape, whatever the likelihoods, the solver and
the starting points are (they are not looked at). -/
theorem C20_no_signal (fuel : ℕ) (solve : Solver) (I : Inputs) (h : I.alive = false) (e : Expected) (CL : ℝ) (h0 : 0 ≤ CL)
    (h1 : CL ≤ 1) (low hig : Option ℝ) (band : Band) (hb : band ≠ .unknown) :
    ∃ L, poiUpperLimit fuel solve I e CL low hig band = some (.ok L) ∧ L.Shaped (Entries e band).length ∧
      ∀ x ∈ L.values, x = pinf := by
  cases e <;> cases band <;>
    simp_all [poiUpperLimit, deadLimit, Entries, Limit.Shaped, Limit.values]

example : (⟨false, gaussBackend, 0, fun _ => 0⟩ : Inputs).alive = false ∧ Band.sigma2 ≠ .unknown := ⟨rfl, by simp⟩

/-! ## C21 -/

/-- `x` is not larger than `y`, up to the tolerance of both. -/
def OrderedUpTo (tol : ℝ → ℝ) : F → F → Prop
  | fin a, fin b => a ≤ b + tol a + tol b
  | fin _, pinf => True
  | pinf, pinf => True
  | _, _ => False

/-- What `limitAt` gives for a positive upper starting point. -/
theorem limitAt_bracket {solve : Solver} {f : ℝ → F} {low hig : ℝ} (hh : 0 < hig) {fuel : ℕ} {x : F}
    (h : limitAt fuel solve f low hig = some (.ok x)) :
    ∃ a b, Bracket f 0 low hig 1e-10 1e5 a b ∧
      ((sameSign (f a) (f b) ∧ x = pinf) ∨ ∃ r, solve f a b = .ok r ∧ x = fin r) := by
  have mono : ∀ n, fuel ≤ n → limitAt n solve f low hig = some (.ok x) := by
    intro n hn
    have lm : ∀ n m t l tr, lowLoop f 0 1e-10 n t l = some tr → n ≤ m → lowLoop f 0 1e-10 m t l = some tr := by
      intro n
      induction n with
      | zero => intro m t l tr h; simp [lowLoop] at h
      | succ n ih =>
        rintro (_ | m) t l tr h hm
        · omega
        · rw [lowLoop] at h ⊢
          split
          · rename_i hc; rw [if_pos hc] at h; exact ih m _ _ _ h (by omega)
          · rename_i hc; rw [if_neg hc] at h; exact h
    have hm : ∀ n m t l tr, highLoop f 0 1e5 n t l = some tr → n ≤ m → highLoop f 0 1e5 m t l = some tr := by
      intro n
      induction n with
      | zero => intro m t l tr h; simp [highLoop] at h
      | succ n ih =>
        rintro (_ | m) t l tr h hm
        · omega
        · rw [highLoop] at h ⊢
          split
          · rename_i hc; rw [if_pos hc] at h; exact ih m _ _ _ h (by omega)
          · rename_i hc; rw [if_neg hc] at h; exact h
    unfold limitAt findRootLimits at h ⊢
    cases hl : lowLoop f 0 1e-10 fuel [] low with
    | none => simp [hl] at h
    | some tl =>
      cases hhh : highLoop f 0 1e5 fuel [] hig with
      | none => simp [hl, hhh] at h
      | some th =>
        rw [lm _ _ _ _ _ hl hn, hm _ _ _ _ _ hhh hn]
        rw [hl, hhh] at h
        exact h
  obtain ⟨a, b, hB, hE⟩ := limitAt_spec solve f low hig hh
  have := hE.unique ⟨fuel, mono⟩
  refine ⟨a, b, hB, ?_⟩
  split at this
  · rename_i hc
    exact Or.inl ⟨hc, by simpa using this.symm⟩
  · right
    cases hsv : solve f a b with
    | error err => simp [hsv, Except.map] at this
    | ok r => exact ⟨r, rfl, by simpa [hsv, Except.map] using this.symm⟩

/-- C21: if each expected exclusion level grows with `mu > 0` and nothing is excluded yet at `1e-10`, the limits of the band
are ascending (up to the tolerance of the root finder; exactly, for an exact one), infinite ones last. -/
theorem C21_bands_ascending {tol : ℝ → ℝ} {solve : Solver} (hs : Sound tol solve) (I : Inputs) (hl : I.alive = true)
    (hav : I.backend.available .asymptotic = true) (e : Expected) (he : e ≠ .observed) (CL : ℝ) (low hig : Option ℝ)
    (band : Band) (hlow : 1e-10 ≤ (starts I low hig).1) (hhig : 0 < (starts I low hig).2)
    (hgrow : ∀ i < 5, ∀ x y r s, 0 < x → x < y → Level I.backend e false i x (fin r) →
      Level I.backend e false i y (fin s) → r < s)
    (hstart : ∀ i < 5, ∀ r, Level I.backend e false i 1e-10 (fin r) → r ≤ CL)
    (fuel : ℕ) (L : Limit) (h : poiUpperLimit fuel solve I e CL low hig band = some (.ok L)) :
    L.values.Pairwise (OrderedUpTo tol) := by
  obtain ⟨-, -, h3⟩ := poi_ended hl h
  have hasc : (Entries e band).Pairwise (· < ·) := by cases e <;> cases band <;> simp [Entries]
  have h5 : ∀ i ∈ Entries e band, i < 5 := by
    intro i hi
    have := entries_valid hi
    rw [Valid, if_neg he] at this
    exact this
  have hvalid : ∀ i < 5, Valid e i := fun i hi => by rw [Valid, if_neg he]; exact hi
  -- levels at one point are ordered
  have hdesc : ∀ i j, i < j → j < 5 → ∀ x r s, Level I.backend e false i x (fin r) →
      Level I.backend e false j x (fin s) → s ≤ r := by
    intro i j hij hj x r s hr hs'
    obtain ⟨l, hl1, hl2, hl3⟩ := C13_expected_monotone I.backend (fin x) e.toExpect false .asymptotic (Or.inl rfl)
      (by cases e <;> simp [Expected.toExpect] at he ⊢) hav
    obtain ⟨l1, e1, e1'⟩ := hr
    obtain ⟨l2, e2, e2'⟩ := hs'
    rw [hl1] at e1 e2
    simp only [Except.ok.injEq, Levels.one.injEq] at e1 e2
    subst e1; subst e2
    have hi' : i < l.length := by omega
    have hj' : j < l.length := by omega
    have := List.pairwise_iff_getElem.1 hl3 i j hi' hj' hij
    rw [List.getElem?_eq_getElem hi', Option.some.injEq] at e1'
    rw [List.getElem?_eq_getElem hj', Option.some.injEq] at e2'
    rw [e1', e2'] at this
    exact this
  have exL : ∀ i < 5, ∀ x, ∃ r, Level I.backend e false i x (fin r) := by
    intro i hi x
    obtain ⟨r, -, -, hL, -⟩ := computer_level I.backend e CL false i (hvalid i hi) hav x
    exact ⟨r, hL⟩
  -- a pair
  have pair : ∀ i j x y, i < j → j < 5 →
      limitAt fuel solve (computer I.backend e CL false i) (starts I low hig).1 (starts I low hig).2 = some (.ok x) →
      limitAt fuel solve (computer I.backend e CL false j) (starts I low hig).1 (starts I low hig).2 = some (.ok y) →
      OrderedUpTo tol x y := by
    intro i j x y hij hj hx hy
    have hi : i < 5 := by omega
    obtain ⟨a, b, hB, hr⟩ := limitAt_bracket hhig hx
    obtain ⟨c, d, hD, hr'⟩ := limitAt_bracket hhig hy
    -- the sign change of `j`, if there is one
    have hy' : ∀ r', solve (computer I.backend e CL false j) c d = .ok r' → ∃ p s, 0 < p ∧ p ≤ d ∧ |p - r'| ≤ tol r' ∧
        Level I.backend e false j p (fin s) ∧ CL ≤ s := by
      intro r' hr'
      obtain ⟨p, hp1, hp2, hp3, hp4⟩ := hs.above _ _ _ _ hr'
      obtain ⟨s, hs1, hs2⟩ := level_of_ge (hvalid j hj) hav hp4
      refine ⟨p, s, ?_, hp2, hp3, hs1, hs2⟩
      have := hD.low_bound hlow
      have : (0 : ℝ) < 1e-10 := by norm_num
      linarith
    rcases hr with ⟨hsgn, rfl⟩ | ⟨r, hr, rfl⟩
    · rcases hr' with ⟨-, rfl⟩ | ⟨r', hr', rfl⟩
      · trivial
      · exfalso
        rcases hsgn with ⟨g1, -⟩ | ⟨-, g2⟩
        · obtain ⟨s, hs1, hs2⟩ := level_of_gt (hvalid i hi) hav g1
          have ha : a = 1e-10 := le_antisymm (hB.low.resolve_left (fun g => g g1)) (hB.low_bound hlow)
          rw [ha] at hs1
          have := hstart i hi s hs1
          linarith
        · obtain ⟨s, hs1, hs2⟩ := level_of_lt (hvalid i hi) hav g2
          have hb : 1e5 ≤ b := hB.high.resolve_left (fun g => g g2)
          obtain ⟨p, s', hp0, hp1, -, hp3, hp4⟩ := hy' r' hr'
          have hdb : d ≤ b := by
            rcases le_total (starts I low hig).2 1e5 with g | g
            · exact (hD.high_bound g).trans hb
            · rw [hD.high_stay g, hB.high_stay g]
          obtain ⟨u, hu⟩ := exL j hj b
          have h1 := hdesc i j hij hj b s u hs1 hu
          rcases (hp1.trans hdb).eq_or_lt with g | g
          · subst g
            obtain rfl : s' = u := by simpa using hp3.unique hu
            linarith
          · have := hgrow j hj p b s' u hp0 g hp3 hu
            linarith
    · rcases hr' with ⟨-, rfl⟩ | ⟨r', hr', rfl⟩
      · trivial
      · obtain ⟨p, s', hp0, hp1, hp2, hp3, hp4⟩ := hy' r' hr'
        obtain ⟨q, hq1, hq2, hq3, hq4⟩ := hs.below _ _ _ _ hr
        obtain ⟨s, hs1, hs2⟩ := level_of_le (hvalid i hi) hav hq4
        have hqp : q ≤ p := by
          by_contra hc
          rw [not_le] at hc
          obtain ⟨u, hu⟩ := exL i hi p
          have h1 := hdesc i j hij hj p u s' hu hp3
          have h2 := hgrow i hi p q u s hp0 hc hu hs1
          linarith
        show r ≤ r' + tol r + tol r'
        rw [abs_le] at hp2 hq3
        linarith
  generalize Entries e band = is at h3 hasc h5
  generalize L.values = xs at h3
  induction h3 with
  | nil => exact .nil
  | @cons i x is xs hx hrest ih =>
    rw [List.pairwise_cons] at hasc
    refine List.pairwise_cons.2 ⟨?_, ih hasc.2 (fun j hj => h5 j (List.mem_cons_of_mem _ hj))⟩
    intro y hy
    obtain ⟨j, hj, hj'⟩ : ∃ j ∈ is, limitAt fuel solve (computer I.backend e CL false j) (starts I low hig).1
        (starts I low hig).2 = some (.ok y) := by
      clear ih hasc h5
      induction hrest with
      | nil => simp at hy
      | @cons j z is xs h1 _ ih2 =>
        rcases List.mem_cons.1 hy with rfl | hy
        · exact ⟨j, List.mem_cons_self, h1⟩
        · obtain ⟨k, hk, hk'⟩ := ih2 hy
          exact ⟨k, List.mem_cons_of_mem _ hk, hk'⟩
    exact pair i j x y (hasc.1 j hj) (h5 j (List.mem_cons_of_mem _ hj)) hx hj'

-- the hypotheses hold for the Gaussian model and a confidence level below 1
example : 1e-10 ≤ (starts gaussInputs (some 1) (some 1)).1 ∧ 0 < (starts gaussInputs (some 1) (some 1)).2 ∧
    (∀ i < 5, ∀ x y r s, 0 < x → x < y → Level gaussInputs.backend .apriori false i x (fin r) →
      Level gaussInputs.backend .apriori false i y (fin s) → r < s) ∧
    ∃ CL < 1, ∀ i < 5, ∀ r, Level gaussInputs.backend .apriori false i 1e-10 (fin r) → r ≤ CL := by
  refine ⟨by simp only [starts]; norm_num, by simp only [starts]; norm_num,
    fun i hi x y r s h0 h1 h2 h3 => gauss_increasing h0 h1 i hi r s h2 h3, ?_⟩
  have key : ∀ n ≤ 5, ∃ CL < 1, ∀ i < n, ∀ r, Level gaussInputs.backend .apriori false i 1e-10 (fin r) → r ≤ CL := by
    intro n
    induction n with
    | zero => exact fun _ => ⟨0, one_pos, fun i hi => absurd hi (by omega)⟩
    | succ n ih =>
      intro hn
      obtain ⟨CL, h1, h2⟩ := ih (by omega)
      have hL := gauss_level (show (0 : ℝ) < 1e-10 by norm_num) n (by omega)
      refine ⟨max CL (1 - Phi (-(nsigmas.getD n 0) - Real.sqrt (2 * 1e-10 ^ 2)) / Phi (-(nsigmas.getD n 0))), max_lt h1 (sub_lt_self 1 (div_pos (Phi_pos _) (Phi_pos _))), ?_⟩
      · intro i hi r hr
        rcases Nat.lt_succ_iff_lt_or_eq.1 hi with g | rfl
        · exact le_max_of_le_left (h2 i g r hr)
        · refine le_max_of_le_right (le_of_eq ?_)
          simpa using hr.unique hL
  exact key 5 le_rfl

/-- C21: the nominal limit is the middle entry of both bands. -/
theorem C21_nominal_in_the_middle (fuel : ℕ) (solve : Solver) (I : Inputs) (hl : I.alive = true) (e : Expected)
    (he : e ≠ .observed) (CL : ℝ) (low hig : Option ℝ) (x : F) (L1 L2 : Limit)
    (h0 : poiUpperLimit fuel solve I e CL low hig .nominal = some (.ok (.one x)))
    (h1 : poiUpperLimit fuel solve I e CL low hig .sigma1 = some (.ok L1))
    (h2 : poiUpperLimit fuel solve I e CL low hig .sigma2 = some (.ok L2)) :
    (∃ a b, L1 = .many [a, x, b]) ∧ (∃ a b c d, L2 = .many [a, b, x, c, d]) := by
  obtain ⟨-, -, g0⟩ := poi_ended hl h0
  obtain ⟨-, s1, g1⟩ := poi_ended hl h1
  obtain ⟨-, s2, g2⟩ := poi_ended hl h2
  have e0 : Entries e .nominal = [2] := by cases e <;> simp_all [Entries]
  have e1 : Entries e .sigma1 = [1, 2, 3] := by cases e <;> simp_all [Entries]
  have e2 : Entries e .sigma2 = [0, 1, 2, 3, 4] := by cases e <;> simp_all [Entries]
  rw [e0] at g0
  rw [e1] at g1 s1
  rw [e2] at g2 s2
  simp only [Limit.values, List.forall₂_cons, List.forall₂_nil_left_iff, and_true] at g0
  constructor
  · cases L1 with
    | one y => simp [Limit.Shaped] at s1
    | many l =>
      simp only [Limit.values] at g1
      rcases l with _ | ⟨a, _ | ⟨b, _ | ⟨c, _ | ⟨d, l⟩⟩⟩⟩ <;> simp at g1
      obtain ⟨-, g, -⟩ := g1
      rw [g0] at g
      simp only [Option.some.injEq, Except.ok.injEq] at g
      exact ⟨a, c, by rw [g]⟩
  · cases L2 with
    | one y => simp [Limit.Shaped] at s2
    | many l =>
      simp only [Limit.values] at g2
      rcases l with _ | ⟨a, _ | ⟨b, _ | ⟨c, _ | ⟨d, _ | ⟨d', _ | ⟨d'', l⟩⟩⟩⟩⟩⟩ <;> simp at g2
      obtain ⟨-, -, g, -, -⟩ := g2
      rw [g0] at g
      simp only [Option.some.injEq, Except.ok.injEq] at g
      exact ⟨a, b, d, d', by rw [g]⟩

example : ∃ x, poiUpperLimit 0 exactSolve ⟨false, gaussBackend, 0, fun _ => 0⟩ .apriori 0.95 none none .nominal =
    some (.ok (.one x)) := ⟨pinf, by simp only [poiUpperLimit]; rw [if_pos (by norm_num)]; simp [deadLimit]⟩

/-! ## C74 -/

/-- A signal so strong that the confidence level is exceeded everywhere from `1e-10` on (a limit below `1e-10`): the reported
upper limit is infinite, as for a signal that cannot be excluded at all. -/
theorem C74_strong_signal_reported_unbounded_fails (solve : Solver) (I : Inputs) (hl : I.alive = true)
    (hav : I.backend.available .asymptotic = true) (hf : ∀ mu : ℝ, FiniteInputs I.backend (fin mu) .asymptotic)
    (CL : ℝ) (h0 : 0 ≤ CL) (h1 : CL ≤ 1)
    (hx : ∀ mu r, 1e-10 ≤ mu → Level I.backend .observed false 0 mu (fin r) → CL < r) :
    EndsWith (fun n => poiUpperLimit n solve I .observed CL (some 1) (some 1) .nominal) (.ok (.one pinf)) := by
  obtain ⟨a, b, hB, N, hN⟩ := limitAt_spec solve (computer I.backend .observed CL false 0) 1 1 one_pos
  have hpos : ∀ mu : ℝ, 1e-10 ≤ mu → lt (fin 0) (computer I.backend .observed CL false 0 mu) := by
    intro mu hmu
    obtain ⟨r, -, -, hL, hr⟩ := computer_finite (CL := CL) (neg := false) (i := 0) (e := .observed) (by simp [Valid]) hav (hf mu)
    rw [hr]
    have := hx mu r hmu hL
    show 0 < r - CL
    linarith
  have ha : 1e-10 ≤ a := hB.low_bound (by norm_num)
  have hb : 1e-10 ≤ b := le_trans (by norm_num) hB.high_ge
  refine ⟨N, fun n hn => ?_⟩
  have g := hN n hn
  rw [if_pos (show sameSign _ _ from Or.inl ⟨hpos a ha, hpos b hb⟩)] at g
  simp only at g
  simp only [poiUpperLimit, if_pos (And.intro h0 h1), hl, if_true, starts, findPoiUpperLimit, indexRange, limitsAt, g,
    reduceCtorEq, if_false]
  rfl

/-- A backend with a very strong signal: both maxima at 0, `-(K mu)^2`. -/
noncomputable def strongBackend (K : ℝ) : Backend where
  data := ⟨fin 0, fin 0, lift (fun x => -(K * x) ^ 2)⟩
  asimov := ⟨fin 0, fin 0, lift (fun x => -(K * x) ^ 2)⟩
  sigToys := []
  bkgToys := []
  percentile := fun _ _ => nan
  available := fun _ => true

theorem strong_stat {K mu : ℝ} (h : 0 ≤ mu) :
    Fit.stat ⟨fin 0, fin 0, lift (fun x => -(K * x) ^ 2)⟩ qmuTilde (fin mu) = fin (2 * (K * mu) ^ 2) := by
  have h0 : ¬ mu < 0 := not_lt.2 h
  have e : -2 * -(K * mu) ^ 2 = 2 * (K * mu) ^ 2 := by ring
  have h2 : 0 ≤ 2 * (K * mu) ^ 2 := by positivity
  simp only [Fit.stat, qmuTilde, lt, le, lift, h0, if_false, le_refl, if_true, neg, sub, add, neg_zero, add_zero, scale,
    e, clip0, max_eq_left h2]

theorem strong_level {K mu : ℝ} (hK : 0 < K) (h : 0 < mu) :
    Level (strongBackend K) .observed false 0 mu (fin (1 - Phi (-Real.sqrt (2 * (K * mu) ^ 2)) / Phi 0)) := by
  have hA : 0 < 2 * (K * mu) ^ 2 := by positivity
  unfold Level exclusionConfidenceLevel
  simp only [show (strongBackend K).available .asymptotic = true from rfl, if_true, calculatorPvalues, asymptoticPvalues]
  have e1 := strong_stat (K := K) h.le
  rw [if_neg (by simp), compute_eq get_qtilde, show (strongBackend K).data.stat qmuTilde (fin mu) = _ from e1,
    show (strongBackend K).asimov.stat qmuTilde (fin mu) = _ from e1, shift_fin hA.le hA.le]
  simp only [List.mem_cons, String.reduceEq, List.not_mem_nil, or_self, if_false, hA.ne', false_and,
    asymptoticLevel_eq (ts := "qtilde") _ _ (by simp), Expected.toExpect, eq66, le_refl, if_true, sub_self, pvalues_fin]
  refine ⟨_, rfl, ?_⟩
  simp only [List.map_cons, List.map_nil, level_fin, neg_zero, zero_sub, List.getElem?_cons_zero]

-- there is such a signal for the confidence level 0.95
example : ∃ K, (strongBackend K).available .asymptotic = true ∧
    (∀ mu : ℝ, FiniteInputs (strongBackend K) (fin mu) .asymptotic) ∧
    ∀ mu r, 1e-10 ≤ mu → Level (strongBackend K) .observed false 0 mu (fin r) → 0.95 < r := by
  obtain ⟨X, hX⟩ := (Phi_tendsto_bot.eventually (gt_mem_nhds (show (0 : ℝ) < 0.025 by norm_num))).exists_forall_of_atBot
  have hK : (0 : ℝ) < 1e10 * (|X| + 1) := by positivity
  refine ⟨1e10 * (|X| + 1), rfl, fun mu => ⟨⟨_, rfl⟩, ⟨_, rfl⟩, ⟨_, rfl⟩, ⟨_, rfl⟩, ⟨_, rfl⟩, ⟨_, rfl⟩⟩, ?_⟩
  intro mu r hmu h
  have hmu0 : (0 : ℝ) < mu := lt_of_lt_of_le (by norm_num) hmu
  obtain rfl : r = _ := by simpa using h.unique (strong_level hK hmu0)
  have hk : |X| + 1 ≤ 1e10 * (|X| + 1) * mu := by
    have : 1 ≤ 1e10 * mu := by
      have := mul_le_mul_of_nonneg_left hmu (show (0 : ℝ) ≤ 1e10 by norm_num)
      norm_num at this ⊢
      linarith
    nlinarith [abs_nonneg X]
  have hs : |X| ≤ Real.sqrt (2 * (1e10 * (|X| + 1) * mu) ^ 2) := by
    apply Real.le_sqrt_of_sq_le
    nlinarith [abs_nonneg X]
  have := hX (-Real.sqrt (2 * (1e10 * (|X| + 1) * mu) ^ 2)) (by linarith [neg_abs_le X])
  rw [Phi_zero]
  norm_num at this ⊢
  linarith

/-- The part that holds: if the level stays at or below the confidence level at `1e-10`, an infinite limit means that even at
`1e5` (or the larger starting point) the signal is not excluded. -/
theorem C74_infinite_means_not_excluded_partial {solve : Solver} (I : Inputs)
    (hl : I.alive = true) (hav : I.backend.available .asymptotic = true) (e : Expected) (CL : ℝ) (low hig : Option ℝ)
    (hlow : 1e-10 ≤ (starts I low hig).1) (hhig : 0 < (starts I low hig).2) (band : Band)
    (hstart : ∀ i ∈ Entries e band, ∀ r, Level I.backend e false i 1e-10 (fin r) → r ≤ CL)
    (fuel : ℕ) (L : Limit) (h : poiUpperLimit fuel solve I e CL low hig band = some (.ok L)) :
    List.Forall₂ (fun i x => x = pinf → ∃ b r, 1e5 ≤ b ∧ Level I.backend e false i b (fin r) ∧ r < CL)
      (Entries e band) L.values := by
  obtain ⟨-, -, h3⟩ := poi_ended hl h
  have hv : ∀ i ∈ Entries e band, Valid e i := fun i => entries_valid
  generalize Entries e band = is at h3 hv hstart
  generalize L.values = vs at h3
  induction h3 with
  | nil => exact .nil
  | @cons i x is xs hx _ ih =>
    refine .cons ?_ (ih (fun j hj => hv j (List.mem_cons_of_mem _ hj)) (fun j hj => hstart j (List.mem_cons_of_mem _ hj)))
    rintro rfl
    have hi := hv i List.mem_cons_self
    obtain ⟨a, b, hB, hr⟩ := limitAt_bracket hhig hx
    rcases hr with ⟨hsgn | hsgn, -⟩ | ⟨r, -, hr⟩
    · exfalso
      obtain ⟨s, hs1, hs2⟩ := level_of_gt hi hav hsgn.1
      have ha : a = 1e-10 := le_antisymm (hB.low.resolve_left (fun g => g hsgn.1)) (hB.low_bound hlow)
      rw [ha] at hs1
      have := hstart i List.mem_cons_self s hs1
      linarith
    · obtain ⟨s, hs1, hs2⟩ := level_of_lt hi hav hsgn.2
      exact ⟨b, s, hB.high.resolve_left (fun g => g hsgn.2), hs1, hs2⟩
    · simp at hr

end Verif.UpperLimit
