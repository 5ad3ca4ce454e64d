import Verif.UpperLimit.Spec
import Verif.Stats.Props

/-! # Loops, and the relation between `computer` and `exclusion_confidence_level` -/

namespace Verif.UpperLimit
open Verif.Py F Verif.Stats
open Classical

/-! ### The loops -/

theorem low_spec (f : ℝ → F) (loc : ℝ) {bound : ℝ} (hb : 0 < bound) (k : ℕ) (t : Trace) (low : ℝ)
    (hk : low ≤ bound * 5 ^ k) :
    ∃ (tr : Trace) (a : ℝ), (∀ n, k + 1 ≤ n → lowLoop f loc bound n t low = some ((a, f a) :: tr)) ∧
      (¬ lt (fin loc) (f a) ∨ a ≤ bound) ∧ a ≤ low ∧ (bound ≤ low → bound ≤ a) ∧
      t.length ≤ tr.length ∧ (tr.length = t.length → a = low) ∧
      (t.length < tr.length → lt (fin loc) (f low) ∧ bound * 5 ^ (tr.length - t.length - 1) < low) := by
  induction k generalizing t low with
  | zero =>
    refine ⟨t, low, ?_, Or.inr (by simpa using hk), le_refl _, fun h => h, Nat.le_refl _, fun _ => rfl, fun h => absurd h (Nat.lt_irrefl _)⟩
    rintro (_ | n) hn
    · omega
    · rw [lowLoop, if_neg]
      rintro ⟨-, h⟩
      simp only [pow_zero, mul_one] at hk
      linarith
  | succ k ih =>
    by_cases h : lt (fin loc) (f low) ∧ bound < low
    · have hk' : max (low * 0.2) bound ≤ bound * 5 ^ k := by
        apply max_le
        · rw [pow_succ] at hk
          norm_num at hk ⊢
          linarith
        · have : (1 : ℝ) ≤ 5 ^ k := one_le_pow₀ (by norm_num)
          nlinarith
      obtain ⟨tr, a, h1, h2, h3, h4, h5, h6, h7⟩ := ih ((low, f low) :: t) (max (low * 0.2) bound) hk'
      have hl : max (low * 0.2) bound ≤ low := max_le (by norm_num; linarith [h.2, hb]) h.2.le
      simp only [List.length_cons] at h5 h6 h7
      refine ⟨tr, a, ?_, h2, h3.trans hl, fun _ => h4 (le_max_right _ _), by omega, fun e => by omega, fun _ => ⟨h.1, ?_⟩⟩
      · rintro (_ | n) hn
        · omega
        · rw [lowLoop, if_pos h]
          exact h1 n (by omega)
      · rcases Nat.lt_or_ge (t.length + 1) tr.length with hlt | hge
        · obtain ⟨-, g⟩ := h7 hlt
          have e : tr.length - t.length - 1 = (tr.length - (t.length + 1) - 1) + 1 := by omega
          rw [e, pow_succ]
          rcases lt_max_iff.1 g with g | g
          · norm_num at g; linarith
          · exfalso
            have : (1 : ℝ) ≤ 5 ^ (tr.length - (t.length + 1) - 1) := one_le_pow₀ (by norm_num)
            nlinarith
        · have e : tr.length - t.length - 1 = 0 := by omega
          rw [e]; simpa using h.2
    · refine ⟨t, low, ?_, ?_, le_refl _, fun h => h, Nat.le_refl _, fun _ => rfl, fun h => absurd h (Nat.lt_irrefl _)⟩
      · rintro (_ | n) hn
        · omega
        · rw [lowLoop, if_neg h]
      · rw [not_and_or, not_lt] at h; exact h

theorem high_spec (f : ℝ → F) (loc bound : ℝ) (k : ℕ) (t : Trace) (hig : ℝ) (h0 : 0 < hig)
    (hk : bound ≤ hig * 5 ^ k) :
    ∃ (tr : Trace) (b : ℝ), (∀ n, k + 1 ≤ n → highLoop f loc bound n t hig = some ((b, f b) :: tr)) ∧
      (¬ lt (f b) (fin loc) ∨ bound ≤ b) ∧ hig ≤ b ∧ (hig ≤ bound → b ≤ bound) ∧
      t.length ≤ tr.length ∧ (tr.length = t.length → b = hig) ∧
      (t.length < tr.length → lt (f hig) (fin loc) ∧ hig * 5 ^ (tr.length - t.length - 1) < bound) := by
  induction k generalizing t hig with
  | zero =>
    refine ⟨t, hig, ?_, Or.inr (by simpa using hk), le_refl _, fun h => h, Nat.le_refl _, fun _ => rfl, fun h => absurd h (Nat.lt_irrefl _)⟩
    rintro (_ | n) hn
    · omega
    · rw [highLoop, if_neg]
      rintro ⟨-, h⟩
      simp only [pow_zero, mul_one] at hk
      linarith
  | succ k ih =>
    by_cases h : lt (f hig) (fin loc) ∧ hig < bound
    · have hbpos : 0 < bound := h0.trans h.2
      have hl : hig < min (hig * 5) bound := lt_min (by linarith) h.2
      have hk' : bound ≤ min (hig * 5) bound * 5 ^ k := by
        rcases min_choice (hig * 5) bound with e | e <;> rw [e]
        · rw [pow_succ] at hk; linarith
        · have : (1 : ℝ) ≤ 5 ^ k := one_le_pow₀ (by norm_num)
          nlinarith
      obtain ⟨tr, b, h1, h2, h3, h4, h5, h6, h7⟩ := ih ((hig, f hig) :: t) (min (hig * 5) bound) (h0.trans hl) hk'
      simp only [List.length_cons] at h5 h6 h7
      refine ⟨tr, b, ?_, h2, hl.le.trans h3, fun _ => h4 (min_le_right _ _), by omega, fun e => by omega, fun _ => ⟨h.1, ?_⟩⟩
      · rintro (_ | n) hn
        · omega
        · rw [highLoop, if_pos h]
          exact h1 n (by omega)
      · rcases Nat.lt_or_ge (t.length + 1) tr.length with hlt | hge
        · obtain ⟨-, g⟩ := h7 hlt
          have e : tr.length - t.length - 1 = (tr.length - (t.length + 1) - 1) + 1 := by omega
          rw [e, pow_succ]
          rcases min_choice (hig * 5) bound with e' | e' <;> rw [e'] at g
          · linarith
          · exfalso
            have : (1 : ℝ) ≤ 5 ^ (tr.length - (t.length + 1) - 1) := one_le_pow₀ (by norm_num)
            nlinarith
        · have e : tr.length - t.length - 1 = 0 := by omega
          rw [e]; simpa using h.2
    · refine ⟨t, hig, ?_, ?_, le_refl _, fun h => h, Nat.le_refl _, fun _ => rfl, fun h => absurd h (Nat.lt_irrefl _)⟩
      · rintro (_ | n) hn
        · omega
        · rw [highLoop, if_neg h]
      · rw [not_and_or, not_lt] at h; exact h

theorem exists_pow_ge (x : ℝ) {y : ℝ} (hy : 0 < y) : ∃ k : ℕ, x ≤ y * 5 ^ k := by
  obtain ⟨k, hk⟩ := pow_unbounded_of_one_lt (x / y) (show (1 : ℝ) < 5 by norm_num)
  exact ⟨k, by rw [div_lt_iff₀ hy] at hk; linarith⟩

/-- What the bracketing gives, for a positive upper starting point. -/
structure Bracket (f : ℝ → F) (loc lowIni higIni lowBound higBound a b : ℝ) : Prop where
  low : ¬ lt (fin loc) (f a) ∨ a ≤ lowBound
  high : ¬ lt (f b) (fin loc) ∨ higBound ≤ b
  low_le : a ≤ lowIni
  high_ge : higIni ≤ b
  low_bound : lowBound ≤ lowIni → lowBound ≤ a
  high_bound : higIni ≤ higBound → b ≤ higBound
  high_stay : higBound ≤ higIni → b = higIni
  low_move : a ≠ lowIni → lt (fin loc) (f lowIni)
  high_move : b ≠ higIni → lt (f higIni) (fin loc)

theorem limits_spec (f : ℝ → F) (loc lowIni higIni lowBound higBound : ℝ) (h1 : 0 < lowBound) (h2 : 0 < higIni) :
    ∃ (a b : ℝ) (ta tb : Trace),
      EndsWith (fun n => findRootLimits n f loc lowIni higIni lowBound higBound) ((a, f a) :: ta, (b, f b) :: tb) ∧
      Bracket f loc lowIni higIni lowBound higBound a b ∧
      (0 < ta.length → lowBound * 5 ^ (ta.length - 1) < lowIni) ∧
      (0 < tb.length → higIni * 5 ^ (tb.length - 1) < higBound) := by
  obtain ⟨k, hk⟩ := exists_pow_ge lowIni h1
  obtain ⟨m, hm⟩ := exists_pow_ge higBound h2
  obtain ⟨ta, a, a1, a2, a3, a4, a5, a6, a7⟩ := low_spec f loc h1 k [] lowIni hk
  obtain ⟨tb, b, b1, b2, b3, b4, b5, b6, b7⟩ := high_spec f loc higBound m [] higIni h2 hm
  simp only [List.length_nil, Nat.sub_zero] at a6 a7 b6 b7
  refine ⟨a, b, ta, tb, ⟨k + m + 1, fun n hn => ?_⟩, ⟨a2, b2, a3, b3, a4, b4, ?_, ?_, ?_⟩, fun h => (a7 h).2,
    fun h => (b7 h).2⟩
  · simp only [findRootLimits, a1 n (by omega), b1 n (by omega)]
    rfl
  · intro h
    rcases Nat.eq_zero_or_pos tb.length with e | e
    · exact b6 e
    · exfalso
      have := (b7 e).2
      have h5 : (1 : ℝ) ≤ 5 ^ (tb.length - 1) := one_le_pow₀ (by norm_num)
      nlinarith
  · intro h
    rcases Nat.eq_zero_or_pos ta.length with e | e
    · exact absurd (a6 e) h
    · exact (a7 e).1
  · intro h
    rcases Nat.eq_zero_or_pos tb.length with e | e
    · exact absurd (b6 e) h
    · exact (b7 e).1

theorem EndsWith.unique {α : Type} {g : ℕ → Option α} {r s : α} (h : EndsWith g r) (h' : EndsWith g s) : r = s := by
  obtain ⟨n, hn⟩ := h
  obtain ⟨m, hm⟩ := h'
  have a := hn (n + m) (by omega)
  rw [hm (n + m) (by omega)] at a
  exact (Option.some.inj a).symm

/-! ### `computer` and the exclusion level -/

theorem probOrNan_iff {x : F} (h : ProbOrNan x) : x = nan ∨ ∃ r, 0 ≤ r ∧ r ≤ 1 ∧ x = fin r := by
  rcases h with h | ⟨r, h, h1, h2⟩
  · exact Or.inl h
  · exact Or.inr ⟨r, h1, h2, h⟩

/-- The valid entries for `expected`. -/
def Valid (e : Expected) (i : ℕ) : Prop := i < if e = .observed then 1 else 5

theorem computer_level (B : Backend) (e : Expected) (CL : ℝ) (neg : Bool) (i : ℕ) (hi : Valid e i)
    (hav : B.available .asymptotic = true) (mu : ℝ) :
    ∃ r, 0 ≤ r ∧ r ≤ 1 ∧ Level B e neg i mu (fin r) ∧
      (computer B e CL neg i mu = nan ∨ computer B e CL neg i mu = fin (r - CL)) := by
  obtain ⟨t, ht⟩ := getName_ok neg
  obtain ⟨v, hv, hs⟩ := asymptoticPvalues_shaped B (fin mu) neg
  have hl : ∃ p, (if e = Expected.observed then v.1 else v.2)[i]? = some p ∧ ProbOrNan p ∧
      computer B e CL neg i mu = sub (sub (fin 1) p) (fin CL) := by
    obtain ⟨s1, s2, s3, s4⟩ := hs
    have hex : ∃ p, (if e = Expected.observed then v.1 else v.2)[i]? = some p ∧ ProbOrNan p := by
      unfold Valid at hi
      by_cases he : e = Expected.observed
      · rw [if_pos he] at hi ⊢
        have : i < v.1.length := by omega
        exact ⟨_, List.getElem?_eq_getElem this, s3 _ (List.getElem_mem _)⟩
      · rw [if_neg he] at hi ⊢
        have : i < v.2.length := by omega
        exact ⟨_, List.getElem?_eq_getElem this, s4 _ (List.getElem_mem _)⟩
    obtain ⟨p, hp, hpp⟩ := hex
    refine ⟨p, hp, hpp, ?_⟩
    unfold asymptoticPvalues at hv
    unfold computer
    dsimp only
    rw [compute_eq ht] at hv ⊢
    cases hsh : shiftOf (if neg then "q" else "qtilde") (B.data.stat t (fin mu)) (B.asimov.stat t (fin mu)) with
    | error err =>
      obtain rfl := shift_err hsh
      simp only [hsh, Except.ok.injEq] at hv ⊢
      rw [← hv] at hp
      by_cases he : e = Expected.observed
      · simp only [he, if_true] at hp ⊢
        unfold Valid at hi
        rw [if_pos he] at hi
        obtain rfl : i = 0 := by omega
        simp only [List.getElem?_cons_zero, Option.some.injEq] at hp
        subst hp
        simp [sub, add, F.neg]
      · simp only [if_neg he] at hp ⊢
        unfold Valid at hi
        rw [if_neg he] at hi
        rw [List.getElem?_replicate, if_pos hi, Option.some.injEq] at hp
        subst hp
        rw [List.getD_eq_getElem?_getD, List.getElem?_replicate, if_pos hi]
        simp [sub, add, F.neg]
    | ok w =>
      obtain ⟨a, b, d⟩ := w
      simp only [hsh, Except.ok.injEq] at hv ⊢
      rw [← hv] at hp
      rw [List.getD_eq_getElem?_getD, List.getElem?_map, hp]
      rfl
  obtain ⟨p, hp, hpp, hc⟩ := hl
  have hlev : Level B e neg i mu (if isNan p then fin 0 else sub (fin 1) p) := by
    unfold Level exclusionConfidenceLevel
    simp only [hav, if_true, calculatorPvalues]
    rw [hv]
    cases e
    · exact ⟨_, rfl, by simp only [if_true] at hp; simp [hp]⟩
    · exact ⟨_, rfl, by simp only [reduceCtorEq, if_false] at hp; simp [hp]⟩
    · exact ⟨_, rfl, by simp only [reduceCtorEq, if_false] at hp; simp [hp]⟩
  rcases probOrNan_iff hpp with rfl | ⟨r, h0, h1, rfl⟩
  · refine ⟨0, le_refl _, zero_le_one, ?_, Or.inl ?_⟩
    · rwa [level_nan] at hlev
    · rw [hc]; rfl
  · refine ⟨1 - r, by linarith, by linarith, ?_, Or.inr ?_⟩
    · rwa [level_fin] at hlev
    · rw [hc]; simp [sub, add, F.neg, sub_eq_add_neg]

theorem Level.unique {B : Backend} {e : Expected} {neg : Bool} {i : ℕ} {mu : ℝ} {x y : F}
    (h : Level B e neg i mu x) (h' : Level B e neg i mu y) : x = y := by
  obtain ⟨l, h1, h2⟩ := h
  obtain ⟨m, h3, h4⟩ := h'
  rw [h1] at h3
  simp only [Except.ok.injEq, Levels.one.injEq] at h3
  subst h3
  rw [h2] at h4
  exact Option.some.inj h4

section signs
variable {B : Backend} {e : Expected} {CL : ℝ} {neg : Bool} {i : ℕ} (hi : Valid e i)
  (hav : B.available .asymptotic = true) {mu : ℝ}
include hi hav

theorem level_of_le (h : le (computer B e CL neg i mu) (fin 0)) : ∃ r, Level B e neg i mu (fin r) ∧ r ≤ CL := by
  obtain ⟨r, -, -, h1, h2⟩ := computer_level B e CL neg i hi hav mu
  rcases h2 with h2 | h2
  · rw [h2] at h; exact h.elim
  · rw [h2] at h; exact ⟨r, h1, by have : r - CL ≤ 0 := h; linarith⟩

theorem level_of_ge (h : le (fin 0) (computer B e CL neg i mu)) : ∃ r, Level B e neg i mu (fin r) ∧ CL ≤ r := by
  obtain ⟨r, -, -, h1, h2⟩ := computer_level B e CL neg i hi hav mu
  rcases h2 with h2 | h2
  · rw [h2] at h; exact h.elim
  · rw [h2] at h; exact ⟨r, h1, by have : 0 ≤ r - CL := h; linarith⟩

theorem level_of_lt (h : lt (computer B e CL neg i mu) (fin 0)) : ∃ r, Level B e neg i mu (fin r) ∧ r < CL := by
  obtain ⟨r, -, -, h1, h2⟩ := computer_level B e CL neg i hi hav mu
  rcases h2 with h2 | h2
  · rw [h2] at h; exact h.elim
  · rw [h2] at h; exact ⟨r, h1, by have : r - CL < 0 := h; linarith⟩

theorem level_of_gt (h : lt (fin 0) (computer B e CL neg i mu)) : ∃ r, Level B e neg i mu (fin r) ∧ CL < r := by
  obtain ⟨r, -, -, h1, h2⟩ := computer_level B e CL neg i hi hav mu
  rcases h2 with h2 | h2
  · rw [h2] at h; exact h.elim
  · rw [h2] at h; exact ⟨r, h1, by have : 0 < r - CL := h; linarith⟩

end signs

/-- With finite likelihood values `computer` is the level minus `CL`. -/
theorem computer_finite {B : Backend} {e : Expected} {CL : ℝ} {neg : Bool} {i : ℕ} (hi : Valid e i)
    (hav : B.available .asymptotic = true) {mu : ℝ} (hf : FiniteInputs B (fin mu) .asymptotic) :
    ∃ r, 0 ≤ r ∧ r ≤ 1 ∧ Level B e neg i mu (fin r) ∧ computer B e CL neg i mu = fin (r - CL) := by
  obtain ⟨r, h0, h1, h2, h3⟩ := computer_level B e CL neg i hi hav mu
  refine ⟨r, h0, h1, h2, ?_⟩
  rcases h3 with h3 | h3
  · exfalso
    obtain ⟨t, ht⟩ := getName_ok neg
    obtain ⟨f1, f2, f3, f4, f5, f6⟩ := hf
    obtain ⟨q, hq, hq'⟩ := stat_finite ht B.data (fin mu) f1 f2 f3
    obtain ⟨qA, hA, hA'⟩ := stat_finite ht B.asimov (fin mu) f4 f5 f6
    unfold computer at h3
    dsimp only at h3
    have hsh : (∃ d, shiftOf (if neg then "q" else "qtilde") (fin q) (fin qA) =
        .ok (fin (Real.sqrt q), fin (Real.sqrt qA), fin d)) ∨
        shiftOf (if neg then "q" else "qtilde") (fin q) (fin qA) = .error .asimovTestStatZero := by
      rw [shift_fin hq hA]
      repeat' split
      all_goals first | exact Or.inl ⟨_, rfl⟩ | exact Or.inr rfl
    rw [compute_eq ht, hq', hA'] at h3
    have key : ∀ (l : List F) (P : ∀ x ∈ l, IsProb x) (hl : i < l.length),
        sub ((l.map (fun x => sub (fin 1) x)).getD i nan) (fin CL) ≠ nan := by
      intro l P hl
      rw [List.getD_eq_getElem?_getD, List.getElem?_map, List.getElem?_eq_getElem hl]
      obtain ⟨r, hr, -, -⟩ := P _ (List.getElem_mem hl)
      simp [hr, sub, add, F.neg]
    have hne := testName_ne neg
    have asym : ∀ d : ℝ, sub (((if e = Expected.observed then
        (asymptoticLevel (fin (Real.sqrt qA)) (fin d) (if neg then "q" else "qtilde")).1 else
        (asymptoticLevel (fin (Real.sqrt qA)) (fin d) (if neg then "q" else "qtilde")).2).map
          (fun x => sub (fin 1) x)).getD i nan) (fin CL) ≠ nan := by
      intro d
      obtain ⟨s1, s2, s3, s4⟩ := asymptoticLevel_prob (Real.sqrt_nonneg qA) d hne
      unfold Valid at hi
      by_cases he : e = Expected.observed
      · rw [if_pos he] at hi ⊢
        exact key _ s3 (by omega)
      · rw [if_neg he] at hi ⊢
        exact key _ s4 (by omega)
    have zero : sub ((if e = Expected.observed then [fin 0] else List.replicate 5 (fin 0)).getD i nan) (fin CL) ≠ nan := by
      unfold Valid at hi
      by_cases he : e = Expected.observed
      · rw [if_pos he] at hi ⊢
        obtain rfl : i = 0 := by omega
        simp [sub, add, F.neg]
      · rw [if_neg he] at hi ⊢
        rw [List.getD_eq_getElem?_getD, List.getElem?_replicate, if_pos hi]
        simp [sub, add, F.neg]
    rcases hsh with ⟨d, hsh⟩ | hsh
    · rw [hsh] at h3
      exact asym d h3
    · rw [hsh] at h3
      exact zero h3
  · exact h3

/-! ### One entry, and the loop over entries -/

theorem limitAt_spec (solve : Solver) (f : ℝ → F) (lowInit higInit : ℝ) (hh : 0 < higInit) :
    ∃ a b, Bracket f 0 lowInit higInit 1e-10 1e5 a b ∧
      EndsWith (fun n => limitAt n solve f lowInit higInit)
        (if sameSign (f a) (f b) then .ok pinf else (solve f a b).map fin) := by
  obtain ⟨a, b, ta, tb, ⟨N, hN⟩, h2, -, -⟩ := limits_spec f 0 lowInit higInit 1e-10 1e5 (by norm_num) hh
  refine ⟨a, b, h2, N, fun n hn => ?_⟩
  simp only [limitAt, hN n hn, List.head?_cons]
  split <;> rfl

theorem indexRange_eq (e : Expected) (band : Band) (h : band ≠ .unknown) :
    indexRange e (if e = .observed then .nominal else band) = Entries e band := by
  cases e <;> cases band <;> simp_all [indexRange, Entries]

theorem entries_valid {e : Expected} {band : Band} {i : ℕ} (h : i ∈ Entries e band) : Valid e i := by
  cases e <;> cases band <;> simp [Entries] at h <;> simp [Valid] <;> omega

theorem pack_values (l : List F) : (pack l).values = l := by
  rcases l with _ | ⟨a, _ | ⟨b, l⟩⟩ <;> rfl

theorem pack_shaped (l : List F) : (pack l).Shaped l.length := by
  rcases l with _ | ⟨a, _ | ⟨b, l⟩⟩ <;> simp [pack, Limit.Shaped]

theorem lowLoop_ended {f : ℝ → F} {loc bound : ℝ} {n : ℕ} {t tr : Trace} {low : ℝ}
    (h : lowLoop f loc bound n t low = some tr) :
    ∃ a rest, tr = (a, f a) :: rest ∧ (¬ lt (fin loc) (f a) ∨ a ≤ bound) ∧ (bound ≤ low → bound ≤ a) := by
  induction n generalizing t low with
  | zero => simp [lowLoop] at h
  | succ n ih =>
    rw [lowLoop] at h
    split at h
    · obtain ⟨a, rest, h1, h2, h3⟩ := ih h
      exact ⟨a, rest, h1, h2, fun _ => h3 (le_max_right _ _)⟩
    · rename_i hc
      rw [not_and_or, not_lt] at hc
      exact ⟨low, t, (Option.some.inj h).symm, hc, id⟩

theorem highLoop_ended {f : ℝ → F} {loc bound : ℝ} {n : ℕ} {t tr : Trace} {hig : ℝ}
    (h : highLoop f loc bound n t hig = some tr) :
    ∃ b rest, tr = (b, f b) :: rest ∧ (¬ lt (f b) (fin loc) ∨ bound ≤ b) := by
  induction n generalizing t hig with
  | zero => simp [highLoop] at h
  | succ n ih =>
    rw [highLoop] at h
    split at h
    · exact ih h
    · rename_i hc
      rw [not_and_or, not_lt] at hc
      exact ⟨hig, t, (Option.some.inj h).symm, hc⟩

theorem limitAt_ended {solve : Solver} {f : ℝ → F} {lowInit higInit : ℝ} {n : ℕ} {x : F}
    (h : limitAt n solve f lowInit higInit = some (.ok x)) :
    ∃ a b, (¬ lt (fin 0) (f a) ∨ a ≤ 1e-10) ∧ (¬ lt (f b) (fin 0) ∨ 1e5 ≤ b) ∧ (1e-10 ≤ lowInit → 1e-10 ≤ a) ∧
      ((sameSign (f a) (f b) ∧ x = pinf) ∨ ∃ r, solve f a b = .ok r ∧ x = fin r) := by
  unfold limitAt findRootLimits at h
  cases hl : lowLoop f 0 1e-10 n [] lowInit with
  | none => simp [hl] at h
  | some tl =>
    cases hh : highLoop f 0 1e5 n [] higInit with
    | none => simp [hl, hh] at h
    | some th =>
      obtain ⟨a, ra, rfl, ha, hp⟩ := lowLoop_ended hl
      obtain ⟨b, rb, rfl, hb⟩ := highLoop_ended hh
      refine ⟨a, b, ha, hb, hp, ?_⟩
      simp only [hl, hh, Option.bind_eq_bind, Option.bind_some, Option.pure_def, List.head?_cons] at h
      split at h
      · rename_i hs
        simp only [Option.some.injEq, Except.ok.injEq] at h
        exact Or.inl ⟨hs, h.symm⟩
      · right
        cases hs : solve f a b with
        | error e => simp [hs, Except.map] at h
        | ok r =>
          simp only [hs, Except.map, Option.some.injEq, Except.ok.injEq] at h
          exact ⟨r, rfl, h.symm⟩

theorem limitsAt_ended {solve : Solver} {f : ℕ → ℝ → F} {lowInit higInit : ℝ} {n : ℕ} {is : List ℕ} {xs : List F}
    (h : limitsAt n solve f lowInit higInit is = some (.ok xs)) :
    List.Forall₂ (fun i x => limitAt n solve (f i) lowInit higInit = some (.ok x)) is xs := by
  induction is generalizing xs with
  | nil =>
    simp only [limitsAt, Option.some.injEq, Except.ok.injEq] at h
    subst h
    exact .nil
  | cons i is ih =>
    rw [limitsAt] at h
    cases hx : limitAt n solve (f i) lowInit higInit with
    | none => simp [hx] at h
    | some r =>
      cases r with
      | error e => simp [hx] at h
      | ok x =>
        rw [hx] at h
        simp only at h
        cases hr : limitsAt n solve f lowInit higInit is with
        | none => simp [hr] at h
        | some r =>
          cases r with
          | error e => simp [hr] at h
          | ok ys =>
            simp only [hr, Option.some.injEq, Except.ok.injEq] at h
            subst h
            exact .cons hx (ih hr)

theorem findPoi_ended {fuel : ℕ} {solve : Solver} {B : Backend} {e : Expected} {CL : ℝ} {neg : Bool} {low hig : ℝ}
    {band : Band} {L : Limit} (h : findPoiUpperLimit fuel solve B e CL neg low hig band = some (.ok L)) :
    L.Shaped (Entries e band).length ∧
    List.Forall₂ (fun i x => limitAt fuel solve (computer B e CL neg i) low hig = some (.ok x)) (Entries e band)
      L.values := by
  unfold findPoiUpperLimit at h
  split at h
  · simp at h
  · rename_i hb
    dsimp only at h
    rw [indexRange_eq e band hb] at h
    cases hl : limitsAt fuel solve (computer B e CL neg) low hig (Entries e band) with
    | none => simp [hl] at h
    | some r =>
      cases r with
      | error err => simp [hl] at h
      | ok xs =>
        simp only [hl, Option.some.injEq, Except.ok.injEq] at h
        subst h
        have := limitsAt_ended hl
        rw [pack_values]
        refine ⟨?_, this⟩
        rw [this.length_eq]
        exact pack_shaped xs

theorem entries_observed (e : Expected) (band : Band) :
    Entries e (if e = .observed then .nominal else band) = Entries e band := by
  cases e <;> cases band <;> rfl

theorem poi_ended {fuel : ℕ} {solve : Solver} {I : Inputs} {e : Expected} {CL : ℝ} {low hig : Option ℝ} {band : Band}
    {L : Limit} (hl : I.alive = true) (h : poiUpperLimit fuel solve I e CL low hig band = some (.ok L)) :
    (0 ≤ CL ∧ CL ≤ 1) ∧ L.Shaped (Entries e band).length ∧
    List.Forall₂ (fun i x => limitAt fuel solve (computer I.backend e CL false i) (starts I low hig).1
      (starts I low hig).2 = some (.ok x)) (Entries e band) L.values := by
  unfold poiUpperLimit at h
  split at h
  · rename_i hc
    simp only [hl, if_true] at h
    have := findPoi_ended h
    rw [entries_observed] at this
    exact ⟨hc, this⟩
  · simp at h

/-- The result for the entries in `is`. -/
inductive Collected (R : ℕ → Except Err F → Prop) : List ℕ → Except Err (List F) → Prop
  | nil : Collected R [] (.ok [])
  | cons {i is x xs} : R i (.ok x) → Collected R is (.ok xs) → Collected R (i :: is) (.ok (x :: xs))
  | fail {i is e} : R i (.error e) → Collected R (i :: is) (.error e)
  | later {i is x e} : R i (.ok x) → Collected R is (.error e) → Collected R (i :: is) (.error e)

theorem limitsAt_spec (solve : Solver) (f : ℕ → ℝ → F) (lowInit higInit : ℝ) (hh : 0 < higInit) (is : List ℕ) :
    ∃ r, EndsWith (fun n => limitsAt n solve f lowInit higInit is) r ∧
      Collected (fun i r => EndsWith (fun n => limitAt n solve (f i) lowInit higInit) r) is r := by
  induction is with
  | nil => exact ⟨.ok [], ⟨0, fun n _ => rfl⟩, .nil⟩
  | cons i is ih =>
    obtain ⟨r, ⟨N, hN⟩, hr⟩ := ih
    obtain ⟨a, b, -, hx⟩ := limitAt_spec solve (f i) lowInit higInit hh
    generalize (if sameSign (f i a) (f i b) then Except.ok pinf else (solve (f i) a b).map fin) = x at hx
    obtain ⟨M, hM⟩ := hx
    beta_reduce at hM hN
    cases x with
    | error e =>
      exact ⟨.error e, ⟨M, fun n hn => by simp only [limitsAt]; rw [hM n hn]⟩, .fail ⟨M, hM⟩⟩
    | ok x =>
      cases r with
      | error e =>
        refine ⟨.error e, ⟨N + M, fun n hn => ?_⟩, .later ⟨M, hM⟩ hr⟩
        simp only [limitsAt]
        rw [hM n (by omega)]
        simp only
        rw [hN n (by omega)]
      | ok xs =>
        refine ⟨.ok (x :: xs), ⟨N + M, fun n hn => ?_⟩, .cons ⟨M, hM⟩ hr⟩
        simp only [limitsAt]
        rw [hM n (by omega)]
        simp only
        rw [hN n (by omega)]

theorem Collected.ok {R : ℕ → Except Err F → Prop} {is : List ℕ} {xs : List F} (h : Collected R is (.ok xs)) :
    List.Forall₂ (fun i x => R i (.ok x)) is xs := by
  generalize hr : Except.ok xs = r at h
  induction h generalizing xs with
  | nil => cases hr; exact .nil
  | cons h1 h2 ih => cases hr; exact .cons h1 (ih rfl)
  | fail => cases hr
  | later => cases hr

end Verif.UpperLimit
