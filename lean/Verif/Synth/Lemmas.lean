import Verif.Synth.Spec

/-!
# Lemmas on the signal uncertainties
-/

namespace Verif.Synth
open Verif.Py F

/-! ### Layout -/

theorem build_cons {signal : List ℝ} {k idx : ℕ} {m : Modifier} {l : List Modifier} {bs : List Block}
    (h : build signal k idx (m :: l) = .ok bs) :
    ∃ b bs', block signal k idx m = .ok b ∧ build signal (k + 1) (idx + b.width signal.length) l = .ok bs' ∧ bs = b :: bs' := by
  rw [build] at h
  split at h
  · simp at h
  · rename_i b hb
    split at h
    · simp at h
    · rename_i bs' hbs
      simp only [Except.ok.injEq] at h
      exact ⟨b, bs', hb, hbs, h.symm⟩

theorem block_start {signal : List ℝ} {k idx : ℕ} {m : Modifier} {b : Block} (h : block signal k idx m = .ok b) :
    b.start = idx ∧ (b.shape = true ↔ m.type = some "shape") ∧ (m.type = some "shape" ∨ m.type = some "normalization") ∧
    b.label = m.name.getD s!"mod{k}" ∧ b.up.length = signal.length ∧ b.dn.length = signal.length := by
  unfold block at h
  split at h
  · simp at h
  · rename_i ht
    have ht' : m.type = some "shape" ∨ m.type = some "normalization" := by
      by_contra hc
      exact ht ⟨fun h => hc (Or.inr h), fun h => hc (Or.inl h)⟩
    split at h
    · simp at h
    · rename_i u _
      split at h
      · simp at h
      · rename_i hlen
        simp only [ne_eq, not_not] at hlen
        split at h
        · rename_i l
          simp only [Except.ok.injEq] at h
          subst h
          simp only [Unc.length] at hlen
          simp [ht', hlen]
        · rename_i l
          simp only [Except.ok.injEq] at h
          subst h
          simp only [Unc.length] at hlen
          simp [ht', hlen]
        · simp at h

theorem domains_eq (n : ℕ) (b : Block) : b.domains n = List.range' b.start (b.width n) := by
  unfold Block.domains Block.width
  split
  · rw [List.range_eq_range', List.map_add_range']
    simp
  · simp

theorem names_length (n : ℕ) (b : Block) : (b.names n).length = b.width n := by
  unfold Block.names Block.width
  split <;> simp

theorem build_domains {signal : List ℝ} {k idx : ℕ} {l : List Modifier} {bs : List Block} (h : build signal k idx l = .ok bs) :
    bs.flatMap (Block.domains signal.length) = List.range' idx (bs.map (Block.width signal.length)).sum ∧
    (bs.flatMap (Block.names signal.length)).length = (bs.map (Block.width signal.length)).sum := by
  induction l generalizing k idx bs with
  | nil =>
    simp only [build, Except.ok.injEq] at h
    subst h
    simp
  | cons m l ih =>
    obtain ⟨b, bs', h1, h2, rfl⟩ := build_cons h
    obtain ⟨i1, i2⟩ := ih h2
    constructor
    · rw [List.flatMap_cons, i1, domains_eq, (block_start h1).1, List.map_cons, List.sum_cons, ← List.range'_append]
      simp
    · rw [List.flatMap_cons, List.length_append, names_length, i2, List.map_cons, List.sum_cons]

theorem build_width {signal : List ℝ} {k idx : ℕ} {l : List Modifier} {bs : List Block} (h : build signal k idx l = .ok bs) :
    (bs.map (Block.width signal.length)).sum =
      (l.filter fun m => m.type = some "normalization").length +
      (l.filter fun m => m.type = some "shape").length * signal.length := by
  induction l generalizing k idx bs with
  | nil =>
    simp only [build, Except.ok.injEq] at h
    subst h
    simp
  | cons m l ih =>
    obtain ⟨b, bs', h1, h2, rfl⟩ := build_cons h
    rw [List.map_cons, List.sum_cons, ih h2, Block.width]
    obtain ⟨_, hs, ht, _⟩ := block_start h1
    rcases ht with ht | ht
    · rw [if_pos (hs.mpr ht)]
      simp only [List.filter_cons, ht]
      simp
      ring
    · have : ¬ b.shape = true := fun h => by rw [hs.mp h] at ht; simp at ht
      rw [if_neg this]
      simp only [List.filter_cons, ht]
      simp
      omega

/-! ### Factors -/

theorem logVar_fin (s v : ℝ) : logVar s (fin v) = fin (Real.log (if s = 0 then 1 else max 1 (1 + v / s))) := by
  unfold logVar delta
  by_cases hs : s = 0
  · simp [hs, add, validate, log]
  · have hpos : (0 : ℝ) < max (1 + v / s) 1 := lt_of_lt_of_le one_pos (le_max_right _ _)
    simp only [ne_eq, hs, not_false_eq_true, if_true, if_false, div, add, validate, log]
    rw [if_pos hpos, max_comm]

theorem factor_eq (s up dn a : ℝ) :
    factor s up dn a = Real.exp (a * Real.log (if s = 0 then 1 else max 1 (1 + (if 0 < a then up else dn) / s))) := by
  unfold factor
  by_cases hs : s = 0
  · simp [hs]
  · have hpos : (0 : ℝ) < max 1 (1 + (if 0 < a then up else dn) / s) := lt_of_lt_of_le one_pos (le_max_left _ _)
    simp only [hs, if_false]
    rw [Real.rpow_def_of_pos hpos, mul_comm]

/-- The block made of the description of a source. -/
theorem block_describes {signal : List ℝ} {k idx : ℕ} {m : Modifier} {s : Source} (h : Describes signal.length s m) :
    ∃ b, block signal k idx m = .ok b ∧ b.shape = s.shape ∧ b.start = idx ∧
      b.up = (List.range signal.length).map (fun i =>
        fin (Real.log (if signal.getD i 0 = 0 then 1 else max 1 (1 + s.up i / signal.getD i 0)))) ∧
      b.dn = (List.range signal.length).map (fun i =>
        fin (Real.log (if signal.getD i 0 = 0 then 1 else max 1 (1 + s.dn i / signal.getD i 0)))) := by
  have hzip : ∀ f : ℕ → ℝ, List.zipWith logVar signal ((List.range signal.length).map fun i => fin (f i)) =
      (List.range signal.length).map (fun i =>
        fin (Real.log (if signal.getD i 0 = 0 then 1 else max 1 (1 + f i / signal.getD i 0)))) := by
    intro f
    apply List.ext_getElem
    · simp
    · intro i h1 h2
      simp only [List.length_map, List.length_range] at h2
      simp only [List.getElem_zipWith, List.getElem_map, List.getElem_range, List.getD_eq_getElem?_getD]
      rw [logVar_fin, List.getElem?_eq_getElem h2]
      rfl
  have htype : ∀ b : Bool, some (if b then "shape" else "normalization") = some "shape" ↔ b = true := by
    intro b; cases b <;> simp
  cases h with
  | sym ht hu he =>
    have hd : (List.range signal.length).map (fun i =>
        fin (Real.log (if signal.getD i 0 = 0 then 1 else max 1 (1 + s.dn i / signal.getD i 0)))) =
        (List.range signal.length).map (fun i =>
        fin (Real.log (if signal.getD i 0 = 0 then 1 else max 1 (1 + s.up i / signal.getD i 0)))) := by
      apply List.map_congr_left
      intro i hi
      rw [he i (List.mem_range.mp hi)]
    have hn : ¬ (m.type ≠ some "normalization" ∧ m.type ≠ some "shape") := by
      rw [ht]; cases s.shape <;> simp
    unfold block
    rw [if_neg hn, hu]
    simp only [Unc.length, List.length_map, List.length_range, ne_eq, not_true, if_false, Except.ok.injEq]
    refine ⟨_, rfl, ?_, rfl, hzip _, ?_⟩
    · simp only [ht]; cases s.shape <;> simp
    · simp only
      rw [hzip, hd]
  | asym ht hu =>
    have hn : ¬ (m.type ≠ some "normalization" ∧ m.type ≠ some "shape") := by
      rw [ht]; cases s.shape <;> simp
    unfold block
    rw [if_neg hn, hu]
    simp only [Unc.length, List.length_map, List.length_range, ne_eq, not_true, if_false, Except.ok.injEq, List.map_map]
    refine ⟨_, rfl, ?_, rfl, hzip _, hzip _⟩
    simp only [ht]; cases s.shape <;> simp

theorem get_ok {pars : List ℝ} {i : ℕ} (h : i < pars.length) : get pars i = .ok (pars.getD i 0) := by
  unfold get
  rw [List.getElem?_eq_getElem h, List.getD_eq_getElem?_getD, List.getElem?_eq_getElem h]
  rfl

theorem mapM_get {pars : List ℝ} {start n : ℕ} (h : start + n ≤ pars.length) :
    ((List.range n).mapM fun i => get pars (start + i)) = .ok ((List.range n).map fun i => pars.getD (start + i) 0) := by
  have : ∀ l : List ℕ, (∀ i ∈ l, start + i < pars.length) →
      (l.mapM fun i => get pars (start + i)) = .ok (l.map fun i => pars.getD (start + i) 0) := by
    intro l
    induction l with
    | nil => intro _; rfl
    | cons i l ih =>
      intro hl
      rw [List.mapM_cons, get_ok (hl i List.mem_cons_self), ih fun j hj => hl j (List.mem_cons_of_mem _ hj)]
      rfl
  exact this _ fun i hi => by have := List.mem_range.mp hi; omega

/-- The logarithm of the factor of a source in bin `i`. -/
noncomputable def logFactor (signal pars : List ℝ) (start : ℕ) (s : Source) (i : ℕ) : ℝ :=
  pars.getD (if s.shape then start + i else start) 0 *
    Real.log (if signal.getD i 0 = 0 then 1 else
      max 1 (1 + (if 0 < pars.getD (if s.shape then start + i else start) 0 then s.up i else s.dn i) / signal.getD i 0))

theorem lam_describes {signal pars : List ℝ} {k idx : ℕ} {m : Modifier} {s : Source} (h : Describes signal.length s m)
    {b : Block} (hb : block signal k idx m = .ok b) (hp : idx + s.width signal.length ≤ pars.length) :
    lam signal.length b pars = .ok ((List.range signal.length).map fun i => fin (logFactor signal pars idx s i)) := by
  obtain ⟨b', hb', hsh, hst, hup, hdn⟩ := block_describes (k := k) (idx := idx) h
  rw [hb] at hb'
  simp only [Except.ok.injEq] at hb'
  subst hb'
  unfold lam
  rw [hsh]
  unfold Source.width at hp
  unfold logFactor
  cases hc : s.shape with
  | false =>
    simp only [hc, Bool.false_eq_true, if_false] at hp ⊢
    unfold lamNorm
    rw [hst, get_ok (by omega)]
    simp only [Except.ok.injEq]
    by_cases ha : 0 < pars.getD idx 0
    · simp only [ha, if_true, hup, List.map_map]
      rfl
    · simp only [ha, if_false, hdn, List.map_map]
      rfl
  | true =>
    simp only [hc, if_true] at hp ⊢
    unfold lamShape
    rw [hst, mapM_get hp]
    simp only [Except.ok.injEq, hup, hdn]
    apply List.ext_getElem
    · simp
    · intro i h1 h2
      simp only [List.getElem_zipWith, List.getElem_map, List.getElem_range, List.getElem_zip]
      rcases lt_trichotomy (pars.getD (idx + i) 0) 0 with ha | ha | ha
      · have h3 : ¬ 0 < pars.getD (idx + i) 0 := not_lt.mpr ha.le
        have h4 : ¬ 0 ≤ pars.getD (idx + i) 0 := not_le.mpr ha
        simp only [h3, h4, if_false]
        rfl
      · simp only [ha, lt_self_iff_false, le_refl, if_true, if_false, mul, zero_mul]
      · simp only [ha, ha.le, if_true]
        rfl

/-- The sum of the logarithms of the factors of all sources. -/
noncomputable def logProduct (signal pars : List ℝ) (i : ℕ) : ℕ → List Source → ℝ
  | _, [] => 0
  | start, s :: l => logFactor signal pars start s i + logProduct signal pars i (start + s.width signal.length) l

theorem exp_logProduct (signal pars : List ℝ) (i start : ℕ) (l : List Source) :
    Real.exp (logProduct signal pars i start l) = product signal pars i start l := by
  induction l generalizing start with
  | nil => simp [logProduct, product]
  | cons s l ih =>
    rw [logProduct, Real.exp_add, ih, product, factor_eq]
    rfl

def widths (n : ℕ) (l : List Source) : ℕ := (l.map (Source.width n)).sum

theorem width_eq {signal : List ℝ} {k idx : ℕ} {m : Modifier} {s : Source} (h : Describes signal.length s m)
    {b : Block} (hb : block signal k idx m = .ok b) : b.width signal.length = s.width signal.length := by
  obtain ⟨b', hb', hsh, _⟩ := block_describes (k := k) (idx := idx) h
  rw [hb] at hb'
  simp only [Except.ok.injEq] at hb'
  subst hb'
  simp [Block.width, Source.width, hsh]

theorem build_describes {signal : List ℝ} {k idx : ℕ} {ms : List Modifier} {ss : List Source}
    (h : DescribesAll signal.length ss ms) :
    ∃ bs, build signal k idx ms = .ok bs ∧ (bs.map (Block.width signal.length)).sum = widths signal.length ss := by
  induction ms generalizing k idx ss with
  | nil =>
    cases ss with
    | nil => exact ⟨[], rfl, rfl⟩
    | cons s ss => exact absurd h (by simp [DescribesAll])
  | cons m ms ih =>
    cases ss with
    | nil => exact absurd h (by simp [DescribesAll])
    | cons s ss =>
      obtain ⟨h1, h2⟩ := h
      obtain ⟨b, hb, _⟩ := block_describes (k := k) (idx := idx) h1
      obtain ⟨bs, hbs, hw⟩ := ih (k := k + 1) (idx := idx + b.width signal.length) h2
      refine ⟨b :: bs, ?_, ?_⟩
      · rw [build, hb]; simp only; rw [hbs]
      · rw [List.map_cons, List.sum_cons, hw, width_eq h1 hb]
        simp [widths]

theorem sumLams_describes {signal pars : List ℝ} {k idx : ℕ} {ms : List Modifier} {ss : List Source}
    (h : DescribesAll signal.length ss ms) {bs : List Block} (hb : build signal k idx ms = .ok bs)
    (hp : idx + widths signal.length ss ≤ pars.length) (f : ℕ → ℝ) :
    sumLams signal.length pars ((List.range signal.length).map fun i => fin (f i)) bs =
      .ok ((List.range signal.length).map fun i => fin (f i + logProduct signal pars i idx ss)) := by
  induction ms generalizing k idx ss bs f with
  | nil =>
    cases ss with
    | nil =>
      simp only [build, Except.ok.injEq] at hb
      subst hb
      simp [sumLams, logProduct]
    | cons s ss => exact absurd h (by simp [DescribesAll])
  | cons m ms ih =>
    cases ss with
    | nil => exact absurd h (by simp [DescribesAll])
    | cons s ss =>
      obtain ⟨h1, h2⟩ := h
      obtain ⟨b, bs', hb1, hb2, rfl⟩ := build_cons hb
      have hw := width_eq h1 hb1
      simp only [widths, List.map_cons, List.sum_cons] at hp
      rw [sumLams, lam_describes h1 hb1 (by omega)]
      simp only
      have hz : List.zipWith add ((List.range signal.length).map fun i => fin (f i))
          ((List.range signal.length).map fun i => fin (logFactor signal pars idx s i)) =
          (List.range signal.length).map fun i => fin (f i + logFactor signal pars idx s i) := by
        apply List.ext_getElem
        · simp
        · intro i h1 h2
          simp [add]
      rw [hw] at hb2
      rw [hz, ih h2 hb2 (by simp only [widths]; omega) _]
      congr 1
      apply List.map_congr_left
      intro i _
      rw [logProduct, _root_.add_assoc]

theorem factors_describes {signal pars : List ℝ} {k idx : ℕ} {ms : List Modifier} {ss : List Source}
    (h : DescribesAll signal.length ss ms) {bs : List Block} (hb : build signal k idx ms = .ok bs)
    (hp : idx + widths signal.length ss ≤ pars.length) :
    factors signal.length bs pars = .ok ((List.range signal.length).map fun i => fin (product signal pars i idx ss)) := by
  cases ms with
  | nil =>
    cases ss with
    | nil =>
      simp only [build, Except.ok.injEq] at hb
      subst hb
      simp [factors, product, List.map_const']
    | cons s ss => exact absurd h (by simp [DescribesAll])
  | cons m ms =>
    cases ss with
    | nil => exact absurd h (by simp [DescribesAll])
    | cons s ss =>
      obtain ⟨h1, h2⟩ := h
      obtain ⟨b, bs', hb1, hb2, rfl⟩ := build_cons hb
      have hw := width_eq h1 hb1
      simp only [widths, List.map_cons, List.sum_cons] at hp
      rw [factors, lam_describes h1 hb1 (by omega)]
      simp only
      rw [hw] at hb2
      rw [sumLams_describes h2 hb2 (by simp only [widths]; omega)]
      simp only [List.map_map, Except.ok.injEq]
      apply List.map_congr_left
      intro i _
      simp only [Function.comp, F.exp]
      rw [← exp_logProduct, logProduct]

theorem factor_pos (s up dn a : ℝ) : 0 < factor s up dn a := by
  rw [factor_eq]; exact Real.exp_pos _

theorem factor_mono (s up dn : ℝ) {a b : ℝ} (h : a ≤ b) : factor s up dn a ≤ factor s up dn b := by
  unfold factor
  by_cases hs : s = 0
  · simp [hs]
  · simp only [hs, if_false]
    have h1 : ∀ x : ℝ, (1 : ℝ) ≤ max 1 (1 + x / s) := fun x => le_max_left _ _
    by_cases ha : 0 < a
    · rw [if_pos ha, if_pos (lt_of_lt_of_le ha h)]
      exact Real.rpow_le_rpow_of_exponent_le (h1 _) h
    · rw [if_neg ha]
      by_cases hb : 0 < b
      · rw [if_pos hb]
        exact le_trans (Real.rpow_le_one_of_one_le_of_nonpos (h1 _) (not_lt.mp ha)) (Real.one_le_rpow (h1 _) hb.le)
      · rw [if_neg hb]
        exact Real.rpow_le_rpow_of_exponent_le (h1 _) h

theorem factor_zero (s up dn : ℝ) : factor s up dn 0 = 1 := by
  unfold factor; split <;> simp

theorem product_mono (signal pars pars' : List ℝ) (i start : ℕ) (ss : List Source)
    (h : ∀ j, pars.getD j 0 ≤ pars'.getD j 0) :
    0 < product signal pars i start ss ∧ product signal pars i start ss ≤ product signal pars' i start ss := by
  induction ss generalizing start with
  | nil => simp [product]
  | cons s l ih =>
    obtain ⟨i1, i2⟩ := ih (start + s.width signal.length)
    rw [product, product]
    exact ⟨mul_pos (factor_pos _ _ _ _) i1, mul_le_mul (factor_mono _ _ _ (h _)) i2 i1.le (factor_pos _ _ _ _).le⟩

theorem product_zero (signal pars : List ℝ) (i start : ℕ) (ss : List Source) (hi : i < signal.length) :
    ((∀ j, start ≤ j → j < start + widths signal.length ss → pars.getD j 0 = 0) → product signal pars i start ss = 1) ∧
    ((∀ j, start ≤ j → j < start + widths signal.length ss → 0 ≤ pars.getD j 0) → 1 ≤ product signal pars i start ss) ∧
    ((∀ j, start ≤ j → j < start + widths signal.length ss → pars.getD j 0 ≤ 0) → product signal pars i start ss ≤ 1) := by
  induction ss generalizing start with
  | nil => simp [product]
  | cons s l ih =>
    obtain ⟨i1, i2, i3⟩ := ih (start + s.width signal.length)
    have hw : widths signal.length (s :: l) = s.width signal.length + widths signal.length l := by simp [widths]
    have hi1 : start ≤ (if s.shape then start + i else start) := by split <;> omega
    have hi2 : (if s.shape then start + i else start) < start + widths signal.length (s :: l) := by
      rw [hw, Source.width]; split <;> omega
    have hl : ∀ j, start + s.width signal.length ≤ j → start ≤ j := fun j h => by omega
    have hr : ∀ j, j < start + s.width signal.length + widths signal.length l → j < start + widths signal.length (s :: l) :=
      fun j h => by omega
    simp only [product]
    refine ⟨fun h => ?_, fun h => ?_, fun h => ?_⟩
    · rw [h _ hi1 hi2, factor_zero, i1 fun j h1 h2 => h j (hl j h1) (hr j h2), one_mul]
    · have h1 := factor_mono (signal.getD i 0) (s.up i) (s.dn i) (h _ hi1 hi2)
      rw [factor_zero] at h1
      exact one_le_mul_of_one_le_of_one_le h1 (i2 fun j h1 h2 => h j (hl j h1) (hr j h2))
    · have h1 := factor_mono (signal.getD i 0) (s.up i) (s.dn i) (h _ hi1 hi2)
      rw [factor_zero] at h1
      have hp := (product_mono signal pars pars i (start + s.width signal.length) l fun _ => le_rfl).1
      exact mul_le_one₀ h1 hp.le (i3 fun j h1 h2 => h j (hl j h1) (hr j h2))

theorem product_congr (signal pars pars' : List ℝ) (i start : ℕ) (ss : List Source) (hi : i < signal.length)
    (h : ∀ j, start ≤ j → j < start + widths signal.length ss → pars.getD j 0 = pars'.getD j 0) :
    product signal pars i start ss = product signal pars' i start ss := by
  induction ss generalizing start with
  | nil => rfl
  | cons s l ih =>
    have hw : widths signal.length (s :: l) = s.width signal.length + widths signal.length l := by simp [widths]
    have hi1 : start ≤ (if s.shape then start + i else start) := by split <;> omega
    have hi2 : (if s.shape then start + i else start) < start + widths signal.length (s :: l) := by
      rw [hw, Source.width]; split <;> omega
    rw [product, product, h _ hi1 hi2, ih _ fun j h1 h2 => h j (by omega) (by omega)]

theorem product_no_signal (signal pars : List ℝ) (i start : ℕ) (ss : List Source) (h : signal.getD i 0 = 0) :
    product signal pars i start ss = 1 := by
  induction ss generalizing start with
  | nil => rfl
  | cons s l ih => rw [product, ih, h]; simp [factor]

theorem product_one_sigma (signal : List ℝ) (s : Source) (i start : ℕ) (pars : List ℝ) (hs : 0 < signal.getD i 0)
    (hu : 0 ≤ s.up i) (hd : 0 ≤ s.dn i) :
    (pars.getD (if s.shape then start + i else start) 0 = 1 →
      signal.getD i 0 * product signal pars i start [s] = signal.getD i 0 + s.up i) ∧
    (pars.getD (if s.shape then start + i else start) 0 = -1 →
      signal.getD i 0 * product signal pars i start [s] = signal.getD i 0 / (1 + s.dn i / signal.getD i 0)) := by
  simp only [product, mul_one]
  generalize signal.getD i 0 = x at *
  generalize pars.getD (if s.shape then start + i else start) 0 = a at *
  have hm : ∀ v : ℝ, 0 ≤ v → max 1 (1 + v / x) = 1 + v / x := fun v hv => max_eq_right (by have := div_nonneg hv hs.le; linarith)
  constructor
  · intro ha
    simp only [ha, factor, hs.ne', if_false, one_pos, if_true, hm _ hu, Real.rpow_one]
    field_simp
  · intro ha
    simp only [ha, factor, hs.ne', if_false, hm _ hd, show ¬ (0 : ℝ) < -1 by norm_num, Real.rpow_neg_one]
    exact (div_eq_mul_inv _ _).symm

theorem synth_widths {signal : List ℝ} {ms : List Modifier} {ss : List Source} {nsp : ℕ} {d : Option ℕ}
    (h : DescribesAll signal.length ss ms) {c : Config} (hc : synth signal ms nsp d = .ok c) :
    c.nParameters = widths signal.length ss := by
  obtain ⟨bs, hb, hw⟩ := build_describes (k := 0) (idx := d.getD (1 + nsp + signal.length)) h
  unfold synth at hc
  rw [hb] at hc
  simp only [Except.ok.injEq] at hc
  subst hc
  exact hw

end Verif.Synth
