import Verif.Synth.Lemmas

/-!
# Properties C47 and C48: signal uncertainties
-/

namespace Verif.Synth
open Verif.Py F

/-! ## C47: layout of the nuisance parameters -/

/-- C47. When the synthesizer accepts the modifiers, the parameters of all constraints, listed in order, are exactly the
`n_parameters` consecutive indices after the POI, the signal parameters and one background nuisance per bin (or after the
requested start): none is missing, none is used twice. There are as many names as parameters, and the number of parameters is
one per normalisation modifier and one per bin for each shape modifier. -/
theorem C47_layout (signal : List ℝ) (ms : List Modifier) (nsp : ℕ) (d : Option ℕ) (c : Config)
    (h : synth signal ms nsp d = .ok c) :
    c.constraint = List.range' (d.getD (1 + nsp + signal.length)) c.nParameters ∧ c.constraint.Nodup ∧
    c.names.length = c.nParameters ∧
    c.nParameters = (ms.filter fun m => m.type = some "normalization").length +
      (ms.filter fun m => m.type = some "shape").length * signal.length := by
  unfold synth at h
  split at h
  · simp at h
  · rename_i bs hb
    simp only [Except.ok.injEq] at h
    subst h
    obtain ⟨h1, h2⟩ := build_domains hb
    refine ⟨h1, ?_, h2, build_width hb⟩
    simp only
    rw [h1]
    exact List.nodup_range'

/-- The block that a modifier gets starts where the previous one ends. -/
theorem build_split (signal : List ℝ) (k idx : ℕ) (l r : List Modifier) (bs : List Block)
    (h : build signal k idx (l ++ r) = .ok bs) :
    ∃ bl br, build signal k idx l = .ok bl ∧
      build signal (k + l.length) (idx + (bl.map (Block.width signal.length)).sum) r = .ok br ∧ bs = bl ++ br := by
  induction l generalizing k idx bs with
  | nil => exact ⟨[], bs, rfl, by simpa using h, rfl⟩
  | cons m l ih =>
    obtain ⟨b, bs', h1, h2, rfl⟩ := build_cons h
    obtain ⟨bl, br, i1, i2, rfl⟩ := ih _ _ _ h2
    refine ⟨b :: bl, br, ?_, ?_, rfl⟩
    · rw [build, h1]; simp only; rw [i1]
    · simp only [List.map_cons, List.sum_cons, List.length_cons]
      rw [show k + (l.length + 1) = k + 1 + l.length from by ring, ← Nat.add_assoc]
      exact i2

/-- C47, per modifier: adding modifiers at the end leaves the parameters, the constraints and the names of the others as they
were. -/
theorem C47_append (signal : List ℝ) (l r : List Modifier) (nsp : ℕ) (d : Option ℕ) (c : Config)
    (h : synth signal (l ++ r) nsp d = .ok c) :
    ∃ c', synth signal l nsp d = .ok c' ∧ c'.constraint <+: c.constraint ∧ c'.names <+: c.names ∧
      c'.nParameters ≤ c.nParameters := by
  unfold synth at h
  split at h
  · simp at h
  · rename_i bs hb
    simp only [Except.ok.injEq] at h
    subst h
    obtain ⟨bl, br, h1, h2, rfl⟩ := build_split _ _ _ _ _ _ hb
    refine ⟨_, by unfold synth; rw [h1], ?_, ?_, ?_⟩
    · simp
    · simp
    · simp

/-- C47: which modifiers are accepted. Exactly those lists in which every modifier has a known type and uncertainties of one or
two dimensions with one entry per bin. -/
theorem C47_accepted (signal : List ℝ) (ms : List Modifier) (nsp : ℕ) (d : Option ℕ) :
    (∃ c, synth signal ms nsp d = .ok c) ↔
      ∀ m ∈ ms, (m.type = some "normalization" ∨ m.type = some "shape") ∧
        ((∃ l, m.uncertainties = some (.sym l) ∧ l.length = signal.length) ∨
         (∃ l, m.uncertainties = some (.asym l) ∧ l.length = signal.length)) := by
  have hblock : ∀ (k idx : ℕ) (m : Modifier), (∃ b, block signal k idx m = .ok b) ↔
      ((m.type = some "normalization" ∨ m.type = some "shape") ∧
        ((∃ l, m.uncertainties = some (.sym l) ∧ l.length = signal.length) ∨
         (∃ l, m.uncertainties = some (.asym l) ∧ l.length = signal.length))) := by
    intro k idx m
    unfold block
    by_cases ht : m.type ≠ some "normalization" ∧ m.type ≠ some "shape"
    · rw [if_pos ht]
      constructor
      · rintro ⟨b, hb⟩; simp at hb
      · rintro ⟨h1 | h1, _⟩
        · exact absurd h1 ht.1
        · exact absurd h1 ht.2
    · rw [if_neg ht]
      have ht' : m.type = some "normalization" ∨ m.type = some "shape" := by
        by_contra hc
        exact ht ⟨fun h => hc (Or.inl h), fun h => hc (Or.inr h)⟩
      cases hu : m.uncertainties with
      | none => simp
      | some u =>
        cases u with
        | sym l => by_cases hl : l.length = signal.length <;> simp [Unc.length, hl, ht']
        | asym l => by_cases hl : l.length = signal.length <;> simp [Unc.length, hl, ht']
        | other n => by_cases hl : n = signal.length <;> simp [Unc.length, hl]
  have hbuild : ∀ (ms : List Modifier) (k idx : ℕ), (∃ bs, build signal k idx ms = .ok bs) ↔
      ∀ m ∈ ms, ∃ b, block signal 0 0 m = .ok b := by
    intro ms
    induction ms with
    | nil => intro k idx; simp [build]
    | cons m ms ih =>
      intro k idx
      constructor
      · rintro ⟨bs, hbs⟩
        obtain ⟨b, bs', h1, h2, _⟩ := build_cons hbs
        intro m' hm'
        rcases List.mem_cons.mp hm' with rfl | hm'
        · exact (hblock _ _ _).mpr ((hblock _ _ _).mp ⟨b, h1⟩)
        · exact (ih _ _).mp ⟨bs', h2⟩ m' hm'
      · intro h
        obtain ⟨b, hb⟩ := (hblock k idx m).mpr ((hblock _ _ _).mp (h m List.mem_cons_self))
        obtain ⟨bs, hbs⟩ := (ih (k + 1) (idx + b.width signal.length)).mpr fun m' hm' => h m' (List.mem_cons_of_mem _ hm')
        exact ⟨b :: bs, by rw [build, hb]; simp only; rw [hbs]⟩
  have hs : (∃ c, synth signal ms nsp d = .ok c) ↔ ∃ bs, build signal 0 (d.getD (1 + nsp + signal.length)) ms = .ok bs := by
    unfold synth
    cases build signal 0 (d.getD (1 + nsp + signal.length)) ms <;> simp
  rw [hs, hbuild]
  exact forall₂_congr fun m _ => hblock 0 0 m

noncomputable def exNorm (name : Option String) : Modifier := ⟨some "normalization", some (.sym [fin 1, fin 2]), name⟩
noncomputable def exShape (name : Option String) : Modifier :=
  ⟨some "shape", some (.asym [(fin 1, fin 2), (fin 3, fin 0)]), name⟩

/-- Two bins, one signal parameter: the parameters of a normalisation and of a shape modifier are 4, 5 and 6. -/
example : ∃ c, synth [10, 20] [exNorm none, exShape (some "jes")] 1 none = .ok c ∧ c.constraint = [4, 5, 6] ∧
    c.names = ["theta_sig_mod0", "theta_sig_jes_0", "theta_sig_jes_1"] :=
  ⟨_, rfl, rfl, by decide⟩

/-- The same case through the characterisation of accepted modifiers. -/
example : ∃ c, synth [10, 20] [exNorm none, exShape (some "jes")] 1 none = .ok c ∧
    c.constraint = List.range' 4 c.nParameters ∧ c.nParameters = 3 := by
  obtain ⟨c, hc⟩ := (C47_accepted [10, 20] [exNorm none, exShape (some "jes")] 1 none).mpr (by
    intro m hm
    simp only [List.mem_cons, List.not_mem_nil, or_false] at hm
    rcases hm with rfl | rfl <;> simp [exNorm, exShape])
  have := C47_layout _ _ _ _ _ hc
  refine ⟨c, hc, this.1, ?_⟩
  rw [this.2.2.2]
  simp [exNorm, exShape]

/-- C47 fails for the names: an unnamed modifier is called `mod{k}`, and nothing stops another modifier from having that name,
or a normalisation modifier from having the name of a bin of a shape modifier. Two parameters then have the same name. -/
theorem C47_names_fails :
    (∃ c, synth [10, 20] [exNorm (some "mod1"), exNorm none] 0 none = .ok c ∧ ¬ c.names.Nodup) ∧
    (∃ c, synth [10, 20] [exNorm (some "jes_0"), exShape (some "jes")] 0 none = .ok c ∧ ¬ c.names.Nodup) :=
  ⟨⟨_, rfl, by decide⟩, ⟨_, rfl, by decide⟩⟩

/-! ## C48: the multiplicative factor -/

/-- C48. For modifiers with finite uncertainties and a parameter vector that is long enough, the callable returns in every bin
the product over the modifiers of `(1 + Δ/s)^α`, with `α` the modifier's own parameter (of that bin for a shape modifier) and
`Δ` the upper or the lower variation according to the sign of `α`. -/
theorem C48_product (signal : List ℝ) (ms : List Modifier) (ss : List Source) (nsp : ℕ) (d : Option ℕ)
    (h : DescribesAll signal.length ss ms) :
    ∃ c, synth signal ms nsp d = .ok c ∧ ∀ pars : List ℝ, d.getD (1 + nsp + signal.length) + c.nParameters ≤ pars.length →
      c.lambda pars = .ok ((List.range signal.length).map fun i =>
        fin (product signal pars i (d.getD (1 + nsp + signal.length)) ss)) := by
  obtain ⟨bs, hb, hw⟩ := build_describes (k := 0) (idx := d.getD (1 + nsp + signal.length)) h
  refine ⟨_, by unfold synth; rw [hb], ?_⟩
  intro pars hp
  simp only at hp ⊢
  rw [hw] at hp
  exact factors_describes h hb hp

/-- C48: the callable returns positive finite numbers, and does not decrease in any bin when parameters grow. -/
theorem C48_positive_monotone (signal : List ℝ) (ms : List Modifier) (ss : List Source) (nsp : ℕ) (d : Option ℕ)
    (h : DescribesAll signal.length ss ms) (c : Config) (hc : synth signal ms nsp d = .ok c) (pars pars' : List ℝ)
    (hl : d.getD (1 + nsp + signal.length) + c.nParameters ≤ pars.length)
    (hl' : d.getD (1 + nsp + signal.length) + c.nParameters ≤ pars'.length) (hp : ∀ j, pars.getD j 0 ≤ pars'.getD j 0) :
    ∃ f f' : ℕ → ℝ, c.lambda pars = .ok ((List.range signal.length).map fun i => fin (f i)) ∧
      c.lambda pars' = .ok ((List.range signal.length).map fun i => fin (f' i)) ∧ ∀ i, 0 < f i ∧ f i ≤ f' i := by
  obtain ⟨c', hc', hp'⟩ := C48_product signal ms ss nsp d h
  rw [hc] at hc'
  simp only [Except.ok.injEq] at hc'
  subst hc'
  exact ⟨_, _, hp' _ hl, hp' _ hl', fun i => product_mono _ _ _ _ _ _ hp⟩

/-- C48: all factors are 1 when all signal nuisance parameters vanish; they are at least 1 when none of these is negative and at
most 1 when none is positive. -/
theorem C48_at_zero (signal : List ℝ) (ms : List Modifier) (ss : List Source) (nsp : ℕ) (d : Option ℕ)
    (h : DescribesAll signal.length ss ms) (c : Config) (hc : synth signal ms nsp d = .ok c) (pars : List ℝ)
    (hl : d.getD (1 + nsp + signal.length) + c.nParameters ≤ pars.length) :
    ((∀ j ∈ c.constraint, pars.getD j 0 = 0) → c.lambda pars = .ok (List.replicate signal.length (fin 1))) ∧
    ∃ f : ℕ → ℝ, c.lambda pars = .ok ((List.range signal.length).map fun i => fin (f i)) ∧
      ((∀ j ∈ c.constraint, 0 ≤ pars.getD j 0) → ∀ i < signal.length, 1 ≤ f i) ∧
      ((∀ j ∈ c.constraint, pars.getD j 0 ≤ 0) → ∀ i < signal.length, f i ≤ 1) := by
  obtain ⟨c', hc', hp'⟩ := C48_product signal ms ss nsp d h
  rw [hc] at hc'
  simp only [Except.ok.injEq] at hc'
  subst hc'
  have hn := synth_widths h hc
  have hlay := (C47_layout _ _ _ _ _ hc).1
  have hm : ∀ j, d.getD (1 + nsp + signal.length) ≤ j →
      j < d.getD (1 + nsp + signal.length) + widths signal.length ss → j ∈ c.constraint := by
    intro j h1 h2
    rw [hlay, hn, List.mem_range'_1]
    exact ⟨h1, h2⟩
  refine ⟨fun h0 => ?_, _, hp' _ hl, fun h0 i hi => ?_, fun h0 i hi => ?_⟩
  · rw [hp' _ hl]
    congr 1
    rw [← List.map_const', List.map_const', List.eq_replicate_iff]
    refine ⟨by simp, fun x hx => ?_⟩
    obtain ⟨i, hi, rfl⟩ := List.mem_map.mp hx
    rw [(product_zero signal pars i _ ss (List.mem_range.mp hi)).1 fun j h1 h2 => h0 j (hm j h1 h2)]
  · exact (product_zero signal pars i _ ss hi).2.1 fun j h1 h2 => h0 j (hm j h1 h2)
  · exact (product_zero signal pars i _ ss hi).2.2 fun j h1 h2 => h0 j (hm j h1 h2)

/-- C48: the factors depend on the modifiers' own parameters only. -/
theorem C48_own_parameters (signal : List ℝ) (ms : List Modifier) (ss : List Source) (nsp : ℕ) (d : Option ℕ)
    (h : DescribesAll signal.length ss ms) (c : Config) (hc : synth signal ms nsp d = .ok c) (pars pars' : List ℝ)
    (hl : d.getD (1 + nsp + signal.length) + c.nParameters ≤ pars.length)
    (hl' : d.getD (1 + nsp + signal.length) + c.nParameters ≤ pars'.length)
    (hp : ∀ j ∈ c.constraint, pars.getD j 0 = pars'.getD j 0) : c.lambda pars = c.lambda pars' := by
  obtain ⟨c', hc', hp'⟩ := C48_product signal ms ss nsp d h
  rw [hc] at hc'
  simp only [Except.ok.injEq] at hc'
  subst hc'
  rw [hp' _ hl, hp' _ hl']
  congr 1
  apply List.map_congr_left
  intro i hi
  rw [product_congr signal pars pars' i _ ss (List.mem_range.mp hi)]
  intro j h1 h2
  apply hp
  rw [(C47_layout _ _ _ _ _ hc).1, synth_widths h hc, List.mem_range'_1]
  exact ⟨h1, h2⟩

/-- C48: bins without signal are not changed by any modifier. -/
theorem C48_no_signal (signal : List ℝ) (ms : List Modifier) (ss : List Source) (nsp : ℕ) (d : Option ℕ)
    (h : DescribesAll signal.length ss ms) (c : Config) (hc : synth signal ms nsp d = .ok c) (pars : List ℝ)
    (hl : d.getD (1 + nsp + signal.length) + c.nParameters ≤ pars.length) (i : ℕ) (hi : i < signal.length)
    (h0 : signal.getD i 0 = 0) : ∃ l, c.lambda pars = .ok l ∧ l[i]? = some (fin 1) := by
  obtain ⟨c', hc', hp'⟩ := C48_product signal ms ss nsp d h
  rw [hc] at hc'
  simp only [Except.ok.injEq] at hc'
  subst hc'
  refine ⟨_, hp' _ hl, ?_⟩
  rw [List.getElem?_map, List.getElem?_range hi, Option.map_some, product_no_signal _ _ _ _ _ h0]

/-- C48: with a single modifier, its parameter at 1 adds the upper variation to the yield, and its parameter at -1 divides the
yield by the relative lower variation. (It does not subtract the lower variation.) -/
theorem C48_one_sigma (signal : List ℝ) (m : Modifier) (s : Source) (nsp : ℕ) (d : Option ℕ) (h : Describes signal.length s m)
    (c : Config) (hc : synth signal [m] nsp d = .ok c) (pars : List ℝ)
    (hl : d.getD (1 + nsp + signal.length) + c.nParameters ≤ pars.length) (i : ℕ) (hi : i < signal.length)
    (hs : 0 < signal.getD i 0) (hu : 0 ≤ s.up i) (hd : 0 ≤ s.dn i) :
    ∃ l f, c.lambda pars = .ok l ∧ l[i]? = some (fin f) ∧
      ((∀ j ∈ c.constraint, pars.getD j 0 = 1) → signal.getD i 0 * f = signal.getD i 0 + s.up i) ∧
      ((∀ j ∈ c.constraint, pars.getD j 0 = -1) → signal.getD i 0 * f = signal.getD i 0 / (1 + s.dn i / signal.getD i 0)) := by
  have h' : DescribesAll signal.length [s] [m] := ⟨h, trivial⟩
  obtain ⟨c', hc', hp'⟩ := C48_product signal [m] [s] nsp d h'
  rw [hc] at hc'
  simp only [Except.ok.injEq] at hc'
  subst hc'
  have hm : (if s.shape then d.getD (1 + nsp + signal.length) + i else d.getD (1 + nsp + signal.length)) ∈ c.constraint := by
    rw [(C47_layout _ _ _ _ _ hc).1, synth_widths h' hc, List.mem_range'_1]
    simp only [widths, List.map_cons, List.map_nil, List.sum_cons, List.sum_nil, Source.width]
    split <;> omega
  refine ⟨_, product signal pars i (d.getD (1 + nsp + signal.length)) [s], hp' _ hl, ?_, fun h1 => ?_, fun h1 => ?_⟩
  · rw [List.getElem?_map, List.getElem?_range hi, Option.map_some]
  · exact (product_one_sigma _ _ _ _ _ hs hu hd).1 (h1 _ hm)
  · exact (product_one_sigma _ _ _ _ _ hs hu hd).2 (h1 _ hm)

/-- A normalisation and a shape uncertainty on two bins, the second without signal. -/
noncomputable def exSources : List Source := [⟨false, fun i => i + 1, fun i => i + 1⟩, ⟨true, fun i => 2 * i + 1, fun i => 2 - 2 * i⟩]

example : DescribesAll 2 exSources [exNorm none, exShape none] := by
  refine ⟨.sym rfl ?_ fun _ _ => rfl, .asym rfl ?_, trivial⟩
  · simp [exNorm, List.range_succ]; norm_num
  · simp [exShape, List.range_succ]; norm_num

example : product [10, 0] [1, 0, 0, 1, 1, -1] 0 3 exSources * 10 = 10 * (11 / 10) ^ 2 := by
  simp [product, factor, exSources, Source.width]; norm_num

theorem logVar_noNan (s : ℝ) (v : F) : logVar s (noNan v) = logVar s v := by
  cases v <;> simp only [noNan]
  by_cases hs : s = 0
  · simp [logVar, delta, hs]
  · simp [logVar, delta, hs, div, add, validate]

/-- C48: an uncertainty that is nan is no variation: the configuration is the one for the modifiers with 0 instead. -/
theorem C48_nan (signal : List ℝ) (ms : List Modifier) (nsp : ℕ) (d : Option ℕ) :
    synth signal (ms.map Modifier.noNan) nsp d = synth signal ms nsp d := by
  have hz : ∀ (s : List ℝ) (l : List F), List.zipWith logVar s (l.map noNan) = List.zipWith logVar s l := by
    intro s l
    rw [List.zipWith_map_right]
    simp only [logVar_noNan]
  have hblock : ∀ m k idx, block signal k idx m.noNan = block signal k idx m := by
    intro m k idx
    obtain ⟨t, u, n⟩ := m
    cases u with
    | none => rfl
    | some u =>
      cases u with
      | sym l =>
        simp only [block, Modifier.noNan, Option.map_some, Unc.length, List.length_map, hz]
        rfl
      | asym l =>
        have h1 : ∀ f : F × F → F, (∀ p : F × F, f (noNan p.1, noNan p.2) = noNan (f p)) →
            (l.map fun p => (noNan p.1, noNan p.2)).map f = (l.map f).map noNan := by
          intro f hf
          rw [List.map_map, List.map_map]
          exact List.map_congr_left fun p _ => hf p
        simp only [block, Modifier.noNan, Option.map_some, Unc.length, List.length_map, h1 Prod.fst fun _ => rfl,
          h1 Prod.snd fun _ => rfl, hz]
        rfl
      | other n => rfl
  have hb : ∀ (ms : List Modifier) (k idx : ℕ), build signal k idx (ms.map Modifier.noNan) = build signal k idx ms := by
    intro ms
    induction ms with
    | nil => intro k idx; rfl
    | cons m ms ih => intro k idx; simp only [List.map_cons, build, hblock, ih]
  unfold synth
  rw [hb]

/-- One bin of two has no usable uncertainty; it is not changed. -/
example : ∃ c, synth [10, 20] [⟨some "normalization", some (.sym [fin 1, nan]), none⟩] 0 none = .ok c ∧
    c.lambda [1, 0, 0, 1] = .ok [fin (11 / 10), fin 1] := by
  have h := C48_nan [10, 20] [⟨some "normalization", some (.sym [fin 1, nan]), none⟩] 0 none
  rw [← h]
  have hd : DescribesAll [10, 20].length [⟨false, fun i => 1 - i, fun i => 1 - i⟩]
      [⟨some "normalization", some (.sym [fin 1, fin 0]), none⟩] :=
    ⟨.sym rfl (by simp [List.range_succ]) (fun _ _ => rfl), trivial⟩
  obtain ⟨c, hc, hl⟩ := C48_product [10, 20] _ _ 0 none hd
  have hn := synth_widths (signal := [10, 20]) hd hc
  refine ⟨c, hc, ?_⟩
  rw [hl _ (by rw [hn]; simp [widths, Source.width])]
  simp [product, factor, List.range_succ]
  norm_num

/-- C48 fails for infinite variations, which `_validate_delta` says it replaces: an infinite uncertainty is kept, and the factor
is nan even when the nuisance parameter vanishes. -/
theorem C48_infinite_fails :
    ∃ c, synth [10] [⟨some "normalization", some (.sym [pinf]), none⟩] 0 none = .ok c ∧
      c.lambda [1, 0, 0] = .ok [nan] := by
  refine ⟨_, rfl, ?_⟩
  simp [factors, sumLams, lam, lamNorm, get, logVar, delta, validate, log, div, add, mul, F.exp, infOf]

end Verif.Synth
