import Verif.Backend.Lemmas
import Mathlib.Tactic

/-!
# Properties C50-C54, C59, C70, C77 and C78: the default backends
-/

namespace Verif.Backend
open Verif.Py F

/-! ## C51: layout of the parameters -/

/-- C51. For each of the seven models there are as many initial values, bounds and names (if there are names) as parameters, and
the POI is the first; this also holds for the configuration that `config` returns for other arguments. -/
theorem C51_sizes (a : Args) (m : Model) (h : Built a m) (hf : Fits a) :
    m.config.poiIndex = 0 ∧ 1 ≤ m.config.npar ∧ m.config.bounds.length = m.config.npar ∧
      (∀ l, m.config.names = some l → l.length = m.config.npar) ∧
      ∀ neg u, (configOf m neg u).npar = m.config.npar ∧ (configOf m neg u).bounds.length = m.config.npar ∧
        (configOf m neg u).names = m.config.names ∧ (configOf m neg u).poiIndex = 0 ∧
        (configOf m neg u).bounds.drop 1 = m.config.bounds.drop 1 := by
  obtain ⟨_, _, _, h1, h2, h3, h4, _⟩ := h.facts hf
  refine ⟨h1, h4, h2, h3, fun neg u => ?_⟩
  unfold configOf
  split
  · exact ⟨rfl, h2, rfl, h1, rfl⟩
  · refine ⟨rfl, ?_, rfl, h1, rfl⟩
    simp only [List.length_cons, List.length_drop]
    omega

/-- C51. The four simplified models: the POI, the signal parameters, and the positions that the constraint terms read, listed in
this order, are all positions of the parameter vector, each once. The background has the positions right after those of the signal
parameters, one per bin; there is one parameter for each normalisation and one per bin for each shape modifier. -/
theorem C51_partition (a : Args) (m : Model) (bin : ℕ → ℝ → ℝ) (h : Simplified a m bin) (hf : Fits a) (ss : List Synth.Source)
    (hs : Sources a ss) :
    m.config.npar = 1 + a.nsp + a.data.length + sourceCount a.data.length ss ∧
    ∃ p u, m.constraint = some (p :: u) ∧ p.positions = List.range' (1 + a.nsp) a.data.length ∧
      u.flatMap Pdf.positions = List.range' (1 + a.nsp + a.data.length) (sourceCount a.data.length ss) ∧
      [0] ++ List.range' 1 a.nsp ++ (p :: u).flatMap Pdf.positions = List.range m.config.npar := by
  obtain ⟨n, g, pdf, hm, hn, hpos, _⟩ := h.shape hf
  obtain ⟨unc, c, hu, hc, _, _, h1, h2, _⟩ := simplified_ok hm
  have hsz := baseConfig_sizes hu hc
  have hk : uncCount unc = sourceCount a.data.length ss := by
    rcases hs with ⟨hmod, rfl⟩ | ⟨ms, y, hmod, hsig, hd⟩
    · rcases signalUncertainty_cases hu with ⟨_, rfl⟩ | ⟨ms, y, c, hm', _⟩
      · rfl
      · rw [hmod] at hm'; simp at hm'
    · rcases signalUncertainty_cases hu with ⟨hm', rfl⟩ | ⟨ms', y', c, hm', hy', hc, rfl⟩
      · rw [hmod] at hm'; simp at hm'
      · rw [hmod] at hm'
        rw [hsig] at hy'
        simp only [Option.some.injEq, Signal.array.injEq] at hm' hy'
        subst hm' hy'
        have hy : y.length = a.data.length := by have := hf.2; rw [hsig] at this; exact this
        have := Synth.synth_widths hd hc
        simp only [uncCount, Option.map_some, Option.getD_some, this, hy]
        rfl
  have hup := uncPdfs_positions hf hu
  refine ⟨by rw [h2, hsz.npar, hk], pdf, uncPdfs unc, h1, hpos, by rw [hup, hk], ?_⟩
  rw [List.flatMap_cons, hpos, hup, h2, hsz.npar, List.range_eq_range']
  have e : [0] ++ List.range' 1 a.nsp = List.range' 0 (1 + a.nsp) := by
    rw [_root_.add_comm, List.range'_succ]; rfl
  have r := @List.range'_append
  have r1 : ∀ s m n : ℕ, List.range' s m ++ List.range' (s + m) n = List.range' s (m + n) := by
    intro s m n
    have := @List.range'_append s m n 1
    simpa using this
  rw [e, ← List.append_assoc]
  have r2 := r1 0 (1 + a.nsp) a.data.length
  have r3 := r1 0 (1 + a.nsp + a.data.length) (uncCount unc)
  rw [Nat.zero_add] at r2 r3
  rw [r2, r3]

/-- C51. Each position is read for its purpose. In the four simplified models the rate of bin `i` is
`mu * signal_i * factor_i + background_i(theta_i)`: the POI from position 0, the signal parameters from the positions 1 to
`nsp`, `theta_i` from position `1 + nsp + i`, and the parameters of the signal uncertainties from the positions after those. -/
theorem C51_rate (a : Args) (m : Model) (bin : ℕ → ℝ → ℝ) (h : Simplified a m bin) (hf : Fits a) (ss : List Synth.Source)
    (hs : Sources a ss) (pars : Vec) (hp : pars.length = m.config.npar) :
    m.main.rate pars = .ok ((List.range a.data.length).map fun i =>
      at' pars 0 * signalAt a pars i * factorAt a ss pars i + bin i (at' pars (1 + a.nsp + i))) :=
  rate_eq h hf hs pars hp

/-- C51. The models without constraint terms: the POI and the signal parameters (or, for the Poisson model with uncertainties, one
nuisance parameter per bin) are all parameters, and the rate is `mu * signal_i + background_i` (plus `theta_i * sigma_i`). -/
theorem C51_simple_rate (a : Args) (hf : Fits a) :
    (∀ sigma m, gaussian a sigma = .ok m → m.config.npar = 1 + a.nsp ∧ m.constraint = none ∧
      ∀ pars : Vec, pars.length = m.config.npar →
        m.main.rate pars = .ok ((List.range a.data.length).map fun i => at' pars 0 * signalAt a pars i + at' a.background i)) ∧
    (∀ cov m, multivariate a cov = .ok m → m.config.npar = 1 + a.nsp ∧ m.constraint = none ∧
      ∀ pars : Vec, pars.length = m.config.npar →
        m.main.rate pars = .ok ((List.range a.data.length).map fun i => at' pars 0 * signalAt a pars i + at' a.background i)) ∧
    (∀ y m, a.signal = .array y → poisson y a.background a.data none = .ok m → m.config.npar = 1 ∧ m.constraint = none ∧
      ∀ pars : Vec, pars.length = m.config.npar →
        m.main.rate pars = .ok ((List.range a.data.length).map fun i => at' pars 0 * at' y i + at' a.background i)) ∧
    (∀ y s m, a.signal = .array y → poisson y a.background a.data (some s) = .ok m → m.config.npar = 1 + a.data.length ∧
      m.constraint = none ∧ ∀ pars : Vec, pars.length = m.config.npar →
        m.main.rate pars = .ok ((List.range a.data.length).map fun i =>
          at' pars 0 * at' y i + at' a.background i + at' pars (1 + i) * at' s i)) := by
  have hr : ∀ (b : Args), Fits b → ∀ pars : Vec, 1 ≤ pars.length → (pars.length = 1 + b.nsp ∨ ∃ y, b.signal = .array y) →
      simpleRate b pars = .ok ((List.range b.data.length).map fun i => at' pars 0 * signalAt b pars i + at' b.background i) := by
    intro b hb pars h1 h2
    have hb2 := hb.2
    unfold simpleRate
    rw [item_ok _ _ (by omega), ok_bind, vec_eq b.background hb.1]
    cases hsig : b.signal with
    | function f =>
      rw [hsig] at hb2
      simp only at hb2 ⊢
      have hl : pars.length = 1 + b.nsp := by
        rcases h2 with h2 | ⟨y, h2⟩
        · exact h2
        · rw [hsig] at h2; simp at h2
      have hd : pars.drop 1 = slice pars 1 b.nsp := by
        unfold slice
        rw [List.take_of_length_le (by simp; omega)]
      rw [hd, slice_eq _ _ _ (by omega), vec_eq (f _) (hb2 _), List.map_map, bcast_map]
      congr 1
      apply List.map_congr_left
      intro i hi
      rw [at'_map _ (List.mem_range.mp hi)]
      simp [signalAt, hsig]
    | array y =>
      rw [hsig] at hb2
      simp only at hb2 ⊢
      rw [vec_eq y hb2, List.map_map, bcast_map]
      congr 1
      apply List.map_congr_left
      intro i hi
      rw [at'_map _ (List.mem_range.mp hi)]
      simp [signalAt, hsig]
  refine ⟨fun sigma m hm => ?_, fun cov m hm => ?_, fun y m hy hm => ?_, fun y s m hy hm => ?_⟩
  · obtain ⟨c, hc, rfl⟩ := gaussian_ok hm
    obtain ⟨_, _, q3, _⟩ := simpleConfig_ok hc
    refine ⟨q3, rfl, fun pars hp => ?_⟩
    simp only [q3] at hp
    exact hr a hf pars (by omega) (.inl hp)
  · obtain ⟨c, hc, _, rfl⟩ := multivariate_ok hm
    obtain ⟨_, _, q3, _⟩ := simpleConfig_ok hc
    refine ⟨q3, rfl, fun pars hp => ?_⟩
    simp only [q3] at hp
    exact hr a hf pars (by omega) (.inl hp)
  · obtain ⟨c, hc, _, _, h1, h2⟩ := poisson_ok hm
    obtain ⟨_, _, q3, _⟩ := simpleConfig_ok hc
    rcases h2 with ⟨_, h2, rfl, _⟩ | ⟨s, hs, _⟩
    · refine ⟨q3, h1, fun pars hp => ?_⟩
      simp only [q3] at hp
      rw [h2]
      have hl : y.length = a.data.length := by have := hf.2; rw [hy] at this; exact this
      exact hr ⟨.array y, a.background, a.data, none, 0, none⟩ ⟨hf.1, hl⟩ pars (by omega) (.inr ⟨y, rfl⟩)
    · simp at hs
  · obtain ⟨c, hc, _, _, h1, h2⟩ := poisson_ok hm
    rcases h2 with ⟨hs, _⟩ | ⟨s', hs, hsl, h2, h3, _⟩
    · simp at hs
    · simp only [Option.some.injEq] at hs
      subst hs
      refine ⟨by rw [h3]; simp [Config.ModelConfig.npar]; omega, h1, fun pars hp => ?_⟩
      rw [h3] at hp
      have hp : pars.length = a.data.length + 1 := by simpa [Config.ModelConfig.npar] using hp
      rw [h2]
      have hl : y.length = a.data.length := by have := hf.2; rw [hy] at this; exact this
      simp only [Main.rate]
      rw [hr ⟨.array y, a.background, a.data, none, 0, none⟩ ⟨hf.1, hl⟩ pars (by omega) (.inr ⟨y, rfl⟩), ok_bind,
        slice_eq _ _ _ (by omega), vec_eq s hsl, bcast_map, ok_bind, bcast_map]
      congr 1
      apply List.map_congr_left
      intro i hi
      rw [at'_map _ (List.mem_range.mp hi)]
      rfl

/-! A model with two bins, one signal parameter, a normalisation and a shape uncertainty. -/

/-- Two bins, signal given as a list, one normalisation and one shape uncertainty. -/
noncomputable def exArgs : Args :=
  ⟨.array [10, 20], [50, 60], [51, 58], some [Synth.exNorm none, Synth.exShape (some "jes")], 0, none⟩

theorem exArgs_fits : Fits exArgs := ⟨rfl, rfl⟩

theorem exArgs_sources : Sources exArgs Synth.exSources := by
  refine .inr ⟨_, _, rfl, rfl, .sym rfl ?_ fun _ _ => rfl, .asym rfl ?_, trivial⟩
  · simp [Synth.exNorm, List.range_succ]; norm_num
  · simp [Synth.exShape, List.range_succ]; norm_num

theorem exArgs_alive : isAlive exArgs.signal = true := (isAlive_array _).mpr ⟨0, by simp, by simp [at']⟩

theorem simplified_accepts (a : Args) (hf : Fits a) (ss : List Synth.Source) (hs : Sources a ss) (hb : a.bounds = none) (n : ℕ)
    (g : Vec → Except Err Vec) (pdf : Pdf) : ∃ m, simplified a n g pdf = .ok m := by
  have h1 : ∃ u, signalUncertainty a = .ok u := by
    rcases hs with ⟨hm, _⟩ | ⟨ms, y, hm, hy, hd⟩
    · exact ⟨none, by simp [signalUncertainty, hm]⟩
    · obtain ⟨c, hc, _⟩ := Synth.C48_product y ms ss a.nsp none hd
      exact ⟨some c, by simp [signalUncertainty, hm, hy, hc]⟩
  have h2 : ∃ p, minimumPoi a.signal a.background = .ok p := by
    have := hf.2
    cases hsig : a.signal with
    | function f => exact ⟨_, rfl⟩
    | array y =>
      rw [hsig] at this
      simp only at this
      unfold minimumPoi
      simp only
      split
      · rw [if_neg (by rw [this, hf.1]; simp)]
        exact ⟨_, rfl⟩
      · exact ⟨_, rfl⟩
  obtain ⟨u, hu⟩ := h1
  obtain ⟨p, hp⟩ := h2
  unfold simplified baseConfig
  rw [hu, ok_bind, hp, ok_bind, hb]
  exact ⟨_, rfl⟩

theorem simplified_plain (a : Args) (hm : a.modifiers = none) {p : F} (hp : minimumPoi a.signal a.background = .ok p) (hb : a.bounds = none)
    (n : ℕ) (g : Vec → Except Err Vec) (pdf : Pdf) :
    ∃ m, simplified a n g pdf = .ok m ∧ m.data = a.data ∧ m.background = a.background ∧
      m.config.npar = 1 + a.nsp + a.data.length ∧ m.constraint = some [pdf] ∧
      m.main = .poisson (fun pars => do
        let b ← backgroundPart a n g pars
        let s ← signalPart a none pars
        bcast (fun x y => x + y) b s) := by
  have hu : signalUncertainty a = .ok none := by simp [signalUncertainty, hm]
  have h : ∃ m, simplified a n g pdf = .ok m := by
    unfold simplified baseConfig
    rw [hu, ok_bind, hp, ok_bind, hb]
    exact ⟨_, rfl⟩
  obtain ⟨m, h⟩ := h
  obtain ⟨unc, c, hu', hc, h1, h2, h3, h4, _, h5⟩ := simplified_ok h
  rw [hu] at hu'
  cases hu'
  exact ⟨m, h, h1, h2, by rw [h4, (baseConfig_sizes hu hc).npar]; rfl, h3, h5⟩

theorem exBuilt : ∃ m, uncorrelated exArgs [3, 4] = .ok m :=
  simplified_accepts _ exArgs_fits _ exArgs_sources rfl _ _ _

/-- The example satisfies the hypotheses; it has 6 parameters. -/
example : ∃ m bin, Simplified exArgs m bin ∧ m.config.npar = 6 := by
  obtain ⟨m, hm⟩ := exBuilt
  have h : Simplified exArgs m _ := .uncorrelated [3, 4] hm rfl
  exact ⟨m, _, h, by rw [(C51_partition _ _ _ h exArgs_fits _ exArgs_sources).1]; rfl⟩

/-- Its rate in the second bin, with the POI at 2, `theta = (1, -1)` and the signal uncertainties at zero. -/
example : ∃ m, uncorrelated exArgs [3, 4] = .ok m ∧ m.main.rate [2, 1, -1, 0, 0, 0] = .ok [73, 96] := by
  obtain ⟨m, hm⟩ := exBuilt
  have h : Simplified exArgs m _ := .uncorrelated [3, 4] hm rfl
  have hn := (C51_partition _ _ _ h exArgs_fits _ exArgs_sources).1
  refine ⟨m, hm, ?_⟩
  rw [C51_rate _ _ _ h exArgs_fits _ exArgs_sources _ (by rw [hn]; rfl)]
  simp [exArgs, signalAt, factorAt, at', Synth.product, Synth.factor, Synth.exSources, Synth.Source.width, List.range_succ]
  norm_num

/-- C51. Bounds and names have the order of the parameters. In the four simplified models the bounds at the positions of the signal
parameters are those that were given (free if none were given), and all nuisance parameters are free; the names, if there are any,
are `mu`, `signal_par_i`, `theta_bkg_i` at the positions of the POI, of the signal parameters and of the bins; all initial values
are 1. -/
theorem C51_bounds_names (a : Args) (m : Model) (bin : ℕ → ℝ → ℝ) (h : Simplified a m bin) (hf : Fits a) :
    (∀ v ∈ m.config.init, v = 1) ∧
    (∀ i < a.nsp, m.config.bounds[1 + i]? =
      some (match a.bounds with
        | none => (none, none)
        | some l => ((l[i]?).bind id).getD (none, none))) ∧
    (∀ i, 1 + a.nsp ≤ i → i < m.config.npar → m.config.bounds[i]? = some (none, none)) ∧
    (∀ l, m.config.names = some l → l[0]? = some "mu" ∧ (∀ i < a.nsp, l[1 + i]? = some s!"signal_par_{i}") ∧
      ∀ i < a.data.length, l[1 + a.nsp + i]? = some s!"theta_bkg_{i}") := by
  obtain ⟨n, g, pdf, hm, hn, hpos, _⟩ := h.shape hf
  obtain ⟨unc, c, hu, hc, _, _, h1, h2, _⟩ := simplified_ok hm
  have hsz := baseConfig_sizes hu hc
  rw [h2]
  rw [hsz.npar]
  clear hsz hm h1 h2
  unfold baseConfig at hc
  obtain ⟨mp, _, hc⟩ := bind_ok.mp hc
  obtain ⟨b, hb, hc⟩ := bind_ok.mp hc
  have hbl := sigBounds_length hb
  cases hc
  refine ⟨by simp, ?_, ?_, ?_⟩
  · intro i hi
    simp only [List.append_assoc, List.cons_append, List.nil_append]
    rw [Nat.add_comm, List.getElem?_cons_succ, List.getElem?_append_left (by omega)]
    cases ho : a.bounds with
    | none =>
      rw [ho] at hb
      simp only [sigBounds, Except.ok.injEq] at hb
      subst hb
      simp [hi]
    | some l =>
      rw [ho] at hb
      simp only [sigBounds] at hb
      split at hb
      · simp at hb
      · rename_i hl
        simp only [Except.ok.injEq] at hb
        subst hb
        have : i < l.length := by omega
        simp [this]
  · intro i h1 h2
    simp only [List.append_assoc, List.cons_append, List.nil_append]
    obtain ⟨j, rfl⟩ : ∃ j, i = j + 1 := ⟨i - 1, by omega⟩
    rw [List.getElem?_cons_succ, List.getElem?_append_right (by omega), List.replicate_append_replicate, List.getElem?_replicate,
      if_pos (by omega)]
  · intro l hl
    simp only at hl
    split at hl
    · simp only [Option.some.injEq] at hl
      subst hl
      refine ⟨by simp, fun i hi => ?_, fun i hi => ?_⟩
      · simp only [List.append_assoc, List.cons_append, List.nil_append]
        rw [Nat.add_comm, List.getElem?_cons_succ, List.getElem?_append_left (by simpa using hi)]
        simp [hi]
      · simp only [List.append_assoc, List.cons_append, List.nil_append]
        rw [show 1 + a.nsp + i = (a.nsp + i) + 1 by omega, List.getElem?_cons_succ, List.getElem?_append_right (by simp),
          List.getElem?_append_left (by simpa using hi)]
        simp [hi]
    · simp at hl

/-- The example of two bins and two modifiers has names. -/
example : ∃ m, uncorrelated exArgs [3, 4] = .ok m ∧ ∃ l, m.config.names = some l ∧ l[2]? = some "theta_bkg_1" := by
  obtain ⟨m, hm⟩ := exBuilt
  have h : Simplified exArgs m _ := .uncorrelated [3, 4] hm rfl
  have hb := (C51_bounds_names _ _ _ h exArgs_fits).2.2.2
  have hn := (C51_partition _ _ _ h exArgs_fits _ exArgs_sources).1
  obtain ⟨unc, c, hu, hc, _, _, _, h2, _⟩ := simplified_ok hm
  have hsz := (baseConfig_sizes hu hc).npar
  have hk : 0 < uncCount unc := by
    rw [h2, hsz] at hn
    have : sourceCount exArgs.data.length Synth.exSources = 3 := rfl
    omega
  unfold baseConfig at hc
  obtain ⟨mp, _, hc⟩ := bind_ok.mp hc
  obtain ⟨b, _, hc⟩ := bind_ok.mp hc
  cases hc
  have hnm : ∃ l, m.config.names = some l := by rw [h2]; exact ⟨_, if_pos (.inr hk)⟩
  obtain ⟨l, hl⟩ := hnm
  refine ⟨m, hm, l, hl, ?_⟩
  exact (hb l hl).2.2 1 (by simp [exArgs])

/-! ## C87: the bounds of the POI follow the request -/

/-- C87, where it holds. The upper bound of the POI is the requested one; the lower bound is 0 if negative signals are not allowed,
and `minimum_poi` if they are and the default upper bound is asked for. Missing: negative signals with another upper bound, where
this fails. -/
theorem C87_poi_bounds_partial (a : Args) (m : Model) (h : Built a m) (hf : Fits a) (u : ℝ) :
    (configOf m false u).bounds[0]? = some (some (fin 0), some (fin u)) ∧
    (configOf m true u).bounds[0]?.map Prod.snd = some (some (fin u)) ∧
    (configOf m true 10).bounds[0]? = some (some m.config.minimumPoi, some (fin 10)) := by
  obtain ⟨_, _, _, _, _, _, _, h0⟩ := h.facts hf
  refine ⟨by simp [configOf], ?_, by simpa [configOf] using h0⟩
  unfold configOf
  split
  · rename_i hu
    rw [h0, hu.2]; rfl
  · rfl

/-- C87 fails: with an upper bound other than 10 the POI may not be negative although negative signals are allowed. -/
theorem C87_negative_fails :
    ∃ m, gaussian ⟨.array [1, 1], [5, 7], [6, 6], none, 0, none⟩ [2, 2] = .ok m ∧ m.config.minimumPoi = fin (-5) ∧
      (configOf m true 10).bounds = [(some (fin (-5)), some (fin 10))] ∧
      (configOf m true 20).bounds = [(some (fin 0), some (fin 20))] := by
  have hal : isAlive (.array [1, 1]) = true := (isAlive_array _).mpr ⟨0, by simp, by simp [at']⟩
  have hmin : minimumPoi (.array [1, 1]) [5, 7] = .ok (fin (-5)) := by
    simp [minimumPoi, hal, minimum]
    norm_num
  unfold gaussian simpleConfig
  simp only [hmin, ok_bind, sigBounds]
  refine ⟨_, rfl, rfl, ?_, ?_⟩
  · simp [configOf]
  · simp [configOf]

/-- C51 fails when the sizes do not fit: nothing compares the number of observations with the number of bins. Two bins with one
observation are accepted; there is one nuisance parameter for two uncertainties, the same value is used for both bins, and the
second bin is compared with the first observation. -/
theorem C51_mismatch_fails :
    ∃ m, uncorrelated ⟨.array [1, 1], [5, 7], [6], none, 0, none⟩ [2, 3] = .ok m ∧ m.config.npar = 2 ∧
      m.main.rate [0, 1] = .ok [7, 10] ∧
      ∀ E, (logpdf E m .observed none [0, 1]) = .ok (poissonLog E.gammaln 6 7 + poissonLog E.gammaln 6 10 + (stdLog 1 + stdLog 1)) := by
  have hmin : minimumPoi (.array [1, 1]) [5, 7] = .ok (fin (-5)) := by
    have : isAlive (.array [1, 1]) = true := (isAlive_array _).mpr ⟨0, by simp, by simp [at']⟩
    simp [minimumPoi, this, minimum]
    norm_num
  obtain ⟨m, hm, h1, _, h2, h3, h4⟩ := simplified_plain ⟨.array [1, 1], [5, 7], [6], none, 0, none⟩ rfl hmin rfl 2
    (linear [5, 7] [2, 3]) (.normal (List.replicate 1 0) (List.replicate 2 1) (.slice 1 2))
  have hr : m.main.rate [0, 1] = .ok [7, 10] := by
    rw [h4]
    simp [Main.rate, backgroundPart, slice, linear, bcast, signalPart, item, uncFactor, evaluator, ok_bind]
    norm_num
  refine ⟨m, hm, h2, hr, fun E => ?_⟩
  unfold logpdf
  rw [h3]
  rw [h4] at hr ⊢
  simp only [Main.rate] at hr
  simp only [Main.logProb, hr, ok_bind, chosen, h1]
  simp [slice, bcast, ok_bind, constraintLogProb, Pdf.logProb, Domain.get, normalLogProb, pure_ok, clip, logPoisson, poissonLog,
    logNormal, stdLog]
  norm_num

/-! ## C50: the effective standard deviation -/

/-- The width `w` of `Width` at the points where it is known. -/
theorem width_points {up dn b : ℝ} {w : ℝ → ℝ} (hw : ∀ t, Width up dn b t (w t)) (hu : 0 ≤ up) (hd : 0 ≤ dn) :
    (∀ t, 0 < w t) ∧ (1 / 10 ^ 10 ≤ up * dn → w b ^ 2 = up * dn) ∧ (1 / 10 ^ 5 ≤ up → w (b + up) = up) ∧
      (1 / 10 ^ 5 ≤ dn → w (b - dn) = dn) ∧ (up = dn → 1 / 10 ^ 5 ≤ up → ∀ t, w t = up) := by
  have sq : ∀ x : ℝ, 1 / 10 ^ 5 ≤ x → 1 / 10 ^ 10 ≤ x * x := by
    intro x hx
    have := mul_le_mul hx hx (by norm_num) (le_trans (by norm_num) hx)
    refine le_trans ?_ this
    norm_num
  refine ⟨fun t => (hw t).1, fun h => ?_, fun h => ?_, fun h => ?_, fun h1 h t => ?_⟩
  · have := (hw b).2.1 (by simpa using h)
    simpa using this
  · have e : up * dn + (up - dn) * (b + up - b) = up * up := by ring
    have := (hw (b + up)).2.1 (by rw [e]; exact sq _ h)
    rw [e, ← pow_two] at this
    exact (pow_left_inj₀ (hw _).1.le hu two_ne_zero).mp this
  · have e : up * dn + (up - dn) * (b - dn - b) = dn * dn := by ring
    have := (hw (b - dn)).2.1 (by rw [e]; exact sq _ h)
    rw [e, ← pow_two] at this
    exact (pow_left_inj₀ (hw _).1.le hd two_ne_zero).mp this
  · subst h1
    have e : up * up + (up - up) * (t - b) = up * up := by ring
    have := (hw t).2.1 (by rw [e]; exact sq _ h)
    rw [e, ← pow_two] at this
    exact (pow_left_inj₀ (hw _).1.le hu two_ne_zero).mp this

/-- C50. The model with effective standard deviations: the background of bin `i` is `b_i + w * theta_i` with a width `w` that depends
on `theta_i`, is positive, is the geometric mean of both uncertainties where `theta_i` equals the background, equals the upper
uncertainty where `theta_i` is the background plus that uncertainty, equals the lower one where `theta_i` is the background minus
that, and is constant when both are equal. (Widths below `1e-5` are replaced by this number, whence the conditions.) -/
theorem C50_width (a : Args) (corr : List Vec) (env : List (ℝ × ℝ)) (m : Model) (h : effectiveSigma a corr env = .ok m) (hf : Fits a)
    (ss : List Synth.Source) (hs : Sources a ss) :
    ∃ w : ℕ → ℝ → ℝ,
      (∀ pars : Vec, pars.length = m.config.npar →
        m.main.rate pars = .ok ((List.range a.data.length).map fun i => at' pars 0 * signalAt a pars i * factorAt a ss pars i +
          (at' a.background i + w i (at' pars (1 + a.nsp + i)) * at' pars (1 + a.nsp + i)))) ∧
      ∀ i < a.data.length, ∀ up dn b : ℝ, up = |(env.getD i (0, 0)).1| → dn = |(env.getD i (0, 0)).2| → b = at' a.background i →
        (∀ t, 0 < w i t) ∧ (1 / 10 ^ 10 ≤ up * dn → w i b ^ 2 = up * dn) ∧ (1 / 10 ^ 5 ≤ up → w i (b + up) = up) ∧
          (1 / 10 ^ 5 ≤ dn → w i (b - dn) = dn) ∧ (up = dn → 1 / 10 ^ 5 ≤ up → ∀ t, w i t = up) := by
  have hS : Simplified a m _ := .effectiveSigma corr env h _ fun i t => effSigma_width _ _ _ _
  refine ⟨_, fun pars hp => rate_eq hS hf hs pars hp, ?_⟩
  rintro i hi up dn b rfl rfl rfl
  exact width_points (fun t => effSigma_width _ _ _ _) (abs_nonneg _) (abs_nonneg _)

/-- C50. If both uncertainties of each bin are equal (and not below the cut-off), the rates are those of the model with
uncorrelated backgrounds and these uncertainties. -/
theorem C50_symmetric (a : Args) (corr : List Vec) (sigma : Vec) (m : Model)
    (h : effectiveSigma a corr (sigma.map fun s => (s, s)) = .ok m) (hf : Fits a) (ss : List Synth.Source) (hs : Sources a ss)
    (hpos : ∀ s ∈ sigma, 1 / 10 ^ 5 ≤ s) :
    ∃ m', uncorrelated a sigma = .ok m' ∧ m'.config = m.config ∧
      ∀ pars : Vec, pars.length = m.config.npar → m.main.rate pars = m'.main.rate pars := by
  have hS : Simplified a m _ := .effectiveSigma corr _ h _ fun i t => effSigma_width _ _ _ _
  have hl : sigma.length = a.data.length := by
    unfold Backend.effectiveSigma at h
    split at h
    · simp at h
    · rename_i hl
      rw [List.length_map] at hl
      rw [not_not.mp hl, hf.1]
  obtain ⟨n, g, pdf, hm, -⟩ := hS.shape hf
  obtain ⟨unc, c, hu, hc, _, _, _, hcfg, _⟩ := simplified_ok hm
  have hex : ∃ m', uncorrelated a sigma = .ok m' := by
    unfold uncorrelated simplified
    rw [hu, ok_bind, hc]
    exact ⟨_, rfl⟩
  obtain ⟨m', hm'⟩ := hex
  have hS' : Simplified a m' _ := .uncorrelated sigma hm' hl
  obtain ⟨unc', c', hu', hc', _, _, _, hcfg', _⟩ := simplified_ok hm'
  rw [hu] at hu'
  cases hu'
  rw [hc] at hc'
  cases hc'
  have hcc : m'.config = m.config := by rw [hcfg, hcfg']
  refine ⟨m', hm', hcc, fun pars hp => ?_⟩
  rw [rate_eq hS hf hs pars hp, rate_eq hS' hf hs pars (by rw [hcc]; exact hp)]
  congr 1
  apply List.map_congr_left
  intro i hi
  have hi' : i < sigma.length := by rw [hl]; exact List.mem_range.mp hi
  have hsi := hpos (sigma[i]) (List.getElem_mem hi')
  have hs0 : 0 ≤ sigma[i] := le_trans (by norm_num) hsi
  have hg : (sigma.map fun s => (s, s)).getD i (0, 0) = (sigma[i], sigma[i]) := by simp [hi']
  have := (width_points (fun t => effSigma_width |sigma[i]| |sigma[i]| (at' a.background i) t) (abs_nonneg _) (abs_nonneg _)).2.2.2.2 rfl
    (by rw [abs_of_nonneg hs0]; exact hsi) (at' pars (1 + a.nsp + i))
  rw [hg]
  simp only [this]
  rw [abs_of_nonneg hs0]
  simp [at', hi']

theorem effective_accepts (a : Args) (hf : Fits a) (ss : List Synth.Source) (hs : Sources a ss) (hb : a.bounds = none) (corr : List Vec)
    (env : List (ℝ × ℝ)) (h1 : corr.length = a.data.length) (h2 : env.length = a.data.length) :
    ∃ m, effectiveSigma a corr env = .ok m := by
  unfold effectiveSigma
  rw [if_neg (by rw [h2, hf.1]; simp), if_neg (by rw [h1, hf.1]; simp)]
  exact simplified_accepts a hf ss hs hb _ _ _

/-- Both theorems apply to the example above with uncertainties 3 and 4. -/
example : ∃ m, effectiveSigma exArgs [[1, 0], [0, 1]] ([3, 4].map fun s => (s, s)) = .ok m ∧ ∀ s ∈ ([3, 4] : Vec), 1 / 10 ^ 5 ≤ s := by
  obtain ⟨m, hm⟩ := effective_accepts exArgs exArgs_fits _ exArgs_sources rfl [[1, 0], [0, 1]] ([3, 4].map fun s => (s, s)) rfl rfl
  refine ⟨m, hm, ?_⟩
  simp
  norm_num

/-- C50, limit of the claim: uncertainties below the cut-off are not the width; the width is then `1e-5`. -/
theorem C50_small_fails (a : Args) (corr : List Vec) (env : List (ℝ × ℝ)) (m : Model) (h : effectiveSigma a corr env = .ok m)
    (hf : Fits a) (ss : List Synth.Source) (hs : Sources a ss) (hz : ∀ e ∈ env, |e.1| < 1 / 10 ^ 5 ∧ |e.2| = |e.1|)
    (pars : Vec) (hp : pars.length = m.config.npar) :
    m.main.rate pars = .ok ((List.range a.data.length).map fun i => at' pars 0 * signalAt a pars i * factorAt a ss pars i +
      (at' a.background i + 1 / 10 ^ 5 * at' pars (1 + a.nsp + i))) := by
  have hS : Simplified a m _ := .effectiveSigma corr env h _ fun i t => effSigma_width _ _ _ _
  rw [rate_eq hS hf hs pars hp]
  congr 1
  apply List.map_congr_left
  intro i _
  have hl : |(env.getD i (0, 0)).1| < 1 / 10 ^ 5 ∧ |(env.getD i (0, 0)).2| = |(env.getD i (0, 0)).1| := by
    rcases lt_or_ge i env.length with hi | hi
    · have := hz env[i] (List.getElem_mem hi)
      simpa [hi] using this
    · simp [hi]
  have hw := (effSigma_width |(env.getD i (0, 0)).1| |(env.getD i (0, 0)).2| (at' a.background i) (at' pars (1 + a.nsp + i))).2.2 (by
    rw [hl.2]
    have h1 := hl.1
    have h0 := abs_nonneg (env.getD i (0, 0)).1
    have := mul_lt_mul'' h1 h1 h0 h0
    norm_num at this ⊢
    linarith)
  simp only [hw]

example : ∃ m, effectiveSigma ⟨.array [1], [50], [51], none, 0, none⟩ [[1]] [(0, 0)] = .ok m ∧
    ∀ e ∈ [((0 : ℝ), (0 : ℝ))], |e.1| < 1 / 10 ^ 5 ∧ |e.2| = |e.1| := by
  obtain ⟨m, hm⟩ := effective_accepts ⟨.array [1], [50], [51], none, 0, none⟩ ⟨rfl, rfl⟩ [] (.inl ⟨rfl, rfl⟩) rfl [[1]] [(0, 0)] rfl rfl
  exact ⟨m, hm, by simp⟩

/-- C50, the width is not centred where the nuisance parameter is. The nuisance parameters have mean zero and variance one, but the
background is subtracted from them. Whenever the upper uncertainty is the larger one and the background exceeds `theta` by
`up * dn / (up - dn)` or more, the width is the cut-off `1e-5`, whatever the uncertainties are. -/
theorem C50_vanishes (a : Args) (corr : List Vec) (env : List (ℝ × ℝ)) (m : Model) (h : effectiveSigma a corr env = .ok m)
    (hf : Fits a) (ss : List Synth.Source) (hs : Sources a ss) (pars : Vec) (hp : pars.length = m.config.npar)
    (hbig : ∀ i < a.data.length, |(env.getD i (0, 0)).2| < |(env.getD i (0, 0)).1| ∧
      at' pars (1 + a.nsp + i) + |(env.getD i (0, 0)).1| * |(env.getD i (0, 0)).2| /
        (|(env.getD i (0, 0)).1| - |(env.getD i (0, 0)).2|) ≤ at' a.background i) :
    m.main.rate pars = .ok ((List.range a.data.length).map fun i => at' pars 0 * signalAt a pars i * factorAt a ss pars i +
      (at' a.background i + 1 / 10 ^ 5 * at' pars (1 + a.nsp + i))) := by
  have hS : Simplified a m _ := .effectiveSigma corr env h _ fun i t => effSigma_width _ _ _ _
  rw [rate_eq hS hf hs pars hp]
  congr 1
  apply List.map_congr_left
  intro i hi
  obtain ⟨h1, h2⟩ := hbig i (List.mem_range.mp hi)
  have hw := (effSigma_width |(env.getD i (0, 0)).1| |(env.getD i (0, 0)).2| (at' a.background i) (at' pars (1 + a.nsp + i))).2.2 (by
    generalize |(env.getD i (0, 0)).1| = u at *
    generalize |(env.getD i (0, 0)).2| = d at *
    generalize at' pars (1 + a.nsp + i) = t at *
    generalize at' a.background i = b at *
    have hud : 0 < u - d := by linarith
    have h3 : u * d / (u - d) ≤ b - t := by linarith
    rw [div_le_iff₀ hud] at h3
    have : (0 : ℝ) < 1 / 10 ^ 10 := by norm_num
    nlinarith)
  simp only [hw]

/-- C50 fails at one standard deviation of the nuisance parameter: with a background of `50` and uncertainties `+3 -1`, the rate at
`theta = 1` is `50.00001`, not `53`. -/
theorem C50_one_sigma_fails :
    ∃ m, effectiveSigma ⟨.array [1], [50], [51], none, 0, none⟩ [[1]] [(3, 1)] = .ok m ∧
      m.main.rate [0, 1] = .ok [50 + 1 / 10 ^ 5] := by
  obtain ⟨m, hm⟩ := effective_accepts ⟨.array [1], [50], [51], none, 0, none⟩ ⟨rfl, rfl⟩ [] (.inl ⟨rfl, rfl⟩) rfl [[1]] [(3, 1)] rfl rfl
  have hS : Simplified _ m _ := .effectiveSigma _ _ hm _ fun i t => effSigma_width _ _ _ _
  obtain ⟨hn, _⟩ := C51_partition _ _ _ hS ⟨rfl, rfl⟩ [] (.inl ⟨rfl, rfl⟩)
  refine ⟨m, hm, ?_⟩
  rw [C50_vanishes _ _ _ _ hm ⟨rfl, rfl⟩ [] (.inl ⟨rfl, rfl⟩) [0, 1] (by rw [hn]; rfl)]
  · simp [at', signalAt]
  · intro i hi
    have : i = 0 := by simpa using hi
    subst this
    simp [at']
    norm_num

/-! ## C52: the smallest value of the parameter of interest -/

/-- C52. For each of the seven models with a list of signal yields: without a positive yield the smallest value is minus infinity.
Otherwise it is a number `m0`; the rates `mu * s_i + b_i` of all bins with non-negative yield and background are non-negative
whenever `mu` is not below it, and some rate is negative whenever `mu` is below it. It is also the lower bound of the POI. -/
theorem C52_minimum (a : Args) (m : Model) (h : Built a m) (hf : Fits a) (y : Vec) (hy : a.signal = .array y) :
    m.config.bounds[0]? = some (some m.config.minimumPoi, some (fin 10)) ∧
    ((∀ i < a.data.length, at' y i ≤ 0) → m.config.minimumPoi = ninf) ∧
    ((∃ i < a.data.length, 0 < at' y i) → ∃ m0, m.config.minimumPoi = fin m0 ∧
      (∀ mu, m0 ≤ mu → ∀ i < a.data.length, 0 ≤ at' y i → 0 ≤ at' a.background i → 0 ≤ mu * at' y i + at' a.background i) ∧
      (∀ mu < m0, ∃ i < a.data.length, 0 < at' y i ∧ mu * at' y i + at' a.background i < 0)) := by
  obtain ⟨_, _, hmin, _, _, _, _, hb⟩ := h.facts hf
  have hl : y.length = a.data.length := by have := hf.2; rw [hy] at this; exact this
  rw [hy] at hmin
  refine ⟨hb, fun hd => ?_, fun ha => ?_⟩
  · rw [minimumPoi_dead y _ (by rw [hl]; exact hd)] at hmin
    exact (Except.ok.inj hmin).symm
  · obtain ⟨m0, h1, h2, i, hi, h3, h4⟩ := minimumPoi_alive y a.background (by rw [hl, hf.1]) (by rw [hl]; exact ha)
    rw [h1] at hmin
    refine ⟨m0, (Except.ok.inj hmin).symm, fun mu hmu j hj hs hb => ?_, fun mu hmu => ⟨i, by rw [← hl]; exact hi, h3, ?_⟩⟩
    · rcases hs.eq_or_lt with h0 | h0
      · rw [← h0]; simpa using hb
      · have := h2 j (by rw [hl]; exact hj) h0
        rw [le_div_iff₀ h0] at this
        nlinarith
    · rw [eq_div_iff h3.ne'] at h4
      nlinarith

/-- C52. With a signal given as a function there is no lower bound. -/
theorem C52_function (a : Args) (m : Model) (h : Built a m) (hf : Fits a) (f : Vec → Vec) (hy : a.signal = .function f) :
    m.config.minimumPoi = ninf := by
  obtain ⟨_, _, hmin, _⟩ := h.facts hf
  rw [hy] at hmin
  exact (Except.ok.inj hmin).symm

/-- The example has a positive yield. -/
example : ∃ m, Built exArgs m ∧ ∃ i < exArgs.data.length, 0 < at' [10, 20] i := by
  obtain ⟨m, hm⟩ := exBuilt
  exact ⟨m, .simplified _ (.uncorrelated [3, 4] hm rfl), 0, by simp [exArgs], by simp [at']⟩

/-- Its smallest value is `-3`. -/
example : ∃ m, uncorrelated exArgs [3, 4] = .ok m ∧ m.config.minimumPoi = fin (-3) := by
  obtain ⟨m, hm⟩ := exBuilt
  have hS : Simplified exArgs m _ := .uncorrelated [3, 4] hm rfl
  have hB : Built exArgs m := .simplified _ hS
  obtain ⟨_, _, hmin, _⟩ := hB.facts exArgs_fits
  refine ⟨m, hm, ?_⟩
  have ha := exArgs_alive
  simp [exArgs] at ha
  simp [exArgs, minimumPoi, ha, minimum] at hmin
  rw [← hmin]
  norm_num

/-- C52 for the rates that the models compute. In the four simplified models, where all background nuisance parameters leave the
background at its nominal value and the signal uncertainties leave the signal non-negative and not above nominal, the rates of all
bins are non-negative if `mu` is not below `minimum_poi`. -/
theorem C52_rates_partial (a : Args) (m : Model) (bin : ℕ → ℝ → ℝ) (h : Simplified a m bin) (hf : Fits a) (ss : List Synth.Source)
    (hs : Sources a ss) (y : Vec) (hy : a.signal = .array y) (pars : Vec) (hp : pars.length = m.config.npar)
    (hy0 : ∀ i < a.data.length, 0 ≤ at' y i) (hb0 : ∀ i < a.data.length, 0 ≤ at' a.background i)
    (hnom : ∀ i < a.data.length, at' a.background i ≤ bin i (at' pars (1 + a.nsp + i)))
    (hfac : ∀ i < a.data.length, 0 ≤ factorAt a ss pars i ∧ (at' pars 0 < 0 → factorAt a ss pars i ≤ 1))
    (hmu : m.config.minimumPoi.le (fin (at' pars 0)) = true) :
    ∃ l, m.main.rate pars = .ok l ∧ l.length = a.data.length ∧ ∀ r ∈ l, 0 ≤ r := by
  refine ⟨_, rate_eq h hf hs pars hp, by simp, fun r hr => ?_⟩
  obtain ⟨i, hi, rfl⟩ := List.mem_map.mp hr
  have hi := List.mem_range.mp hi
  obtain ⟨f0, f1⟩ := hfac i hi
  have hsa : signalAt a pars i = at' y i := by simp [signalAt, hy]
  rw [hsa]
  have hn := hnom i hi
  have hyi := hy0 i hi
  have hbi := hb0 i hi
  rcases le_or_gt 0 (at' pars 0) with h0 | h0
  · have := mul_nonneg (mul_nonneg h0 hyi) f0
    linarith
  · have key : 0 ≤ at' pars 0 * at' y i + at' a.background i := by
      obtain ⟨_, hd, ha⟩ := C52_minimum a m (.simplified bin h) hf y hy
      by_cases hal : ∃ i < a.data.length, 0 < at' y i
      · obtain ⟨m0, e, h1, _⟩ := ha hal
        rw [e] at hmu
        have hmu' : m0 ≤ at' pars 0 := by simpa [F.le] using hmu
        exact h1 _ hmu' i hi hyi hbi
      · push Not at hal
        have : at' y i = 0 := le_antisymm (hal i hi) hyi
        rw [this]; simpa using hbi
    have h2 : at' pars 0 * at' y i ≤ at' pars 0 * at' y i * factorAt a ss pars i := by
      have h3 : at' pars 0 * at' y i ≤ 0 := mul_nonpos_of_nonpos_of_nonneg h0.le hyi
      have := f1 h0
      nlinarith
    linarith

/-- The hypotheses hold for the example at its smallest value, `mu = -3`, with the upward variations of the background. -/
example : ∃ m, uncorrelated exArgs [3, 4] = .ok m ∧ m.main.rate [-3, 1, 0, 0, 0, 0] = .ok [23, 0] := by
  obtain ⟨m, hm⟩ := exBuilt
  have h : Simplified exArgs m _ := .uncorrelated [3, 4] hm rfl
  have hn := (C51_partition _ _ _ h exArgs_fits _ exArgs_sources).1
  refine ⟨m, hm, ?_⟩
  rw [C51_rate _ _ _ h exArgs_fits _ exArgs_sources _ (by rw [hn]; rfl)]
  simp [exArgs, signalAt, factorAt, at', Synth.product, Synth.factor, Synth.exSources, Synth.Source.width, List.range_succ]
  norm_num

theorem poisson_accepts (y b d : Vec) (h : y.length = b.length) : ∃ m, poisson y b d none = .ok m := by
  have h2 : ∃ p, minimumPoi (.array y) b = .ok p := by
    unfold minimumPoi
    simp only
    split
    · rw [if_neg (by simpa using h)]
      exact ⟨_, rfl⟩
    · exact ⟨_, rfl⟩
  obtain ⟨p, hp⟩ := h2
  unfold poisson simpleConfig
  simp only [hp, ok_bind]
  exact ⟨_, rfl⟩

/-- C52 fails with negative signal yields (interference): they are ignored. With yields `(1, -1)` on a background of `(1, 1)`, the
value `2` is above `minimum_poi = -1` and inside the bounds, but the second rate is `-1`. -/
theorem C52_negative_signal_fails :
    ∃ m, poisson [1, -1] [1, 1] [1, 1] none = .ok m ∧ m.config.minimumPoi = fin (-1) ∧
      m.config.bounds = [(some (fin (-1)), some (fin 10))] ∧ m.main.rate [2] = .ok [3, -1] := by
  have hal : isAlive (.array [1, -1]) = true := (isAlive_array _).mpr ⟨0, by simp, by simp [at']⟩
  have hmin : minimumPoi (.array [1, -1]) [1, 1] = .ok (fin (-1)) := by
    simp [minimumPoi, hal, minimum]
  obtain ⟨m, hm⟩ := poisson_accepts [1, -1] [1, 1] [1, 1] rfl
  obtain ⟨c, hc, _, _, _, h⟩ := poisson_ok hm
  rcases h with ⟨_, h1, h2, _⟩ | ⟨s, hs, _⟩
  · refine ⟨m, hm, ?_, ?_, ?_⟩
    · have := (simpleConfig_ok hc).1
      rw [h2]
      simp only [hmin, Except.ok.injEq] at this
      exact this.symm
    · unfold simpleConfig at hc
      simp only [hmin, ok_bind, sigBounds] at hc
      cases hc
      rw [h2]
      rfl
    · rw [h1]
      simp [Main.rate, simpleRate, item, ok_bind, bcast]
      norm_num
  · simp at hs

/-- C52 fails with signal uncertainties: they are not taken into account. With a yield of `1`, a background of `1` and a
normalisation uncertainty of 100%, at `mu = minimum_poi = -1` the rate is `-1` when the uncertainty's parameter is `1`. -/
theorem C52_modifiers_fails :
    ∃ m, uncorrelated ⟨.array [1], [1], [1], some [⟨some "normalization", some (.sym [fin 1]), none⟩], 0, none⟩ [1] = .ok m ∧
      m.config.minimumPoi = fin (-1) ∧ m.main.rate [-1, 0, 1] = .ok [-1] := by
  set a : Args := ⟨.array [1], [1], [1], some [⟨some "normalization", some (.sym [fin 1]), none⟩], 0, none⟩ with ha
  have hf : Fits a := ⟨rfl, rfl⟩
  have hs : Sources a [⟨false, fun _ => 1, fun _ => 1⟩] := .inr ⟨_, _, rfl, rfl, .sym rfl rfl fun _ _ => rfl, trivial⟩
  obtain ⟨m, hm⟩ := simplified_accepts a hf _ hs rfl 1 (linear [1] [1]) (.normal (List.replicate 1 0) (List.replicate 1 1) (.slice 1 1))
  have hS : Simplified a m _ := .uncorrelated [1] hm rfl
  obtain ⟨_, _, hmin, _⟩ := (Built.simplified _ hS).facts hf
  refine ⟨m, hm, ?_, ?_⟩
  · have hal : isAlive (.array [1]) = true := (isAlive_array _).mpr ⟨0, by simp, by simp [at']⟩
    simp [ha, minimumPoi, hal, minimum] at hmin
    exact hmin.symm
  · rw [C51_rate _ _ _ hS hf _ hs _ (by rw [(C51_partition _ _ _ hS hf _ hs).1]; rfl)]
    simp [ha, signalAt, factorAt, at', Synth.product, Synth.factor, List.range_succ]

/-! ## C53: the log-likelihood -/

/-- C53. The model with uncorrelated backgrounds: the log-likelihood is the sum over the bins of the logarithms of the Poisson
probabilities (with rates not below `1e-20`), plus a standard normal term for each background nuisance parameter and one for each
parameter of the signal uncertainties. `D` is the data: only its first entries are used. -/
theorem C53_loglik_uncorrelated (E : Ext) (a : Args) (sigma : Vec) (m : Model) (h : uncorrelated a sigma = .ok m)
    (hl : sigma.length = a.data.length) (hf : Fits a) (ss : List Synth.Source) (hs : Sources a ss) (pars D : Vec)
    (hp : pars.length = m.config.npar) (hD : a.data.length ≤ D.length) (e : Expectation) :
    logpdf E m e (some D) pars = .ok (
      ∑ i ∈ Finset.range a.data.length, poissonLog E.gammaln (at' D i)
        (max (at' pars 0 * signalAt a pars i * factorAt a ss pars i + (at' a.background i + at' sigma i * at' pars (1 + a.nsp + i)))
          (1 / 10 ^ 20)) +
      (∑ i ∈ Finset.range a.data.length, stdLog (at' pars (1 + a.nsp + i)) +
        ∑ k ∈ Finset.range (sourceCount a.data.length ss), stdLog (at' pars (1 + a.nsp + a.data.length + k)))) := by
  have hS : Simplified a m _ := .uncorrelated sigma h hl
  have hr := rate_eq hS hf hs pars hp
  obtain ⟨unc, c, hu, hc, h1, _, h3, hcfg, _, hmain⟩ := simplified_ok h
  have hn := (C51_partition _ _ _ hS hf ss hs).1
  have hn' := (baseConfig_sizes hu hc).npar
  have hk : uncCount unc = sourceCount a.data.length ss := by rw [hcfg] at hn; omega
  rw [hn, ← hk] at hp
  unfold logpdf
  rw [h3]
  rw [hmain] at hr ⊢
  simp only [Main.rate] at hr
  simp only [Main.logProb, hr, ok_bind, chosen, h1, constraintLogProb]
  rw [List.map_map, vec_eq (n := a.data.length) (D.take a.data.length) (by simpa using hD), bcast_map, ok_bind, pure_ok, ok_bind]
  simp only [Pdf.logProb, Domain.get]
  rw [ok_bind, hl, slice_eq _ _ _ (by omega), normal_block, ok_bind, uncPdfs_logProb E hf hu pars (by omega), ok_bind, pure_ok,
    ok_bind, pure_ok, sum_range_map, hk]
  congr 2
  apply Finset.sum_congr rfl
  intro i hi
  have : at' (D.take a.data.length) i = at' D i := by simp [at', List.getD, Finset.mem_range.mp hi]
  simp only [logPoisson, poissonLog, this, clip, Function.comp]

theorem correlations_eq (cov : List Vec) (hq : ∀ r ∈ cov, r.length = cov.length) :
    correlations cov =
      cov.mapIdx fun i row => row.mapIdx fun j x => x / (√(at' (cov.getD i []) i) * √(at' (cov.getD j []) j)) := by
  have hst : ∀ i < cov.length, (stdevs cov).getD i 0 = √(at' (cov.getD i []) i) := by
    intro i hi
    rw [stdevs_eq]
    exact at'_map _ hi
  unfold correlations
  apply List.ext_getElem
  · simp
  · intro i h1 h2
    have hi : i < cov.length := by simpa using h1
    simp only [List.getElem_mapIdx]
    apply List.ext_getElem
    · simp
    · intro j h3 h4
      have hj : j < cov.length := by rw [← hq _ (List.getElem_mem hi)]; simpa using h3
      simp only [List.getElem_mapIdx]
      simp only [hst i hi, hst j hj]

theorem WithMatrix.shape {a : Args} {m : Model} {bin : ℕ → ℝ → ℝ} {corr : List Vec} (h : WithMatrix a m bin corr) (hf : Fits a) :
    Simplified a m bin ∧ corr.length = a.data.length ∧ ∃ n g, n = a.data.length ∧
      simplified a n g (.mvn (List.replicate a.data.length 0) corr (.slice (1 + a.nsp) n)) = .ok m := by
  cases h with
  | correlated cov h hl hq =>
    refine ⟨.correlated cov h hl, by simpa using hl, _, linear a.background (stdevs cov), hl, ?_⟩
    rw [← correlations_eq cov hq]
    exact h
  | thirdMoment A B C corr h hA hB hC hc => exact ⟨.thirdMoment A B C corr h hA hB hC hc, hc, _, _, hB, h⟩
  | effectiveSigma corr env h w hw =>
    refine ⟨.effectiveSigma corr env h w hw, ?_, a.background.length,
      effective a.background (env.map fun e => |e.1|) (env.map fun e => |e.2|), hf.1, ?_⟩
    · unfold Backend.effectiveSigma at h
      split at h
      · simp at h
      · split at h
        · simp at h
        · rename_i h2
          rw [not_not.mp h2, hf.1]
    · unfold Backend.effectiveSigma at h
      split at h
      · simp at h
      · split at h
        · simp at h
        · exact h

/-- C53. The three models with a correlated background: a Poisson term per bin, one multivariate normal term of the background
nuisance parameters with the correlation matrix, and a standard normal term for each parameter of the signal uncertainties. The
inverse and the determinant of the matrix are those that numpy returns; the theorem needs of them only the right shape. -/
theorem C53_loglik_matrix (E : Ext) (a : Args) (m : Model) (bin : ℕ → ℝ → ℝ) (corr : List Vec) (h : WithMatrix a m bin corr)
    (hf : Fits a) (ss : List Synth.Source)
    (hs : Sources a ss) (hi1 : (E.inv corr).length = a.data.length) (hi2 : ∀ r ∈ E.inv corr, r.length = a.data.length)
    (pars D : Vec) (hp : pars.length = m.config.npar) (hD : a.data.length ≤ D.length) (e : Expectation) :
    logpdf E m e (some D) pars = .ok (
      ∑ i ∈ Finset.range a.data.length, poissonLog E.gammaln (at' D i)
        (max (at' pars 0 * signalAt a pars i * factorAt a ss pars i + bin i (at' pars (1 + a.nsp + i))) (1 / 10 ^ 20)) +
      (mvnLog a.data.length (fun i j => at' ((E.inv corr).getD i []) j) (E.logdet corr) (fun i => at' pars (1 + a.nsp + i)) +
        ∑ k ∈ Finset.range (sourceCount a.data.length ss), stdLog (at' pars (1 + a.nsp + a.data.length + k)))) := by
  obtain ⟨hS, hcl, n, g, hnn, hsimp⟩ := h.shape hf
  have hr := rate_eq hS hf hs pars hp
  obtain ⟨unc, c, hu, hc, h1, _, h3, hcfg, _, hmain⟩ := simplified_ok hsimp
  have hn := (C51_partition _ _ _ hS hf ss hs).1
  have hn' := (baseConfig_sizes hu hc).npar
  have hk : uncCount unc = sourceCount a.data.length ss := by rw [hcfg] at hn; omega
  rw [hn, ← hk] at hp
  unfold logpdf
  rw [h3]
  rw [hmain] at hr ⊢
  simp only [Main.rate] at hr
  simp only [Main.logProb, hr, ok_bind, chosen, h1, constraintLogProb]
  rw [List.map_map, vec_eq (n := a.data.length) (D.take a.data.length) (by simpa using hD), bcast_map, ok_bind, pure_ok, ok_bind]
  simp only [Pdf.logProb, Domain.get]
  rw [ok_bind, hnn, slice_eq _ _ _ (by omega)]
  have h0 : List.replicate a.data.length (0 : ℝ) = (List.range a.data.length).map fun _ => 0 := by simp
  rw [h0, mvn_block E corr _ _ _ hcl hi1 hi2, ok_bind, uncPdfs_logProb E hf hu pars (by omega), ok_bind, pure_ok,
    ok_bind, pure_ok, sum_range_map, hk]
  congr 2
  · apply Finset.sum_congr rfl
    intro i hi
    have : at' (D.take a.data.length) i = at' D i := by simp [at', List.getD, Finset.mem_range.mp hi]
    simp only [logPoisson, poissonLog, this, clip, Function.comp]
  · simp

/-- An inverse for the example: that of the unit matrix. -/
def exExt : Ext := ⟨fun _ => 0, id, fun _ => 0⟩

example : ∃ m, WithMatrix exArgs m (fun i t => at' [50, 60] i + at' [3, 4] i * t + at' [1, 2] i * t ^ 2) [[1, 0], [0, 1]] ∧
    (exExt.inv [[1, 0], [0, 1]]).length = exArgs.data.length ∧ ∀ r ∈ exExt.inv [[1, 0], [0, 1]], r.length = exArgs.data.length := by
  obtain ⟨m, hm⟩ := simplified_accepts exArgs exArgs_fits _ exArgs_sources rfl 2 (quadratic [50, 60] [3, 4] [1, 2])
    (.mvn (List.replicate 2 0) [[1, 0], [0, 1]] (.slice 1 2))
  refine ⟨m, .thirdMoment [50, 60] [3, 4] [1, 2] [[1, 0], [0, 1]] hm rfl rfl rfl rfl, rfl, ?_⟩
  · intro r hr
    simp only [exExt, id, List.mem_cons, List.not_mem_nil, or_false] at hr
    rcases hr with rfl | rfl <;> rfl

/-- C53. The Gaussian model: a normal term per bin with its own width; no constraint terms. -/
theorem C53_loglik_gaussian (E : Ext) (a : Args) (sigma : Vec) (m : Model) (h : gaussian a sigma = .ok m)
    (hl : sigma.length = a.data.length) (hf : Fits a) (pars D : Vec) (hp : pars.length = m.config.npar)
    (hD : D.length = a.data.length) (e : Expectation) :
    logpdf E m e (some D) pars = .ok (∑ i ∈ Finset.range a.data.length,
      (stdLog ((at' D i - (at' pars 0 * signalAt a pars i + at' a.background i)) / at' sigma i) - Real.log (at' sigma i))) := by
  obtain ⟨c, hc, hm⟩ := gaussian_ok h
  have hr := ((C51_simple_rate a hf).1 sigma m h).2.2 pars hp
  subst hm
  simp only [logpdf, chosen, Main.logProb]
  simp only [Main.rate] at hr
  rw [hr, ok_bind, vec_eq D hD, vec_eq sigma hl]
  unfold normalLogProb
  rw [bcast_map, ok_bind, bcast_map, ok_bind, pure_ok, sum_range_map]
  congr 1
  apply Finset.sum_congr rfl
  intro i hi
  have hi := Finset.mem_range.mp hi
  rw [at'_map _ hi, at'_map _ hi]
  simp only [logNormal, stdLog]
  ring

/-- C53. The multivariate normal model: the density of the data around the rates. -/
theorem C53_loglik_multivariate (E : Ext) (a : Args) (cov : List Vec) (m : Model) (h : multivariate a cov = .ok m) (hf : Fits a)
    (hi1 : (E.inv cov).length = a.data.length) (hi2 : ∀ r ∈ E.inv cov, r.length = a.data.length) (pars D : Vec)
    (hp : pars.length = m.config.npar) (hD : D.length = a.data.length) (e : Expectation) :
    logpdf E m e (some D) pars = .ok (mvnLog a.data.length (fun i j => at' ((E.inv cov).getD i []) j) (E.logdet cov)
      fun i => at' D i - (at' pars 0 * signalAt a pars i + at' a.background i)) := by
  obtain ⟨c, hc, hcl, hm⟩ := multivariate_ok h
  have hr := ((C51_simple_rate a hf).2.1 cov m h).2.2 pars hp
  subst hm
  simp only [logpdf, chosen, Main.logProb]
  simp only [Main.rate] at hr
  rw [hr, ok_bind]
  conv_lhs => rw [vec_eq D hD]
  rw [mvn_block E cov _ _ _ (by rw [hcl, hf.1]) hi1 hi2]

/-- C53. A single uncertainty given to the Gaussian model is the uncertainty of every bin. -/
theorem C53_loglik_common (E : Ext) (a : Args) (s : ℝ) (m : Model) (h : gaussian a [s] = .ok m) (hf : Fits a) (pars D : Vec)
    (hp : pars.length = m.config.npar) (hD : D.length = a.data.length) (e : Expectation) :
    logpdf E m e (some D) pars = .ok (∑ i ∈ Finset.range a.data.length,
      (stdLog ((at' D i - (at' pars 0 * signalAt a pars i + at' a.background i)) / s) - Real.log s)) := by
  obtain ⟨c, hc, hm⟩ := gaussian_ok h
  have hr := ((C51_simple_rate a hf).1 [s] m h).2.2 pars hp
  subst hm
  simp only [logpdf, chosen, Main.logProb]
  simp only [Main.rate] at hr
  rw [hr, ok_bind, vec_eq D hD]
  unfold normalLogProb
  rw [bcast_map, ok_bind, bcast_right, ok_bind, pure_ok, List.map_map, sum_range_map]
  congr 1
  apply Finset.sum_congr rfl
  intro i hi
  rw [at'_map _ (Finset.mem_range.mp hi)]
  simp only [Function.comp, logNormal, stdLog]
  ring

/-- Two bins with the uncertainty 2 each. -/
example : ∃ m, gaussian ⟨.array [1, 1], [5, 7], [6, 6], none, 0, none⟩ [2] = .ok m ∧ m.config.npar = 1 := by
  have hal : isAlive (.array [1, 1]) = true := (isAlive_array _).mpr ⟨0, by simp, by simp [at']⟩
  unfold gaussian simpleConfig
  simp only [minimumPoi, hal, if_true, ok_bind, sigBounds]
  exact ⟨_, rfl, rfl⟩

/-- C53. The Asimov data of the models without constraint terms is the rate, one entry for each bin, whether or not auxiliary data
is asked for: for the Gaussian and the multivariate normal model also where it is negative, for the Poisson model not below
`1e-20`. -/
theorem C53_expected_simple (a : Args) (hf : Fits a) (aux : Bool) :
    (∀ sigma m, gaussian a sigma = .ok m → ∀ pars : Vec, pars.length = m.config.npar →
      expectedData m pars aux =
        .ok ((List.range a.data.length).map fun i => at' pars 0 * signalAt a pars i + at' a.background i)) ∧
    (∀ cov m, multivariate a cov = .ok m → ∀ pars : Vec, pars.length = m.config.npar →
      expectedData m pars aux =
        .ok ((List.range a.data.length).map fun i => at' pars 0 * signalAt a pars i + at' a.background i)) ∧
    (∀ y m, a.signal = .array y → poisson y a.background a.data none = .ok m → ∀ pars : Vec, pars.length = m.config.npar →
      expectedData m pars aux = .ok ((List.range a.data.length).map fun i =>
        max (at' pars 0 * at' y i + at' a.background i) (1 / 10 ^ 20))) ∧
    (∀ y s m, a.signal = .array y → poisson y a.background a.data (some s) = .ok m → ∀ pars : Vec,
      pars.length = m.config.npar → expectedData m pars aux = .ok ((List.range a.data.length).map fun i =>
        max (at' pars 0 * at' y i + at' a.background i + at' pars (1 + i) * at' s i) (1 / 10 ^ 20))) := by
  obtain ⟨r1, r2, r3, r4⟩ := C51_simple_rate a hf
  refine ⟨fun sigma m hm pars hp => ?_, fun cov m hm pars hp => ?_, fun y m hy hm pars hp => ?_, fun y s m hy hm pars hp => ?_⟩
  · obtain ⟨_, hc, hr⟩ := r1 sigma m hm
    obtain ⟨c, _, rfl⟩ := gaussian_ok hm
    exact hr pars hp
  · obtain ⟨_, hc, hr⟩ := r2 cov m hm
    obtain ⟨c, _, _, rfl⟩ := multivariate_ok hm
    exact hr pars hp
  · obtain ⟨_, hc, hr⟩ := r3 y m hy hm
    have hr := hr pars hp
    unfold poisson at hm
    obtain ⟨c, _, hm⟩ := bind_ok.mp hm
    cases hm
    simp only [expectedData, Main.expected, Main.rate] at hr ⊢
    rw [hr, ok_bind, pure_ok, List.map_map]
    rfl
  · obtain ⟨_, hc, hr⟩ := r4 y s m hy hm
    have hr := hr pars hp
    unfold poisson at hm
    obtain ⟨c, _, hm⟩ := bind_ok.mp hm
    simp only at hm
    split at hm
    · simp at hm
    cases hm
    simp only [expectedData, Main.expected, Main.rate] at hr ⊢
    rw [hr, ok_bind, pure_ok, List.map_map]
    rfl

/-- A negative expectation of the Gaussian model. -/
example : ∃ m, gaussian ⟨.array [1, 1], [5, 7], [6, 6], none, 0, none⟩ [2, 2] = .ok m ∧
    expectedData m [-6] true = .ok [-1, 1] := by
  have hal : isAlive (.array [1, 1]) = true := (isAlive_array _).mpr ⟨0, by simp, by simp [at']⟩
  have : ∃ m, gaussian ⟨.array [1, 1], [5, 7], [6, 6], none, 0, none⟩ [2, 2] = .ok m ∧ m.config.npar = 1 := by
    unfold gaussian simpleConfig
    simp only [minimumPoi, hal, if_true, ok_bind, sigBounds]
    exact ⟨_, rfl, rfl⟩
  obtain ⟨m, hm, hn⟩ := this
  refine ⟨m, hm, ?_⟩
  rw [(C53_expected_simple _ ⟨rfl, rfl⟩ true).1 _ _ hm _ (by rw [hn]; rfl)]
  simp [at', signalAt, List.range_succ]
  norm_num

/-- C53. The order of the constraint terms has no influence on their sum. -/
theorem C53_order (E : Ext) (pars : Vec) (l k : List Pdf) (h : l.Perm k) (x : ℝ) (hx : constraintLogProb E pars l = .ok x) :
    constraintLogProb E pars k = .ok x := by
  induction h generalizing x with
  | nil => exact hx
  | cons p _ ih =>
    simp only [constraintLogProb] at hx ⊢
    obtain ⟨y, h1, hx⟩ := bind_ok.mp hx
    obtain ⟨z, h2, hx⟩ := bind_ok.mp hx
    rw [h1, ok_bind, ih z h2, ok_bind]
    exact hx
  | swap p q l =>
    simp only [constraintLogProb] at hx ⊢
    obtain ⟨y, h1, hx⟩ := bind_ok.mp hx
    obtain ⟨z, h2, hx⟩ := bind_ok.mp hx
    obtain ⟨w, h3, h2⟩ := bind_ok.mp h2
    obtain ⟨v, h4, h2⟩ := bind_ok.mp h2
    cases h2
    cases hx
    rw [h3, ok_bind, h1, ok_bind, h4, ok_bind, pure_ok, ok_bind, pure_ok]
    congr 1
    ring
  | trans _ _ ih1 ih2 => exact ih2 _ (ih1 _ hx)

/-- C53. Splitting the list of constraint terms: the sums of the parts add up. -/
theorem C53_split (E : Ext) (pars : Vec) (l k : List Pdf) (x y : ℝ) (hx : constraintLogProb E pars l = .ok x)
    (hy : constraintLogProb E pars k = .ok y) : constraintLogProb E pars (l ++ k) = .ok (x + y) := by
  rw [constraint_append, hx, ok_bind, hy, ok_bind, pure_ok]

/-- C53. Splitting a constraint term: one standard normal term for `n` parameters is the same as `n` terms for one parameter each,
and as a multivariate normal term with the unit matrix (for an inverse and a determinant that are right for the unit matrix). -/
theorem C53_grouping (E : Ext) (pars : Vec) (s n : ℕ) (hp : s + n ≤ pars.length)
    (hi : E.inv ((List.range n).map fun i => (List.range n).map fun j => if i = j then 1 else 0) =
      (List.range n).map fun i => (List.range n).map fun j => if i = j then 1 else 0)
    (hd : E.logdet ((List.range n).map fun i => (List.range n).map fun j => if i = j then 1 else 0) = 0) :
    constraintLogProb E pars [.normal (List.replicate n 0) (List.replicate n 1) (.slice s n)] =
      constraintLogProb E pars ((List.range' s n).map fun i => .normal [0] [1] (.index i)) ∧
    constraintLogProb E pars
        [.mvn (List.replicate n 0) ((List.range n).map fun i => (List.range n).map fun j => if i = j then 1 else 0) (.slice s n)] =
      constraintLogProb E pars ((List.range' s n).map fun i => .normal [0] [1] (.index i)) := by
  rw [constraint_singles E pars s n hp]
  constructor
  · simp only [constraintLogProb, Pdf.logProb, Domain.get]
    rw [ok_bind, slice_eq _ _ _ hp, normal_block, ok_bind, ok_bind, pure_ok]
    simp
  · simp only [constraintLogProb, Pdf.logProb, Domain.get]
    have h0 : List.replicate n (0 : ℝ) = (List.range n).map fun _ => 0 := by simp
    rw [ok_bind, slice_eq _ _ _ hp, h0, mvn_block E _ _ _ _ (by simp) (by rw [hi]; simp) (by rw [hi]; simp), ok_bind, ok_bind,
      pure_ok, hi, hd]
    congr 1
    have hP : ∀ i ∈ Finset.range n, ∀ j ∈ Finset.range n,
        at' (((List.range n).map fun i => (List.range n).map fun j => if i = j then (1 : ℝ) else 0).getD i []) j =
          if i = j then 1 else 0 := by
      intro i hi j hj
      simp [at', List.getD, Finset.mem_range.mp hi, Finset.mem_range.mp hj]
    unfold mvnLog
    have e : ∀ i ∈ Finset.range n, ∑ j ∈ Finset.range n, (at' pars (s + i) - 0) *
        at' (((List.range n).map fun i => (List.range n).map fun j => if i = j then (1 : ℝ) else 0).getD i []) j *
          (at' pars (s + j) - 0) = at' pars (s + i) ^ 2 := by
      intro i hi
      rw [Finset.sum_congr rfl fun j hj => by rw [hP i hi j hj], Finset.sum_eq_single i]
      · simp; ring
      · intro j _ hne
        simp [Ne.symm hne]
      · intro h
        exact absurd hi h
    rw [Finset.sum_congr rfl e]
    simp only [stdLog, Finset.sum_sub_distrib, Finset.sum_const, Finset.card_range, nsmul_eq_mul, _root_.add_zero]
    rw [← Finset.sum_div, Finset.sum_neg_distrib]
    ring

/-- Inverse and determinant of the unit matrix are as required, and the vector is long enough. -/
example : exExt.inv ((List.range 2).map fun i => (List.range 2).map fun j => if i = j then 1 else 0) =
      ((List.range 2).map fun i => (List.range 2).map fun j => if i = j then 1 else 0) ∧
    exExt.logdet ((List.range 2).map fun i => (List.range 2).map fun j => if i = j then 1 else 0) = 0 ∧
    constraintLogProb exExt [1, 2, 3] [.normal [0, 0] [1, 1] (.slice 1 2)] = .ok (stdLog 2 + stdLog 3) := by
  refine ⟨rfl, rfl, ?_⟩
  have := (C53_grouping exExt [1, 2, 3] 1 2 (by simp) rfl rfl).1
  simp only [List.replicate] at this
  rw [this, constraint_singles exExt _ 1 2 (by simp)]
  simp [Finset.sum_range_succ, at']

/-- C53. The Asimov data of the four simplified models: one entry for each bin, the rate (not below `1e-20`), followed by one zero
for each parameter that has a constraint term. A likelihood that gets all of them as data reads only those of the bins. -/
theorem C53_expected_data (E : Ext) (a : Args) (m : Model) (bin : ℕ → ℝ → ℝ) (h : Simplified a m bin) (hf : Fits a)
    (ss : List Synth.Source) (hs : Sources a ss) (pars : Vec) (hp : pars.length = m.config.npar) :
    ∃ v, expectedData m pars false = .ok v ∧ v.length = a.data.length ∧
      (∀ i < a.data.length, at' v i =
        max (at' pars 0 * signalAt a pars i * factorAt a ss pars i + bin i (at' pars (1 + a.nsp + i))) (1 / 10 ^ 20)) ∧
      expectedData m pars true = .ok (v ++ List.replicate (a.data.length + sourceCount a.data.length ss) 0) ∧
      ∀ e q (w : Vec), logpdf E m e (some (v ++ w)) q = logpdf E m e (some v) q := by
  have hr := rate_eq h hf hs pars hp
  obtain ⟨n, g, pdf, hm, hnn, _, hexp, _⟩ := h.shape hf
  obtain ⟨unc, c, hu, hc, h1, _, h3, hcfg, _, hmain⟩ := simplified_ok hm
  have hn := (C51_partition _ _ _ h hf ss hs).1
  have hn' := (baseConfig_sizes hu hc).npar
  have hk : uncCount unc = sourceCount a.data.length ss := by rw [hcfg] at hn; omega
  rw [hmain] at hr
  simp only [Main.rate] at hr
  refine ⟨_, by simp only [expectedData, h3, hmain, Main.expected, hr, ok_bind, pure_ok]; rfl, by simp, ?_, ?_, ?_⟩
  · intro i hi
    rw [List.map_map, at'_map _ hi]
    rfl
  · simp only [expectedData, h3, hmain, Main.expected, hr, ok_bind, pure_ok, constraintExpected, if_true]
    rw [List.flatMap_cons, hexp, uncPdfs_expected, uncPdfs_length hu, hk, List.replicate_append_replicate]
  · intro e q w
    unfold logpdf
    rw [h3, h1]
    simp only [chosen]
    rw [List.take_append_of_le_length (by simp), List.take_of_length_le (by simp)]

/-! ## C54: the positivity constraint of the Poisson model -/

theorem poisson_sigma {y b d s : Vec} {m : Model} (h : poisson y b d (some s) = .ok m) (hb : b.length = d.length)
    (hy : y.length = d.length) (pars : Vec) (hp : pars.length = m.config.npar) :
    s.length = d.length ∧
    m.main.rate pars = .ok ((List.range d.length).map fun i => at' pars 0 * at' y i + at' b i + at' pars (1 + i) * at' s i) ∧
    ∃ f, m.positivity = [f] ∧ f pars = .ok ((List.range d.length).map fun i => at' b i + at' pars (1 + i) * at' b i) := by
  have hf : Fits ⟨.array y, b, d, none, 0, none⟩ := ⟨hb, hy⟩
  have hR := (C51_simple_rate ⟨.array y, b, d, none, 0, none⟩ hf).2.2.2 y s m rfl h
  have hp' := hp
  rw [hR.1] at hp'
  obtain ⟨c, hc, _, _, h1, h2⟩ := poisson_ok h
  rcases h2 with ⟨hs, _⟩ | ⟨s', hs, hsl, h2, h3, h4⟩
  · simp at hs
  · cases hs
    refine ⟨hsl, hR.2.2 pars hp, _, h4, ?_⟩
    simp only at hp'
    rw [slice_eq _ _ _ (by omega), vec_eq b hb, bcast_map, ok_bind, bcast_map]
    congr 1
    apply List.map_congr_left
    intro i hi
    rw [at'_map _ (List.mem_range.mp hi)]

/-- C54 fails. The documented condition is that the rate without signal, `b + theta * sigma`, is not negative; the function that is
registered is `b + theta * b`. With a background of 4 and an uncertainty of 8, `theta = -1` is accepted although the rate is `-4`;
with an uncertainty of 1, `theta = -2` is refused although the rate is 2. -/
theorem C54_rate_fails :
    (∃ m f, poisson [1] [4] [4] (some [8]) = .ok m ∧ m.positivity = [f] ∧ f [0, -1] = .ok [0] ∧ m.main.rate [0, -1] = .ok [-4]) ∧
    (∃ m f, poisson [1] [4] [4] (some [1]) = .ok m ∧ m.positivity = [f] ∧ f [0, -2] = .ok [-4] ∧ m.main.rate [0, -2] = .ok [2]) := by
  have hex : ∀ s : ℝ, ∃ m, poisson [1] [4] [4] (some [s]) = .ok m := by
    intro s
    have hal : isAlive (.array [1]) = true := (isAlive_array _).mpr ⟨0, by simp, by simp [at']⟩
    unfold poisson simpleConfig
    simp only [minimumPoi, hal, if_true, ok_bind, sigBounds]
    exact ⟨_, rfl⟩
  have hnp : ∀ s : ℝ, ∀ m, poisson [1] [4] [4] (some [s]) = .ok m → m.config.npar = 2 := fun s m h =>
    ((C51_simple_rate ⟨.array [1], [4], [4], none, 0, none⟩ ⟨rfl, rfl⟩).2.2.2 [1] [s] m rfl h).1
  constructor
  · obtain ⟨m, hm⟩ := hex 8
    obtain ⟨_, h1, f, h2, h3⟩ := poisson_sigma hm rfl rfl [0, -1] (by rw [hnp _ _ hm]; rfl)
    refine ⟨m, f, hm, h2, ?_, ?_⟩
    · rw [h3]; simp [at']
    · rw [h1]; simp [at']; norm_num
  · obtain ⟨m, hm⟩ := hex 1
    obtain ⟨_, h1, f, h2, h3⟩ := poisson_sigma hm rfl rfl [0, -2] (by rw [hnp _ _ hm]; rfl)
    refine ⟨m, f, hm, h2, ?_, ?_⟩
    · rw [h3]; simp [at']; norm_num
    · rw [h1]; simp [at']; norm_num

/-- C54, where it holds: if no uncertainty exceeds its background, every point that the constraint accepts has non-negative rates
without signal. Missing: uncertainties larger than the background, where this fails; and the constraint refuses points
that have positive rates. -/
theorem C54_small_uncertainty_partial (y b d s : Vec) (m : Model) (h : poisson y b d (some s) = .ok m) (hb : b.length = d.length)
    (hy : y.length = d.length) (hs : ∀ i < d.length, 0 ≤ at' s i ∧ at' s i ≤ at' b i) (pars : Vec)
    (hp : pars.length = m.config.npar) (hmu : at' pars 0 = 0) :
    ∃ f v r, m.positivity = [f] ∧ f pars = .ok v ∧ m.main.rate pars = .ok r ∧ r.length = d.length ∧
      ((∀ x ∈ v, 0 ≤ x) → ∀ x ∈ r, 0 ≤ x) := by
  obtain ⟨_, h1, f, h2, h3⟩ := poisson_sigma h hb hy pars hp
  refine ⟨f, _, _, h2, h3, h1, by simp, fun hv x hx => ?_⟩
  obtain ⟨i, hi, rfl⟩ := List.mem_map.mp hx
  have hv := hv _ (List.mem_map.mpr ⟨i, hi, rfl⟩)
  obtain ⟨h0, hle⟩ := hs i (List.mem_range.mp hi)
  rw [hmu]
  rcases h0.eq_or_lt with h0 | h0
  · rw [← h0] at hle ⊢
    simpa using hle
  · have hbp : 0 < at' b i := lt_of_lt_of_le h0 hle
    have ht : 0 ≤ 1 + at' pars (1 + i) := by
      by_contra hc
      push Not at hc
      have := mul_neg_of_pos_of_neg hbp hc
      nlinarith
    nlinarith

example : ∃ m, poisson [1, 2] [4, 5] [4, 6] (some [2, 5]) = .ok m ∧ m.config.npar = 3 ∧
    ∀ i < 2, 0 ≤ at' [2, 5] i ∧ at' [2, 5] i ≤ at' [4, 5] i := by
  have hal : isAlive (.array [1, 2]) = true := (isAlive_array _).mpr ⟨0, by simp, by simp [at']⟩
  have : ∃ m, poisson [1, 2] [4, 5] [4, 6] (some [2, 5]) = .ok m := by
    unfold poisson simpleConfig
    simp only [minimumPoi, hal, if_true, ok_bind, sigBounds]
    exact ⟨_, rfl⟩
  obtain ⟨m, hm⟩ := this
  refine ⟨m, hm, ((C51_simple_rate ⟨.array [1, 2], [4, 5], [4, 6], none, 0, none⟩ ⟨rfl, rfl⟩).2.2.2 [1, 2] [2, 5] m rfl hm).1, ?_⟩
  intro i hi
  interval_cases i <;> simp [at']
  norm_num

/-! ## C78: the positivity constraint of the simplified models -/

/-- C78. In the four simplified models the function that the optimiser keeps non-negative is the rate without signal, at the same
nuisance parameters. Where it is non-negative, the rates are non-negative for all `mu` that are not negative and non-negative
signal yields. -/
theorem C78_positivity (a : Args) (m : Model) (bin : ℕ → ℝ → ℝ) (h : Simplified a m bin) (hf : Fits a) (ss : List Synth.Source)
    (hs : Sources a ss) (pars : Vec) (hp : pars.length = m.config.npar) :
    ∃ f v r, m.positivity = [f] ∧ f pars = .ok v ∧ m.main.rate (pars.set 0 0) = .ok v ∧ m.main.rate pars = .ok r ∧
      v.length = a.data.length ∧ r.length = a.data.length ∧
      ((∀ x ∈ v, 0 ≤ x) → 0 ≤ at' pars 0 → (∀ i < a.data.length, 0 ≤ signalAt a pars i) → ∀ x ∈ r, 0 ≤ x) := by
  have hn := (C51_partition _ _ _ h hf ss hs).1
  obtain ⟨f, h1, h2⟩ := background_eq h hf pars (by rw [hp, hn]; omega)
  have hset : ∀ i, at' (pars.set 0 0) (1 + i) = at' pars (1 + i) := by
    intro i
    simp only [at', List.getD, List.getElem?_set]
    rw [if_neg (by omega)]
  refine ⟨f, _, _, h1, h2, ?_, rate_eq h hf hs pars hp, by simp, by simp, ?_⟩
  · rw [rate_eq h hf hs _ (by simpa using hp)]
    congr 1
    apply List.map_congr_left
    intro i _
    have h0 : at' (pars.set 0 0) 0 = 0 := by
      cases pars <;> simp [at']
    rw [h0]
    have := hset (a.nsp + i)
    rw [← _root_.add_assoc] at this
    rw [this]
    simp
  · intro hv hmu hsig x hx
    obtain ⟨i, hi, rfl⟩ := List.mem_map.mp hx
    have hb := hv _ (List.mem_map.mpr ⟨i, hi, rfl⟩)
    have h3 := hsig i (List.mem_range.mp hi)
    have h4 : 0 ≤ factorAt a ss pars i := by
      unfold factorAt
      split
      · generalize 1 + a.nsp + a.data.length = st
        clear hs hn hx
        induction ss generalizing st with
        | nil => simp [Synth.product]
        | cons s l ih =>
          simp only [Synth.product]
          refine mul_nonneg ?_ (ih _)
          unfold Synth.factor
          split
          · norm_num
          · exact Real.rpow_nonneg (le_trans zero_le_one (le_max_left _ _)) _
      · norm_num
    have := mul_nonneg (mul_nonneg hmu h3) h4
    linarith

/-- The function in the example, at `theta = (-10, 3)`. -/
example : ∃ m f, uncorrelated exArgs [3, 4] = .ok m ∧ m.positivity = [f] ∧ f [1, -10, 3, 0, 0, 0] = .ok [20, 72] := by
  obtain ⟨m, hm⟩ := exBuilt
  have h : Simplified exArgs m _ := .uncorrelated [3, 4] hm rfl
  obtain ⟨f, h1, h2⟩ := background_eq h exArgs_fits [1, -10, 3, 0, 0, 0] (by simp [exArgs])
  refine ⟨m, f, hm, h1, ?_⟩
  rw [h2]
  simp [exArgs, at', List.range_succ]
  norm_num

/-! ## C59: the data set -/

/-- The log-likelihood, the objective, the objective with its gradient, the Hessian of the log-likelihood and that of the objective, as
functions of expectation, data and parameters. -/
def SameFor (E : Ext) (m : Model) (e : Expectation) (d : Option Vec) (e' : Expectation) (d' : Option Vec) : Prop :=
  ∀ pars, logpdf E m e d pars = logpdf E m e' d' pars ∧ objective E m e d pars = objective E m e' d' pars ∧
    mathValueAndGrad E m e d pars = mathValueAndGrad E m e' d' pars ∧ hessianLogpdf E m e d pars = hessianLogpdf E m e' d' pars ∧
    mathHessian E m e d pars = mathHessian E m e' d' pars

theorem sameFor_of_chosen (E : Ext) (m : Model) (e e' : Expectation) (d d' : Option Vec) (h : chosen m e d = chosen m e' d') :
    SameFor E m e d e' d' := by
  have h1 : logpdf E m e d = logpdf E m e' d' := by funext pars; simp only [logpdf, h]
  have h2 : objective E m e d = objective E m e' d' := by funext pars; simp only [objective, h]
  intro pars
  exact ⟨by rw [h1], by rw [h2], by unfold mathValueAndGrad; rw [h2], by unfold hessianLogpdf; rw [h1],
    by unfold mathHessian hessianLogpdf; rw [h1]⟩

/-- C59. For each of the seven models: without explicit data, `apriori` is the same as passing the background, and `observed` and
`aposteriori` the same as passing the observations. With explicit data the expectation has no influence. -/
theorem C59_data (E : Ext) (a : Args) (m : Model) (h : Built a m) (hf : Fits a) :
    (∀ e, SameFor E m .apriori none e (some a.background)) ∧ (∀ e, SameFor E m .observed none e (some a.data)) ∧
      (∀ e, SameFor E m .aposteriori none e (some a.data)) ∧ ∀ e e' d, SameFor E m e (some d) e' (some d) := by
  obtain ⟨h1, h2, _⟩ := h.facts hf
  refine ⟨fun e => ?_, fun e => ?_, fun e => ?_, fun e e' d => ?_⟩ <;> apply sameFor_of_chosen <;> simp [chosen, h1, h2]

/-- C59. The data do have an influence: in the Gaussian model with background 5 and observation 7 the two choices have different
likelihoods. -/
theorem C59_differs (E : Ext) :
    ∃ m, gaussian ⟨.array [1], [5], [7], none, 0, none⟩ [1] = .ok m ∧ Built ⟨.array [1], [5], [7], none, 0, none⟩ m ∧
      logpdf E m .apriori none [0] = .ok (stdLog 0) ∧ logpdf E m .observed none [0] = .ok (stdLog 2) := by
  have hal : isAlive (.array [1]) = true := (isAlive_array _).mpr ⟨0, by simp, by simp [at']⟩
  have : ∃ m, gaussian ⟨.array [1], [5], [7], none, 0, none⟩ [1] = .ok m := by
    unfold gaussian simpleConfig
    simp only [minimumPoi, hal, if_true, ok_bind, sigBounds]
    exact ⟨_, rfl⟩
  obtain ⟨m, hm⟩ := this
  have hf : Fits ⟨.array [1], [5], [7], none, 0, none⟩ := ⟨rfl, rfl⟩
  have hB : Built ⟨.array [1], [5], [7], none, 0, none⟩ m := .gaussian [1] rfl hm
  have hnp : m.config.npar = 1 := ((C51_simple_rate _ hf).1 [1] m hm).1
  obtain ⟨h1, h2, _⟩ := C59_data E _ m hB hf
  refine ⟨m, hm, hB, ?_, ?_⟩
  · rw [(h1 .apriori [0]).1, C53_loglik_gaussian E _ [1] m hm rfl hf [0] [5] (by rw [hnp]; rfl) rfl]
    simp [at']
  · rw [(h2 .observed [0]).1, C53_loglik_gaussian E _ [1] m hm rfl hf [0] [7] (by rw [hnp]; rfl) rfl]
    simp [at']
    norm_num

/-! ## C70: objective, gradient and Hessian -/

/-- C70. The objective is minus the log-likelihood, and raises where that raises. -/
theorem C70_objective (E : Ext) (m : Model) (e : Expectation) (d : Option Vec) (pars : Vec) :
    (∀ x, logpdf E m e d pars = .ok x → objective E m e d pars = .ok (-x)) ∧
      ∀ r, logpdf E m e d pars = .error r → objective E m e d pars = .error r := by
  have : objective E m e d pars = (logpdf E m e d pars).map fun x => -x := by
    unfold objective logpdf
    cases m.constraint with
    | none => simp only; cases m.main.logProb E pars (chosen m e d) <;> rfl
    | some c =>
      simp only
      cases m.main.logProb E pars ((chosen m e d).take m.data.length) with
      | error r => rfl
      | ok x =>
        simp only [ok_bind]
        cases constraintLogProb E pars c with
        | error r => rfl
        | ok y =>
          simp only [ok_bind, pure_ok, Except.map, Except.ok.injEq]
          ring
  rw [this]
  exact ⟨fun x hx => by rw [hx]; rfl, fun r hr => by rw [hr]; rfl⟩

theorem valueOf_objective (E : Ext) (m : Model) (e : Expectation) (d : Option Vec) :
    valueOf (objective E m e d) = fun pars => -valueOf (logpdf E m e d) pars := by
  funext pars
  obtain ⟨h1, h2⟩ := C70_objective E m e d pars
  unfold valueOf
  cases h : logpdf E m e d pars with
  | error r => rw [h2 r h]; simp
  | ok x => rw [h1 x h]

theorem partialDeriv_neg (f : Vec → ℝ) (i : ℕ) : partialDeriv (fun p => -f p) i = fun p => -partialDeriv f i p := by
  funext p
  unfold partialDeriv
  exact deriv.fun_neg

/-- C70. `value_and_grad` returns minus the log-likelihood and, for each parameter, minus the partial derivative of the
log-likelihood, in the order of the parameters. -/
theorem C70_gradient (E : Ext) (m : Model) (e : Expectation) (d : Option Vec) (pars : Vec) (x : ℝ)
    (hx : logpdf E m e d pars = .ok x) (L : Vec → ℝ) (hL : ∀ q y, logpdf E m e d q = .ok y → L q = y)
    (hL' : ∀ q r, logpdf E m e d q = .error r → L q = 0) :
    ∃ g, mathValueAndGrad E m e d pars = .ok (-x, g) ∧ g.length = pars.length ∧
      ∀ i < pars.length, ∀ D, HasDerivAt (fun t => L (pars.set i t)) D (at' pars i) → at' g i = -D := by
  have hv : L = valueOf (logpdf E m e d) := by
    funext q
    unfold valueOf
    cases h : logpdf E m e d q with
    | error r => exact hL' q r h
    | ok y => exact hL q y h
  refine ⟨(List.range pars.length).map fun i => partialDeriv (valueOf (objective E m e d)) i pars, ?_, by simp, ?_⟩
  · unfold mathValueAndGrad valueAndGrad
    rw [(C70_objective E m e d pars).1 x hx]
  · intro i hi D hD
    rw [at'_map _ hi, valueOf_objective, partialDeriv_neg, ← hv]
    unfold partialDeriv
    exact congrArg (fun z => -z) hD.deriv

/-- C70. The matrix of `hessian`, which the uncertainty of the POI is computed from, is the Hessian of the objective. -/
theorem C70_hessian (E : Ext) (m : Model) (e : Expectation) (d : Option Vec) (pars : Vec) :
    mathHessian E m e d pars = hessianOf (objective E m e d) pars := by
  obtain ⟨h1, h2⟩ := C70_objective E m e d pars
  unfold mathHessian hessianLogpdf hessianOf
  cases h : logpdf E m e d pars with
  | error r => rw [h2 r h]
  | ok x =>
    rw [h1 x h]
    simp only [List.map_map, Except.ok.injEq]
    apply List.map_congr_left
    intro i _
    simp only [Function.comp, List.map_map]
    apply List.map_congr_left
    intro j _
    simp only [Function.comp]
    rw [valueOf_objective, partialDeriv_neg, partialDeriv_neg]
    ring

/-- C70. The entries of that matrix are the second derivatives: if `G` is the derivative of the objective with respect to parameter `j` at
all points, and `D` the derivative of `G` with respect to parameter `i`, the entry `(i, j)` is `D`. -/
theorem C70_hessian_entries (E : Ext) (m : Model) (e : Expectation) (d : Option Vec) (pars : Vec) (x : ℝ)
    (hx : logpdf E m e d pars = .ok x) (i j : ℕ) (hi : i < pars.length) (hj : j < pars.length) (O G : Vec → ℝ) (D : ℝ)
    (hO : ∀ q y, objective E m e d q = .ok y → O q = y) (hO' : ∀ q r, objective E m e d q = .error r → O q = 0)
    (hG : ∀ q : Vec, q.length = pars.length → HasDerivAt (fun t => O (q.set j t)) (G q) (at' q j))
    (hD : HasDerivAt (fun t => G (pars.set i t)) D (at' pars i)) :
    ∃ H, mathHessian E m e d pars = .ok H ∧ H.length = pars.length ∧ at' (H.getD i []) j = D := by
  have hv : O = valueOf (objective E m e d) := by
    funext q
    unfold valueOf
    cases h : objective E m e d q with
    | error r => exact hO' q r h
    | ok y => exact hO q y h
  have hg : ∀ q : Vec, q.length = pars.length → partialDeriv (valueOf (objective E m e d)) j q = G q := by
    intro q hq
    rw [← hv]
    exact (hG q hq).deriv
  rw [C70_hessian]
  unfold hessianOf
  rw [(C70_objective E m e d pars).1 x hx]
  refine ⟨_, rfl, by simp, ?_⟩
  have e1 : ((List.range pars.length).map fun i => (List.range pars.length).map fun j =>
      partialDeriv (partialDeriv (valueOf (objective E m e d)) j) i pars).getD i [] = (List.range pars.length).map fun j =>
      partialDeriv (partialDeriv (valueOf (objective E m e d)) j) i pars := by
    simp [List.getD, hi]
  rw [e1, at'_map _ hj]
  have e2 : (fun t => partialDeriv (valueOf (objective E m e d)) j (pars.set i t)) = fun t => G (pars.set i t) := by
    funext t
    exact hg _ (by simp)
  unfold partialDeriv at e2 ⊢
  rw [e2]
  exact hD.deriv

/-- In the Gaussian model with background 5, observation 7 and width 1 the objective at `mu` is `(2 - mu)²/2` plus a constant. -/
theorem exGauss (E : Ext) : ∃ m, gaussian ⟨.array [1], [5], [7], none, 0, none⟩ [1] = .ok m ∧
    ∀ t : ℝ, logpdf E m .observed none [t] = .ok (stdLog (2 - t)) := by
  obtain ⟨m, hm, hB, _, hx⟩ := C59_differs E
  have hf : Fits ⟨.array [1], [5], [7], none, 0, none⟩ := ⟨rfl, rfl⟩
  have hnp : m.config.npar = 1 := ((C51_simple_rate _ hf).1 [1] m hm).1
  obtain ⟨_, h2, _⟩ := C59_data E _ m hB hf
  refine ⟨m, hm, fun t => ?_⟩
  rw [(h2 .observed [t]).1, C53_loglik_gaussian E _ [1] m hm rfl hf [t] [7] (by rw [hnp]; rfl) rfl]
  simp [at', signalAt]
  ring_nf

theorem stdLog_deriv (c t : ℝ) : HasDerivAt (fun t : ℝ => stdLog (c - t)) (c - t) t := by
  unfold stdLog
  have h := ((((hasDerivAt_id t).const_sub c).pow 2).neg.div_const 2).sub_const (Real.log (2 * Real.pi) / 2)
  have e : -((2 : ℕ) * (c - id t) ^ (2 - 1) * -1) / 2 = c - t := by simp
  rw [e] at h
  exact h

/-- There the gradient at `mu = 0` is `-2` and the Hessian is `1`. -/
example (E : Ext) : ∃ m v, gaussian ⟨.array [1], [5], [7], none, 0, none⟩ [1] = .ok m ∧
    mathValueAndGrad E m .observed none [0] = .ok (v, [-2]) ∧
    ∃ H, mathHessian E m .observed none [0] = .ok H ∧ H.length = 1 ∧ at' (H.getD 0 []) 0 = 1 := by
  obtain ⟨m, hm, hval⟩ := exGauss E
  obtain ⟨g, h3, h4, h5⟩ := C70_gradient E m .observed none [0] _ (hval 0) (valueOf (logpdf E m .observed none))
    (fun q y h => by simp [valueOf, h]) (fun q r h => by simp [valueOf, h])
  have h6 := h5 0 (by simp) 2 (by
    have hfun : (fun t => valueOf (logpdf E m .observed none) (([0] : Vec).set 0 t)) = fun t => stdLog (2 - t) := by
      funext t
      simp [valueOf, hval]
    rw [hfun]
    simpa [at'] using stdLog_deriv 2 0)
  refine ⟨m, -stdLog (2 - 0), hm, ?_, ?_⟩
  · rw [h3]
    match g, h4 with
    | [z], _ =>
      have : z = -2 := by simpa [at'] using h6
      rw [this]
  · refine C70_hessian_entries E m .observed none [0] _ (hval 0) 0 0 (by simp) (by simp) (valueOf (objective E m .observed none))
      (fun q => -(2 - at' q 0)) 1 (fun q y h => by simp [valueOf, h]) (fun q r h => by simp [valueOf, h]) (fun q hq => ?_) ?_
    · match q, hq with
      | [x], _ =>
        have hfun : (fun t => valueOf (objective E m .observed none) (([x] : Vec).set 0 t)) = fun t => -stdLog (2 - t) := by
          funext t
          rw [valueOf_objective]
          simp [valueOf, hval]
        rw [hfun]
        exact (stdLog_deriv 2 x).neg
    · have := (((hasDerivAt_id (0 : ℝ)).const_sub 2)).neg
      simpa [at', Pi.neg_def] using this

/-! ## C77: samples with auxiliary data -/

theorem mapM_error (pars : Vec) (l : List Pdf) (q : Pdf) (hq : q ∈ l) (hall : ∀ p ∈ l, (∃ v, p.sampleArgs pars = .ok v) ∨
    p.sampleArgs pars = .error .index) (h : q.sampleArgs pars = .error .index) : l.mapM (Pdf.sampleArgs pars) = .error .index := by
  induction l with
  | nil => simp at hq
  | cons p l ih =>
    rw [List.mapM_cons]
    rcases hall p (by simp) with ⟨v, hv⟩ | he
    · rw [hv, ok_bind]
      rcases List.mem_cons.mp hq with rfl | hq
      · rw [h] at hv; simp at hv
      · rw [ih hq fun p hp => hall p (by simp [hp])]
        rfl
    · rw [he]; rfl

/-- C77 fails. The constraint terms are given all parameters but the first, and each reads its own position in that vector, one too
far. The four simplified models with at least one parameter for signal uncertainties cannot be sampled with auxiliary
data: it raises an `IndexError` for every parameter vector. -/
theorem C77_modifiers_fails (a : Args) (m : Model) (bin : ℕ → ℝ → ℝ) (h : Simplified a m bin) (hf : Fits a) (ss : List Synth.Source)
    (hs : Sources a ss) (hk : 0 < sourceCount a.data.length ss) (pars : Vec) (hp : pars.length = m.config.npar) :
    sampler m pars true = .error .index := by
  have hr := rate_eq h hf hs pars hp
  obtain ⟨n, g, pdf, hm, hnn, hpos, hexp, _⟩ := h.shape hf
  obtain ⟨unc, c, hu, hc, h1, _, h3, hcfg, _, hmain⟩ := simplified_ok hm
  have hn := (C51_partition _ _ _ h hf ss hs).1
  have hup := uncPdfs_positions hf hu
  have hn' := (baseConfig_sizes hu hc).npar
  have hkk : uncCount unc = sourceCount a.data.length ss := by rw [hcfg] at hn; omega
  rw [hmain] at hr
  simp only [Main.rate] at hr
  unfold sampler
  rw [h3, hmain]
  simp only [Main.expected, hr, ok_bind, pure_ok, if_true, constraintSample]
  have hall : ∀ (p : Pdf) (q : Vec), (∃ v, p.sampleArgs q = .ok v) ∨ p.sampleArgs q = .error .index := by
    intro p q
    have : ∀ d : Domain, (∃ v, d.get q = .ok v) ∨ d.get q = .error .index := by
      intro d
      cases d with
      | slice s n => exact .inl ⟨_, rfl⟩
      | index i =>
        simp only [Domain.get, item]
        cases q[i]? <;> simp
    cases p with
    | normal _ _ d => exact this d
    | mvn _ _ d => exact this d
  have hlast : Pdf.normal [0] [1] (.index (1 + a.nsp + a.data.length + sourceCount a.data.length ss - 1)) ∈ uncPdfs unc := by
    have hmem : 1 + a.nsp + a.data.length + sourceCount a.data.length ss - 1 ∈ (uncPdfs unc).flatMap Pdf.positions := by
      rw [hup, hkk, List.mem_range'_1]
      omega
    obtain ⟨p, hp1, hp2⟩ := List.mem_flatMap.mp hmem
    have hp1' := hp1
    unfold uncPdfs at hp1
    obtain ⟨i, _, rfl⟩ := List.mem_map.mp hp1
    simp only [Pdf.positions, Domain.positions, List.mem_cons, List.not_mem_nil, or_false] at hp2
    rw [hp2]
    exact hp1'
  rw [mapM_error (pars.drop 1) _ _ (List.mem_cons_of_mem _ hlast) (fun p _ => hall p _)]
  · rfl
  · simp only [Pdf.sampleArgs, Domain.get, item]
    rw [List.getElem?_eq_none (by rw [List.length_drop, hp, hn])]

/-- The example has a normalisation and a shape uncertainty, so it cannot be sampled. -/
example : ∃ m bin, Simplified exArgs m bin ∧ 0 < sourceCount exArgs.data.length Synth.exSources := by
  obtain ⟨m, hm⟩ := exBuilt
  exact ⟨m, _, .uncorrelated [3, 4] hm rfl, by simp [sourceCount, Synth.exSources, exArgs]⟩

/-- C77, where it holds: without signal uncertainties, or without auxiliary data, sampling reads the rates and succeeds. Missing: models with
signal uncertainties, where it fails; the distribution of the random numbers is not modelled. -/
theorem C77_sampler_partial (a : Args) (m : Model) (bin : ℕ → ℝ → ℝ) (h : Simplified a m bin) (hf : Fits a) (ss : List Synth.Source)
    (hs : Sources a ss) (pars : Vec) (hp : pars.length = m.config.npar) (aux : Bool) (hk : aux = true → a.modifiers = none) :
    ∃ r s, sampler m pars aux = .ok (r, s) ∧ expectedData m pars false = .ok r ∧ s.length = if aux then 1 else 0 := by
  have hr := rate_eq h hf hs pars hp
  obtain ⟨n, g, pdf, hm, hnn, hpos, hexp, _⟩ := h.shape hf
  obtain ⟨unc, c, hu, hc, h1, _, h3, hcfg, _, hmain⟩ := simplified_ok hm
  rw [hmain] at hr
  simp only [Main.rate] at hr
  unfold sampler expectedData
  rw [h3, hmain]
  simp only [Main.expected, hr, ok_bind, pure_ok]
  cases aux with
  | false => exact ⟨_, _, rfl, rfl, rfl⟩
  | true =>
    have hun : unc = none := by
      rcases signalUncertainty_cases hu with ⟨_, h⟩ | ⟨ms, _, _, hm, _⟩
      · exact h
      · rw [hk rfl] at hm; simp at hm
    subst hun
    have : ∃ v, pdf.sampleArgs (pars.drop 1) = .ok v := by
      cases h with
      | uncorrelated => obtain ⟨_, _, _, _, _, _, h3', _⟩ := simplified_ok (by assumption : uncorrelated a _ = .ok m)
                        rw [h3] at h3'; simp only [Option.some.injEq, List.cons.injEq] at h3'; rw [h3'.1]; exact ⟨_, rfl⟩
      | correlated => obtain ⟨_, _, _, _, _, _, h3', _⟩ := simplified_ok (by assumption : correlated a _ = .ok m)
                      rw [h3] at h3'; simp only [Option.some.injEq, List.cons.injEq] at h3'; rw [h3'.1]; exact ⟨_, rfl⟩
      | thirdMoment => obtain ⟨_, _, _, _, _, _, h3', _⟩ := simplified_ok (by assumption : thirdMoment a _ _ _ _ = .ok m)
                       rw [h3] at h3'; simp only [Option.some.injEq, List.cons.injEq] at h3'; rw [h3'.1]; exact ⟨_, rfl⟩
      | effectiveSigma corr env h w hw =>
        obtain ⟨_, _, n', g', _, hsimp⟩ := (WithMatrix.effectiveSigma corr env h w hw).shape hf
        obtain ⟨_, _, _, _, _, _, h3', _⟩ := simplified_ok hsimp
        rw [h3] at h3'; simp only [Option.some.injEq, List.cons.injEq] at h3'; rw [h3'.1]; exact ⟨_, rfl⟩
    obtain ⟨v, hv⟩ := this
    refine ⟨_, [v], ?_, rfl, rfl⟩
    simp only [if_true, uncPdfs, Option.map_none, Option.getD_none, List.map_nil, constraintSample, List.mapM_cons, hv, ok_bind,
      List.mapM_nil, pure_ok]

example : ∃ m, uncorrelated ⟨.array [1, 2], [4, 5], [4, 6], none, 0, none⟩ [2, 5] = .ok m :=
  simplified_accepts _ ⟨rfl, rfl⟩ [] (.inl ⟨rfl, rfl⟩) rfl _ _ _

end Verif.Backend
