import Verif.Interface.RatioSpec
import Verif.Interface.Fits

/-!
# Properties C98-C102: the sampler at fixed POI, `chi2` and `pull`
-/

namespace Verif.Interface
open Verif.Py F Verif.Config Verif.Optimizer
open Verif.Backend (Expectation)
open Classical

/-! ## C98: the sampler -/

/-- C98: the toys are drawn at the very parameters that `likelihood` reports for the same POI: same result of the fit, same exceptions,
same state afterwards. With an integer `size` there are that many, with anything else a function is returned. A backend without a
sampler leads to `MethodNotAvailable`, after the fit. -/
theorem C98_sampler (S : Solver) (B : Backend) (hB : Fallback B) (poi : Poi) (e : Expectation) (g : Bool) (b : Option (List Bound))
    (w : World) :
    (∀ err, (likelihood S B poi e true none true true g b w).1 = .error err →
      ∀ size, (fixedPoiSampler S B poi e size g b w).1 = .error err) ∧
    (∀ l x, (likelihood S B poi e true none true true g b w).1 = .ok (.pair l x) →
      (∀ s, B.sampler x = .ok s →
        (∀ n, (fixedPoiSampler S B poi e (.int n) g b w).1 = .ok (.data (s n)) ∧ (Counts s → (s n).length = n)) ∧
        (fixedPoiSampler S B poi e .other g b w).1 = .ok (.function s)) ∧
      (B.sampler x = .error .notImplemented → ∀ size, (fixedPoiSampler S B poi e size g b w).1 = .error .method) ∧
      (∀ err, err ≠ .notImplemented → B.sampler x = .error err →
        ∀ size, (fixedPoiSampler S B poi e size g b w).1 = .error err)) ∧
    ∀ size, (fixedPoiSampler S B poi e size g b w).2 = (likelihood S B poi e true none true true g b w).2 := by
  unfold likelihood fixedPoiSampler
  rw [hB.negLL]
  cases hp : profile S B poi e none true g b w with
  | mk r w1 =>
  cases r with
  | error err =>
    refine ⟨fun err' h size => ?_, fun l x h => ?_, fun size => rfl⟩
    · simpa [Except.map] using h
    · simp [Except.map] at h
  | ok r =>
    obtain ⟨lp, x0⟩ := r
    refine ⟨fun err' h => by simp [Except.map] at h, fun l x h => ?_, fun size => ?_⟩
    · simp only [Except.map, if_true, Except.ok.injEq, Out.pair.injEq] at h
      obtain ⟨-, rfl⟩ := h
      refine ⟨fun s hs => ⟨fun n => ⟨by simp only [hs], fun hc => hc n⟩, by simp only [hs]⟩, fun hs size => by simp only [hs],
        fun err he hs size => ?_⟩
      simp only [hs]
    · dsimp only
      cases hs : B.sampler x0 with
      | error err => cases err <;> rfl
      | ok s => cases size <;> rfl

/-- C98: so the toys belong to the requested POI: they are drawn at a point whose POI is the requested number, up to the tolerance of the
minimiser. -/
theorem C98_poi {tol : ℝ} (htol : 0 ≤ tol) {S : Solver} (hS : Honest tol S) (B : Backend) (v : ℝ)
    (e : Expectation) (n : ℕ) (g : Bool) (b : Option (List Bound)) (w : World) (hinit : ∀ l, w.init = some l → l.length = w.start.length) (k : ℕ)
    (hk : slot w.start.length (B.config true).poiIndex = some k) (toys : List Data)
    (h : (fixedPoiSampler S B (.float v) e (.int n) g b w).1 = .ok (.data toys)) :
    ∃ x s y, B.sampler x = .ok s ∧ toys = s n ∧ x.length = w.start.length ∧ x[k]? = some y ∧ |y - v| ≤ tol := by
  have hN : (w.init.getD w.start).length = w.start.length := by
    cases hi : w.init with
    | none => rfl
    | some l => exact hinit l hi
  unfold fixedPoiSampler at h
  cases hq : profile S B (.float v) e none true g b w with
  | mk r w2 =>
  rw [hq] at h
  cases r with
  | error err => simp at h
  | ok r =>
  obtain ⟨lp, x⟩ := r
  dsimp only at h
  cases hs : B.sampler x with
  | error err => rw [hs] at h; cases err <;> simp at h
  | ok s =>
  rw [hs] at h
  simp only [Except.ok.injEq, Toys.data.injEq] at h
  have hq1 : (profile S B (.float v) e none true g b w).1 = .ok (lp, x) := by rw [hq]
  suffices hx : x.length = w.start.length ∧ ∃ y, x[k]? = some y ∧ |y - v| ≤ tol by
    obtain ⟨h1, y, h2, h3⟩ := hx
    exact ⟨x, s, y, hs, h.symm, h1, h2, h3⟩
  unfold profile at hq1
  cases hp : prepareForFit B e none true g w with
  | mk r w1 =>
  rw [hp] at hq1
  cases r with
  | error err => simp at hq1
  | ok p =>
  obtain ⟨h1, h2, -⟩ := prepare_ok hp
  have hpi : p.config.init = w.start := by rw [h2]; rfl
  have hpo : p.config.poiIndex = (B.config true).poiIndex := by rw [h2]; rfl
  have hwi : w1.init = w.init := by rw [h1]
  simp only at hq1
  split at hq1
  · rename_i v' hone heq
    simp only [Poi.float.injEq] at heq
    subst heq
    simp only [Except.ok.injEq, Prod.mk.injEq] at hq1
    obtain ⟨-, rfl⟩ := hq1
    have hw1 : w.start.length = 1 := by rw [← hpi]; exact hone
    have hk0 : k = 0 := by have := slot_lt hk; omega
    subst hk0
    exact ⟨by rw [hw1]; rfl, v, rfl, by simpa using htol⟩
  · simp only [resolvePoi] at hq1
    obtain ⟨q1, q2, k', y, q3, q4, q5⟩ := runFit_value hS hq1
    have hxl : x.length = w.start.length := by rw [q2, hwi, hpi, hN]
    rw [hxl, hpo, hk] at q3
    simp only [Option.some.injEq] at q3
    subst q3
    exact ⟨hxl, y, q4, q5⟩

/-- A backend with a sampler. -/
noncomputable def exSampler : Backend := { exB with sampler := fun x => .ok fun n => List.replicate n x }

example : Fallback exSampler ∧ Honest 0 stay ∧
    (fixedPoiSampler stay exSampler (.float 2) .observed (.int 3) true none exW).1 = .ok (.data [[2, 1], [2, 1], [2, 1]]) := by
  refine ⟨⟨fun _ _ _ _ => rfl, fun _ _ _ _ => rfl, fun _ _ _ => rfl, fun _ _ _ => rfl⟩, stay_honest, ?_⟩
  simp [fixedPoiSampler, profile, prepareForFit, getObjective, exSampler, exB, config, ModelConfig.npar, exW, resolvePoi, runFit, fit,
    fitBounds, fixedPoiBounds, slot, adjust, lt, Except.map, FixedPoi.pairs, setFixed, setSuggested, Except.mapError, stay]

/-! ## Lemmas -/

/-- The answer of `chi2` for a single point. -/
theorem chi2_single {σ : Type} {I : σ → Prop} {Q : Queries σ} (hQ : Stateless I Q) {t : Test} {p : Poi} (ht : Denotes t p) (r : F → F)
    (den : Option Poi) (n : Bool) (s s0 : σ) (hs : I s) (hs0 : I s0) (c : Chi) (h : (chi2 r Q t den n s).1 = .ok c) :
    ∃ d l, (denominator Q n den s0).1 = .ok d ∧ (Q.nll p s0).1 = .ok l ∧ c = .one (ratio l d) := by
  have hd : ∀ s s', I s → I s' → (denominator Q n den s).1 = (denominator Q n den s').1 ∧ I (denominator Q n den s).2 := by
    intro s s' hs hs'
    unfold denominator
    cases den with
    | some p => exact ⟨hQ.fixed p s s' hs hs', hQ.fixed_keeps p s hs⟩
    | none =>
      have h1 := hQ.best n s s' hs hs'
      have h2 := hQ.best_keeps n s hs
      dsimp only
      cases h3 : Q.best n s with
      | mk a s1 =>
      cases h4 : Q.best n s' with
      | mk b s2 =>
      rw [h3, h4] at h1
      rw [h3] at h2
      dsimp only at h1 h2
      subst h1
      cases a <;> exact ⟨rfl, h2⟩
  have hsingle : ∀ q s1 d, I s1 → (single d (Q.nll q s1)).1 = .ok c → ∃ l, (Q.nll q s0).1 = .ok l ∧ c = .one (ratio l d) := by
    intro q s1 d hs1 h
    unfold single at h
    rw [← hQ.nll q s1 s0 hs1 hs0]
    cases hq : (Q.nll q s1).1 with
    | error e => rw [hq] at h; simp [Except.map] at h
    | ok l =>
      rw [hq] at h
      simp only [Except.map, Except.ok.injEq] at h
      exact ⟨l, rfl, h.symm⟩
  obtain ⟨h1, h2⟩ := hd s s0 hs hs0
  unfold chi2 at h
  cases h3 : denominator Q n den s with
  | mk a s1 =>
  rw [h3] at h h1 h2
  cases a with
  | error e => simp at h
  | ok d =>
  dsimp only at h h1 h2
  refine ⟨d, ?_⟩
  suffices ∃ l, (Q.nll p s0).1 = .ok l ∧ c = .one (ratio l d) by
    obtain ⟨l, h4, h5⟩ := this
    exact ⟨l, h1.symm, h4, h5⟩
  cases t with
  | float v =>
    cases p with
    | float u => simp only [Denotes] at ht; subst ht; exact hsingle _ _ _ h2 h
    | int _ => simp [Denotes] at ht
    | dict _ => simp [Denotes] at ht
  | int v =>
    cases p with
    | int u => simp only [Denotes] at ht; subst ht; exact hsingle _ _ _ h2 h
    | float _ => simp [Denotes] at ht
    | dict _ => simp [Denotes] at ht
  | iter l => cases p <;> simp [Denotes] at ht
  | dict t =>
    cases p with
    | int _ => simp [Denotes] at ht
    | float _ => simp [Denotes] at ht
    | dict l =>
      simp only [Denotes] at ht
      subst ht
      have h4 : scanList (l.map fun x => (x.1, Entry.number x.2)) = [] := by
        simp [scanList]
      have h5 : numbers (l.map fun x => (x.1, Entry.number x.2)) = .dict l := by
        simp [numbers, List.filterMap_map, Function.comp_def]
      simp only [h4, h5] at h
      exact hsingle _ _ _ h2 h

theorem ratio_neg (a b : F) : ratio a b = neg (ratio b a) := by
  cases a <;> cases b <;> simp [ratio, sub, add, neg, scale]
  ring

/-! ## C99: comparison of two points -/

/-- C99: exchanging the two points changes the sign, so a point compared with itself gives zero. -/
theorem C99_antisymmetric {σ : Type} {I : σ → Prop} {Q : Queries σ} (hQ : Stateless I Q) (hk : SameKeywords Q) {ta tb : Test} {a b : Poi}
    (ha : Denotes ta a) (hb : Denotes tb b) (r : F → F) (n m : Bool) (s s' : σ) (hs : I s) (hs' : I s') (x y : F)
    (h : (chi2 r Q ta (some b) n s).1 = .ok (.one x)) (h' : (chi2 r Q tb (some a) m s').1 = .ok (.one y)) :
    x = neg y := by
  obtain ⟨d, l, h1, h2, h3⟩ := chi2_single hQ ha r _ n s s hs hs _ h
  obtain ⟨d', l', h4, h5, h6⟩ := chi2_single hQ hb r _ m s' s hs' hs _ h'
  simp only [denominator] at h1 h4
  rw [hk, h4] at h2
  rw [hk, h1] at h5
  simp only [Except.ok.injEq] at h2 h5
  subst h2 h5
  simp only [Chi.one.injEq] at h3 h6
  rw [h3, h6, ratio_neg]

/-- C99: the comparison with the best fit is the comparison with another point plus that of the other point with the best fit. -/
theorem C99_additive {σ : Type} {I : σ → Prop} {Q : Queries σ} (hQ : Stateless I Q) (hk : SameKeywords Q) {ta tb : Test} {a b : Poi}
    (ha : Denotes ta a) (hb : Denotes tb b) (r : F → F) (n m : Bool) (s s' s'' : σ) (hs : I s) (hs' : I s') (hs'' : I s'') (x y z : F)
    (h : (chi2 r Q ta none n s).1 = .ok (.one x)) (h' : (chi2 r Q tb none n s').1 = .ok (.one y))
    (h'' : (chi2 r Q ta (some b) m s'').1 = .ok (.one z)) (hy : ∃ v, y = fin v) : x = add z y := by
  obtain ⟨d, l, h1, h2, h3⟩ := chi2_single hQ ha r _ n s s hs hs _ h
  obtain ⟨d', l', h4, h5, h6⟩ := chi2_single hQ hb r _ n s' s hs' hs _ h'
  obtain ⟨d'', l'', h7, h8, h9⟩ := chi2_single hQ ha r _ m s'' s hs'' hs _ h''
  rw [h1] at h4
  rw [h2] at h8
  simp only [denominator] at h7
  rw [hk, h7] at h5
  simp only [Except.ok.injEq, Chi.one.injEq] at h4 h8 h5 h3 h6 h9
  subst h4 h8 h5 h3 h6 h9
  obtain ⟨v, hv⟩ := hy
  cases d <;> cases d'' <;> simp [ratio, sub, add, neg, scale] at hv ⊢
  cases l <;> simp [add, scale]
  ring

/-- A model without state whose negative log-likelihood is `x ^ 2` for numbers. -/
noncomputable def exQ : Queries Unit where
  nll p s := (match p with
    | .float v => .ok (fin (v ^ 2))
    | .int n => .ok (fin ((n : ℝ) ^ 2))
    | .dict l => .ok (fin ((l.map Prod.snd).sum ^ 2)), s)
  fixed p s := (match p with
    | .float v => .ok (fin (v ^ 2))
    | .int n => .ok (fin ((n : ℝ) ^ 2))
    | .dict l => .ok (fin ((l.map Prod.snd).sum ^ 2)), s)
  best _ s := (.ok (.one 0, fin 0), s)

theorem exQ_stateless : Stateless (fun _ => True) exQ := by
  constructor <;> intros <;> first | rfl | trivial

example : Stateless (fun _ => True) exQ ∧ SameKeywords exQ ∧ (chi2 id exQ (.float 2) (some (.int 1)) true ()).1 = .ok (.one (fin 6)) ∧
    (chi2 id exQ (.int 1) (some (.float 2)) true ()).1 = .ok (.one (fin (-6))) ∧
    (chi2 id exQ (.float 2) none true ()).1 = .ok (.one (fin 8)) ∧ (chi2 id exQ (.int 1) none true ()).1 = .ok (.one (fin 2)) := by
  refine ⟨exQ_stateless, rfl, ?_, ?_, ?_, ?_⟩ <;>
    norm_num [chi2, exQ, denominator, single, ratio, sub, add, neg, scale, Except.map]

end Verif.Interface
