import Verif.Chain.Model
import Verif.Hypotest.Gaussian

/-!
# Fits of a model whose only parameter is the signal strength
-/

namespace Verif.Chain
open Verif.Py F Verif.Config Verif.Optimizer Verif.Hypotest
open Verif.Interface (MuHat Data Toys World Size Plain Solver Candidate Allowed InBounds perfect)
open Verif.Stats (Expect Calc Levels)
open Classical

/-- Contract of a minimiser that does not give up: if there is a smallest value inside bounds and constraints, there is a result. -/
def Finds (S : Solver) : Prop :=
  ∀ f g cs poi init mask b, mask.length ≤ init.length → (∃ x, Candidate cs init mask b x ∧ ∀ x', Candidate cs init mask b x' → f x' ≠ nan →
    le (f x) (f x')) → ∃ r, S f g cs poi init mask b = .ok r

theorem perfect_finds : Finds perfect := by
  intro f g cs poi init mask b hm hx
  unfold perfect
  rw [dif_pos ⟨hm, hx⟩]
  exact ⟨_, rfl⟩

/-- The signal strength, between `lo` (or zero) and 10, is the only parameter. -/
structure Single (B : Interface.Backend) (lo : ℝ) : Prop where
  usual : Usual B 1 0
  bounds : ∀ n, (B.config n).bounds = [(some (fin (if n then lo else 0)), some (fin 10))]
  minimum : ∀ n, (B.config n).minimumPoi = fin lo
  poi : ∀ n, (B.config n).poiIndex = 0
  constraints : B.constraints = []
  total : ∀ g e d, ∃ f g', Interface.getObjective B e d g = .ok (f, g')

theorem Single.objective {B : Interface.Backend} {lo : ℝ} (hB : Single B lo) {g e d f g'} (h : Interface.getObjective B e d g = .ok (f, g')) (x : List ℝ) :
    f x = neg (B.logpdf e d x) := by
  unfold Interface.getObjective at h
  split at h
  · rename_i f' hf
    simp only [Except.ok.injEq, Prod.mk.injEq] at h
    exact h.1 ▸ hB.usual.consistent _ _ _ _ hf x
  · split at h
    · rename_i f' hf
      simp only [Except.ok.injEq, Prod.mk.injEq] at h
      exact h.1 ▸ hB.usual.consistent _ _ _ _ hf x
    · simp at h
  · simp at h

/-- `x` is where `h` is largest between `lo` and 10, and nowhere else. -/
def Best (h : ℝ → ℝ) (lo x : ℝ) : Prop := lo ≤ x ∧ x ≤ 10 ∧ ∀ y, lo ≤ y → y ≤ 10 → h y ≤ h x ∧ (h y = h x → y = x)

variable {S : Solver} (hS : Exact S) (hT : Finds S)
include hS hT

theorem solver_best {h : ℝ → ℝ} {lo x : ℝ} (hx : Best h lo x) (f : List ℝ → F) (hf : ∀ y, f [y] = fin (-(h y))) (g : Bool) (s : ℝ) :
    S f g [] 0 [s] [false] [(some (fin lo), some (fin 10))] = .ok (fin (-(h x)), [x]) := by
  obtain ⟨⟨v, z⟩, hz⟩ := hT f g [] 0 [s] [false] [(some (fin lo), some (fin 10))] (by simp) ⟨[x], (candidate_one (by simp)).mpr ⟨hx.1, hx.2.1⟩, by
    intro x' hx' _
    obtain ⟨y, rfl⟩ := List.length_eq_one_iff.mp hx'.1
    have := (candidate_one (by simp)).mp hx'
    rw [hf, hf]
    have := (hx.2.2 y this.1 this.2).1
    simpa [le] using this⟩
  have h1 := (hS.honest.keeps _ _ _ _ _ _ _ _ _ hz).1
  obtain ⟨y, rfl⟩ := List.length_eq_one_iff.mp (hS.honest.length _ _ _ _ _ _ _ _ _ hz)
  have h2 := hS.inside _ _ _ _ _ _ _ _ _ hz
  have hy := (candidate_one (s := s) (lo := lo) (y := y) (f := false) (by simp)).mp ⟨rfl, by intro k hk; rcases k with _ | k <;> simp at hk, h2, by intro c hc; simp at hc⟩
  have h3 := hS.optimal _ _ _ _ _ _ _ _ _ hz [x] rfl (by intro k hk; rcases k with _ | k <;> simp at hk)
    ((candidate_one (s := s) (f := false) (by simp)).mpr ⟨hx.1, hx.2.1⟩).2.2.1 (by intro c hc; simp at hc) (by rw [hf]; simp)
  rw [hf, hf] at h3
  have h4 := hx.2.2 y hy.1 hy.2
  have h5 : h x ≤ h y := by simpa [le] using h3
  have := h4.2 (le_antisymm h4.1 h5)
  subst this
  rw [hz, h1, hf]

theorem solver_fixed {s : ℝ} {b : Bound} (hb : Allowed b s) (f : List ℝ → F) (hf : f [s] ≠ nan) (g : Bool) : S f g [] 0 [s] [true] [b] = .ok (f [s], [s]) := by
  have hin : InBounds [b] [s] := by
    intro k b' z hb' hz
    rcases k with _ | k
    · simp only [List.getElem?_cons_zero, Option.some.injEq] at hb' hz
      subst hb' hz
      exact hb
    · simp at hb'
  have huniq : ∀ x', Candidate [] [s] [true] [b] x' → x' = [s] := by
    intro x' hx'
    obtain ⟨y, rfl⟩ := List.length_eq_one_iff.mp hx'.1
    have := hx'.2.1 0 rfl
    simpa using this
  obtain ⟨⟨v, z⟩, hz⟩ := hT f g [] 0 [s] [true] [b] (by simp) ⟨[s], ⟨rfl, fun _ _ => rfl, hin, by intro c hc; simp at hc⟩, by
    intro x' hx' hn
    rw [huniq x' hx']
    exact Interface.le_self hf⟩
  obtain ⟨h1, h2⟩ := hS.honest.keeps _ _ _ _ _ _ _ _ _ hz
  obtain ⟨y, rfl⟩ := List.length_eq_one_iff.mp (hS.honest.length _ _ _ _ _ _ _ _ _ hz)
  obtain ⟨a, c, h3, h4, h5⟩ := h2 0 rfl
  simp only [List.getElem?_cons_zero, Option.some.injEq] at h3 h4
  have : y = s := by
    have := abs_nonpos_iff.mp h5
    rw [← h3, ← h4] at this
    linarith
  subst this
  rw [hz, h1]

variable {B : Interface.Backend} {lo : ℝ} (hB : Single B lo)
include hB

theorem single_best {e : Backend.Expectation} {n : Bool} {d : Option Data} {h : ℝ → ℝ} (hl : ∀ y, B.logpdf e d [y] = fin (h y)) {x : ℝ}
    (hx : Best h (if n then lo else 0) x) (g : Bool) (w : World) (hw : Plain 1 w) :
    (Interface.maximize S B true e n d none none g none w).1 = .ok (.one x, fin (-(h x))) := by
  obtain ⟨ws, wi, wc⟩ := w
  obtain ⟨h1, h2, h3⟩ := hw
  dsimp only at h1 h2 h3
  subst h1 h2
  obtain ⟨s, rfl⟩ := List.length_eq_one_iff.mp h3
  obtain ⟨f, g', ho⟩ := hB.total g e d
  have hf := hB.objective ho
  have hp := solver_best hS hT hx f (fun y => by rw [hf, hl]; rfl) g' s
  have hm := hB.usual.fallback.minNegLL e n d none
  have hc := hB.constraints
  have hb' := hB.bounds n
  have hfi := hB.usual.fixed n
  have hi := hB.poi
  simp only [Interface.maximize, hm, Interface.resolveFixed, Interface.prepareForFit, ho, Interface.runFit, fit, fitBounds, fixedPoiBounds,
    Interface.config, Option.map_none, Option.getD_none, List.nil_append, Except.map, FixedPoi.pairs]
  simp only [hc, hb', hfi, hi, List.length_singleton, List.replicate_one, setFixed, Option.getD_none, setSuggested, hp, Except.mapError]
  simp [Interface.estimates, Interface.readKey, resolveKey, Interface.item, slot, Except.map, Interface.scaleOut, neg, hl]

omit hS hT in
theorem single_likelihood {e : Backend.Expectation} {d : Option Data} {h : ℝ → ℝ} (hl : ∀ y, B.logpdf e d [y] = fin (h y)) (v : ℝ) (n g : Bool) (w : World)
    (hw : Plain 1 w) : (Interface.likelihood S B (.float v) e true d false n g none w).1 = .ok (.value (fin (-(h v)))) := by
  obtain ⟨ws, wi, wc⟩ := w
  obtain ⟨h1, h2, h3⟩ := hw
  dsimp only at h3
  obtain ⟨f, g', ho⟩ := hB.total g e d
  have hm := hB.usual.fallback.negLL (.float v) e d false
  simp only [Interface.likelihood, hm, Interface.profile, Interface.prepareForFit, ho, Interface.config, ModelConfig.npar, h3]
  simp [Except.map, Interface.scaleOut, neg, hl]

theorem single_asimov {e : Backend.Expectation} {h : ℝ → ℝ} (hl : ∀ y, B.logpdf e none [y] = fin (h y)) (ts : String) (g : Bool) (w : World)
    (hw : Plain 1 w) : (Interface.generateAsimov S B e ts g none w).1 = B.expectedData [if ts = "q0" then 1 else 0] := by
  obtain ⟨ws, wi, wc⟩ := w
  obtain ⟨h1, h2, h3⟩ := hw
  dsimp only at h1 h2 h3
  subst h1 h2
  obtain ⟨s, rfl⟩ := List.length_eq_one_iff.mp h3
  obtain ⟨n, hn⟩ : ∃ n, n = Interface.mayBeNegative ts := ⟨_, rfl⟩
  obtain ⟨z, hz⟩ : ∃ z : ℝ, z = if ts = "q0" then 1 else 0 := ⟨_, rfl⟩
  have hz0 : 0 ≤ z := by rw [hz]; split <;> norm_num
  obtain ⟨f, b, ho⟩ := hB.total g e none
  have hf := hB.objective ho
  have hb : Allowed (adjust (fin lo) (fun v low => pyMax (fin (v + 1)) low) (some (fin (if n then lo else 0)), some (fin 10)) z) z :=
    Interface.adjust_allowed (Or.inr ⟨rfl, rfl⟩) (Or.inl hz0)
  have hp := solver_fixed hS hT hb f (by rw [hf, hl]; simp [neg]) b
  rw [← hz]
  simp only [Interface.generateAsimov, Interface.prepareForFit, ho, Interface.runFit, fit, fitBounds, fixedPoiBounds, ← hn, ← hz,
    Interface.config, Option.map_none, Option.getD_none, List.nil_append, Except.map, FixedPoi.pairs]
  have hs : slot 1 0 = some 0 := rfl
  simp only [hB.constraints, hB.bounds n, hB.usual.fixed n, hB.poi, hB.minimum, List.length_singleton, List.replicate_one, setFixed, Option.getD_none, setSuggested, hs, List.modify_cons,
    List.set_cons_zero, if_true, Except.mapError, hp]

/-- The level of a model with one parameter: that of the likelihood of the data, `h`, and of the likelihood of the expected data without signal, `hA`. -/
theorem single_levels {e : Expect} {negative : Bool} {D : Data} {h hA : ℝ → ℝ} (hl : ∀ y, B.logpdf (expectation e) none [y] = fin (h y))
    (hlA : ∀ y, B.logpdf (expectation e) (some D) [y] = fin (hA y)) (hD : B.expectedData [0] = .ok D) {x xA : ℝ}
    (hx : Best h (if negative then lo else 0) x) (hxA : Best hA (if negative then lo else 0) xA) {mu : Mu} {v : ℝ} (hmu : mu.Is v) (hv : 0 ≤ v)
    (g : Bool) (ntoys : Size) (available : Calc → Bool) (percentile : List F → F → F) (w : World) (hw : Plain 1 w) :
    (exclusion (modelMethods S B g none ntoys available percentile) mu e negative .asymptotic w).1 =
      (Stats.exclusionConfidenceLevel ⟨fitOf v x (fin (-(h x))) (fin (-(h v))) (fin (-(h 0))),
        fitOf v xA (fin (-(hA xA))) (fin (-(hA v))) (fin (-(hA 0))), [], [], percentile, available⟩ (fin v) e negative .asymptotic).mapError .stats := by
  have h4 := single_asimov hS hT hB hl (if negative then "q" else "qtilde") g w hw
  have hq : (if (if negative then "q" else "qtilde") = "q0" then (1 : ℝ) else 0) = 0 := by cases negative <;> simp
  rw [hq, hD] at h4
  obtain ⟨m, l, mA, lA, hb, hbA, -, -, -, -, -, -, -, hE⟩ := C107_profile hS B 1 0 hB.usual g ntoys available percentile mu v hmu hv e negative w hw
    _ _ _ _ _ _ _ (single_best hS hT hB hl hx g w hw) (single_likelihood hB hl v true g w hw) (single_likelihood hB hl 0 true g w hw) h4
    (single_best hS hT hB hlA hxA g w hw) (single_likelihood hB hlA v true g w hw) (single_likelihood hB hlA 0 true g w hw)
  simp only [Prod.mk.injEq, MuHat.one.injEq] at hb hbA
  obtain ⟨rfl, rfl⟩ := hb
  obtain ⟨rfl, rfl⟩ := hbA
  exact (hE w hw).1

/-- The significance of a model with one parameter. -/
theorem single_significance {e : Expect} {D : Data} {h hA : ℝ → ℝ} (hl : ∀ y, B.logpdf (expectation e) none [y] = fin (h y))
    (hlA : ∀ y, B.logpdf (expectation e) (some D) [y] = fin (hA y)) (hD : B.expectedData [1] = .ok D) {x xA : ℝ}
    (hx : Best h 0 x) (hxA : Best hA 0 xA) (g : Bool) (ntoys : Size) (available : Calc → Bool) (percentile : List F → F → F) (w : World) (hw : Plain 1 w) :
    (significance (modelMethods S B g none ntoys available percentile) e w).1 =
      .ok (Stats.discovery (Real.sqrt (2 * (hA xA - hA 0))) (Real.sqrt (2 * (h x - h 0)))) := by
  obtain ⟨hlik, hmax, hasi⟩ := model_ends hS hB.usual g ntoys available percentile e w hw
  have h4 := single_asimov hS hT hB hl "q0" g w hw
  rw [if_pos rfl, hD] at h4
  obtain ⟨hlikA, hmaxA⟩ := hasi "q0" _ h4
  have hneg : Interface.mayBeNegative "q0" = false := by simp [Interface.mayBeNegative]
  have hb := hmax none false _ (single_best hS hT hB hl (n := false) (by simpa using hx) g w hw)
  have hl0 := hlik none 0 _ (single_likelihood hB hl 0 true g w hw)
  have hbA := hmaxA _ (by rw [hneg]; exact single_best hS hT hB hlA (n := false) (by simpa using hxA) g w hw)
  have hlA0 := hlikA 0 _ (single_likelihood hB hlA 0 true g w hw)
  have hsig := (C107_significance _ ⟨w, hw⟩ e _ _ _ ⟨hb, hl0, hl0⟩ _ _ _ ⟨hbA, hlA0, hlA0⟩ w hw).1
  rw [hsig]
  have key : ∀ (k : ℝ → ℝ) (z : ℝ), Best k 0 z → 0 ≤ 2 * (k z - k 0) ∧ (fitOf 0 z (fin (-(k z))) (fin (-(k 0))) (fin (-(k 0)))).stat Stats.q0 (fin 0) =
      fin (2 * (k z - k 0)) := by
    intro k z hz
    have h0 := (hz.2.2 0 le_rfl (by norm_num)).1
    refine ⟨by linarith, ?_⟩
    simp only [Stats.Fit.stat, Stats.q0, fitOf, lt, not_lt.mpr hz.1, if_false, if_true, neg, sub, add, scale, clip0]
    exact Stats.clip_eq (by ring) (by linarith)
  obtain ⟨k1, k2⟩ := key h x hx
  obtain ⟨k3, k4⟩ := key hA xA hxA
  rw [Stats.C11_significance _ _ _ _ k1 k3 k2 k4]
  rfl

end Verif.Chain
