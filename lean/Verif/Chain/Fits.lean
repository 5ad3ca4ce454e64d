import Verif.Chain.Lemmas

/-!
# Fits end with a result where there is a best point
-/

namespace Verif.Chain
open Verif.Py F Verif.Config Verif.Optimizer Verif.Hypotest
open Verif.Interface (MuHat Data Toys World Size Plain Solver Candidate Allowed InBounds Satisfies)

/-- A best point of the likelihood inside bounds and constraints. -/
def Maximum (B : Interface.Backend) (N : ℕ) (negative : Bool) (e : Backend.Expectation) (d : Option Data) (x : List ℝ) : Prop :=
  x.length = N ∧ InBounds (B.config negative).bounds x ∧ Satisfies B.constraints x ∧
    ∀ x' : List ℝ, x'.length = N → InBounds (B.config negative).bounds x' → Satisfies B.constraints x' → B.logpdf e d x' ≠ nan →
      le (B.logpdf e d x') (B.logpdf e d x)

/-- A best point with the POI at `v`, the other parameters inside bounds and constraints. -/
def Profile (B : Interface.Backend) (N k : ℕ) (negative : Bool) (e : Backend.Expectation) (d : Option Data) (v : ℝ) (x : List ℝ) : Prop :=
  x.length = N ∧ x[k]? = some v ∧
    (∀ (j : ℕ) b y, j ≠ k → (B.config negative).bounds[j]? = some b → x[j]? = some y → Allowed b y) ∧ Satisfies B.constraints x ∧
    ∀ x' : List ℝ, x'.length = N → x'[k]? = some v →
      (∀ (j : ℕ) b y, j ≠ k → (B.config negative).bounds[j]? = some b → x'[j]? = some y → Allowed b y) → Satisfies B.constraints x' →
      B.logpdf e d x' ≠ nan → le (B.logpdf e d x') (B.logpdf e d x)

theorem le_neg_neg {x y : F} (h : le x y) : le (neg y) (neg x) := by
  cases x <;> cases y <;> simp_all [le, neg]

theorem le_of_neg {x y : F} (h : le (neg y) (neg x)) : le x y := by
  cases x <;> cases y <;> simp_all [le, neg]

theorem neg_ne {x : F} (h : x ≠ nan) : neg x ≠ nan := by
  cases x <;> simp_all [neg]

theorem neg_ne_nan {x : F} (h : neg x ≠ nan) : x ≠ nan := by
  rintro rfl
  exact h rfl

section
variable {S : Solver} (hS : Exact S) (hT : Finds S) (hC : Interface.Constrained S) {B : Interface.Backend} {N k : ℕ} (hB : Usual B N k)
  (hobj : ∀ g e d, ∃ f g', Interface.getObjective B e d g = .ok (f, g') ∧ ∀ x, f x = neg (B.logpdf e d x))
include hS hT hC hB hobj

theorem free_fit {e n d g} {w : World} (hw : Plain N w) (h : ∃ x, Maximum B N n e d x) :
    ∃ p w', Interface.prepareForFit B e d n g w = (.ok p, w) ∧ ∃ x, Interface.runFit S p none .none (some p.logpdf) w = (.ok (B.logpdf e d x, x), w') ∧
      Maximum B N n e d x := by
  obtain ⟨ws, wi, wc⟩ := w
  obtain ⟨h1, h2, h3⟩ := hw
  dsimp only at h1 h2 h3
  subst h1 h2
  obtain ⟨f, g', ho, hf⟩ := hobj g e d
  obtain ⟨x, hx1, hx2, hx3, hx5⟩ := h
  have hprep : Interface.prepareForFit B e d n g ⟨ws, none, none⟩ =
      (.ok ⟨f, g', { B.config n with init := ws }, B.logpdf e d, B.constraints⟩, ⟨ws, none, none⟩) := by
    simp [Interface.prepareForFit, ho, Interface.config]
  have hrep : ∀ j : ℕ, (List.replicate ws.length false)[j]? ≠ some true := by
    intro j
    rw [List.getElem?_replicate]
    split <;> simp
  obtain ⟨⟨l, z⟩, hz⟩ := hT f g' B.constraints (B.config n).poiIndex ws (List.replicate ws.length false) (B.config n).bounds (by simp)
    ⟨x, ⟨by rw [hx1, h3], fun j hj => absurd hj (hrep j), hx2, hx3⟩, fun x' hx' hn => by
      rw [hf] at hn
      rw [hf, hf]
      exact le_neg_neg (hx5 x' (by rw [hx'.1, h3]) hx'.2.2.1 hx'.2.2.2 (neg_ne_nan hn))⟩
  have hzl := hS.honest.length _ _ _ _ _ _ _ _ _ hz
  refine ⟨_, ⟨ws, none, none⟩, hprep, z, ?_, by rw [hzl, h3], hS.inside _ _ _ _ _ _ _ _ _ hz, hC _ _ _ _ _ _ _ _ _ hz, fun x' k1 k2 k3 k4 => ?_⟩
  rotate_left
  · have := hS.optimal _ _ _ _ _ _ _ _ _ hz x' (by rw [k1, h3]) (fun j hj => absurd hj (hrep j)) k2 k3 (by rw [hf]; exact neg_ne k4)
    rw [hf, hf] at this
    exact le_of_neg this
  simp [Interface.runFit, fit, fitBounds, fixedPoiBounds, FixedPoi.pairs, setFixed, hB.fixed n, setSuggested, Except.map, hz, Except.mapError]

theorem maximize_succeeds {e n d g} {w : World} (hw : Plain N w) (h : ∃ x, Maximum B N n e d x) :
    ∃ x m, Maximum B N n e d x ∧ x[k]? = some m ∧
      (Interface.maximize S B true e n d none none g none w).1 = .ok (.one m, neg (B.logpdf e d x)) := by
  obtain ⟨p, w', h1, x, h2, hx⟩ := free_fit hS hT hC hB hobj (g := g) hw h
  unfold Interface.maximize
  rw [hB.fallback.minNegLL]
  dsimp only
  have hk : k < x.length := by
    have := hB.poi n
    unfold slot at this
    rw [hx.1]
    split at this <;> simp at this
    · omega
    · omega
  refine ⟨x, x[k], hx, by simp, ?_⟩
  simp only [Interface.resolveFixed, h1, h2, Interface.estimates, Interface.readKey, resolveKey, Interface.item, hx.1, Interface.config, hB.poi]
  simp [Interface.scaleOut, hk, Except.map]

theorem fixed_fit {e n d g} {v : ℝ} (hv : 0 ≤ v ∨ le (B.config n).minimumPoi (fin v)) {w : World} (hw : Plain N w) (h : ∃ x, Profile B N k n e d v x) :
    ∃ p w', Interface.prepareForFit B e d n g w = (.ok p, w) ∧ p.config.init.length = N ∧ p.logpdf = B.logpdf e d ∧
      ∃ x, Interface.runFit S p none (.value v) (some p.logpdf) w = (.ok (B.logpdf e d x, x), w') ∧ Profile B N k n e d v x := by
  obtain ⟨ws, wi, wc⟩ := w
  obtain ⟨h1, h2, h3⟩ := hw
  dsimp only at h1 h2 h3
  subst h1 h2
  obtain ⟨f, g', ho, hf⟩ := hobj g e d
  obtain ⟨x, hx1, hx2, hx3, hx4, hx6⟩ := h
  have hprep : Interface.prepareForFit B e d n g ⟨ws, none, none⟩ =
      (.ok ⟨f, g', { B.config n with init := ws }, B.logpdf e d, B.constraints⟩, ⟨ws, none, none⟩) := by
    simp [Interface.prepareForFit, ho, Interface.config]
  have hk : k < N := by
    have := hB.poi n
    unfold slot at this
    split at this <;> simp at this
    · omega
    · omega
  have hmask : ∀ j : ℕ, ((List.replicate ws.length false).set k true)[j]? = some true → j = k := by
    intro j hj
    rw [List.getElem?_set] at hj
    split at hj
    · omega
    · rw [List.getElem?_replicate] at hj
      split at hj <;> simp at hj
  have hstart : (ws.set k v)[k]? = some v := by rw [List.getElem?_set]; simp [h3, hk]
  let b := (B.config n).bounds.modify k (fun b => adjust (B.config n).minimumPoi (fun v low => pyMax (fin (v + 1)) low) b v)
  have hb : ∀ x' : List ℝ, x'[k]? = some v → (InBounds b x' ↔ ∀ (j : ℕ) b y, j ≠ k → (B.config n).bounds[j]? = some b → x'[j]? = some y → Allowed b y) := by
    intro x' hx'
    constructor
    · intro hin j c y hj hc hy
      refine hin j c y ?_ hy
      simp only [b, List.getElem?_modify, if_neg (Ne.symm hj)]
      simpa using hc
    · intro hin j c y hc hy
      by_cases hj : j = k
      · subst hj
        rw [hx', Option.some.injEq] at hy
        subst hy
        simp only [b, List.getElem?_modify, if_true] at hc
        cases hbk : (B.config n).bounds[j]? with
        | none => rw [hbk] at hc; simp at hc
        | some c' =>
          rw [hbk] at hc
          simp only [Option.map_eq_map, Option.map_some, Option.some.injEq] at hc
          subst hc
          exact Interface.adjust_allowed (Or.inr (hB.bounds n c' hbk)) hv
      · simp only [b, List.getElem?_modify, if_neg (Ne.symm hj)] at hc
        exact hin j c y hj (by simpa using hc) hy
  obtain ⟨⟨l, z⟩, hz⟩ := hT f g' B.constraints (B.config n).poiIndex (ws.set k v) ((List.replicate ws.length false).set k true) b (by simp)
    ⟨x, ⟨by simp [hx1, h3], fun j hj => by rw [hmask j hj, hx2, hstart], (hb x hx2).mpr hx3, hx4⟩, fun x' hx' hn => by
      rw [hf] at hn
      rw [hf, hf]
      have hk' : x'[k]? = some v := by
        rw [hx'.2.1 k (by rw [List.getElem?_set]; simp [h3, hk]), hstart]
      exact le_neg_neg (hx6 x' (by rw [hx'.1]; simpa using h3) hk' ((hb x' hk').mp hx'.2.2.1) hx'.2.2.2 (neg_ne_nan hn))⟩
  have hzl := hS.honest.length _ _ _ _ _ _ _ _ _ hz
  have hs := hB.poi n
  have hl := hB.length n
  have hzk : z[k]? = some v := by
    obtain ⟨y, u, q1, q2, q3⟩ := (hS.honest.keeps _ _ _ _ _ _ _ _ _ hz).2 k (by rw [List.getElem?_set]; simp [h3, hk])
    rw [hstart, Option.some.injEq] at q2
    rw [q1, sub_eq_zero.mp (abs_nonpos_iff.mp q3), q2]
  refine ⟨_, ⟨ws.set k v, none, none⟩, hprep, h3, rfl, z, ?_, by rw [hzl]; simpa using h3, hzk, (hb z hzk).mp (hS.inside _ _ _ _ _ _ _ _ _ hz),
    hC _ _ _ _ _ _ _ _ _ hz, fun x' k1 k2 k3 k4 k5 => ?_⟩
  rotate_left
  · have := hS.optimal _ _ _ _ _ _ _ _ _ hz x' (by simp [k1, h3]) (fun j hj => by rw [hmask j hj, k2, hstart]) ((hb x' k2).mpr k3) k4
      (by rw [hf]; exact neg_ne k5)
    rw [hf, hf] at this
    exact le_of_neg this
  simp only [b] at hz
  simp [Interface.runFit, fit, fitBounds, fixedPoiBounds, FixedPoi.pairs, setFixed, hB.fixed n, setSuggested, Except.map, hl, hs, h3, Except.mapError]
  rw [h3] at hz
  simp [hz]

theorem likelihood_succeeds {e n d g} {v : ℝ} (hv : 0 ≤ v ∨ le (B.config n).minimumPoi (fin v)) {w : World} (hw : Plain N w) (h : ∃ x, Profile B N k n e d v x) :
    ∃ x, Profile B N k n e d v x ∧ (Interface.likelihood S B (.float v) e true d false n g none w).1 = .ok (.value (neg (B.logpdf e d x))) := by
  obtain ⟨p, w', h1, h2, h2', x, h3, hx⟩ := fixed_fit hS hT hC hB hobj (g := g) hv hw h
  refine ⟨x, hx, ?_⟩
  unfold Interface.likelihood
  rw [hB.fallback.negLL]
  dsimp only
  unfold Interface.profile
  rw [h1]
  simp only [Interface.resolvePoi, h3, Bool.false_eq_true, if_false]
  split
  · rename_i hp heq
    cases heq
    have hN : x.length = 1 := by rw [hx.1, ← h2]; exact hp
    have hx0 : x = [v] := by
      obtain ⟨y, rfl⟩ := List.length_eq_one_iff.mp hN
      have := hx.2.1
      rw [List.getElem?_singleton] at this
      split at this <;> simp_all
    rw [hx0, h2']
    simp [Except.map, Interface.scaleOut]
  · simp [Except.map, Interface.scaleOut]

theorem asimov_succeeds {e ts g} {w : World} (hw : Plain N w)
    (h : ∃ x, Profile B N k (Interface.mayBeNegative ts) e none (if ts = "q0" then 1 else 0) x)
    (hd : ∀ x : List ℝ, x.length = N → ∃ D, B.expectedData x = .ok D) :
    ∃ x D, Profile B N k (Interface.mayBeNegative ts) e none (if ts = "q0" then 1 else 0) x ∧ B.expectedData x = .ok D ∧
      (Interface.generateAsimov S B e ts g none w).1 = .ok D := by
  obtain ⟨p, w', h1, h2, h2', x, h3, h4⟩ := fixed_fit hS hT hC hB hobj (g := g) (Or.inl (by split <;> norm_num)) hw h
  obtain ⟨D, hD⟩ := hd x h4.1
  refine ⟨x, D, h4, hD, ?_⟩
  unfold Interface.generateAsimov
  rw [h1]
  dsimp only
  rw [h3]
  exact hD

end

end Verif.Chain
