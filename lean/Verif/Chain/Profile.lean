import Verif.Chain.Tame
import Verif.Chain.GaussianProps

/-!
# The fits of the simplified models
-/

namespace Verif.Chain
open Verif.Py F Verif.Config Verif.Optimizer Verif.Hypotest
open Verif.Interface (MuHat Data Toys World Size Plain Solver Candidate Allowed InBounds Satisfies)
open Verif.Backend (Ext Vec Args Built Fits Simplified WithMatrix at' signalAt factorAt poissonLog stdLog mvnLog)
open Verif.Stats (Expect Calc Levels)

/-- A backend with a signal strength between `lo` (or zero) and 10 and one nuisance parameter for each of `n` bins. -/
structure Binned (B : Interface.Backend) (n : ℕ) (γ : ℝ → ℝ) (s : ℕ → ℝ) (bin : ℕ → ℝ → ℝ) (pen : (ℕ → ℝ) → ℝ) (lo : ℝ) (dflt : Expect → Vec) : Prop where
  usual : Usual B (n + 1) 0
  objective : ∀ g e d, ∃ f g', Interface.getObjective B e d g = .ok (f, g') ∧ ∀ x, f x = neg (B.logpdf e d x)
  minimum : ∀ negative, (B.config negative).minimumPoi = fin lo
  poi : ∀ negative, (B.config negative).bounds[0]? = some (some (fin (if negative then lo else 0)), some (fin 10))
  others : ∀ negative (j : ℕ), 0 < j → ∀ b, (B.config negative).bounds[j]? = some b → b = (none, none)
  constraints : ∀ x : List ℝ, x.length = n + 1 → (Satisfies B.constraints x ↔ Admissible n bin fun i => at' x (1 + i))
  logpdf : ∀ e (D : Vec), n ≤ D.length → ∀ x : List ℝ, x.length = n + 1 →
    B.logpdf e (some D) x = fin (logLikelihood γ n s bin pen (at' D) (at' x 0) fun i => at' x (1 + i))
  default : ∀ (e : Expect) x, B.logpdf (expectation e) none x = B.logpdf (expectation e) (some (dflt e)) x
  length : ∀ e, n ≤ (dflt e).length
  expected : ∀ x : List ℝ, x.length = n + 1 → ∃ D : Vec, B.expectedData x = .ok D ∧ n ≤ D.length ∧
    ∀ i < n, at' D i = expectedIn s bin (at' x 0) (fun i => at' x (1 + i)) i
  tame : Tame n bin pen
  low : lo ≤ 0

section
variable {B : Interface.Backend} {n : ℕ} {γ : ℝ → ℝ} {s : ℕ → ℝ} {bin : ℕ → ℝ → ℝ} {pen : (ℕ → ℝ) → ℝ} {lo : ℝ} {dflt : Expect → Vec}
  (h : Binned B n γ s bin pen lo dflt)
include h

theorem Binned.profile {negative : Bool} {e} {D : Vec} (hD : n ≤ D.length) {v : ℝ} {x : List ℝ} (hx : x.length = n + 1) (h0 : x[0]? = some v) :
    Profile B (n + 1) 0 negative e (some D) v x ↔ ∃ l, ProfileMax (Admissible n bin) (logLikelihood γ n s bin pen (at' D)) v l fun i => at' x (1 + i) := by
  have hat : ∀ x : List ℝ, x[0]? = some v → at' x 0 = v := fun x hx => by simp [at', hx]
  have hb : ∀ (x : List ℝ) (j : ℕ) b y, j ≠ 0 → (B.config negative).bounds[j]? = some b → x[j]? = some y → Allowed b y := by
    intro x j b y hj hbj _
    rw [h.others negative j (by omega) b hbj]
    exact ⟨fun l hl => by simp at hl, fun l hl => by simp at hl⟩
  constructor
  · rintro ⟨-, -, -, h3, h4⟩
    refine ⟨_, (h.constraints x hx).mp h3, rfl, fun θ hθ => ?_⟩
    have hl : (v :: (List.range n).map θ).length = n + 1 := by simp
    have hθ' : ∀ i < n, θ i = at' (v :: (List.range n).map θ) (1 + i) := fun i hi => by
      rw [Nat.add_comm 1 i]
      simp [at', hi]
    have := h4 (v :: (List.range n).map θ) hl rfl (hb _) ((h.constraints _ hl).mpr (admissible_congr h.tame hθ' hθ)) (by rw [h.logpdf e D hD _ hl]; simp)
    rw [h.logpdf e D hD _ hl, h.logpdf e D hD _ hx, hat x h0, hat _ rfl, ← logLikelihood_congr h.tame γ s (at' D) hθ'] at this
    exact this
  · rintro ⟨l, h1, h2, h3⟩
    refine ⟨hx, h0, hb x, (h.constraints x hx).mpr h1, fun x' k1 k2 k3 k4 k5 => ?_⟩
    rw [h.logpdf e D hD _ hx, h.logpdf e D hD _ k1, hat x h0, hat x' k2, ← h2]
    exact h3 _ ((h.constraints x' k1).mp k4)

theorem Binned.allowed {negative : Bool} {x : List ℝ} (hx : x.length = n + 1) :
    InBounds (B.config negative).bounds x ↔ (if negative then lo else 0) ≤ at' x 0 ∧ at' x 0 ≤ 10 := by
  have h0 : x[0]? = some (at' x 0) := by
    cases x with
    | nil => simp at hx
    | cons y l => rfl
  constructor
  · intro hin
    have := hin 0 _ _ (h.poi negative) h0
    exact ⟨this.1 _ rfl, this.2 _ rfl⟩
  · rintro ⟨h1, h2⟩ j b y hb hy
    rcases Nat.eq_zero_or_pos j with rfl | hj
    · rw [h.poi negative, Option.some.injEq] at hb
      rw [h0, Option.some.injEq] at hy
      subst hb hy
      exact ⟨fun l hl => by simp only [Option.some.injEq] at hl; subst hl; exact h1, fun l hl => by simp only [Option.some.injEq] at hl; subst hl; exact h2⟩
    · rw [h.others negative j hj b hb]
      exact ⟨fun l hl => by simp at hl, fun l hl => by simp at hl⟩

theorem Binned.maximum {negative : Bool} {e} {D : Vec} (hD : n ≤ D.length) {x : List ℝ} (hm : Maximum B (n + 1) negative e (some D) x) :
    GlobalMax (Admissible n bin) (logLikelihood γ n s bin pen (at' D)) (if negative then lo else 0) 10 (at' x 0)
      (logLikelihood γ n s bin pen (at' D) (at' x 0) fun i => at' x (1 + i)) := by
  obtain ⟨hx, h1, h2, h3⟩ := hm
  obtain ⟨h4, h5⟩ := (h.allowed hx).mp h1
  refine ⟨h4, h5, ⟨_, (h.constraints x hx).mp h2, rfl⟩, fun mu θ k1 k2 k3 => ?_⟩
  have hl : (mu :: (List.range n).map θ).length = n + 1 := by simp
  have hθ' : ∀ i < n, θ i = at' (mu :: (List.range n).map θ) (1 + i) := fun i hi => by
    rw [Nat.add_comm 1 i]
    simp [at', hi]
  have := h3 (mu :: (List.range n).map θ) hl ((h.allowed hl).mpr ⟨k1, k2⟩) ((h.constraints _ hl).mpr (admissible_congr h.tame hθ' k3))
    (by rw [h.logpdf e D hD _ hl]; simp)
  rw [h.logpdf e D hD _ hl, h.logpdf e D hD _ hx, ← logLikelihood_congr h.tame γ s (at' D) hθ'] at this
  exact this

theorem Binned.exists_maximum (negative : Bool) (e) {D : Vec} (hD : n ≤ D.length) : ∃ x, Maximum B (n + 1) negative e (some D) x := by
  obtain ⟨mu, l, h1, h2, ⟨θ, h3, h4⟩, h5⟩ := global_exists h.tame γ s (at' D) (lo := if negative then lo else 0) (hi := 10) (by
    have := h.low
    split <;> linarith)
  have hl : (mu :: (List.range n).map θ).length = n + 1 := by simp
  have hθ' : ∀ i < n, θ i = at' (mu :: (List.range n).map θ) (1 + i) := fun i hi => by
    rw [Nat.add_comm 1 i]
    simp [at', hi]
  refine ⟨mu :: (List.range n).map θ, hl, (h.allowed hl).mpr ⟨h1, h2⟩, (h.constraints _ hl).mpr (admissible_congr h.tame hθ' h3), fun x' k1 k2 k3 k4 => ?_⟩
  rw [h.logpdf e D hD _ hl, h.logpdf e D hD _ k1, ← logLikelihood_congr h.tame γ s (at' D) hθ']
  obtain ⟨k5, k6⟩ := (h.allowed k1).mp k2
  have := h5 _ _ k5 k6 ((h.constraints x' k1).mp k3)
  rw [h4] at this
  exact this

theorem Binned.exists_profile (negative : Bool) (e) {D : Vec} (hD : n ≤ D.length) (v : ℝ) : ∃ x, Profile B (n + 1) 0 negative e (some D) v x := by
  obtain ⟨l, θ, h1, h2, h3⟩ := profile_exists h.tame γ s (at' D) v
  have hl : (v :: (List.range n).map θ).length = n + 1 := by simp
  have hθ' : ∀ i < n, θ i = at' (v :: (List.range n).map θ) (1 + i) := fun i hi => by
    rw [Nat.add_comm 1 i]
    simp [at', hi]
  exact ⟨_, (h.profile hD hl rfl).mpr ⟨l, admissible_congr h.tame hθ' h1, by rw [h2, logLikelihood_congr h.tame γ s (at' D) hθ'], h3⟩⟩

theorem Binned.default_maximum {negative : Bool} {e : Expect} {x : List ℝ} :
    Maximum B (n + 1) negative (expectation e) none x ↔ Maximum B (n + 1) negative (expectation e) (some (dflt e)) x := by
  unfold Maximum
  simp only [h.default]

theorem Binned.default_profile {negative : Bool} {e : Expect} {v : ℝ} {x : List ℝ} :
    Profile B (n + 1) 0 negative (expectation e) none v x ↔ Profile B (n + 1) 0 negative (expectation e) (some (dflt e)) v x := by
  unfold Profile
  simp only [h.default]

variable {S : Solver} (hS : Exact S) (hT : Finds S) (hC : Interface.Constrained S)
include hS hT hC

/-- `maximize_likelihood` of data that are given. -/
theorem Binned.fit (negative : Bool) (e : Expect) {D : Vec} (hD : n ≤ D.length) (g : Bool) {w : World} (hw : Plain (n + 1) w) :
    ∃ mu l, GlobalMax (Admissible n bin) (logLikelihood γ n s bin pen (at' D)) (if negative then lo else 0) 10 mu l ∧
      (Interface.maximize S B true (expectation e) negative (some D) none none g none w).1 = .ok (.one mu, fin (-l)) := by
  obtain ⟨x, m, h1, h2, h3⟩ := maximize_succeeds hS hT hC h.usual h.objective (g := g) hw (h.exists_maximum negative (expectation e) hD)
  have h0 : at' x 0 = m := by simp [at', h2]
  refine ⟨m, _, h0 ▸ h.maximum hD h1, ?_⟩
  rw [h3, h.logpdf _ D hD x h1.1, h0]
  rfl

/-- `maximize_likelihood` of the data of the model. -/
theorem Binned.fit_default (negative : Bool) (e : Expect) (g : Bool) {w : World} (hw : Plain (n + 1) w) :
    ∃ mu l, GlobalMax (Admissible n bin) (logLikelihood γ n s bin pen (at' (dflt e))) (if negative then lo else 0) 10 mu l ∧
      (Interface.maximize S B true (expectation e) negative none none none g none w).1 = .ok (.one mu, fin (-l)) := by
  have hx := h.exists_maximum negative (expectation e) (h.length e)
  obtain ⟨x, m, h1, h2, h3⟩ := maximize_succeeds hS hT hC h.usual h.objective (g := g) (d := none) hw (hx.imp fun _ hx => h.default_maximum.mpr hx)
  have h0 : at' x 0 = m := by simp [at', h2]
  refine ⟨m, _, h0 ▸ h.maximum (h.length e) (h.default_maximum.mp h1), ?_⟩
  rw [h3, h.default, h.logpdf _ _ (h.length e) x h1.1, h0]
  rfl

/-- `likelihood` of data that are given. -/
theorem Binned.at (e : Expect) {D : Vec} (hD : n ≤ D.length) {v : ℝ} (hv : lo ≤ v) (g : Bool) {w : World} (hw : Plain (n + 1) w) :
    ∃ l, (∃ θ, ProfileMax (Admissible n bin) (logLikelihood γ n s bin pen (at' D)) v l θ) ∧
      (Interface.likelihood S B (.float v) (expectation e) true (some D) false true g none w).1 = .ok (.value (fin (-l))) := by
  obtain ⟨x, h1, h3⟩ := likelihood_succeeds hS hT hC h.usual h.objective (g := g) (Or.inr (by rw [h.minimum]; exact hv)) hw (h.exists_profile true (expectation e) hD v)
  have h0 : at' x 0 = v := by simp [at', h1.2.1]
  obtain ⟨l, hl⟩ := (h.profile hD h1.1 h1.2.1).mp h1
  refine ⟨l, ⟨_, hl⟩, ?_⟩
  rw [h3, h.logpdf _ D hD x h1.1, h0, hl.2.1]
  rfl

/-- `likelihood` of the data of the model. -/
theorem Binned.at_default (e : Expect) {v : ℝ} (hv : lo ≤ v) (g : Bool) {w : World} (hw : Plain (n + 1) w) :
    ∃ l, (∃ θ, ProfileMax (Admissible n bin) (logLikelihood γ n s bin pen (at' (dflt e))) v l θ) ∧
      (Interface.likelihood S B (.float v) (expectation e) true none false true g none w).1 = .ok (.value (fin (-l))) := by
  have hx := h.exists_profile true (expectation e) (h.length e) v
  obtain ⟨x, h1, h3⟩ := likelihood_succeeds hS hT hC h.usual h.objective (g := g) (Or.inr (by rw [h.minimum]; exact hv)) hw (d := none) (hx.imp fun _ hx => h.default_profile.mpr hx)
  have h0 : at' x 0 = v := by simp [at', h1.2.1]
  obtain ⟨l, hl⟩ := (h.profile (h.length e) h1.1 h1.2.1).mp (h.default_profile.mp h1)
  refine ⟨l, ⟨_, hl⟩, ?_⟩
  rw [h3, h.default, h.logpdf _ _ (h.length e) x h1.1, h0, hl.2.1]
  rfl

/-- `generate_asimov_data`. -/
theorem Binned.asimov (e : Expect) (ts : String) (g : Bool) {w : World} (hw : Plain (n + 1) w) :
    ∃ l θ, ∃ D : Vec, ProfileMax (Admissible n bin) (logLikelihood γ n s bin pen (at' (dflt e))) (if ts = "q0" then 1 else 0) l θ ∧ n ≤ D.length ∧
      (∀ i < n, at' D i = expectedIn s bin (if ts = "q0" then 1 else 0) θ i) ∧
      (Interface.generateAsimov S B (expectation e) ts g none w).1 = .ok D := by
  have hx := h.exists_profile (Interface.mayBeNegative ts) (expectation e) (h.length e) (if ts = "q0" then 1 else 0)
  obtain ⟨x, D, h1, h2, h3⟩ := asimov_succeeds hS hT hC h.usual h.objective (g := g) hw (hx.imp fun _ hx => h.default_profile.mpr hx)
    (fun x hx => by obtain ⟨D, hD, -⟩ := h.expected x hx; exact ⟨D, hD⟩)
  have h0 : at' x 0 = if ts = "q0" then 1 else 0 := by
    have := h1.2.1
    simp [at', this]
  obtain ⟨l, hl⟩ := (h.profile (h.length e) h1.1 h1.2.1).mp (h.default_profile.mp h1)
  obtain ⟨D', k1, k2, k3⟩ := h.expected x h1.1
  rw [h2, Except.ok.injEq] at k1
  subst k1
  exact ⟨l, _, D, hl, k2, by rw [← h0]; exact k3, h3⟩

end

end Verif.Chain
