import Verif.Chain.Exists
import Verif.Uncertain.Exist

/-!
# The fits of a model with any parameters besides the signal strength
-/

namespace Verif.Uncertain
open Verif.Py F Verif.Config Verif.Optimizer Verif.Hypotest Verif.Chain
open Verif.Interface (MuHat Data Toys World Size Plain Solver Candidate Allowed InBounds Satisfies)
open Verif.Backend (Ext Vec Args at')
open Verif.Stats (Expect Calc Levels)

/-- A backend with a signal strength from `lo` (or zero) to 10 and `N` other parameters, which have to be in the region `ok`; the log-likelihood of the data `D` is `L D`, and `rate` the events
expected in each of `n` bins. -/
structure Wide (B : Interface.Backend) (N n : ℕ) (ok : (ℕ → ℝ) → Prop) (L : (ℕ → ℝ) → ℝ → (ℕ → ℝ) → ℝ) (rate : ℝ → (ℕ → ℝ) → ℕ → ℝ) (lo : F) (dflt : Expect → Vec) : Prop where
  usual : Usual B (N + 1) 0
  objective : ∀ g e d, ∃ f g', Interface.getObjective B e d g = .ok (f, g') ∧ ∀ x, f x = neg (B.logpdf e d x)
  minimum : ∀ negative, (B.config negative).minimumPoi = lo
  poi : ∀ negative, (B.config negative).bounds[0]? = some (some (if negative then lo else fin 0), some (fin 10))
  region : ∀ negative, ∀ x : List ℝ, x.length = N + 1 →
    ((∀ (j : ℕ) b y, j ≠ 0 → (B.config negative).bounds[j]? = some b → x[j]? = some y → Allowed b y) ∧ Satisfies B.constraints x ↔ ok fun i => at' x (1 + i))
  logpdf : ∀ e (D : Vec), n ≤ D.length → ∀ x : List ℝ, x.length = N + 1 → B.logpdf e (some D) x = fin (L (at' D) (at' x 0) fun i => at' x (1 + i))
  default : ∀ (e : Expect) x, B.logpdf (expectation e) none x = B.logpdf (expectation e) (some (dflt e)) x
  length : ∀ e, n ≤ (dflt e).length
  expected : ∀ x : List ℝ, x.length = N + 1 → ∃ D : Vec, B.expectedData x = .ok D ∧ n ≤ D.length ∧ ∀ i < n, at' D i = rate (at' x 0) (fun i => at' x (1 + i)) i
  steady : ∀ D, Steady N ok (L D)
  data : ∀ D D' : ℕ → ℝ, (∀ i < n, D i = D' i) → L D = L D'
  low : le lo (fin 0)

section
variable {B : Interface.Backend} {N n : ℕ} {ok : (ℕ → ℝ) → Prop} {L : (ℕ → ℝ) → ℝ → (ℕ → ℝ) → ℝ} {rate : ℝ → (ℕ → ℝ) → ℕ → ℝ} {lo : F} {dflt : Expect → Vec}
  (h : Wide B N n ok L rate lo dflt)

theorem at_cons (v : ℝ) {N : ℕ} (θ : ℕ → ℝ) {i : ℕ} (hi : i < N) : θ i = at' (v :: (List.range N).map θ) (1 + i) := by
  rw [Nat.add_comm 1 i]
  simp [at', hi]

include h

theorem Wide.profile {negative : Bool} {e} {D : Vec} (hD : n ≤ D.length) {v : ℝ} {x : List ℝ} (hx : x.length = N + 1) (h0 : x[0]? = some v) :
    Profile B (N + 1) 0 negative e (some D) v x ↔ ∃ l, ProfileMax ok (L (at' D)) v l fun i => at' x (1 + i) := by
  have hat : ∀ x : List ℝ, x[0]? = some v → at' x 0 = v := fun x hx => by simp [at', hx]
  constructor
  · rintro ⟨-, -, h2, h3, h4⟩
    refine ⟨_, (h.region negative x hx).mp ⟨h2, h3⟩, rfl, fun θ hθ => ?_⟩
    have hl : (v :: (List.range N).map θ).length = N + 1 := by simp
    have hθ' : ∀ i < N, θ i = at' (v :: (List.range N).map θ) (1 + i) := fun i hi => at_cons v θ hi
    obtain ⟨k1, k2⟩ := (h.region negative _ hl).mpr ((h.steady (at' D)).same hθ' hθ)
    have := h4 (v :: (List.range N).map θ) hl rfl k1 k2 (by rw [h.logpdf e D hD _ hl]; simp)
    rw [h.logpdf e D hD _ hl, h.logpdf e D hD _ hx, hat x h0, hat _ rfl, ← (h.steady (at' D)).few hθ'] at this
    exact this
  · rintro ⟨l, h1, h2, h3⟩
    obtain ⟨k1, k2⟩ := (h.region negative x hx).mpr h1
    refine ⟨hx, h0, k1, k2, fun x' k1 k2 k3 k4 k5 => ?_⟩
    rw [h.logpdf e D hD _ hx, h.logpdf e D hD _ k1, hat x h0, hat x' k2, ← h2]
    exact h3 _ ((h.region negative x' k1).mp ⟨k3, k4⟩)

theorem Wide.allowed {negative : Bool} {low : ℝ} (hlow : (if negative then lo else fin 0) = fin low) {x : List ℝ} (hx : x.length = N + 1) :
    InBounds (B.config negative).bounds x ∧ Satisfies B.constraints x ↔ (low ≤ at' x 0 ∧ at' x 0 ≤ 10) ∧ ok fun i => at' x (1 + i) := by
  have h0 : x[0]? = some (at' x 0) := by
    cases x with
    | nil => simp at hx
    | cons y l => rfl
  have hp := h.poi negative
  rw [hlow] at hp
  rw [← h.region negative x hx]
  constructor
  · rintro ⟨hin, hs⟩
    have := hin 0 _ _ hp h0
    exact ⟨⟨this.1 _ rfl, this.2 _ rfl⟩, fun j b y _ hb hy => hin j b y hb hy, hs⟩
  · rintro ⟨⟨h1, h2⟩, h3, h4⟩
    refine ⟨fun j b y hb hy => ?_, h4⟩
    rcases Nat.eq_zero_or_pos j with rfl | hj
    · rw [hp, Option.some.injEq] at hb
      rw [h0, Option.some.injEq] at hy
      subst hb hy
      exact ⟨fun l hl => by simp only [Option.some.injEq] at hl; subst hl; exact h1, fun l hl => by simp only [Option.some.injEq] at hl; subst hl; exact h2⟩
    · exact h3 j b y hj.ne' hb hy

theorem Wide.maximum {negative : Bool} {low : ℝ} (hlow : (if negative then lo else fin 0) = fin low) {e} {D : Vec} (hD : n ≤ D.length) {x : List ℝ}
    (hm : Maximum B (N + 1) negative e (some D) x) : GlobalMax ok (L (at' D)) low 10 (at' x 0) (L (at' D) (at' x 0) fun i => at' x (1 + i)) := by
  obtain ⟨hx, h1, h2, h3⟩ := hm
  obtain ⟨⟨h4, h5⟩, h6⟩ := (h.allowed hlow hx).mp ⟨h1, h2⟩
  refine ⟨h4, h5, ⟨_, h6, rfl⟩, fun mu θ k1 k2 k3 => ?_⟩
  have hl : (mu :: (List.range N).map θ).length = N + 1 := by simp
  have hθ' : ∀ i < N, θ i = at' (mu :: (List.range N).map θ) (1 + i) := fun i hi => at_cons mu θ hi
  obtain ⟨q1, q2⟩ := (h.allowed hlow hl).mpr ⟨⟨k1, k2⟩, (h.steady (at' D)).same hθ' k3⟩
  have := h3 (mu :: (List.range N).map θ) hl q1 q2 (by rw [h.logpdf e D hD _ hl]; simp)
  rw [h.logpdf e D hD _ hl, h.logpdf e D hD _ hx, ← (h.steady (at' D)).few hθ'] at this
  exact this

theorem Wide.exists_maximum {negative : Bool} {low : ℝ} (hlow : (if negative then lo else fin 0) = fin low) (e) {D : Vec} (hD : n ≤ D.length) :
    ∃ x, Maximum B (N + 1) negative e (some D) x := by
  have hle : low ≤ 10 := by
    have := h.low
    cases negative
    · simp only [Bool.false_eq_true, if_false, fin.injEq] at hlow
      linarith
    · simp only [if_true] at hlow
      rw [hlow] at this
      have : low ≤ 0 := this
      linarith
  obtain ⟨mu, l, h1, h2, ⟨θ, h3, h4⟩, h5⟩ := (h.steady (at' D)).global hle
  have hl : (mu :: (List.range N).map θ).length = N + 1 := by simp
  have hθ' : ∀ i < N, θ i = at' (mu :: (List.range N).map θ) (1 + i) := fun i hi => at_cons mu θ hi
  obtain ⟨q1, q2⟩ := (h.allowed hlow hl).mpr ⟨⟨h1, h2⟩, (h.steady (at' D)).same hθ' h3⟩
  refine ⟨mu :: (List.range N).map θ, hl, q1, q2, fun x' k1 k2 k3 k4 => ?_⟩
  rw [h.logpdf e D hD _ hl, h.logpdf e D hD _ k1, ← (h.steady (at' D)).few hθ']
  obtain ⟨⟨k5, k6⟩, k7⟩ := (h.allowed hlow k1).mp ⟨k2, k3⟩
  have := h5 _ _ k5 k6 k7
  rw [h4] at this
  exact this

theorem Wide.exists_profile (negative : Bool) (e) {D : Vec} (hD : n ≤ D.length) (v : ℝ) : ∃ x, Profile B (N + 1) 0 negative e (some D) v x := by
  obtain ⟨l, θ, h1, h2, h3⟩ := (h.steady (at' D)).profile v
  have hl : (v :: (List.range N).map θ).length = N + 1 := by simp
  have hθ' : ∀ i < N, θ i = at' (v :: (List.range N).map θ) (1 + i) := fun i hi => at_cons v θ hi
  exact ⟨_, (h.profile hD hl rfl).mpr ⟨l, (h.steady (at' D)).same hθ' h1, by rw [h2, (h.steady (at' D)).few hθ'], h3⟩⟩

theorem Wide.default_maximum {negative : Bool} {e : Expect} {x : List ℝ} :
    Maximum B (N + 1) negative (expectation e) none x ↔ Maximum B (N + 1) negative (expectation e) (some (dflt e)) x := by
  unfold Maximum
  simp only [h.default]

theorem Wide.default_profile {negative : Bool} {e : Expect} {v : ℝ} {x : List ℝ} :
    Profile B (N + 1) 0 negative (expectation e) none v x ↔ Profile B (N + 1) 0 negative (expectation e) (some (dflt e)) v x := by
  unfold Profile
  simp only [h.default]

variable {S : Solver} (hS : Exact S) (hT : Finds S) (hC : Interface.Constrained S)
include hS hT hC

/-- `maximize_likelihood` of data that are given. -/
theorem Wide.fit {negative : Bool} {low : ℝ} (hlow : (if negative then lo else fin 0) = fin low) (e : Expect) {D : Vec} (hD : n ≤ D.length) (g : Bool) {w : World} (hw : Plain (N + 1) w) :
    ∃ mu l, GlobalMax ok (L (at' D)) low 10 mu l ∧ (Interface.maximize S B true (expectation e) negative (some D) none none g none w).1 = .ok (.one mu, fin (-l)) := by
  obtain ⟨x, m, h1, h2, h3⟩ := maximize_succeeds hS hT hC h.usual h.objective (g := g) hw (h.exists_maximum hlow (expectation e) hD)
  have h0 : at' x 0 = m := by simp [at', h2]
  refine ⟨m, _, h0 ▸ h.maximum hlow hD h1, ?_⟩
  rw [h3, h.logpdf _ D hD x h1.1, h0]
  rfl

/-- `maximize_likelihood` of the data of the model. -/
theorem Wide.fit_default {negative : Bool} {low : ℝ} (hlow : (if negative then lo else fin 0) = fin low) (e : Expect) (g : Bool) {w : World} (hw : Plain (N + 1) w) :
    ∃ mu l, GlobalMax ok (L (at' (dflt e))) low 10 mu l ∧ (Interface.maximize S B true (expectation e) negative none none none g none w).1 = .ok (.one mu, fin (-l)) := by
  have hx := h.exists_maximum hlow (expectation e) (h.length e)
  obtain ⟨x, m, h1, h2, h3⟩ := maximize_succeeds hS hT hC h.usual h.objective (g := g) (d := none) hw (hx.imp fun _ hx => h.default_maximum.mpr hx)
  have h0 : at' x 0 = m := by simp [at', h2]
  refine ⟨m, _, h0 ▸ h.maximum hlow (h.length e) (h.default_maximum.mp h1), ?_⟩
  rw [h3, h.default, h.logpdf _ _ (h.length e) x h1.1, h0]
  rfl

/-- `likelihood` of data that are given. -/
theorem Wide.at (e : Expect) {D : Vec} (hD : n ≤ D.length) {v : ℝ} (hv : 0 ≤ v) (g : Bool) {w : World} (hw : Plain (N + 1) w) :
    ∃ l, (∃ θ, ProfileMax ok (L (at' D)) v l θ) ∧ (Interface.likelihood S B (.float v) (expectation e) true (some D) false true g none w).1 = .ok (.value (fin (-l))) := by
  obtain ⟨x, h1, h3⟩ := likelihood_succeeds hS hT hC h.usual h.objective (g := g) (Or.inl hv) hw (h.exists_profile true (expectation e) hD v)
  have h0 : at' x 0 = v := by simp [at', h1.2.1]
  obtain ⟨l, hl⟩ := (h.profile hD h1.1 h1.2.1).mp h1
  refine ⟨l, ⟨_, hl⟩, ?_⟩
  rw [h3, h.logpdf _ D hD x h1.1, h0, hl.2.1]
  rfl

/-- `likelihood` of the data of the model. -/
theorem Wide.at_default (e : Expect) {v : ℝ} (hv : 0 ≤ v) (g : Bool) {w : World} (hw : Plain (N + 1) w) :
    ∃ l, (∃ θ, ProfileMax ok (L (at' (dflt e))) v l θ) ∧ (Interface.likelihood S B (.float v) (expectation e) true none false true g none w).1 = .ok (.value (fin (-l))) := by
  have hx := h.exists_profile true (expectation e) (h.length e) v
  obtain ⟨x, h1, h3⟩ := likelihood_succeeds hS hT hC h.usual h.objective (g := g) (Or.inl hv) hw (d := none) (hx.imp fun _ hx => h.default_profile.mpr hx)
  have h0 : at' x 0 = v := by simp [at', h1.2.1]
  obtain ⟨l, hl⟩ := (h.profile (h.length e) h1.1 h1.2.1).mp (h.default_profile.mp h1)
  refine ⟨l, ⟨_, hl⟩, ?_⟩
  rw [h3, h.default, h.logpdf _ _ (h.length e) x h1.1, h0, hl.2.1]
  rfl

/-- `generate_asimov_data`. -/
theorem Wide.asimov (e : Expect) (ts : String) (g : Bool) {w : World} (hw : Plain (N + 1) w) :
    ∃ l θ, ∃ D : Vec, ProfileMax ok (L (at' (dflt e))) (if ts = "q0" then 1 else 0) l θ ∧ n ≤ D.length ∧
      (∀ i < n, at' D i = rate (if ts = "q0" then 1 else 0) θ i) ∧ (Interface.generateAsimov S B (expectation e) ts g none w).1 = .ok D := by
  have hx := h.exists_profile (Interface.mayBeNegative ts) (expectation e) (h.length e) (if ts = "q0" then 1 else 0)
  obtain ⟨x, D, h1, h2, h3⟩ := asimov_succeeds hS hT hC h.usual h.objective (g := g) hw (hx.imp fun _ hx => h.default_profile.mpr hx)
    (fun x hx => by obtain ⟨D, hD, -⟩ := h.expected x hx; exact ⟨D, hD⟩)
  have h0 : at' x 0 = if ts = "q0" then 1 else 0 := by
    have := h1.2.1
    simp [at', this]
  obtain ⟨l, hl⟩ := (h.profile (h.length e) h1.1 h1.2.1).mp (h.default_profile.mp h1)
  obtain ⟨D', k1, k2, k3⟩ := h.expected x h1.1
  rw [h2, Except.ok.injEq] at k1
  subst k1
  exact ⟨l, _, D, hl, k2, by rw [← h0]; exact k3, h3⟩

/-- The fits of the upper limit. -/
theorem Wide.fits_from (e : Expect) (g : Bool) (ntoys : Size) (available : Calc → Bool) (percentile : List F → F → F) :
    ∃ (m l : ℝ) (Lf : ℝ → ℝ) (mA lA : ℝ) (LA : ℝ → ℝ), FitsFrom (Plain (N + 1)) (modelMethods S B g none ntoys available percentile) e m (fin l) (fun v => fin (Lf v)) mA (fin lA)
      fun v => fin (LA v) := by
  obtain ⟨w, hw⟩ : ∃ w : World, Plain (N + 1) w := ⟨⟨List.replicate (N + 1) 0, none, none⟩, rfl, rfl, by simp⟩
  obtain ⟨hlik, hmax, hasi⟩ := model_ends hS h.usual g ntoys available percentile e w hw
  obtain ⟨m, l, -, f1⟩ := h.fit_default hS hT hC (negative := false) rfl e g hw
  have f2 : ∀ v : ℝ, ∃ l : ℝ, 0 ≤ v → (Interface.likelihood S B (.float v) (expectation e) true none false true g none w).1 = .ok (.value (fin l)) := by
    intro v
    by_cases hv : 0 ≤ v
    · obtain ⟨l, -, f⟩ := h.at_default hS hT hC e hv g hw
      exact ⟨_, fun _ => f⟩
    · exact ⟨0, fun h' => absurd h' hv⟩
  choose Lf hL using f2
  obtain ⟨-, -, D, -, hD, -, f4⟩ := h.asimov hS hT hC e "qtilde" g hw
  obtain ⟨hlikA, hmaxA⟩ := hasi "qtilde" D f4
  obtain ⟨mA, lA, -, f5⟩ := h.fit hS hT hC (negative := false) rfl e hD g hw
  have f6 : ∀ v : ℝ, ∃ l : ℝ, 0 ≤ v → (Interface.likelihood S B (.float v) (expectation e) true (some D) false true g none w).1 = .ok (.value (fin l)) := by
    intro v
    by_cases hv : 0 ≤ v
    · obtain ⟨l, -, f⟩ := h.at hS hT hC e hD hv g hw
      exact ⟨_, fun _ => f⟩
    · exact ⟨0, fun h' => absurd h' hv⟩
  choose LA hLA using f6
  have hneg : Interface.mayBeNegative "qtilde" = false := by simp [Interface.mayBeNegative]
  exact ⟨m, -l, Lf, mA, -lA, LA, hmax none false _ f1, fun v hv => hlik none v _ (hL v hv), hmaxA _ (by rw [hneg]; exact f5), fun v hv => hlikA v _ (hLA v hv)⟩

end

end Verif.Uncertain
