import Verif.Uncorrelated.Order
import Verif.Uncorrelated.Tests
import Verif.Toys.Quantile

/-!
# The fits and samples of tests with toys
-/

namespace Verif.Toys
open Verif.Py F Verif.Config Verif.Optimizer Verif.Hypotest Verif.Chain
open Verif.Interface (MuHat Data Toys World Size Plain Solver)
open Verif.Backend (Ext Vec Args Built at' poissonLog stdLog)
open Verif.Stats (Expect Calc Levels)
open Verif.Uncorrelated (Bin profile IsBest IsStat fit_stat)

/-- The model fits the data `d` (its own if none are given) with the profile likelihood `P`. -/
def Fitted (S : Solver) (B : Interface.Backend) (N : ℕ) (g : Bool) (e : Expect) (P : ℝ → ℝ) (d : Option Data) : Prop := ∀ w, Plain N w →
  (∃ best, IsBest P best ∧ (Interface.maximize S B true (expectation e) false d none none g none w).1 = .ok (.one best, fin (-(P best)))) ∧
    ∀ v, 0 ≤ v → (Interface.likelihood S B (.float v) (expectation e) true d false true g none w).1 = .ok (.value (fin (-(P v))))

section
variable {S : Solver} (hS : Exact S) {B : Interface.Backend} {N k : ℕ} (hB : Usual B N k) (g : Bool) (ntoys : Size) (available : Calc → Bool) (percentile : List F → F → F)
  (e : Expect) {v : ℝ} (hv : 0 ≤ v)
include hS hB hv

theorem fitted_stat {P : ℝ → ℝ} {d : Option Data} (h : Fitted S B N g e P d) :
    ∃ m l lv l0 q, Hypotest.Fits (Plain N) (modelMethods S B g none ntoys available percentile) e false d v m l lv l0 ∧ IsStat P v q ∧
      (fitOf v m l lv l0).stat Stats.qmuTilde (fin v) = fin q := by
  have hw : Plain N ⟨List.replicate N 0, none, none⟩ := ⟨rfl, rfl, by simp⟩
  obtain ⟨hlik, hmax, -⟩ := arguments_end hS hB g none ntoys available percentile e _ hw
  obtain ⟨⟨best, hb, h1⟩, h2⟩ := h _ hw
  obtain ⟨q, hq, hs⟩ := fit_stat (v := v) (l0 := fin (-(P 0))) hb
  exact ⟨best, _, _, _, q, ⟨hmax _ _ _ h1, hlik _ _ _ (h2 v hv), hlik _ _ _ (h2 0 le_rfl)⟩, hq, hs⟩

theorem fitted_stats {P : Data → ℝ → ℝ} (ds : List Data) (h : ∀ D ∈ ds, Fitted S B N g e (P D) (some D)) :
    ∃ (fs : List Stats.Fit) (qs : List ℝ), AllFit (Plain N) (modelMethods S B g none ntoys available percentile) e false v ds fs ∧
      List.Forall₂ (fun D q => IsStat (P D) v q) ds qs ∧ fs.map (·.stat Stats.qmuTilde (fin v)) = qs.map fin := by
  induction ds with
  | nil => exact ⟨[], [], .nil, .nil, rfl⟩
  | cons D ds ih =>
    obtain ⟨fs, qs, h1, h2, h3⟩ := ih fun D' hD' => h D' (by simp [hD'])
    obtain ⟨m, l, lv, l0, q, k1, k2, k3⟩ := fitted_stat hS hB g ntoys available percentile e hv (h D (by simp))
    exact ⟨_ :: fs, q :: qs, .cons ⟨m, l, lv, l0, k1, rfl⟩ h1, .cons k2 h2, by simp [k3, h3]⟩

end

/-- What the CLs criterion says of the statistics of toys: `q` is that of the data, `sig` are those of toys with signal, `bkg` those of toys without. -/
noncomputable def ratio (q : ℝ) (sig bkg : List ℝ) : ℝ :=
  let a := sig.countP fun x => decide (q ≤ x)
  let b := bkg.countP fun x => decide (q ≤ x)
  if b = 0 then 1 else 1 - min ((a : ℝ) / b) 1

/-- The observed level, or those expected at two standard deviations up, one, none, one and two down, or both: there the quantiles of the toys without signal take the place of the data. -/
noncomputable def toyLevels (e : Expect) (q : ℝ) (sig bkg : List ℝ) : Levels :=
  let o := [fin (ratio q sig bkg)]
  let x := [(2 : ℝ), 1, 0, -1, -2].map fun k => fin (ratio (quantile bkg (Phi k)) sig bkg)
  match e with
  | .observed => .one o
  | .all => .both o x
  | _ => .one x

/-- What is assumed of `numpy.percentile`. -/
def Linear (percentile : List F → F → F) : Prop := ∀ (l : List ℝ) (k : ℝ), l ≠ [] → percentile (l.map fin) (fin k) = fin (quantile l (Phi k))

section
open Classical
variable {σ : Type} {I : σ → Prop}

theorem count_fin (q : ℝ) (l : List ℝ) : (l.map fin).countP (fun s => decide (le (fin q) s)) = l.countP fun x => decide (q ≤ x) := by
  rw [List.countP_map]
  rfl

/-- One level from its p values. -/
theorem level_counts (a b n : ℕ) (hn : 0 < n) (x : F) (hx : x = clip01 (if eq (div (fin (b : ℝ)) (fin (n : ℝ))) (fin 0) then fin 0 else div (div (fin (a : ℝ)) (fin (n : ℝ))) (div (fin (b : ℝ)) (fin (n : ℝ))))) :
    isNan x = false ∧ sub (fin 1) x = fin (if b = 0 then 1 else 1 - min ((a : ℝ) / b) 1) := by
  subst hx
  have hn' : (n : ℝ) ≠ 0 := by positivity
  simp only [div, hn', if_false, eq]
  by_cases hb0 : b = 0
  · simp [hb0, clip01, isNan, sub, add, neg]
  · have hb : (b : ℝ) ≠ 0 := by exact_mod_cast hb0
    have hb1 : (b : ℝ) / n ≠ 0 := by positivity
    have hr : (a : ℝ) / n / ((b : ℝ) / n) = (a : ℝ) / b := by field_simp
    have hp : max ((a : ℝ) / b) 0 = (a : ℝ) / b := max_eq_left (by positivity)
    simp only [hb0, hb1, if_false, hr, clip01, isNan, hp, sub, add, neg]
    exact ⟨by simp, by rw [sub_eq_add_neg]⟩

/-- The levels are those of the numbers of toys. -/
theorem counts_levels (M : Methods σ) (hI : ∃ s, I s) (mu : Mu) (v : ℝ) (hmu : mu.Is v) (e : Expect) (negative : Bool) (hav : M.available .toy = true) (hM : e ≠ .observed → Linear M.percentile)
    (m : ℝ) (l lv l0 : F) (hD : Fits I M e negative none v m l lv l0)
    (ss bs : List Data) (fs fb : List Stats.Fit) (hss : Ends I (M.sampler e mu) (.ok (.data ss)))
    (hbs : Ends I (M.sampler e (.float 0)) (.ok (.data bs))) (n : ℕ) (hn : 0 < n) (hs : ss.length = n) (hb : bs.length = n)
    (hfs : AllFit I M e negative v ss fs) (hfb : AllFit I M e negative v bs fb)
    (t : Stats.TestStat) (ht : Stats.getTestStatistic (if negative then "q" else "qtilde") = .ok t)
    (q : ℝ) (qs qb : List ℝ) (hq : (fitOf v m l lv l0).stat t (fin v) = fin q) (hqs : fs.map (·.stat t (fin v)) = qs.map fin)
    (hqb : fb.map (·.stat t (fin v)) = qb.map fin) :
    Ends I (exclusion M mu e negative .toy) (.ok (toyLevels e q qs qb)) := by
  have h := C107_levels M hI mu v hmu e negative .toy m l lv l0 hD 0 nan nan nan (by simp) ss bs fs fb (fun _ => hss)
    (fun _ => hbs) (fun _ => hs.trans hb.symm) (fun _ => hfs) (fun _ => hfb)
  convert h using 1
  have lqs : qs.length = n := by
    have := congrArg List.length hqs
    rw [List.length_map, List.length_map, ← hfs.length_eq, hs] at this
    exact this.symm
  have lqb : qb.length = n := by
    have := congrArg List.length hqb
    rw [List.length_map, List.length_map, ← hfb.length_eq, hb] at this
    exact this.symm
  have hne : qb ≠ [] := by rintro rfl; simp at lqb; omega
  have tq : (if negative then "q" else "qtilde") ≠ "q0" := by cases negative <;> simp
  have key : ∀ y, isNan (clip01 (Stats.pvalues (fin y) (Stats.empiricDist M.percentile (qs.map fin)) (Stats.empiricDist M.percentile (qb.map fin))).2.2) = false ∧
      sub (fin 1) (clip01 (Stats.pvalues (fin y) (Stats.empiricDist M.percentile (qs.map fin)) (Stats.empiricDist M.percentile (qb.map fin))).2.2) = fin (ratio y qs qb) := by
    intro y
    refine level_counts _ _ n hn _ ?_
    simp only [Stats.pvalues, Stats.empiricDist, Stats.tailFraction, count_fin, List.length_map, lqs, lqb]
  simp only [Stats.exclusionConfidenceLevel, hav, if_true, Stats.calculatorPvalues, Stats.toyPvalues, ht, Stats.toyLevel, if_neg tq, hqs, hqb, hq, Stats.expectedPvalues, Stats.nsigmas, List.map_cons,
    List.map_nil, toyLevels]
  have hx : e ≠ .observed → ∀ k, (Stats.empiricDist M.percentile (qb.map fin)).expected (fin k) = fin (quantile qb (Phi k)) := fun he k => hM he qb k hne
  cases e
  · simp only [(key _).1, (key _).2, if_false, Bool.false_eq_true, Except.mapError]
  all_goals simp only [hx (by simp), (key _).1, (key _).2, if_false, Bool.false_eq_true, Except.mapError]

end

section
variable {S : Solver} (hS : Exact S) (hT : Finds S) (hC : Interface.Constrained S) {B : Interface.Backend} {N k : ℕ} (hB : Usual B N k)
  (hobj : ∀ g e d, ∃ f g', Interface.getObjective B e d g = .ok (f, g') ∧ ∀ x, f x = neg (B.logpdf e d x))
include hS hT hC hB hobj

/-- The samples are drawn at parameters which fit the data best for the strength. -/
theorem sampler_ends (e : Expect) {mu : Mu} {v : ℝ} (hmu : mu.Is v) (hv : 0 ≤ v) (h : ∃ x, Profile B N k true (expectation e) none v x)
    {f : List ℝ → ℕ → List Data} (hf : ∀ x : List ℝ, x.length = N → B.sampler x = .ok (f x)) (g : Bool) (n : ℕ) (available : Calc → Bool) (percentile : List F → F → F) :
    ∃ x, Profile B N k true (expectation e) none v x ∧
      Ends (Plain N) ((modelMethods S B g none (.int n) available percentile).sampler e mu) (.ok (.data (f x n))) := by
  have hw : Plain N ⟨List.replicate N 0, none, none⟩ := ⟨rfl, rfl, by simp⟩
  obtain ⟨p, w', h1, h2, h2', x, h3, hx⟩ := fixed_fit hS hT hC hB hobj (g := g) (Or.inl hv) hw h
  refine ⟨x, hx, ?_⟩
  have st := C110_model hS.free B hB.fixed g none (.int n) available percentile N
  apply (st.sampler e mu).ends hw
  have key : ∀ poi : Interface.Poi, poi = .float v ∨ (∃ i : ℤ, poi = .int i ∧ (i : ℝ) = v) →
      (Interface.fixedPoiSampler S B poi (expectation e) (.int n) g none ⟨List.replicate N 0, none, none⟩).1 = .ok (.data (f x n)) := by
    intro poi hpoi
    have hr : Interface.resolvePoi B ⟨List.replicate N 0, none, none⟩ poi = .ok (.value v) := by
      rcases hpoi with rfl | ⟨i, rfl, rfl⟩ <;> rfl
    unfold Interface.fixedPoiSampler Interface.profile
    rw [h1]
    dsimp only
    split
    · rename_i l hp
      split at hp
      · rename_i hn
        have hN : x.length = 1 := by rw [hx.1, ← h2]; exact hn
        obtain ⟨y, rfl⟩ := List.length_eq_one_iff.mp hN
        simp at hp
      · simp [hr, h3] at hp
    · rename_i l x' w hp
      have : x' = x := by
        split at hp
        · rename_i u hn
          have hN : x.length = 1 := by rw [hx.1, ← h2]; exact hn
          have hu : u = v := by rcases hpoi with h | ⟨i, h, -⟩ <;> simp_all
          obtain ⟨y, rfl⟩ := List.length_eq_one_iff.mp hN
          have := hx.2.1
          rw [List.getElem?_singleton] at this
          split at this <;> simp_all
        · rw [hr] at hp
          simp only [h3, Prod.mk.injEq, Except.ok.injEq] at hp
          exact hp.1.2.symm
      subst this
      rw [hf _ hx.1]
  have : (Interface.fixedPoiSampler S B (toPoi mu) (expectation e) (.int n) g none ⟨List.replicate N 0, none, none⟩).1 = .ok (.data (f x n)) := by
    apply key
    cases mu with
    | float u => left; have : u = v := hmu; subst this; rfl
    | int i => right; exact ⟨i, rfl, hmu⟩
    | array u => left; have : u = v := hmu; subst this; rfl
    | scalar u => exact hmu.elim
    | dict l => exact hmu.elim
  change (ofInterface _ _).1 = _
  unfold ofInterface
  rw [this]
  rfl

/-- The level of a model with toys. -/
theorem toy_level (e : Expect) {mu : Mu} {v : ℝ} (hmu : mu.Is v) (hv : 0 ≤ v) (h : ∀ u, 0 ≤ u → ∃ x, Profile B N k true (expectation e) none u x)
    {f : List ℝ → ℕ → List Data} (hf : ∀ x : List ℝ, x.length = N → B.sampler x = .ok (f x)) (g : Bool) {n : ℕ} (hn : 0 < n)
    (hlen : ∀ x : List ℝ, x.length = N → (f x n).length = n) {P : Data → ℝ → ℝ} {P0 : ℝ → ℝ} (hP0 : Fitted S B N g e P0 none)
    (hP : ∀ (x : List ℝ) u, 0 ≤ u → Profile B N k true (expectation e) none u x → ∀ D ∈ f x n, Fitted S B N g e (P D) (some D))
    {available : Calc → Bool} (hav : available .toy = true) {percentile : List F → F → F} (hM : e ≠ .observed → Linear percentile) :
    ∃ x x0 q qs qb, Profile B N k true (expectation e) none v x ∧ Profile B N k true (expectation e) none 0 x0 ∧ IsStat P0 v q ∧
      List.Forall₂ (fun D q => IsStat (P D) v q) (f x n) qs ∧ List.Forall₂ (fun D q => IsStat (P D) v q) (f x0 n) qb ∧
      Ends (Plain N) (exclusion (modelMethods S B g none (.int n) available percentile) mu e false .toy) (.ok (toyLevels e q qs qb)) := by
  obtain ⟨x, hx, e1⟩ := sampler_ends hS hT hC hB hobj e hmu hv (h v hv) hf g n available percentile
  obtain ⟨x0, hx0, e2⟩ := sampler_ends hS hT hC hB hobj e (mu := .float 0) (v := 0) rfl le_rfl (h 0 le_rfl) hf g n available percentile
  obtain ⟨m, l, lv, l0, q, k1, k2, k3⟩ := fitted_stat hS hB g (.int n) available percentile e hv hP0
  obtain ⟨fs, qs, a1, a2, a3⟩ := fitted_stats hS hB g (.int n) available percentile e hv (f x n) (hP x v hv hx)
  obtain ⟨fb, qb, b1, b2, b3⟩ := fitted_stats hS hB g (.int n) available percentile e hv (f x0 n) (hP x0 0 le_rfl hx0)
  refine ⟨x, x0, q, qs, qb, hx, hx0, k2, a2, b2, ?_⟩
  exact counts_levels _ ⟨⟨List.replicate N 0, none, none⟩, rfl, rfl, by simp⟩ mu v hmu e false hav hM m l lv l0 k1 _ _ fs fb e1 e2 n hn (hlen x hx.1) (hlen x0 hx0.1) a1 b1
    Stats.qmuTilde (by simpa using Stats.get_qtilde) q qs qb k3 a3 b3

end

end Verif.Toys
