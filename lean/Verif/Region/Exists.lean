import Verif.Region.Props
import Verif.Uncorrelated.Tests

/-!
# Lemmas for property C160: searches that succeed
-/

namespace Verif.Region
open Verif.Py F Verif.Optimizer
open Verif.Config (Bound)
open Verif.Contour (Num Vec Target Bounds Minimiser Setup Gen Result Choice insertPoi assemble signalIndices Embedded Partition)
open Verif.Interface (Backend Solver World Allowed Satisfies InBounds Plain)
open Verif.Hypotest (Exact Usual)
open Verif.Chain (Finds Profile Binned Simple plugged)
open Verif.Backend (Ext Args at')
open Classical

theorem readKeys_succeeds {names : Option (List String)} {x : List ℝ} (ks : List Config.Key) (h : ∀ k ∈ ks, ∃ v, Interface.readKey names x k = .ok v) :
    ∀ d, ∃ r, Interface.readKeys names x d ks = .ok r := by
  induction ks with
  | nil => intro d; exact ⟨d, rfl⟩
  | cons k l ih =>
    intro d
    obtain ⟨v, hv⟩ := h k (List.mem_cons_self ..)
    simp only [Interface.readKeys, hv]
    exact ih (fun k hk => h k (List.mem_cons_of_mem _ hk)) _

theorem readSignal_succeeds {d : List (Config.Key × ℝ)} (l : List ℤ) (h : ∀ i ∈ l, ∃ v, dictGet (.index i) d = some v) : ∃ r, readSignal d l = .ok r := by
  induction l with
  | nil => exact ⟨[], rfl⟩
  | cons i l ih =>
    obtain ⟨v, hv⟩ := h i (List.mem_cons_self ..)
    obtain ⟨r, hr⟩ := ih fun k hk => h k (List.mem_cons_of_mem _ hk)
    exact ⟨v :: r, by simp only [readSignal, hv, hr]⟩

/-- The primary fit succeeds if there is a best point, with a finite NLL. -/
theorem mle_exists {S : Solver} (hS : Exact S) (hT : Finds S) (hC : Interface.Constrained S) {B : Backend} {N p : ℕ} (hB : Usual B N p)
    (hobj : ∀ g e d, ∃ f g', Interface.getObjective B e d g = .ok (f, g') ∧ ∀ x, f x = neg (B.logpdf e d x)) {w : World} (hw : Plain N w)
    (h : ∃ x, Profile B N p true .observed none 1 x) (hfin : ∀ x : List ℝ, x.length = N → ∃ y, B.logpdf .observed none x = fin y) :
    ∃ θ v w', findMle S B (signalIndices N p) w = (.ok (θ, v), w') := by
  obtain ⟨q, w', h1, -, h3, x, h4, hx⟩ := Chain.fixed_fit hS hT hC hB hobj (g := true) (Or.inl zero_le_one) hw h
  obtain ⟨y, hy⟩ := hfin x hx.1
  have hkey : ∀ k ∈ (signalIndices N p).map Config.Key.index, ∃ v, Interface.readKey (Interface.config B true w').names x k = .ok v := by
    intro k hk
    obtain ⟨i, hi, rfl⟩ := List.mem_map.mp hk
    obtain ⟨a, b, -⟩ := (Contour.mem_signal _ _ _).mp hi
    have hlt : i.toNat < x.length := by rw [hx.1]; omega
    exact ⟨x[i.toNat], Interface.readKey_ok.mpr ⟨i.toNat, ⟨.inl ⟨a, by omega⟩, hlt⟩, List.getElem?_eq_getElem hlt⟩⟩
  obtain ⟨d, hd⟩ := readKeys_succeeds _ hkey []
  obtain ⟨-, -, hget, -⟩ := Interface.readKeys_ok _ _ _ (by simp) hd
  obtain ⟨θ, hθ⟩ := readSignal_succeeds (d := d) (signalIndices N p) fun i hi => by
    obtain ⟨v, -, hv⟩ := hget (.index i) (List.mem_map.mpr ⟨i, hi, rfl⟩)
    exact ⟨v, hv⟩
  refine ⟨θ, -y, w', ?_⟩
  unfold findMle Interface.maximize
  rw [hB.fallback.minNegLL]
  simp only [Interface.resolveFixed, Interface.resolvePoi, h1, h4, Interface.estimates, hd, Except.map, hθ, Interface.scaleOut, if_true, hy, neg]

/-! ## A library for the examples -/

/-- The settings of a search without rays. -/
noncomputable def calmSetup (k : ℕ) : Setup k :=
  { F := ⟨fun _ => .ok none, fun _ => .ok none⟩, bounds := fun _ => (none, none), quantile := 1, nRadial := 0, nChains := 5, nCandidates := 10, maxBracket := 30,
    nPasses := 1, knn := 5, nMultistart := 2, dedupTol := 0.05, nSteps := 10, stepSize := 0.05, newtonTol := 1e-9, newtonMaxIter := 100,
    brent := Contour.idealBrent, argsort := fun l => List.range l.length, minimise := fun _ => .error .value, whiten := fun _ => .ok 1,
    stream := fun _ _ => 0, schedule := fun _ => none }

/-- Exact minimisers, and no rays. -/
noncomputable def calm (N : ℕ) : Lib where
  setup := calmSetup
  lbfgs k F b _ :=
    if h : ∃ p : Vec k × ℝ, Contour.Inside b p.1 ∧ F.nll (some p.1) = .ok (some p.2) ∧ ∀ t' v', Contour.Inside b t' → F.nll (some t') = .ok (some v') → p.2 ≤ v' then
      .ok (h.choose.1, some h.choose.2)
    else .error .runtime
  slsqp f init b :=
    if h : ∃ x, Smallest f init.length b x then
      .ok (h.choose, true)
    else .error .runtime
  autograd _ _ := .ok none
  garbage := List.replicate N 0

theorem calm_truthful (N : ℕ) : Truthful (calm N) := by
  intro k F b x t v h
  simp only [calm] at h
  split at h
  · rename_i hex
    simp only [Except.ok.injEq, Prod.mk.injEq, Option.some.injEq] at h
    rw [← h.1, ← h.2]
    exact ⟨hex.choose_spec.2.1, hex.choose_spec.1⟩
  · simp at h

theorem calm_finishes (N : ℕ) : Finishes (calm N) := by
  rintro k F b x ⟨t, v, h⟩
  have hex : ∃ p : Vec k × ℝ, Contour.Inside b p.1 ∧ F.nll (some p.1) = .ok (some p.2) ∧ ∀ t' v', Contour.Inside b t' → F.nll (some t') = .ok (some v') → p.2 ≤ v' :=
    ⟨(t, v), h⟩
  refine ⟨hex.choose.1, hex.choose.2, ?_, hex.choose_spec.2.2⟩
  simp only [calm]
  rw [dif_pos hex]

theorem calm_keeps (N : ℕ) : Keeps (calm N) := by
  intro f init b x h
  simp only [calm] at h
  split at h
  · rename_i hex
    simp only [Except.ok.injEq, Prod.mk.injEq] at h
    rw [← h.1]
    exact ⟨hex.choose_spec.length, hex.choose_spec.inside⟩
  · simp at h

theorem calm_solves (N : ℕ) : Solves (calm N) := by
  intro f init b hex
  refine ⟨hex.choose, ?_, hex.choose_spec⟩
  simp only [calm]
  rw [dif_pos hex]

/-- A search without rays gives a result if the NLL can be evaluated everywhere. -/
theorem calm_result {k : ℕ} (G : Gen k) (P : Setup k) (hw : ∀ a, P.whiten a = .ok 1) (hr : P.nRadial = 0) (hF : ∀ t, ∃ v, P.F.nll (some t) = .ok (some v))
    (primary : Vec k × ℝ) (s : G.State) : ∃ res, Contour.findContour G P primary s = .ok res := by
  have hb : ∀ T a c s, Contour.basin G P T a c s = .ok (⟨[], []⟩, c, s) := by
    intro T a c s
    obtain ⟨v, hv⟩ := hF a
    simp only [Contour.basin, hw, Contour.radialSearch, Contour.atAnchor, Setup.rays, hv, hr, Contour.radialLoop]
    split
    · simp_all
    · rename_i radial _ e
      have : radial = [] := by
        split at e <;> simp at e <;> exact e.1
      subst this
      split at e <;> simp_all
  have hall : ∀ T l c s, ∃ parts, Contour.allBasins G P T l c s = .ok parts := by
    intro T l
    induction l with
    | nil => intro c s; exact ⟨[], rfl⟩
    | cons b l ih =>
      intro c s
      obtain ⟨parts, hp⟩ := ih c s
      exact ⟨_, by simp only [Contour.allBasins, hb, hp]; rfl⟩
  obtain ⟨b, r, hbs, -⟩ := Contour.C64_best P.minimise P.dedupTol primary (Contour.startPoints G P.bounds primary.1 5 (max 1 P.nMultistart - 1) s).1
  unfold Contour.findContour
  simp only [hbs]
  obtain ⟨parts, hp⟩ := hall (Contour.threshold b.2 P.quantile) (Contour.activeBasins (Contour.threshold b.2 P.quantile) b (b :: r)) 0
    (Contour.startPoints G P.bounds primary.1 5 (max 1 P.nMultistart - 1) s).2
  rw [hp]
  exact ⟨_, rfl⟩

/-! ## Existence of a result -/

theorem pyGets_succeeds {β : Type} {l : List β} (idx : List ℤ) (h : ∀ i ∈ idx, 0 ≤ i ∧ i < l.length) : ∃ r, Contour.pyGets l idx = .ok r := by
  induction idx with
  | nil => exact ⟨[], rfl⟩
  | cons i r ih =>
    obtain ⟨h1, h2⟩ := h i (List.mem_cons_self ..)
    obtain ⟨as, has⟩ := ih fun k hk => h k (List.mem_cons_of_mem _ hk)
    have hi : i.toNat < l.length := by omega
    refine ⟨l[i.toNat] :: as, ?_⟩
    simp only [Contour.pyGets, Contour.pyGet, if_pos h1, List.getElem?_eq_getElem hi, has]

theorem choose_succeeds {β : Type} {N p : ℕ} {bs : List β} (hb : bs.length = N) {names : Option (List String)} (hn : ∀ n, names = some n → n.length = N)
    {given : Option (List ℤ)} (h0 : Contour.contourIndices N p given ≠ []) (h1 : ∀ i ∈ Contour.contourIndices N p given, i ∈ signalIndices N p) :
    ∃ c, Contour.choose N p bs names given none = .ok c := by
  have hr : ∀ i ∈ Contour.contourIndices N p given, 0 ≤ i ∧ i < N := fun i hi => by
    obtain ⟨a, b, -⟩ := (Contour.mem_signal _ _ _).mp (h1 i hi)
    exact ⟨a, b⟩
  obtain ⟨b, hb'⟩ := pyGets_succeeds (l := bs) _ (by rw [hb]; exact hr)
  have hlen : ¬ (Contour.contourIndices N p given).length < 1 := by
    have := List.length_pos_iff.mpr h0
    omega
  unfold Contour.choose
  simp only [if_neg hlen, hb']
  cases names with
  | none => simp only [Contour.positions_total _ h1]; exact ⟨_, rfl⟩
  | some n =>
    obtain ⟨r, hr'⟩ := pyGets_succeeds (l := n) _ (by rw [hn n rfl]; exact hr)
    simp only [hr', Contour.positions_total _ h1]
    exact ⟨_, rfl⟩

/-- The search of a model gives a result if its parts do. -/
theorem find_exists (Q : (k : ℕ) → Result k → Prop) {S : Solver} {B : Backend} {N p : ℕ} (hp : p < N) (hpoi : (B.config true).poiIndex = p) (hlen : (B.config true).bounds.length = N)
    (hnames : ∀ n, (B.config true).names = some n → n.length = N) {L : Lib} (hg : L.garbage.length = N) {G : (k : ℕ) → Gen k} {cl : ℝ} (hcl : 0 < cl ∧ cl < 1)
    {given : Option (List ℤ)} (hgiven : ∀ l, given = some l → l.Nodup) (h0 : Contour.contourIndices N p given ≠ [])
    (h1 : ∀ i ∈ Contour.contourIndices N p given, i ∈ signalIndices N p) {w : World} (hw : Plain N w) {all : List ℝ} {v : ℝ} {w' : World} (hall : all.length + 1 = N)
    (hm : findMle S B (signalIndices N p) w = (.ok (all, v), w')) {s : (k : ℕ) → (G k).State}
    (hs : ∀ (c : Choice Bound) θ init pb, Contour.choose N p (B.config true).bounds (B.config true).names given none = .ok c →
      Contour.splitFit N p c.contour c.profile all = .ok (θ, init) → Contour.pyGets (B.config true).bounds c.profile = .ok pb → ∃ res, Contour.findContour (G c.contour.length)
        (search L (target L (B.logpdf .observed none) (decide (B.constraints ≠ [])) p c pb init) (box c.contour.length c.bounds))
        (fun j => θ.getD j 0, v) (s c.contour.length) = .ok res ∧ Q _ res) :
    ∃ k res, (findContour S B L G cl given none w s).1 = .ok ⟨k, res⟩ ∧ Q k res := by
  obtain ⟨c, hc⟩ := choose_succeeds hlen hnames h0 h1
  obtain ⟨hpart, -⟩ := Contour.C66_partition_partial N p hp _ _ given hgiven none c hc
  obtain ⟨θ, init, hsp, -⟩ := Contour.C66_split N p c.contour c.profile hpart all L.garbage hall hg
  obtain ⟨c1, c2, -⟩ := Contour.choose_ok _ _ _ _ _ _ _ hc
  obtain ⟨pb, hpb⟩ := pyGets_succeeds (l := (B.config true).bounds) c.profile fun i hi => by
    rw [c2] at hi
    obtain ⟨a, b, -⟩ := (Contour.mem_signal _ _ _).mp (List.mem_filter.mp hi).1
    rw [hlen]
    exact ⟨a, b⟩
  obtain ⟨res, hres, hQ⟩ := hs c θ init pb hc hsp hpb
  refine ⟨c.contour.length, res, ?_, hQ⟩
  unfold findContour
  rw [if_neg (by push Not; exact hcl)]
  simp only [Config.ModelConfig.npar, Interface.config, hpoi, Int.toNat_natCast, hw.2.2, hc, hm, hsp, hpb]
  rw [hres]

/-- Without profile parameters and with a finite likelihood the NLL of the search can be evaluated everywhere. -/
theorem target_total {B : Backend} {N p : ℕ} (hp : p < N) {L : Lib} {c : Choice Bound} (hcon : c.contour = signalIndices N p) (hpro : c.profile = [])
    (hfin : ∀ x : List ℝ, x.length = N → ∃ y, B.logpdf .observed none x = fin y) {o : Bool} {pb : List Bound} {init : List ℝ} (t : Vec c.contour.length) :
    ∃ v, (target L (B.logpdf .observed none) o p c pb init).nll (some t) = .ok (some v) := by
  obtain ⟨y, hy⟩ := hfin (insertPoi p (List.ofFn t)) (by
    have := signal_length hp
    have hl : (List.ofFn t).length + 1 = N := by rw [List.length_ofFn, hcon]; exact this
    simp [insertPoi, hcon]
    omega)
  refine ⟨-y, ?_⟩
  simp only [target, nllScalar, fullPoint, hpro, if_true, hy, neg, num]

/-! ## Constraints -/

open Verif.Uncorrelated (argsOf Bin)

/-- A result needs the NLL at the best basin. -/
theorem find_evaluates {k : ℕ} (G : Gen k) (P : Setup k) (primary : Vec k × ℝ) (s : G.State) (res : Result k) (h : Contour.findContour G P primary s = .ok res) :
    ∃ t v, P.F.nll (some t) = .ok (some v) := by
  obtain ⟨starts, s', best, rest, parts, -, -, hall, -⟩ := Contour.find_ok G P primary s res h
  cases hact : Contour.activeBasins (best.2 + P.quantile) best (best :: rest) with
  | nil =>
    unfold Contour.activeBasins at hact
    split at hact
    · simp at hact
    · rename_i hne
      exact absurd hact (fun e => hne (e ▸ rfl))
  | cons b l =>
    rw [hact] at hall
    simp only [Contour.allBasins, Contour.basin] at hall
    cases hw : P.whiten b.1 with
    | error e => rw [hw] at hall; simp at hall
    | ok M =>
      rw [hw] at hall
      simp only [Contour.radialSearch, Contour.atAnchor, Setup.rays] at hall
      cases hF : P.F.nll (some b.1) with
      | error e => rw [hF] at hall; simp at hall
      | ok v =>
        cases v with
        | none => rw [hF] at hall; simp at hall
        | some v => exact ⟨_, v, hF⟩

/-- The NLL of one bin with the signal 10, the background 1, its uncertainty 2, and no event. -/
theorem one_bin {E : Ext} (draw) {m : Backend.Model} (h : Backend.uncorrelated (argsOf [⟨10, 1, 2, 0⟩]) [2] = .ok m) :
    (∃ C, ∀ θ : ℝ, nll (plugged E draw m) [1, θ] = fin (max (11 + 2 * θ) (1 / 10 ^ 20) + θ ^ 2 / 2 + C)) ∧
      (∀ x, Admissible (plugged E draw m) 2 0 x → ∃ θ, x = [1, θ] ∧ 0 ≤ 1 + 2 * θ) ∧
      ∀ b, ((plugged E draw m).config true).bounds[1]? = some b → b = (none, none) := by
  have hv : Uncorrelated.Valid [⟨10, 1, 2, 0⟩] := ⟨by simp [Bin.Proper]; norm_num, by simp⟩
  obtain ⟨lo, hs⟩ := Uncorrelated.simple (E := E) h hv
  have hbin := hs.binned draw
  have hl : (argsOf [⟨10, 1, 2, 0⟩]).data.length = 1 := by simp [argsOf]
  rw [hl] at hbin
  refine ⟨⟨E.gammaln 1 + Real.log (2 * Real.pi) / 2, fun θ => ?_⟩, fun x hx => ?_, hbin.others true 1 one_pos⟩
  · have h0 := hbin.default .observed [1, θ]
    rw [hbin.logpdf _ _ (hbin.length _) _ rfl] at h0
    simp only [Hypotest.expectation] at h0
    rw [nll, h0]
    simp [neg, Chain.logLikelihood, Chain.expectedIn, Uncorrelated.level, Uncorrelated.constraint, Backend.poissonLog, Backend.stdLog, at', Chain.used, argsOf]
    rw [show (10 : ℝ) + (1 + 2 * θ) = 11 + 2 * θ by ring]
    ring
  · obtain ⟨y, l, rfl⟩ : ∃ y l, x = y :: l := by
      cases x with
      | nil => simpa using hx.length
      | cons y l => exact ⟨y, l, rfl⟩
    obtain ⟨θ, l, rfl⟩ : ∃ θ l', l = θ :: l' := by
      cases l with
      | nil => simpa using hx.length
      | cons y l => exact ⟨y, l, rfl⟩
    obtain rfl : l = [] := by simpa using hx.length
    have h1 := hx.one
    simp only [List.getElem?_cons_zero, Option.some.injEq] at h1
    subst h1
    have := (hbin.constraints _ rfl).mp hx.constraints 0 one_pos
    exact ⟨θ, rfl, by simpa [Uncorrelated.level, at'] using this⟩

end Verif.Region
