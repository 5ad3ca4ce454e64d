import Verif.Region.ConstraintProps
import Verif.Region.RadialProps

/-!
# Cases that meet the hypotheses of C160 and C161

Two bins with the signal `1 + a` and `a + b`, background 1, uncertainty 1 and the data 2 and 1: with strength one the NLL is
`a² / 2 + (a + b)² / 2` up to a constant.
-/

namespace Verif.Region
open Verif.Py F Verif.Optimizer
open Verif.Config (Bound)
open Verif.Contour (Num Vec Target Bounds Minimiser Setup Gen Result Choice insertPoi assemble signalIndices Embedded Partition)
open Verif.Interface (Backend Solver World Allowed Satisfies InBounds Plain)
open Verif.Hypotest (Exact Usual)
open Verif.Chain (Finds Profile Binned Simple plugged)
open Verif.Backend (Ext Args at')
open Classical

/-- The arguments of the model. -/
noncomputable def exArgs : Args := ⟨.function fun v => [1 + at' v 0, at' v 0 + at' v 1], [1, 1], [2, 1], none, 2, none⟩

theorem exArgs_fits : Backend.Fits exArgs := by simp [Backend.Fits, exArgs]

/-- The model. -/
noncomputable def exModel : Backend.Model :=
  ⟨[2, 1], [1, 1], .normal (Backend.simpleRate exArgs) [1, 1], none,
    ⟨0, ninf, [1, 1, 1], [(some ninf, some (fin 10)), (none, none), (none, none)], some (["mu"] ++ (List.range 2).map (fun i => s!"signal_par_{i}")), none⟩, []⟩

theorem ex_model : Backend.gaussian exArgs [1, 1] = .ok exModel := rfl

theorem ex_built : Backend.Built exArgs exModel := .gaussian [1, 1] rfl ex_model

section
variable (E : Ext) (draw : Backend.Vec × List Backend.Vec → ℕ → List Backend.Vec)

theorem ex_usual : Usual (plugged E draw exModel) 3 0 := Chain.plugged_usual E draw ex_built exArgs_fits

theorem ex_bounds : ((plugged E draw exModel).config true).bounds = [(some ninf, some (fin 10)), (none, none), (none, none)] := by
  simp [plugged, Backend.configOf, exModel]

theorem ex_poi : ((plugged E draw exModel).config true).poiIndex = ((0 : ℕ) : ℤ) := by
  simp [plugged, Backend.configOf, exModel]

theorem ex_names : ∀ n, ((plugged E draw exModel).config true).names = some n → n.length = 3 := by
  intro n h
  simp [plugged, Backend.configOf, exModel] at h
  rw [← h]
  rfl

theorem ex_sane : Sane (plugged E draw exModel) := by
  intro b hb
  rw [ex_bounds] at hb
  simp at hb
  rcases hb with rfl | rfl <;> simp

theorem ex_constraints : (plugged E draw exModel).constraints = [] := rfl

theorem ex_loglik (mu a b : ℝ) : (plugged E draw exModel).logpdf .observed none [mu, a, b] =
    fin (-((mu * (1 + a) - 1) ^ 2 / 2 + (mu * (a + b)) ^ 2 / 2 + Real.log (2 * Real.pi))) := by
  have h := Chain.plugged_none E draw ex_built exArgs_fits .observed [mu, a, b]
  simp only [Hypotest.expectation] at h
  rw [h]
  simp only [plugged]
  rw [Backend.C53_loglik_gaussian E exArgs [1, 1] exModel ex_model rfl exArgs_fits [mu, a, b] (Chain.used exArgs .observed) rfl rfl]
  simp [Chain.value, Finset.sum_range_succ, Backend.stdLog, Backend.signalAt, exArgs, at', Chain.used, List.range, List.range.loop]
  ring

theorem ex_nll (a b : ℝ) : nll (plugged E draw exModel) [1, a, b] = fin (a ^ 2 / 2 + (a + b) ^ 2 / 2 + Real.log (2 * Real.pi)) := by
  rw [nll, ex_loglik]
  simp only [neg, neg_neg, one_mul, add_sub_cancel_left]

theorem three {x : List ℝ} (h : x.length = 3) : ∃ a b c, x = [a, b, c] := by
  match x, h with
  | [a, b, c], _ => exact ⟨a, b, c, rfl⟩

theorem ex_allowed (j : ℕ) (b : Bound) (y : ℝ) (hj : j ≠ 0) (hb : ((plugged E draw exModel).config true).bounds[j]? = some b) : Allowed b y := by
  rw [ex_bounds] at hb
  have : b = (none, none) := by
    match j, hj with
    | 1, _ => simpa using hb.symm
    | 2, _ => simpa using hb.symm
    | j + 3, _ => simp at hb
  rw [this]
  exact ⟨fun l hl => by simp at hl, fun l hl => by simp at hl⟩

theorem ex_profile : Profile (plugged E draw exModel) 3 0 true .observed none 1 [1, 0, 0] := by
  refine ⟨rfl, rfl, fun j b y hj hb _ => ex_allowed E draw j b y hj hb, fun c hc => by simp [ex_constraints] at hc, fun x' h1 h2 _ _ _ => ?_⟩
  obtain ⟨a, b, c, rfl⟩ := three h1
  have ha : a = 1 := by simpa using h2
  subst ha
  rw [ex_loglik, ex_loglik]
  show _ ≤ _
  have := sq_nonneg b
  have := sq_nonneg (b + c)
  ring_nf at *
  linarith

theorem ex_objective : ∀ g e d, ∃ f g', Interface.getObjective (plugged E draw exModel) e d g = .ok (f, g') ∧ ∀ x, f x = neg ((plugged E draw exModel).logpdf e d x) := by
  intro g e d
  obtain ⟨f, g', hf⟩ : ∃ f g', Interface.getObjective (plugged E draw exModel) e d g = .ok (f, g') := ⟨_, _, rfl⟩
  refine ⟨f, g', hf, ?_⟩
  simp only [Interface.getObjective, plugged, Except.ok.injEq, Prod.mk.injEq] at hf
  have hc := Chain.plugged_consistent E draw exModel g e d
  exact fun x => hc f (by simp only [plugged, Except.ok.injEq]; exact hf.1) x

/-- The primary fit of this model: both parameters are zero. -/
theorem ex_mle (w : World) (hw : Plain 3 w) :
    ∃ w', findMle Interface.perfect (plugged E draw exModel) (signalIndices 3 0) w = (.ok ([0, 0], Real.log (2 * Real.pi)), w') := by
  obtain ⟨θ, v, w', h⟩ := mle_exists Hypotest.perfect_exact Chain.perfect_finds Interface.perfect_constrained (ex_usual E draw) (ex_objective E draw) hw
    ⟨_, ex_profile E draw⟩ (fun x hx => by
      obtain ⟨a, b, c, rfl⟩ := three hx
      exact ⟨_, ex_loglik E draw a b c⟩)
  obtain ⟨hl, hbest⟩ := mle_point Hypotest.perfect_exact Interface.perfect_constrained (ex_usual E draw) (by norm_num) hw h
  obtain ⟨a, b, rfl⟩ : ∃ a b, θ = [a, b] := by
    match θ, hl with
    | [a, b], _ => exact ⟨a, b, rfl⟩
  have hv := hbest.value
  have h0 := hbest.least [1, 0, 0] ⟨rfl, rfl, (ex_profile E draw).2.2.1, (ex_profile E draw).2.2.2.1⟩ (by rw [ex_nll]; simp)
  rw [ex_nll] at h0
  have h1 : v ≤ 0 ^ 2 / 2 + (0 + 0) ^ 2 / 2 + Real.log (2 * Real.pi) := h0
  simp only [insertPoi, List.take_zero, List.nil_append, List.drop_zero, List.singleton_append] at hv
  rw [ex_nll] at hv
  have h2 : a ^ 2 / 2 + (a + b) ^ 2 / 2 + Real.log (2 * Real.pi) = v := by simpa using hv
  have ha : a = 0 := by nlinarith [sq_nonneg a, sq_nonneg (a + b)]
  have hb : b = 0 := by
    subst ha
    have : b ^ 2 = 0 := by nlinarith [sq_nonneg b]
    simpa using this
  subst ha hb
  have hv' : v = Real.log (2 * Real.pi) := by rw [← h2]; norm_num
  rw [hv'] at h
  exact ⟨w', h⟩

/-- The profile NLL of the first signal parameter. -/
theorem ex_profile_nll (t : Vec 1) : ProfileNll (plugged E draw exModel) 3 0 [1] t (t 0 ^ 2 / 2 + Real.log (2 * Real.pi)) := by
  constructor
  · refine ⟨[1, t 0, -t 0], ⟨rfl, rfl, ⟨rfl, fun j => ?_⟩, fun j b y hj hn hb hy => ex_allowed E draw j b y hj hb⟩, ?_⟩
    · obtain rfl : j = 0 := Subsingleton.elim _ _
      rfl
    · rw [ex_nll]; simp
  · intro x hx _
    obtain ⟨a, b, c, rfl⟩ := three hx.length
    have ha : a = 1 := by simpa using hx.one
    have hb : b = t 0 := by simpa using hx.coordinates.2 0
    subst ha hb
    rw [ex_nll]
    show _ ≤ _
    nlinarith [sq_nonneg (t 0 + c)]

end

/-! ## The radial search -/

/-- A generator whose Gaussian numbers are all one. -/
def oneGen (k : ℕ) : Gen k := ⟨Unit, fun s => (fun _ => 1, s), fun s => (0, s), fun s => (0, s)⟩

/-- The library with one ray, and the quantile 2. -/
noncomputable def rayLib : Lib := { calm 3 with setup := fun k => { calmSetup k with nRadial := 1, nMultistart := 1, quantile := 2 } }

/-- A search along one ray from the minimum of a parabola. -/
theorem bell_search {R : Contour.Rays 1} {C : ℝ} (hF : ∀ t, R.F.nll (some t) = .ok (some (t 0 ^ 2 / 2 + C))) (ha : R.anchor = fun _ => 0) (hM : R.M = 1)
    (hT : R.T = C + 2) (hm : R.maxBracket = 30) (hb : R.bounds = fun _ => (none, none)) (hbr : R.brent = Contour.idealBrent) :
    ∃ r, Contour.radialSearch (oneGen 1) R 1 () = .ok ([(fun _ => r, fun _ => 1)], ()) := by
  have hat : ∀ r, R.at (fun _ => 1) r = fun _ => r := by
    intro r
    funext i
    simp [Contour.Rays.at, Contour.toTheta, ha, hM]
  have hf : ∀ r, R.f (fun _ => 1) r = .ok (some (r ^ 2 / 2 - 2)) := by
    intro r
    have hh := hat r
    simp only [Contour.Rays.at] at hh
    rw [Contour.Rays.f, Contour.along, hh, hF, hT]
    simp
    ring
  have heff : R.eff (fun _ => 1) = 30 := by
    simp [Contour.Rays.eff, Contour.maxR, hb, hm, List.finRange_succ, Contour.capAt, Contour.effectiveMax]
  have hr0 : Contour.rInit R.T C = 2 := by
    rw [hT]
    unfold Contour.rInit
    rw [show max (C + 2 - C) 1 * 2 = 2 * 2 by rw [add_sub_cancel_left]; norm_num]
    exact Real.sqrt_mul_self (by norm_num)
  have hgrow : Contour.grow (R.f fun _ => 1) 30 (Contour.rounds (min 2 30) 30) (min 2 30) = .ok (some 4) := by
    have hm : min (2 : ℝ) 30 = 2 := min_eq_left (by norm_num)
    have hround : Contour.rounds 2 30 = 14 + 1 + 1 := by
      unfold Contour.rounds
      rw [show (30 : ℝ) / 2 = (15 : ℕ) by norm_num, Nat.ceil_natCast]
    rw [hm, hround, Contour.grow_on _ (fun r => r ^ 2 / 2 - 2) hf 30 _ 2 4 (by norm_num) (by norm_num) (by norm_num)]
    simp only [Contour.grow, hf]
    rw [if_neg]
    rintro ⟨h, _⟩
    have : (4 : ℝ) ^ 2 / 2 - 2 ≤ 0 := h
    norm_num at this
  have hsign : ((1e-8 : ℝ) ^ 2 / 2 - 2) * ((4 : ℝ) ^ 2 / 2 - 2) < 0 := by norm_num
  have hcont : Continuous fun r : ℝ => r ^ 2 / 2 - 2 := by fun_prop
  obtain ⟨r, hr⟩ := Contour.ideal_converges (R.f fun _ => 1) (fun r => r ^ 2 / 2 - 2) 1e-8 4 hf hcont hsign
  have hray : Contour.ray R.brent (R.f fun _ => 1) (Contour.rInit R.T C) (R.eff fun _ => 1) = .ok (some r) := by
    rw [heff, hr0, Contour.ray, if_neg (by norm_num), hf]
    simp only
    rw [if_neg (show ¬ Num.Le (some 0) (some ((1e-8 : ℝ) ^ 2 / 2 - 2)) from by show ¬ (0 : ℝ) ≤ _; norm_num), hgrow]
    simp only [hf]
    rw [if_neg (show ¬ Num.Le (some ((4 : ℝ) ^ 2 / 2 - 2)) (some 0) from by show ¬ (_ : ℝ) ≤ 0; norm_num), hbr, hr]
    rfl
  have hn1 : Contour.norm (fun _ => 1 : Vec 1) = 1 := by simp [Contour.norm, dotProduct]
  have hn : ¬ Contour.norm (fun _ => 1 : Vec 1) < 1e-15 := by rw [hn1]; norm_num
  have hu : (Contour.norm (fun _ => 1 : Vec 1))⁻¹ • (fun _ => 1 : Vec 1) = fun _ => 1 := by rw [hn1]; simp
  have hanch : Contour.atAnchor R.F R.anchor = .ok C := by
    rw [Contour.atAnchor, hF, ha]
    simp
  refine ⟨r, ?_⟩
  unfold Contour.radialSearch
  rw [hanch]
  simp only
  rw [if_neg (by rw [hT]; linarith)]
  have hnorm : (oneGen 1).normal () = (fun _ => 1, ()) := rfl
  simp only [Contour.radialLoop, hnorm]
  rw [if_neg hn, hu, hray]
  exact congrArg (fun t => Except.ok ([(t, fun _ => 1)], ())) (hat r)

/-- The result of such a search. -/
theorem bell_find {P : Setup 1} {C : ℝ} (hF : ∀ t, P.F.nll (some t) = .ok (some (t 0 ^ 2 / 2 + C))) (hw : ∀ a, P.whiten a = .ok 1)
    (hq : P.quantile = 2) (hm : P.maxBracket = 30) (hb : P.bounds = fun _ => (none, none)) (hbr : P.brent = Contour.idealBrent) (hr : P.nRadial = 1)
    (hs : P.nMultistart = 1) : ∃ res r, Contour.findContour (oneGen 1) P (fun _ => 0, C) () = .ok res ∧ res.points = [some fun _ => r] ∧ res.fromRadial = [true] := by
  obtain ⟨r, hsearch⟩ := bell_search (R := P.rays (C + 2) (fun _ => 0) 1) hF rfl rfl rfl hm hb hbr
  have hbasin : Contour.basin (oneGen 1) P (C + 2) (fun _ => 0) 0 () = .ok (⟨[fun _ => r], []⟩, 0, ()) := by
    unfold Contour.basin
    rw [hw]
    simp only [hr]
    rw [hsearch]
    simp
  have hbs : Contour.basins P.minimise P.dedupTol ((fun _ => 0 : Vec 1), C) [] = [(fun _ => 0, C)] := by
    simp [Contour.basins, Contour.polish, Contour.dedup]
  have hst : Contour.startPoints (oneGen 1) P.bounds (fun _ => 0) 5 (max 1 P.nMultistart - 1) () = ([], ()) := by rw [hs]; rfl
  have hact : Contour.activeBasins (C + 2) ((fun _ => 0 : Vec 1), C) [(fun _ => 0, C)] = [(fun _ => 0, C)] := by
    have : C ≤ C + 2 + 1e-6 := by norm_num; linarith
    rw [Contour.activeBasins, List.filter_cons_of_pos (by simpa using this), List.filter_nil]
  have hab : Contour.allBasins (oneGen 1) P (C + 2) [(fun _ => 0, C)] 0 () = .ok [⟨[fun _ => r], []⟩] := by simp only [Contour.allBasins, hbasin]
  unfold Contour.findContour
  simp only [hst, hbs, Contour.threshold, hq]
  rw [hact, hab]
  exact ⟨_, r, rfl, rfl, rfl⟩

/-- The hypotheses of `C160_primary`, `C160_minimum_partial` and `C161_radial`: the contour of the first signal parameter, with the second one profiled, has a
point. -/
theorem ex_contour (E : Ext) (draw) (w : World) (hw : Plain 3 w) :
    ∃ k res, (findContour Interface.perfect (plugged E draw exModel) rayLib oneGen (95 / 100) (some [1]) none w fun _ => ()).1 = .ok ⟨k, res⟩ ∧
      res.fromRadial[0]? = some true := by
  obtain ⟨w', hm⟩ := ex_mle E draw w hw
  refine find_exists (fun _ res => res.fromRadial[0]? = some true) (N := 3) (p := 0) (by norm_num) (ex_poi E draw) ((ex_usual E draw).length true) (ex_names E draw)
    (by simp [rayLib, calm]) (by norm_num) (by simp) (by simp [Contour.contourIndices]) (by simp [Contour.contourIndices, signalIndices, List.range, List.range.loop]) hw rfl hm
    (fun c θ init pb hc hsp hpb => ?_)
  obtain ⟨c1, c2, -⟩ := Contour.choose_ok _ _ _ _ _ _ _ hc
  have hcon : c.contour = [1] := by rw [c1]; simp [Contour.contourIndices]
  have hpro : c.profile = [2] := by rw [c2, hcon]; simp [Contour.profileIndices, signalIndices, List.range, List.range.loop]
  obtain ⟨con, pro, bs⟩ := c
  simp only at hcon hpro
  subst hcon hpro
  have hb := (Contour.choose_ok _ _ _ _ _ _ _ hc).2.2.2.2.2 rfl
  simp only [ex_bounds, Contour.pyGets, Contour.pyGet] at hb hpb
  simp at hb hpb
  subst hb hpb
  simp only [Contour.splitFit, Contour.positions, signalIndices, List.range, List.range.loop, Contour.pick] at hsp
  simp at hsp
  obtain ⟨rfl, rfl⟩ := hsp
  have hsolves : Solves rayLib := calm_solves 3
  obtain ⟨res, r, h1, -, h2⟩ := bell_find (C := Real.log (2 * Real.pi))
    (P := search rayLib (target rayLib ((plugged E draw exModel).logpdf .observed none) (decide ((plugged E draw exModel).constraints ≠ [])) 0
      ⟨[1], [2], [(none, none)]⟩ [(none, none)] [0]) (box 1 [(none, none)]))
    (fun t => target_profile (ex_constraints E draw) hsolves (by norm_num) (by simp [rayLib, calm]) (given := some [1]) (by simp) hc
      (by rw [ex_bounds]; rfl) rfl t _ (ex_profile_nll E draw t))
    (fun _ => rfl) rfl rfl (by
      funext j
      obtain rfl : j = 0 := Subsingleton.elim _ _
      rfl) rfl rfl rfl
  have hz : (fun j : Fin 1 => ([0] : List ℝ).getD (↑j) 0) = fun _ => 0 := by
    funext j
    obtain rfl : j = 0 := Subsingleton.elim _ _
    rfl
  refine ⟨res, ?_, by rw [h2]; rfl⟩
  rw [← h1]
  show Contour.findContour (oneGen 1) _ (fun j : Fin 1 => ([0] : List ℝ).getD (↑j) 0, _) () = _
  rw [hz]
  rfl

example (E : Ext) (draw) (w : World) (hw : Plain 3 w) : Usual (plugged E draw exModel) 3 0 ∧ Sane (plugged E draw exModel) ∧
    (plugged E draw exModel).constraints = [] ∧ Truthful rayLib ∧ Keeps rayLib ∧ Solves rayLib ∧ rayLib.garbage.length = 3 ∧
    Contour.BrentAccurate (rayLib.setup 1).brent ∧ Continuous (fun t : Vec 1 => t 0 ^ 2 / 2 + Real.log (2 * Real.pi)) ∧
    (∀ t : Vec 1, ProfileNll (plugged E draw exModel) 3 0 [1] t (t 0 ^ 2 / 2 + Real.log (2 * Real.pi))) ∧
    (∃ w', findMle Interface.perfect (plugged E draw exModel) (signalIndices 3 0) w = (.ok ([0, 0], Real.log (2 * Real.pi)), w')) ∧
    ∃ k res, (findContour Interface.perfect (plugged E draw exModel) rayLib oneGen (95 / 100) (some [1]) none w fun _ => ()).1 = .ok ⟨k, res⟩ ∧
      res.fromRadial[0]? = some true :=
  ⟨ex_usual E draw, ex_sane E draw, rfl, calm_truthful 3, calm_keeps 3, calm_solves 3, by simp [rayLib, calm], Contour.ideal_accurate, by fun_prop,
    ex_profile_nll E draw, ex_mle E draw w hw, ex_contour E draw w hw⟩

end Verif.Region
