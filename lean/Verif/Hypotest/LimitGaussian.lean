import Verif.Hypotest.LimitProps
import Verif.Hypotest.Gaussian

/-!
# Property C114: the upper limit of a Gaussian measurement
-/

namespace Verif.Hypotest
open Verif.Py F Verif.Config Verif.Optimizer
open Verif.Interface (MuHat World Plain Size Data perfect)
open Verif.Stats (Expect Calc Levels gaussianLog gaussianFit gaussianLevel)
open Verif.UpperLimit (Expected Band Limit Entries Sound Succeeds EndsWith Level Inputs)
open Classical

/-- The measurement whose exact level entry `i` of the result stands for: `a` itself, or one of `-2σ, -σ, 0, σ, 2σ`. -/
noncomputable def centre (e : Expected) (σ a : ℝ) (i : ℕ) : ℝ := if e = .observed then a else ((i : ℝ) - 2) * σ

/-- The upper limit that entry `i` stands for: where the exact level of the Gaussian measurement is `CL`. -/
def ExactLimit (e : Expected) (σ a CL : ℝ) (i : ℕ) (z : ℝ) : Prop := gaussianLevel σ (centre e σ a i) z = CL

theorem level_mono {σ m : ℝ} (hσ : 0 < σ) {x y : ℝ} (h : x < y) : gaussianLevel σ m x < gaussianLevel σ m y := by
  unfold gaussianLevel
  have : Phi ((m - y) / σ) < Phi ((m - x) / σ) := Phi_strictMono (div_lt_div_of_pos_right (by linarith) hσ)
  have := div_lt_div_of_pos_right this (Phi_pos (m / σ))
  linarith

theorem level_at_best {σ m : ℝ} : gaussianLevel σ m m ≤ 1 / 2 := by
  unfold gaussianLevel
  have h1 := Phi_pos (m / σ)
  have h2 : Phi (m / σ) ≤ 1 := (Phi_lt_one _).le
  rw [sub_self, zero_div, Phi_zero]
  have : 1 / 2 ≤ 1 / 2 / Phi (m / σ) := by
    rw [le_div_iff₀ h1]
    nlinarith
  linarith

section
variable {B : Stats.Backend} {c c' σ a CL : ℝ} {e : Expected}

/-- The levels of a Gaussian measurement. -/
theorem gaussian_level (hσ : 0 < σ) (hav : B.available .asymptotic = true) (hD : B.data = gaussianFit c σ a true) (hA : B.asimov = gaussianFit c' σ 0 true)
    {i : ℕ} (hi : UpperLimit.Valid e i) {mu : ℝ} (hmu : 0 < mu) (hm : e = .observed → a ≤ mu) :
    Level B e false i mu (fin (gaussianLevel σ (centre e σ a i) mu)) := by
  by_cases he : e = .observed
  · subst he
    obtain rfl : i = 0 := by simpa [UpperLimit.Valid] using hi
    exact ⟨_, Stats.C105_observed B c c' σ a mu false true true (by simp) (by simp) hσ hmu (hm rfl) hav hD hA, by simp [centre]⟩
  · have he' : e.toExpect = .apriori ∨ e.toExpect = .aposteriori := by cases e <;> simp_all [Expected.toExpect]
    refine ⟨_, Stats.C105_expected B c c' σ a mu e.toExpect he' false true true (by simp) (by simp) hσ hmu hav hD hA, ?_⟩
    rw [UpperLimit.Valid, if_neg he] at hi
    simp only [centre, if_neg he]
    interval_cases i <;> norm_num

theorem gaussian_finite (hD : B.data = gaussianFit c σ a true) (hA : B.asimov = gaussianFit c' σ 0 true) (mu : ℝ) :
    Stats.FiniteInputs B (fin mu) .asymptotic := by
  refine ⟨?_, ?_, ?_, ?_, ?_, ?_⟩ <;> first | (rw [hD]; exact ⟨_, rfl⟩) | (rw [hA]; exact ⟨_, rfl⟩)

/-- The function that is searched crosses zero at the exact limit. -/
theorem gaussian_crosses (hσ : 0 < σ) (hav : B.available .asymptotic = true) (hD : B.data = gaussianFit c σ a true)
    (hA : B.asimov = gaussianFit c' σ 0 true) (hCL : 1 / 2 < CL) {i : ℕ} (hi : UpperLimit.Valid e i) {z : ℝ} (hz : ExactLimit e σ a CL i z) {mu : ℝ}
    (hmu : 0 < mu) :
    ∃ r, UpperLimit.computer B e CL false i mu = fin r ∧ (mu < z → r < 0) ∧ (mu = z → r = 0) ∧ (z < mu → 0 < r) := by
  obtain ⟨r, -, -, hL, hr⟩ := UpperLimit.computer_finite (CL := CL) (neg := false) hi hav (gaussian_finite hD hA mu)
  refine ⟨r - CL, hr, ?_⟩
  unfold ExactLimit at hz
  by_cases hm : e = .observed → a ≤ mu
  · have := hL.unique (gaussian_level hσ hav hD hA hi hmu hm)
    simp only [fin.injEq] at this
    rw [this, ← hz]
    refine ⟨fun h => ?_, fun h => ?_, fun h => ?_⟩
    · have := level_mono (m := centre e σ a i) hσ h
      linarith
    · rw [h, sub_self]
    · have := level_mono (m := centre e σ a i) hσ h
      linarith
  · push_neg at hm
    obtain ⟨rfl, hm⟩ := hm
    obtain rfl : i = 0 := by simpa [UpperLimit.Valid] using hi
    have hz' : a < z := by
      by_contra h
      push_neg at h
      simp only [centre, if_true] at hz
      have h1 := level_at_best (σ := σ) (m := a)
      rcases h.eq_or_lt with h | h
      · rw [h] at hz; linarith
      · have := level_mono (m := a) hσ h
        linarith
    obtain ⟨l, h1, -, h2⟩ := Stats.C104_asymptotic B (fin mu) false hav (Or.inl (by
      rw [hD]
      exact lt_of_lt_of_le hm (le_max_left _ _)))
    obtain ⟨l', h3, h4⟩ := hL
    simp only [Expected.toExpect] at h3
    rw [h1] at h3
    simp only [Except.ok.injEq, Levels.one.injEq] at h3
    rw [← h3] at h4
    simp only [List.getElem?_cons_zero, Option.some.injEq, fin.injEq] at h4
    exact ⟨fun _ => by linarith, fun h => by linarith, fun h => by linarith⟩

/-- One entry of the search. -/
theorem gaussian_limitAt (hσ : 0 < σ) (hav : B.available .asymptotic = true) (hD : B.data = gaussianFit c σ a true)
    (hA : B.asimov = gaussianFit c' σ 0 true) (hCL : 1 / 2 < CL) {tol : ℝ → ℝ} {solve : UpperLimit.Solver} (hs : Sound tol solve) (hok : Succeeds solve)
    {i : ℕ} (hi : UpperLimit.Valid e i) {z : ℝ} (hz : ExactLimit e σ a CL i z) (hz1 : 1e-10 ≤ z) (hz2 : z ≤ 1e5) {low hig : ℝ}
    (hl : 1e-10 ≤ low) (hlh : low ≤ hig) (hne : low = hig → low ≠ z) :
    ∃ mu, EndsWith (fun n => UpperLimit.limitAt n solve (UpperLimit.computer B e CL false i) low hig) (.ok (fin mu)) ∧ |mu - z| ≤ tol mu := by
  have h0 : (0 : ℝ) < 1e-10 := by norm_num
  have hc : ∀ x : ℝ, 1e-10 ≤ x → _ := fun x hx => gaussian_crosses (e := e) hσ hav hD hA hCL hi hz (lt_of_lt_of_le h0 hx)
  obtain ⟨x, y, hB, hE⟩ := UpperLimit.limitAt_spec solve (UpperLimit.computer B e CL false i) low hig (by linarith)
  have hx : 1e-10 ≤ x := hB.low_bound hl
  have hxl := hB.low_le
  have hyh := hB.high_ge
  have hy : 1e-10 ≤ y := by linarith
  have hle : x ≤ z := by
    rcases hB.low with g | g
    · obtain ⟨r, e1, -, -, e2⟩ := hc x hx
      rw [e1] at g
      by_contra hxz
      exact g (e2 (not_le.mp hxz))
    · linarith
  have hge : z ≤ y := by
    rcases hB.high with g | g
    · obtain ⟨r, e1, e2, -, -⟩ := hc y hy
      rw [e1] at g
      by_contra hyz
      exact g (e2 (not_le.mp hyz))
    · linarith
  have fle : ∀ t, 1e-10 ≤ t → (t ≤ z ↔ le (UpperLimit.computer B e CL false i t) (fin 0)) := by
    intro t ht
    obtain ⟨r, e1, e2, e3, e4⟩ := hc t ht
    rw [e1]
    constructor
    · intro h
      rcases h.eq_or_lt with h | h
      · exact (e3 h).le
      · exact (e2 h).le
    · intro h
      by_contra hn
      exact absurd (show r ≤ 0 from h) (not_le.mpr (e4 (not_le.mp hn)))
  have fge : ∀ t, 1e-10 ≤ t → (z ≤ t ↔ le (fin 0) (UpperLimit.computer B e CL false i t)) := by
    intro t ht
    obtain ⟨r, e1, e2, e3, e4⟩ := hc t ht
    rw [e1]
    constructor
    · intro h
      rcases h.eq_or_lt with h | h
      · exact (e3 h.symm).ge
      · exact (e4 h).le
    · intro h
      by_contra hn
      exact absurd (show 0 ≤ r from h) (not_le.mpr (e2 (not_le.mp hn)))
  have hxy : x < y := by
    rcases (hle.trans hge).eq_or_lt with h | h
    · exfalso
      have e1 : low = hig := by linarith
      exact hne e1 (by linarith)
    · exact h
  obtain ⟨r, hr⟩ := hok _ x y hxy (fun t h1 h2 => by
    obtain ⟨v, hv, -⟩ := hc t (hx.trans h1)
    exact ⟨v, hv⟩) (Or.inl ⟨(fle x hx).mp hle, (fge y hy).mp hge⟩)
  refine ⟨r, ?_, ?_⟩
  · rw [if_neg, hr] at hE
    · exact hE
    · rintro (⟨g, -⟩ | ⟨-, g⟩)
      · exact Stats.lt_not_le g ((fle x hx).mp hle)
      · exact Stats.lt_not_le g ((fge y hy).mp hge)
  · obtain ⟨t, t1, t2, t3, t4⟩ := hs.below _ _ _ _ hr
    obtain ⟨u, u1, u2, u3, u4⟩ := hs.above _ _ _ _ hr
    have g1 := (fle t (hx.trans t1)).mpr t4
    have g2 := (fge u (hx.trans u1)).mpr u4
    rw [abs_le] at t3 u3 ⊢
    constructor <;> linarith

/-- All entries. -/
theorem limitsAt_collect {solve : UpperLimit.Solver} {f : ℕ → ℝ → F} {low hig : ℝ} {P : ℕ → F → Prop} (is : List ℕ)
    (h : ∀ i ∈ is, ∃ x, EndsWith (fun n => UpperLimit.limitAt n solve (f i) low hig) (.ok x) ∧ P i x) :
    ∃ xs, EndsWith (fun n => UpperLimit.limitsAt n solve f low hig is) (.ok xs) ∧ List.Forall₂ P is xs := by
  induction is with
  | nil => exact ⟨[], ⟨0, fun n _ => rfl⟩, .nil⟩
  | cons i is ih =>
    obtain ⟨xs, ⟨N, hN⟩, h2⟩ := ih fun j hj => h j (by simp [hj])
    obtain ⟨x, ⟨M, hM⟩, h4⟩ := h i (by simp)
    refine ⟨x :: xs, ⟨N + M, fun n hn => ?_⟩, .cons h4 h2⟩
    have g1 := hM n (by omega)
    have g2 := hN n (by omega)
    simp only at g1 g2
    simp only [UpperLimit.limitsAt, g1, g2]

/-- The limit for given fits. -/
theorem gaussian_limit {J : Inputs} (hl : J.alive = true) (hσ : 0 < σ) (hav : J.backend.available .asymptotic = true)
    (hD : J.backend.data = gaussianFit c σ a true) (hA : J.backend.asimov = gaussianFit c' σ 0 true) (hCL : 1 / 2 < CL) (hCL' : CL ≤ 1) {tol : ℝ → ℝ}
    {solve : UpperLimit.Solver} (hs : Sound tol solve) (hok : Succeeds solve) {band : Band} (hb : band ≠ .unknown) {low hig : Option ℝ}
    (z : ℕ → ℝ) (hz : ∀ i ∈ Entries e band, ExactLimit e σ a CL i (z i) ∧ 1e-10 ≤ z i ∧ z i ≤ 1e5 ∧
      ((UpperLimit.starts J low hig).1 = (UpperLimit.starts J low hig).2 → (UpperLimit.starts J low hig).1 ≠ z i))
    (hst : 1e-10 ≤ (UpperLimit.starts J low hig).1) (hst' : (UpperLimit.starts J low hig).1 ≤ (UpperLimit.starts J low hig).2) :
    ∃ L, EndsWith (fun n => UpperLimit.poiUpperLimit n solve J e CL low hig band) (.ok L) ∧ L.Shaped (Entries e band).length ∧
      List.Forall₂ (fun i x => ∃ mu, x = fin mu ∧ |mu - z i| ≤ tol mu) (Entries e band) L.values := by
  obtain ⟨xs, ⟨N, hN⟩, h2⟩ := limitsAt_collect (solve := solve) (f := UpperLimit.computer J.backend e CL false)
    (low := (UpperLimit.starts J low hig).1) (hig := (UpperLimit.starts J low hig).2)
    (P := fun i x => ∃ mu, x = fin mu ∧ |mu - z i| ≤ tol mu) (Entries e band) (fun i hi => by
      obtain ⟨h1, h2, h3, h4⟩ := hz i hi
      obtain ⟨mu, h5, h6⟩ := gaussian_limitAt hσ hav hD hA hCL hs hok (UpperLimit.entries_valid hi) h1 h2 h3 hst hst' h4
      exact ⟨fin mu, h5, mu, rfl, h6⟩)
  refine ⟨UpperLimit.pack xs, ⟨N, fun n hn => ?_⟩, ?_, by rw [UpperLimit.pack_values]; exact h2⟩
  · have g := hN n hn
    simp only at g
    have hb' : (if e = .observed then Band.nominal else band) ≠ .unknown := by
      split
      · simp
      · exact hb
    simp only [UpperLimit.poiUpperLimit, if_pos (And.intro (by linarith : 0 ≤ CL) hCL'), hl, if_true, UpperLimit.findPoiUpperLimit]
    rw [if_neg hb', UpperLimit.indexRange_eq e _ hb', UpperLimit.entries_observed, g]
  · rw [h2.length_eq]
    exact UpperLimit.pack_shaped _

end

/-! ## C114 -/

section
variable {c σ a lo : ℝ} (hσ : 0 < σ) (hlo : lo ≤ 0) (doGrad : Bool) (ntoys : Size) (available : Calc → Bool) (percentile : List F → F → F) (e : Expected)

include hσ hlo in
theorem gauss_fits : AllFits (Plain 1) (modelMethods perfect (gaussB c σ a lo) doGrad none ntoys available percentile) e.toExpect (nearest 0 a)
    (fin (-(gaussianLog c σ a (nearest 0 a)))) (fun v => fin (-(gaussianLog c σ a v))) 0 (fin (-(gaussianLog c σ 0 0)))
    (fun v => fin (-(gaussianLog c σ 0 v))) := by
  have hw : Plain 1 (⟨[0], none, none⟩ : World) := ⟨rfl, rfl, rfl⟩
  have hneg : Interface.mayBeNegative "qtilde" = false := by simp [Interface.mayBeNegative]
  have h0 : nearest 0 0 = 0 := by simp [nearest]
  obtain ⟨hlik, hmax, hasi⟩ := model_ends perfect_exact (gauss_usual c σ a lo) doGrad ntoys available percentile e.toExpect _ hw
  obtain ⟨hlikA, hmaxA⟩ := hasi "qtilde" _ (gauss_asimov c σ a lo _ _ doGrad _ hw)
  refine ⟨hmax none false _ (gauss_best hσ hlo _ false none doGrad _ hw), fun v => hlik none v _ (gauss_likelihood c σ a lo v _ true none doGrad _ hw), ?_,
    fun v => ?_⟩
  · have := hmaxA _ (by rw [hneg]; exact gauss_best hσ hlo _ false (some _) doGrad _ hw)
    simpa [h0] using this
  · have := hlikA v _ (gauss_likelihood c σ a lo v _ true (some _) doGrad _ hw)
    simpa using this

theorem fitted_gaussian {m : ℝ} (hm : m = max a 0) (av : Calc → Bool) :
    (fitted m (fin (-(gaussianLog c σ a m))) (fun v => fin (-(gaussianLog c σ a v))) 0 (fin (-(gaussianLog c σ 0 0)))
      (fun v => fin (-(gaussianLog c σ 0 v))) av).data = gaussianFit c σ a true ∧
    (fitted m (fin (-(gaussianLog c σ a m))) (fun v => fin (-(gaussianLog c σ a v))) 0 (fin (-(gaussianLog c σ 0 0)))
      (fun v => fin (-(gaussianLog c σ 0 v))) av).asimov = gaussianFit c σ 0 true := by
  have : ∀ b, negated (fun v => fin (-(gaussianLog c σ b v))) = Stats.lift (gaussianLog c σ b) := by
    intro b
    funext x
    cases x <;> simp [negated, Stats.lift, neg]
  simp [fitted, gaussianFit, this, hm]

include hσ hlo in
/-- `sigma_mu` of the Gaussian measurement, without a Hessian, is its uncertainty. -/
theorem gauss_sigma (inv : List (List ℝ) → Except Interface.Err (List (List ℝ))) {m : ℝ} (hm : 0 < m) :
    Ends (Plain 1) (modelSigma perfect inv (gaussB c σ a lo) doGrad ntoys available percentile e.toExpect m) (.ok (fin σ)) := by
  have hf := gauss_fits (c := c) (a := a) hσ hlo doGrad ntoys available percentile e
  have hh : ∀ w, modelHessian perfect inv (gaussB c σ a lo) doGrad none (.float m) e.toExpect w = (.error (.call .method), w) := by
    intro w; rfl
  have ha : Ends (Plain 1) (sigmaAsimov (modelMethods perfect (gaussB c σ a lo) doGrad none ntoys available percentile) (.float m) e.toExpect "qtilde")
      (.ok (fin σ)) := by
    have hq : (getTestStatistic "qtilde" : Except Err (Statistic World)) = .ok qmuTilde := rfl
    have hl : ∀ v : ℝ, Ends (Plain 1) (do
        let v ← lift (toFloatOnly (.float v))
        let l ← (modelMethods perfect (gaussB c σ a lo) doGrad none ntoys available percentile).asimovLikelihood e.toExpect "qtilde" v
        ret (neg l)) (.ok (Stats.lift (gaussianLog c σ 0) (fin v))) := by
      intro v
      simp only [toFloatOnly, bind_lift_ok]
      have := (hf.likelihoodA v).bind (k := fun l => ret (neg l)) (ends_ret _)
      simpa [neg, Stats.lift] using this
    have hst := qmuTilde_computes (I := Plain 1) m (.float m) 0 (neg (fin (-(gaussianLog c σ 0 0))))
      (fun x => do
        let v ← lift (toFloatOnly x)
        let l ← (modelMethods perfect (gaussB c σ a lo) doGrad none ntoys available percentile).asimovLikelihood e.toExpect "qtilde" v
        ret (neg l)) (Stats.lift (gaussianLog c σ 0)) rfl (hl m) (hl 0)
    have hv : Stats.qmuTilde (fin m) (fin 0) (neg (fin (-(gaussianLog c σ 0 0)))) (Stats.lift (gaussianLog c σ 0)) = fin (m ^ 2 / σ ^ 2) := by
      have := Stats.gaussian_qtilde (c := c) (m := 0) hσ hm.le hm.le true
      simpa [Stats.Fit.stat, gaussianFit] using this
    rw [hv] at hst
    simp only [sigmaAsimov, hq, bind_lift_ok]
    refine hf.bestA.bind (hst.bind ?_)
    have hpos : 0 < m ^ 2 / σ ^ 2 := by positivity
    rw [if_neg (by simpa [le] using hpos)]
    simp only [numberOf, bind_lift_ok]
    rw [Stats.sqrt_fin hpos.le, Stats.sqrt_ratio hm.le hσ]
    have : div (fin m) (fin (m / σ)) = fin σ := by
      have hne : m / σ ≠ 0 := by positivity
      simp only [div, hne, if_false]
      congr 1
      field_simp
    rw [this]
    exact ends_ret _
  intro w hw
  unfold modelSigma sigmaMu hessianOr
  simp only [Option.map_some, hh]
  exact ha w hw

end

/-- Starting points with which the search of `z` succeeds: none (then they are estimated), or two that are positive and in order, and not both the limit itself
(the default is 1 and 1). -/
def Reasonable (z : ℝ) : Option ℝ → Option ℝ → Prop
  | none, none => True
  | some l, some h => 1e-10 ≤ l ∧ l ≤ h ∧ (l = h → l ≠ z)
  | _, _ => False

/-- With such starting points, or with an estimate from a positive uncertainty, the search starts well. -/
theorem reasonable_starts (J : Inputs) {σ : ℝ} (hJ : J.sigmaMu = fun _ => σ) (hσ : 0 < σ) {e : Expected} {band : Band} (hb : band ≠ .unknown) {low hig : Option ℝ}
    {z : ℕ → ℝ} (hz : ∀ i ∈ Entries e band, Reasonable (z i) low hig) :
    1e-10 ≤ (UpperLimit.starts J low hig).1 ∧ (UpperLimit.starts J low hig).1 ≤ (UpperLimit.starts J low hig).2 ∧
      ∀ i ∈ Entries e band, (UpperLimit.starts J low hig).1 = (UpperLimit.starts J low hig).2 → (UpperLimit.starts J low hig).1 ≠ z i := by
  obtain ⟨i0, hi0⟩ : ∃ i, i ∈ Entries e band := by
    cases e <;> cases band <;> simp_all [Entries]
  have h0 := hz i0 hi0
  rcases low with _ | l <;> rcases hig with _ | h
  · obtain ⟨m, hm⟩ : ∃ m, m = if 0 < J.muhat then J.muhat else 0 := ⟨_, rfl⟩
    have hm0 : 0 ≤ m := by rw [hm]; split <;> linarith
    obtain ⟨s, hs⟩ : ∃ s, s = if |m| ≤ 1e-8 then 1 else σ := ⟨_, rfl⟩
    have hs0 : 1e-9 < m + 1.5 * s ∧ 0 < s := by
      rw [hs]
      split
      · constructor
        · linarith
        · exact one_pos
      · rename_i hgt
        rw [abs_of_nonneg hm0, not_le] at hgt
        constructor
        · linarith
        · exact hσ
    have e1 : UpperLimit.starts J none none = (max (m + 1.5 * s) 1e-10, max (m + 2.5 * s) 1e-10) := by
      simp only [UpperLimit.starts, UpperLimit.orElse, ← hm]
      rw [show J.sigmaMu m = σ by rw [hJ], ← hs]
    rw [e1, max_eq_left (by linarith), max_eq_left (by linarith)]
    dsimp only
    refine ⟨by linarith, by linarith, fun _ _ h => ?_⟩
    linarith
  · exact h0.elim
  · exact h0.elim
  · exact ⟨h0.1, h0.2.1, fun i hi => (hz i hi).2.2⟩

/-- C114: `poi_upper_limit` of a model with one parameter and a Gaussian likelihood returns, for every state of the model, limits that are within the tolerance
of the root finder of the exact CLs limits of a Gaussian measurement: the observed one is that for the measured value `a`, the expected ones are those for
`-2σ, -σ, 0, σ, 2σ`. Missing: measured values above the bound of the signal strength, for which the observed limit is wrong (`C114_bound_fails`), and starting
points that are both equal to the limit (`C114_start_fails`). -/
theorem C114_limit_partial (c σ a lo CL : ℝ) (hσ : 0 < σ) (hlo : lo ≤ 0) (ha : a ≤ 10) (hCL : 1 / 2 < CL) (hCL' : CL ≤ 1) (T : Finder) (tol : ℝ → ℝ)
    (hs : Sound tol T.solver) (hok : Succeeds T.solver) (doGrad : Bool) (ntoys : Size) (available : Calc → Bool) (hav : available .asymptotic = true)
    (percentile : List F → F → F) (inv : List (List ℝ) → Except Interface.Err (List (List ℝ))) (e : Expected) (band : Band) (hb : band ≠ .unknown)
    (low hig : Option ℝ) (z : ℕ → ℝ) (hz : ∀ i ∈ Entries e band, ExactLimit e σ a CL i (z i) ∧ 1e-10 ≤ z i ∧ z i ≤ 1e5 ∧ Reasonable (z i) low hig) :
    ∃ L : Limit, L.Shaped (Entries e band).length ∧ List.Forall₂ (fun i x => ∃ mu, x = fin mu ∧ |mu - z i| ≤ tol mu) (Entries e band) L.values ∧
      ∃ N, ∀ n ≥ N, Ends (Plain 1) (poiUpperLimit n T (modelMethods perfect (gaussB c σ a lo) doGrad none ntoys available percentile)
        (modelSigma perfect inv (gaussB c σ a lo) doGrad ntoys available percentile) true e CL low hig band) (.ok (some L)) := by
  have hn : nearest 0 a = max a 0 := by unfold nearest; exact min_eq_left (max_le ha (by norm_num))
  have hf := gauss_fits (c := c) (a := a) hσ hlo doGrad ntoys available percentile e
  rw [hn] at hf
  have hag := fun n => C113_agrees hf (modelSigma perfect inv (gaussB c σ a lo) doGrad ntoys available percentile) σ low hig
    (fun _ hm => gauss_sigma hσ hlo doGrad ntoys available percentile e inv (by linarith)) n T true CL band
  obtain ⟨J, hJ⟩ : ∃ J : Inputs, J = ⟨true, fitted (max a 0) (fin (-(gaussianLog c σ a (max a 0)))) (fun v => fin (-(gaussianLog c σ a v))) 0
    (fin (-(gaussianLog c σ 0 0))) (fun v => fin (-(gaussianLog c σ 0 v))) available, max a 0, fun _ => σ⟩ := ⟨_, rfl⟩
  have hstart := reasonable_starts J (by rw [hJ]) hσ hb fun i hi => (hz i hi).2.2.2
  have hD := fitted_gaussian (c := c) (σ := σ) (a := a) rfl available
  obtain ⟨L, ⟨N, hN⟩, h1, h2⟩ := gaussian_limit (J := J) (c := c) (c' := c) (by rw [hJ]) hσ (by rw [hJ]; exact hav) (by rw [hJ]; exact hD.1)
    (by rw [hJ]; exact hD.2) hCL hCL' hs hok hb (low := low) (hig := hig) z
    (fun i hi => ⟨(hz i hi).1, (hz i hi).2.1, (hz i hi).2.2.1, hstart.2.2 i hi⟩) hstart.1 hstart.2.1
  refine ⟨L, h1, h2, N, fun n hn => ?_⟩
  have h := hag n
  have hN := hN n hn
  dsimp only at hN
  rw [hJ] at hN
  change Ends (Plain 1) _ (outcome (UpperLimit.poiUpperLimit n T.solver ⟨true, fitted _ _ _ _ _ _ available, _, _⟩ _ _ _ _ _)) at h
  rw [hN] at h
  exact h

/-- The exact limits exist, one for every level. -/
theorem exact_exists {σ m CL : ℝ} (hσ : 0 < σ) (h0 : 1 / 2 < CL) (h1 : CL < 1) : ∃ z, max m 0 ≤ z ∧ 0 < z ∧ gaussianLevel σ m z = CL := by
  have hz : gaussianLevel σ m 0 = 0 := by
    unfold gaussianLevel
    rw [sub_zero, div_self (Phi_pos _).ne', sub_self]
  have hb : gaussianLevel σ m (max m 0) ≤ CL := by
    rcases le_total m 0 with h | h
    · rw [max_eq_right h, hz]
      linarith
    · rw [max_eq_left h]
      linarith [level_at_best (σ := σ) (m := m)]
  obtain ⟨⟨z, ⟨hz1, hz2⟩, -⟩, -⟩ := Stats.C105_unique_limit σ m hσ CL hb h1
  refine ⟨z, hz1, lt_of_le_of_ne ((le_max_right _ _).trans hz1) ?_, hz2⟩
  rintro rfl
  rw [hz] at hz2
  linarith

/-- C114 is false for a measured value above the bound of the signal strength, 10 unless told otherwise. Then the level reported for all signal strengths up to
`2a - 10` is at most 1/2, although the measured value `a` excludes those far enough above `a` with a level as close to one as wanted. -/
theorem C114_bound_fails (c σ a lo : ℝ) (hσ : 0 < σ) (hlo : lo ≤ 0) (ha : 10 < a) (doGrad : Bool) (ntoys : Size) (available : Calc → Bool)
    (hav : available .asymptotic = true) (percentile : List F → F → F) (v : ℝ) (hv : v ≤ 2 * a - 10) :
    ∃ r, Reported (Plain 1) (modelMethods perfect (gaussB c σ a lo) doGrad none ntoys available percentile) .observed 0 v (fin r) ∧ r ≤ 1 / 2 := by
  have hn : nearest 0 a = 10 := by
    unfold nearest
    rw [max_eq_left (by linarith), min_eq_right ha.le]
  have hf := gauss_fits (c := c) (a := a) hσ hlo doGrad ntoys available percentile .observed
  rw [hn] at hf
  have h := C107_levels (I := Plain 1) _ ⟨⟨[0], none, none⟩, ⟨rfl, rfl, rfl⟩⟩ (.float v) v rfl .observed false .asymptotic _ _ _ _
    ⟨hf.best, hf.likelihood v, hf.likelihood 0⟩ _ _ _ _ (fun _ => ⟨hf.bestA, hf.likelihoodA v, hf.likelihoodA 0⟩) [] [] [] [] (by simp) (by simp) (by simp)
    (by simp) (by simp)
  obtain ⟨l, h1, -, h2⟩ := Stats.zero_level ⟨fitOf v 10 (fin (-(gaussianLog c σ a 10))) (fin (-(gaussianLog c σ a v))) (fin (-(gaussianLog c σ a 0))),
    fitOf v 0 (fin (-(gaussianLog c σ 0 0))) (fin (-(gaussianLog c σ 0 v))) (fin (-(gaussianLog c σ 0 0))), [], [], percentile, available⟩ (fin v) false hav
    Stats.qmuTilde rfl (by
      unfold Stats.Fit.stat Stats.qmuTilde
      by_cases h10 : v < 10
      · rw [if_pos (by exact h10)]
      · have hge : 10 ≤ v := not_lt.mp h10
        rw [if_neg (by exact h10)]
        have : ¬ lt (fin 10) (fin 0) := by norm_num [lt]
        have hle : le (fin 0) (fin 10) := by norm_num [le]
        simp only [fitOf, hle, if_true, neg, sub, add, scale, clip0]
        have : -2 * (gaussianLog c σ a v - gaussianLog c σ a 10) ≤ 0 := by
          unfold gaussianLog
          have h3 : (v - a) ^ 2 ≤ (10 - a) ^ 2 := by nlinarith
          have h4 : (v - a) ^ 2 / (2 * σ ^ 2) ≤ (10 - a) ^ 2 / (2 * σ ^ 2) := div_le_div_of_nonneg_right h3 (by positivity)
          linarith
        rw [neg_neg, neg_neg, max_eq_right (by linarith)])
  refine ⟨l, ⟨[fin l], ?_, rfl⟩, h2⟩
  have h3 := h
  change Ends (Plain 1) _ ((Stats.exclusionConfidenceLevel ⟨_, _, [], [], percentile, available⟩ (fin v) .observed false .asymptotic).mapError .stats) at h3
  rw [h1] at h3
  exact h3

/-- The limit is then `2a - 10` or more, up to the tolerance: 30 instead of 22 for `20 ± 1`, say. -/
theorem C114_limit_fails (c σ a lo CL : ℝ) (hσ : 0 < σ) (hlo : lo ≤ 0) (ha : 10 < a) (hCL : 1 / 2 < CL) (T : Finder) (tol : ℝ → ℝ) (hs : Sound tol T.solver)
    (doGrad : Bool) (ntoys : Size) (available : Calc → Bool) (hav : available .asymptotic = true) (percentile : List F → F → F)
    (sigma : Expect → ℝ → Comp World F) (hsig : ∀ e m, Steady (Plain 1) (sigma e m)) (low hig : Option ℝ) (band : Band) (fuel : ℕ) (w w' : World)
    (hw : Plain 1 w) (mu : ℝ)
    (h : poiUpperLimit fuel T (modelMethods perfect (gaussB c σ a lo) doGrad none ntoys available percentile) sigma true .observed CL low hig band w =
      (.ok (some (.one (fin mu))), w')) : 2 * a - 10 < mu + tol mu := by
  obtain ⟨-, h2⟩ := C113_level _ (C110_model Interface.perfect_free _ (gauss_usual c σ a lo).fixed doGrad none ntoys available percentile 1) hav sigma hsig
    fuel T tol hs .observed CL low hig band w w' hw _ h
  simp only [Entries, Limit.values, List.forall₂_cons, List.forall₂_nil_left_iff, and_true] at h2
  rcases h2 with ⟨m, hm, -, y, r, hy, ⟨-, hr⟩, hr'⟩ | ⟨h2, -⟩
  · simp only [fin.injEq] at hm
    subst hm
    by_contra hlt
    have hyv : y ≤ 2 * a - 10 := by
      rw [abs_le] at hy
      linarith [hy.2]
    obtain ⟨r', ⟨l, g1, g2⟩, g3⟩ := C114_bound_fails c σ a lo hσ hlo ha doGrad ntoys available hav percentile y hyv
    obtain ⟨l', g4, g5⟩ := hr
    have := ends_unique ⟨w, hw⟩ g1 g4
    simp only [Except.ok.injEq, Levels.one.injEq] at this
    rw [this, g5] at g2
    simp only [Option.some.injEq, fin.injEq] at g2
    linarith
  · simp at h2

end Verif.Hypotest
