import Verif.Hypotest.Lemmas
import Verif.Interface.Asimov
import Verif.Interface.Free

/-!
# The methods of `StatisticalModel` do not depend on earlier calls
-/

namespace Verif.Interface
open Verif.Py F Verif.Config Verif.Optimizer
open Verif.Backend (Expectation)

theorem generateAsimov_free {S : Solver} (hS : StartFree S) (B : Backend) (hfix : ∀ n, (B.config n).fixed = none) (e ts g b)
    {N : ℕ} {w w' : World} (hw : Plain N w) (hw' : Plain N w') :
    (generateAsimov S B e ts g b w).1 = (generateAsimov S B e ts g b w').1 ∧ Plain N (generateAsimov S B e ts g b w).2 := by
  unfold generateAsimov
  rcases prepare_free B e none (mayBeNegative ts) g hw hw' with ⟨err, h1, h2⟩ | ⟨p, h1, h2, h3⟩
  · rw [h1, h2]
    exact ⟨rfl, hw⟩
  · rw [h1, h2]
    dsimp only
    obtain ⟨f, hf⟩ : ∃ f, f = FixedPoi.value (if ts = "q0" then 1 else 0) := ⟨_, rfl⟩
    rw [← hf]
    have hi : p.config.init = w.start := by rw [h3]; rfl
    have h4 := (runFit_free hS p (by rw [h3]; exact hfix _) w'.start (by rw [hi, hw.2.2, hw'.2.2]) b f (some p.logpdf) w' w hw'.1
      hw.1).symm
    have h5 : Plain N (runFit S p b f (some p.logpdf) w).2 := runFit_plain hw (by rw [hi]; exact hw.2.2)
    cases h6 : runFit S p b f (some p.logpdf) w with
    | mk r1 w1 =>
    cases h7 : runFit S { p with config := { p.config with init := w'.start } } b f (some p.logpdf) w' with
    | mk r2 w2 =>
    rw [h6] at h5
    rw [h6, h7] at h4
    dsimp only at h4 h5
    subst h4
    cases r1 with
    | error err => exact ⟨rfl, h5⟩
    | ok x => exact ⟨rfl, h5⟩

theorem andThen_free {α β : Type} {r r' : Except Err α × World} {k : α → World → Except Err β × World} {N : ℕ}
    (h : r.1 = r'.1) (hp : Plain N r.2) (hp' : Plain N r'.2)
    (hk : ∀ a w w', Plain N w → Plain N w' → (k a w).1 = (k a w').1 ∧ Plain N (k a w).2) :
    (andThen r k).1 = (andThen r' k).1 ∧ Plain N (andThen r k).2 := by
  obtain ⟨a, w⟩ := r
  obtain ⟨a', w'⟩ := r'
  dsimp only at h hp hp'
  subst h
  cases a with
  | error err => exact ⟨rfl, hp⟩
  | ok a => exact hk a w w' hp hp'

theorem asimovLikelihood_free {S : Solver} (hS : StartFree S) (B : Backend) (hfix : ∀ n, (B.config n).fixed = none) (poi e rn ts g b)
    {N : ℕ} {w w' : World} (hw : Plain N w) (hw' : Plain N w') :
    (asimovLikelihood S B poi e rn ts g b w).1 = (asimovLikelihood S B poi e rn ts g b w').1 ∧
      Plain N (asimovLikelihood S B poi e rn ts g b w).2 := by
  unfold asimovLikelihood
  cases B.asimovNegLL poi e ts with
  | ok o => exact ⟨rfl, hw⟩
  | error err =>
    cases err <;> first | exact ⟨rfl, hw⟩ | skip
    exact andThen_free (generateAsimov_free hS B hfix e ts g b hw hw').1 (generateAsimov_free hS B hfix e ts g b hw hw').2
      (generateAsimov_free hS B hfix e ts g b hw' hw).2 fun d w w' h h' => likelihood_free hS B hfix poi e rn (some d) false true g b h h'

theorem maximizeAsimov_free {S : Solver} (hS : StartFree S) (B : Backend) (hfix : ∀ n, (B.config n).fixed = none) (rn e ts keys g b)
    {N : ℕ} {w w' : World} (hw : Plain N w) (hw' : Plain N w') :
    (maximizeAsimov S B rn e ts keys g b w).1 = (maximizeAsimov S B rn e ts keys g b w').1 ∧
      Plain N (maximizeAsimov S B rn e ts keys g b w).2 := by
  unfold maximizeAsimov
  cases B.minAsimovNegLL e ts keys with
  | ok o => exact ⟨rfl, hw⟩
  | error err =>
    cases err <;> first | exact ⟨rfl, hw⟩ | skip
    exact andThen_free (generateAsimov_free hS B hfix e ts g b hw hw').1 (generateAsimov_free hS B hfix e ts g b hw hw').2
      (generateAsimov_free hS B hfix e ts g b hw' hw).2 fun d w w' h h' => maximize_free hS B hfix rn e _ (some d) keys none g b h h'

theorem sampler_free {S : Solver} (hS : StartFree S) (B : Backend) (hfix : ∀ n, (B.config n).fixed = none) (poi e size g b)
    {N : ℕ} {w w' : World} (hw : Plain N w) (hw' : Plain N w') :
    (fixedPoiSampler S B poi e size g b w).1 = (fixedPoiSampler S B poi e size g b w').1 ∧
      Plain N (fixedPoiSampler S B poi e size g b w).2 := by
  obtain ⟨h1, h2⟩ := profile_free hS B hfix poi e none true g b hw hw'
  unfold fixedPoiSampler
  cases h3 : profile S B poi e none true g b w with
  | mk r w1 =>
  cases h4 : profile S B poi e none true g b w' with
  | mk r' w1' =>
  rw [h3] at h1 h2
  rw [h4] at h1
  dsimp only at h1 h2
  subst h1
  cases r with
  | error err => exact ⟨rfl, h2⟩
  | ok x =>
    obtain ⟨l, x⟩ := x
    dsimp only
    cases B.sampler x with
    | error err => cases err <;> exact ⟨rfl, h2⟩
    | ok s => cases size <;> exact ⟨rfl, h2⟩

end Verif.Interface

namespace Verif.Hypotest
open Verif.Py F Verif.Config
open Verif.Interface (MuHat Data Toys World Size Plain)
open Verif.Stats (Expect Calc Levels)

theorem steady_ofInterface {α : Type} {N : ℕ} {c : World → Except Interface.Err α × World}
    (h : ∀ w w', Plain N w → Plain N w' → (c w).1 = (c w').1 ∧ Plain N (c w).2) : Steady (Plain N) (ofInterface c) := by
  intro w w' hw hw'
  unfold ofInterface
  rw [(h w w' hw hw').1]
  exact ⟨rfl, (h w w' hw hw').2⟩

/-- From a result in one state to the result in all. -/
theorem Steady.ends {σ α : Type} {I : σ → Prop} {c : Comp σ α} (h : Steady I c) {s : σ} (hs : I s) {r : Except Err α} (hr : (c s).1 = r) :
    Ends I c r := fun s' hs' => ⟨(h s' s hs' hs).1.trans hr, (h s' s hs' hs).2⟩

end Verif.Hypotest
