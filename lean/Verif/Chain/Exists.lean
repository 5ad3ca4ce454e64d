import Verif.Chain.ProfileProps
import Verif.Hypotest.Within

/-!
# Lemmas: the fits of the upper limit of the models with nuisance parameters
-/

namespace Verif.Chain
open Verif.Py F Verif.Config Verif.Optimizer Verif.Hypotest
open Verif.Interface (Data World Size Plain Solver)
open Verif.Backend (Ext Vec Args Built Fits at')
open Verif.Stats (Expect Calc)

theorem Binned.fits_from {B : Interface.Backend} {n : ℕ} {γ : ℝ → ℝ} {s : ℕ → ℝ} {bin : ℕ → ℝ → ℝ} {pen : (ℕ → ℝ) → ℝ} {lo : ℝ} {dflt : Expect → Vec}
    (h : Binned B n γ s bin pen lo dflt) {S : Solver} (hS : Exact S) (hT : Finds S) (hC : Interface.Constrained S) (e : Expect) (g : Bool) (ntoys : Size)
    (available : Calc → Bool) (percentile : List F → F → F) :
    ∃ (m l : ℝ) (L : ℝ → ℝ) (mA lA : ℝ) (LA : ℝ → ℝ), FitsFrom (Plain (n + 1)) (modelMethods S B g none ntoys available percentile) e m (fin l) (fun v => fin (L v)) mA (fin lA) fun v => fin (LA v) := by
  obtain ⟨w, hw⟩ : ∃ w : World, Plain (n + 1) w := ⟨⟨List.replicate (n + 1) 0, none, none⟩, rfl, rfl, by simp⟩
  obtain ⟨hlik, hmax, hasi⟩ := model_ends hS h.usual g ntoys available percentile e w hw
  obtain ⟨m, l, -, f1⟩ := h.fit_default hS hT hC false e g hw
  have f2 : ∀ v : ℝ, ∃ l : ℝ, 0 ≤ v → (Interface.likelihood S B (.float v) (expectation e) true none false true g none w).1 = .ok (.value (fin l)) := by
    intro v
    by_cases hv : 0 ≤ v
    · obtain ⟨l, -, f⟩ := h.at_default hS hT hC e (h.low.trans hv) g hw
      exact ⟨_, fun _ => f⟩
    · exact ⟨0, fun h' => absurd h' hv⟩
  choose L hL using f2
  obtain ⟨-, -, D, -, hD, -, f4⟩ := h.asimov hS hT hC e "qtilde" g hw
  obtain ⟨hlikA, hmaxA⟩ := hasi "qtilde" D f4
  obtain ⟨mA, lA, -, f5⟩ := h.fit hS hT hC false e hD g hw
  have f6 : ∀ v : ℝ, ∃ l : ℝ, 0 ≤ v → (Interface.likelihood S B (.float v) (expectation e) true (some D) false true g none w).1 = .ok (.value (fin l)) := by
    intro v
    by_cases hv : 0 ≤ v
    · obtain ⟨l, -, f⟩ := h.at hS hT hC e hD (h.low.trans hv) g hw
      exact ⟨_, fun _ => f⟩
    · exact ⟨0, fun h' => absurd h' hv⟩
  choose LA hLA using f6
  have hneg : Interface.mayBeNegative "qtilde" = false := by simp [Interface.mayBeNegative]
  exact ⟨m, -l, L, mA, -lA, LA, hmax none false _ f1, fun v hv => hlik none v _ (hL v hv), hmaxA _ (by rw [hneg]; exact f5), fun v hv => hlikA v _ (hLA v hv)⟩

theorem FitsFrom.of_all {I : World → Prop} {M : Methods World} {e : Expect} {m : ℝ} {l : F} {L : ℝ → F} {mA : ℝ} {lA : F} {LA : ℝ → F}
    (h : AllFits I M e m l L mA lA LA) : FitsFrom I M e m l L mA lA LA := ⟨h.best, fun v _ => h.likelihood v, h.bestA, fun v _ => h.likelihoodA v⟩

end Verif.Chain
