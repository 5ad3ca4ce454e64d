import Verif.Memo.Any
import Verif.Interface.Props

/-!
# Theorems: the caches of a model
-/

namespace Verif.Memo
open Verif.Py F Verif.Config Verif.Optimizer
open Verif.Hypotest (Comp Methods Mu exclusion significance poiUpperLimit sigmaMu modelMethods modelSigma)
open Verif.Interface (MuHat Data Toys Size World Poi Out Solver StartFree)
open Verif.Stats (Expect Calc)
open Verif.UpperLimit (Expected)

variable {K : Type} [DecidableEq K]

/-- **C173** The caches cannot be seen: after any history of requests, with clearing of caches and requests that raised among them, every method of a model
returns, or raises, what the method without cache does on a model that was never asked anything (or asked for other things). For minimisers that do not depend on the starting point. -/
theorem C173_calls {key : Keys K} {S : Solver} {B : Interface.Backend} {G : FitCall → Prop} (hkey : key.Faithful S B G) (hS : StartFree S) (hfix : ∀ n, (B.config n).fixed = none) {w0 w : World}
    (h0 : Like w0 w0) (hw : Like w0 w) (l : List Request) (hl : ∀ r ∈ l, r.Within G) :
    (∀ i (c : AsimovCall), (generate key S B i c (after key S B w0 l)).1 = (Interface.generateAsimov S B c.expected c.ts c.doGrad c.bounds w).1.mapError .call) ∧
    (∀ i (c : FitCall), G c → (maximize key S B i c (after key S B w0 l)).1 =
      (Interface.maximize S B c.returnNll c.expected c.negative c.data c.keys c.fixed c.doGrad c.bounds w).1.mapError .call) ∧
    (∀ i (c : AsimovFitCall), (maximizeAsimov key S B i c (after key S B w0 l)).1 =
      (Interface.maximizeAsimov S B c.returnNll c.expected c.ts c.keys c.doGrad c.bounds w).1.mapError .call) ∧
    (∀ poi e rn ts g b, (asimovLikelihood key S B poi e rn ts g b (after key S B w0 l)).1 = (Interface.asimovLikelihood S B poi e rn ts g b w).1.mapError .call) := by
  have h := after_good (N := w0.start.length) hkey hS hfix h0 hw l hl
  exact ⟨fun i c => (generate_agree hkey hS hfix i c _ _ h).1, fun i c hc => (maximize_agree hkey hS hfix i c hc _ _ h).1,
    fun i c => (maximizeAsimov_agree hkey hS hfix i c _ _ h).1, fun poi e rn ts g b => (asimovLikelihood_agree hkey hS hfix poi e rn ts g b _ _ h).1⟩

/-- **C173** The tests on top of the caches: after any history the confidence levels, the significance, the uncertainty on the parameter of interest and the upper limit are those
of the model without caches, and so do not depend on the history. -/
theorem C173_tests {key : Keys K} {S : Solver} {B : Interface.Backend} {G : FitCall → Prop} (hkey : key.Faithful S B G) (hS : StartFree S) (hfix : ∀ n, (B.config n).fixed = none) {w0 w : World}
    (h0 : Like w0 w0) (hw : Like w0 w) (l : List Request) (hl : ∀ r ∈ l, r.Within G) (g : Bool) (b : Option (List Bound)) (ntoys : Size) (av : Calc → Bool) (pc : List F → F → F) :
    (∀ mu e negative kind, (exclusion (memoMethods key S B g b ntoys av pc) mu e negative kind (after key S B w0 l)).1 =
      (exclusion (modelMethods S B g b ntoys av pc) mu e negative kind w).1) ∧
    (∀ e, (significance (memoMethods key S B g b ntoys av pc) e (after key S B w0 l)).1 = (significance (modelMethods S B g b ntoys av pc) e w).1) ∧
    (∀ inv e m, (memoSigma key S inv B g ntoys av pc e m (after key S B w0 l)).1 = (modelSigma S inv B g ntoys av pc e m w).1) ∧
    (∀ inv fuel T alive e CL low hig band,
      (poiUpperLimit fuel T (memoMethods key S B g b ntoys av pc) (memoSigma key S inv B g ntoys av pc) alive e CL low hig band (after key S B w0 l)).1 =
      (poiUpperLimit fuel T (modelMethods S B g b ntoys av pc) (modelSigma S inv B g ntoys av pc) alive e CL low hig band w).1) := by
  have h := after_good (N := w0.start.length) hkey hS hfix h0 hw l hl
  have hm := memo_agree (N := w0.start.length) hkey hS hfix g b ntoys av pc
  exact ⟨fun mu e n kind => (Hypotest.exclusion_agree hm mu e n kind _ _ h).1, fun e => (Hypotest.significance_agree hm e _ _ h).1,
    fun inv e m => (memoSigma_agree hkey hS hfix inv g ntoys av pc e m _ _ h).1,
    fun inv fuel T alive e CL low hig band => (Hypotest.limit_agree hm (memoSigma_agree hkey hS hfix inv g ntoys av pc) _ _ _ _ _ _ _ _ _ _ h).1⟩

/-- Keys that are the arguments themselves. -/
def plainKeys : Keys (AsimovCall ⊕ FitCall ⊕ AsimovFitCall) := ⟨fun _ c => .inl c, fun _ c => .inr (.inl c), fun _ c => .inr (.inr c)⟩

/-- Keys that tell apart how the arguments are written. -/
def spelledKeys : Keys (ℕ × (AsimovCall ⊕ FitCall ⊕ AsimovFitCall)) := ⟨fun i c => (i, .inl c), fun i c => (i, .inr (.inl c)), fun i c => (i, .inr (.inr c))⟩

theorem plain_faithful (S : Solver) (B : Interface.Backend) : plainKeys.Faithful S B fun _ => True :=
  ⟨fun _ _ _ _ h => Sum.inl.inj h, fun _ _ _ _ _ _ h w => by rw [Sum.inl.inj (Sum.inr.inj h)], fun _ _ _ _ h => Sum.inr.inj (Sum.inr.inj h), fun _ _ => trivial⟩

theorem spelled_faithful (S : Solver) (B : Interface.Backend) : spelledKeys.Faithful S B fun _ => True :=
  ⟨fun _ _ _ _ h => Sum.inl.inj (Prod.mk.inj h).2, fun _ _ _ _ _ _ h w => by rw [Sum.inl.inj (Sum.inr.inj (Prod.mk.inj h).2)],
      fun _ _ _ _ h => Sum.inr.inj (Sum.inr.inj (Prod.mk.inj h).2), fun _ _ => trivial⟩

example : StartFree Interface.perfect ∧ (∀ n, (Interface.exB.config n).fixed = none) ∧ Like Interface.exW Interface.exW ∧ ∀ r, Request.Within (fun _ => True) r :=
  ⟨Interface.perfect_free, fun _ => rfl, ⟨rfl, rfl, rfl⟩, fun r => by cases r <;> trivial⟩

/-- **C173** What the caches are for: after any history, a call that returned is not made again. The same call returns the same value and leaves the lists and the caches as they are:
nothing is fitted. For any minimiser and any keys. -/
theorem C173_again (key : Keys K) (S : Solver) (B : Interface.Backend) (w0 : World) (l : List Request) :
    (∀ i c v, (generate key S B i c (after key S B w0 l)).1 = .ok v →
      generate key S B i c (after key S B w0 (l ++ [.generate i c])) = (.ok v, after key S B w0 (l ++ [.generate i c]))) ∧
    (∀ i c v, (maximize key S B i c (after key S B w0 l)).1 = .ok v →
      maximize key S B i c (after key S B w0 (l ++ [.maximize i c])) = (.ok v, after key S B w0 (l ++ [.maximize i c]))) ∧
    (∀ i c v, (maximizeAsimov key S B i c (after key S B w0 l)).1 = .ok v →
      maximizeAsimov key S B i c (after key S B w0 (l ++ [.maximizeAsimov i c])) = (.ok v, after key S B w0 (l ++ [.maximizeAsimov i c]))) := by
  have h := after_quiet key S B w0 l
  have ha : ∀ r, after key S B w0 (l ++ [r]) = perform key S B (after key S B w0 l) r := fun r => by
    unfold after; rw [List.foldl_append]; rfl
  refine ⟨fun i c v hv => ?_, fun i c v hv => ?_, fun i c v hv => ?_⟩
  · rw [ha]
    exact wrapper_again asimovSlot_lawful _ (fun _ => rfl) h.1 hv _ rfl
  · rw [ha]
    exact wrapper_again fitSlot_lawful _ (fun _ => rfl) h.2.1 hv _ rfl
  · rw [ha]
    exact wrapper_again asimovFitSlot_lawful _ (asimovFit_frame key S B c) h.2.2 hv _ rfl

/-- **C173** For any minimiser, also one that depends on the starting point: after any history a call returns, or raises, what the method without cache does in some state of the shared
lists. Whatever holds of all results of the methods without caches therefore holds with them. For `maximize_asimov_likelihood` the Asimov data may come from another state than the fit. -/
theorem C173_any {key : Keys K} {S : Solver} {B : Interface.Backend} {G : FitCall → Prop} (hkey : key.Faithful S B G) {w0 : World} (h0 : Like w0 w0) (l : List Request)
    (hl : ∀ r ∈ l, r.Within G) :
    (∀ i c, AsimovIn S B w0 c (generate key S B i c (after key S B w0 l)).1) ∧
    (∀ i c, G c → FitIn S B w0 c (maximize key S B i c (after key S B w0 l)).1) ∧
    (∀ i c, AsimovFitIn S B w0 c (maximizeAsimov key S B i c (after key S B w0 l)).1) := by
  have h := after_any (S := S) (B := B) hkey h0 l hl
  exact ⟨fun i c => (generate_any hkey i c _ h).1, fun i c hc => (maximize_any hkey i c hc _ h).1, fun i c => (maximizeAsimov_any hkey i c _ h).1⟩

example : Like Interface.exW Interface.exW ∧ ∃ r, FitIn Interface.stay Interface.exB Interface.exW ⟨true, .observed, true, none, none, none, true, none⟩ (.ok r) ∧
    ∃ r', FitIn Interface.stay Interface.exB Interface.exW ⟨true, .observed, true, none, none, none, true, none⟩ (.ok r') ∧ r ≠ r' := by
  refine ⟨⟨rfl, rfl, rfl⟩, (.one 1, fin (1 ^ 2 + 1)), ⟨⟨[1, 1], none, none⟩, ⟨rfl, rfl, rfl⟩, ?_⟩, (.one 5, fin (5 ^ 2 + 1)), ⟨⟨[5, 1], none, none⟩, ⟨rfl, rfl, rfl⟩, ?_⟩, by norm_num⟩
  all_goals
    simp [Interface.maximize, Interface.exB, Interface.resolveFixed, Interface.prepareForFit,
      Interface.getObjective, Interface.config, Interface.runFit, Optimizer.fit, Optimizer.fitBounds, fixedPoiBounds, slot, Except.map,
      Optimizer.FixedPoi.pairs, Optimizer.setFixed, Optimizer.setSuggested, Interface.stay, Except.mapError, Interface.scaleOut, F.neg,
      Interface.estimates, Interface.readKey, resolveKey, Interface.item]

/-- The fit of a new model. -/
def firstFit : FitCall := ⟨true, .observed, true, none, none, none, true, none⟩

theorem fit_exB (x : ℝ) : fitRun Interface.stay Interface.exB firstFit ⟨[x, 1], none, none⟩ = (.ok (.one x, fin (x ^ 2 + 1)), ⟨[x, 1], none, none⟩) := by
  simp [fitRun, firstFit, Hypotest.ofInterface, Interface.maximize, Interface.exB, Interface.resolveFixed, Interface.prepareForFit,
    Interface.getObjective, Interface.config, Interface.runFit, Optimizer.fit, Optimizer.fitBounds, fixedPoiBounds, slot, Except.map,
    Optimizer.FixedPoi.pairs, Optimizer.setFixed, Optimizer.setSuggested, Interface.stay, Except.mapError, Interface.scaleOut, F.neg,
    Interface.estimates, Interface.readKey, resolveKey, Interface.item]

/-- **C173** fails for minimisers that depend on the starting point, as those of scipy do: clearing the cache changes the result of the same call, since the fit then starts where
`likelihood(5)` left the shared list. -/
theorem C173_start_fails : ∃ (S : Solver) (B : Interface.Backend) (w : World) (c : FitCall) (q : Request), Interface.Honest 0 S ∧ Interface.Fallback B ∧ Like w w ∧
    ∃ r r' : MuHat × F, r.2 ≠ r'.2 ∧ ∀ (K : Type) (_ : DecidableEq K) (key : Keys K) (i : ℕ),
      (maximize key S B i c (after key S B w [.maximize i c, q])).1 = .ok r ∧
      (maximize key S B i c (after key S B w [.maximize i c, q, .clearMaximize])).1 = .ok r' := by
  refine ⟨Interface.stay, Interface.exB, ⟨[1, 1], none, none⟩, firstFit, .likelihood (.float 5) .observed true none false true true none, Interface.stay_honest,
    Interface.exB_fallback, ⟨rfl, rfl, rfl⟩, (.one 1, fin (1 ^ 2 + 1)), (.one 5, fin (5 ^ 2 + 1)), by norm_num, fun K _ key i => ?_⟩
  have h1 := maximize_empty key Interface.stay Interface.exB i firstFit (⟨[1, 1], none, none⟩, {}) rfl rfl rfl
  rw [fit_exB] at h1
  have hlik : ∀ s : Store K, (onWorld (Interface.likelihood Interface.stay Interface.exB (.float 5) .observed true none false true true none)
      ((⟨[1, 1], none, none⟩, s) : State K)).2 = (⟨[5, 1], none, none⟩, s) := by
    intro s
    simp [onWorld, Interface.likelihood, Interface.profile, Interface.resolvePoi, Interface.exB, Interface.prepareForFit,
      Interface.getObjective, Interface.config, ModelConfig.npar, Interface.runFit, Optimizer.fit, Optimizer.fitBounds, fixedPoiBounds, slot,
      Except.map, Optimizer.FixedPoi.pairs, Optimizer.setFixed, Optimizer.setSuggested, Interface.stay, Interface.scaleOut, F.neg]
  obtain ⟨x, hx⟩ : ∃ x, x = maximize key Interface.stay Interface.exB i firstFit (⟨[1, 1], none, none⟩, {}) := ⟨_, rfl⟩
  rw [← hx] at h1
  obtain ⟨v, w1, s1⟩ := x
  obtain ⟨hv, hw1⟩ := h1
  dsimp only at hv hw1
  subst hv hw1
  constructor
  · have h2 := wrapper_again (K := K) fitSlot_lawful (key.fit i firstFit) (f := onWorld (Interface.maximize Interface.stay Interface.exB true .observed true none none none true none))
      (fun _ => rfl) (s := (⟨[1, 1], none, none⟩, {})) (good_empty _) (v := (.one 1, fin (1 ^ 2 + 1))) (congrArg Prod.fst hx.symm) (⟨[5, 1], none, none⟩, s1)
      (congrArg (fun z => z.2.2.fit) hx)
    simp only [after, List.foldl_cons, List.foldl_nil, perform]
    rw [← hx, hlik]
    exact congrArg Prod.fst h2
  · simp only [after, List.foldl_cons, List.foldl_nil, perform]
    rw [← hx, hlik]
    rw [(maximize_empty key Interface.stay Interface.exB i firstFit _ rfl rfl rfl).1, fit_exB]

end Verif.Memo
