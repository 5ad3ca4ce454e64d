import Verif.Memo.KeysLemmas
import Verif.Memo.Props
import Verif.CacheKey.Props

/-!
# Theorems: the caches of a model with the keys of the code
-/

namespace Verif.Memo
open Verif.Py F Verif.Config Verif.Optimizer
open Verif.Hypotest (exclusion significance poiUpperLimit modelMethods modelSigma)
open Verif.Interface (MuHat Data Size World Poi Solver StartFree)
open Verif.Stats (Calc)
open Verif.CacheKey (V T Call DKey tryCallKey callKey)
open Classical

/-- **C177** The keys of the code tell calls apart: however calls are written (positions or keywords, defaults written out or not, lists, tuples or arrays, integers or floats), calls of the
three cached methods with the same key do the same. For calls whose `fixed_poi_value` is not a dictionary with several entries; SHA-256 without collisions. -/
theorem C177_keys {H : List ℝ → List ℝ} (hH : Function.Injective H) (p : Spelling) (S : Solver) (B : Interface.Backend) : (codeKeys H p).Faithful S B Simple where
  asimov := by
    rintro i ⟨e, ts, g, b⟩ j ⟨e', ts', g', b'⟩ h
    obtain ⟨-, vb, vx, h1, hb, hx⟩ := p.asimov_writes i ⟨e, ts, g, b⟩
    obtain ⟨-, vb', vx', h1', hb', hx'⟩ := p.asimov_writes j ⟨e', ts', g', b'⟩
    simp only [codeKeys, callKey, h1, h1'] at h
    have hv := fun {k v v'} => key_values (H := H) (by simp) h (k := k) (v := v) (v' := v')
    have e1 := hv (k := "expected") (by simp; rfl) (by simp; rfl)
    have e2 := hv (k := "test_statistic") (by simp; rfl) (by simp; rfl)
    have e3 := hv (k := "par_bounds") (by simp; rfl) (by simp; rfl)
    have e4 := hv (k := "kwargs") (by simp; rfl) (by simp; rfl)
    simp only [CacheKey.token, T.str.injEq] at e1 e2
    have e3 := bounds_tells _ _ _ _ hb hb' e3
    have e4 := (extra_tells hx hx' e4).1
    have e1 := member_inj e1
    dsimp only at e1 e2 e3 e4
    subst e1 e2 e3 e4
    rfl
  fit := by
    rintro i ⟨n, e, s, d, k, f, g, b⟩ j ⟨n', e', s', d', k', f', g', b'⟩ hc hc' h w
    obtain ⟨-, vn, vs, vd, vb, vk, vx, h1, hn, hs, hd, hb, hk, hx⟩ := p.fit_writes i _ hc
    obtain ⟨-, vn', vs', vd', vb', vk', vx', h1', hn', hs', hd', hb', hk', hx'⟩ := p.fit_writes j _ hc'
    simp only [codeKeys, callKey, h1, h1'] at h
    have hv := fun {k v v'} => key_values (H := H) (by simp) h (k := k) (v := v) (v' := v')
    have e0 := hv (k := "return_nll") (by simp; rfl) (by simp; rfl)
    have e1 := hv (k := "expected") (by simp; rfl) (by simp; rfl)
    have e2 := hv (k := "allow_negative_signal") (by simp; rfl) (by simp; rfl)
    have e3 := hv (k := "data") (by simp; rfl) (by simp; rfl)
    have e4 := hv (k := "par_bounds") (by simp; rfl) (by simp; rfl)
    have e5 := hv (k := "poi_indices") (by simp; rfl) (by simp; rfl)
    have e6 := hv (k := "kwargs") (by simp; rfl) (by simp; rfl)
    simp only [CacheKey.token, T.str.injEq] at e1
    have e0 := bool_tells _ _ _ _ hn hn' e0
    have e1 := member_inj e1
    have e2 := bool_tells _ _ _ _ hs hs' e2
    have e3 := opt_tells (data_tells hH) data_some _ _ _ _ hd hd' e3
    have e4 := bounds_tells _ _ _ _ hb hb' e4
    have e5 := keys_tells _ _ _ _ hk hk' e5
    obtain ⟨e6, e7⟩ := extra_tells hx hx' e6
    have e8 : Interface.resolveFixed B w f = Interface.resolveFixed B w f' := e7 hc hc' B w
    dsimp only at e0 e1 e2 e3 e4 e5 e6 ⊢
    subst e0 e1 e2 e3 e4 e5 e6
    simp only [Interface.maximize, e8]
  asimovFit := by
    rintro i ⟨n, e, ts, k, g, b⟩ j ⟨n', e', ts', k', g', b'⟩ h
    obtain ⟨-, vn, vb, vk, vx, h1, hn, hb, hk, hx⟩ := p.asimovFit_writes i ⟨n, e, ts, k, g, b⟩
    obtain ⟨-, vn', vb', vk', vx', h1', hn', hb', hk', hx'⟩ := p.asimovFit_writes j ⟨n', e', ts', k', g', b'⟩
    simp only [codeKeys, callKey, h1, h1'] at h
    have hv := fun {k v v'} => key_values (H := H) (by simp) h (k := k) (v := v) (v' := v')
    have e0 := hv (k := "return_nll") (by simp; rfl) (by simp; rfl)
    have e1 := hv (k := "expected") (by simp; rfl) (by simp; rfl)
    have e2 := hv (k := "test_statistics") (by simp; rfl) (by simp; rfl)
    have e4 := hv (k := "par_bounds") (by simp; rfl) (by simp; rfl)
    have e5 := hv (k := "poi_indices") (by simp; rfl) (by simp; rfl)
    have e6 := hv (k := "kwargs") (by simp; rfl) (by simp; rfl)
    simp only [CacheKey.token, T.str.injEq] at e1 e2
    have e0 := bool_tells _ _ _ _ hn hn' e0
    have e1 := member_inj e1
    have e4 := bounds_tells _ _ _ _ hb hb' e4
    have e5 := keys_tells _ _ _ _ hk hk' e5
    have e6 := (extra_tells hx hx' e6).1
    dsimp only at e0 e1 e2 e4 e5 e6
    subst e0 e1 e2 e4 e5 e6
    rfl
  free := by
    intro c h l hl
    rw [h] at hl
    simp at hl

/-- **C177** After any history of calls, however written, the confidence levels, the significance, the uncertainty on the parameter of interest and the upper limit of a model with the caches of
the code are those of the model without caches. -/
theorem C177_tests {H : List ℝ → List ℝ} (hH : Function.Injective H) (p : Spelling) {S : Solver} (hS : StartFree S) {B : Interface.Backend} (hfix : ∀ n, (B.config n).fixed = none)
    {w0 w : World} (h0 : Like w0 w0) (hw : Like w0 w) (l : List Request) (hl : ∀ i c, Request.maximize i c ∈ l → Simple c) (g : Bool) (b : Option (List Bound)) (ntoys : Size)
    (av : Calc → Bool) (pc : List F → F → F) {s : State T} (hs : s = after (codeKeys H p) S B w0 l) :
    (∀ mu e negative kind, (exclusion (memoMethods (codeKeys H p) S B g b ntoys av pc) mu e negative kind s).1 = (exclusion (modelMethods S B g b ntoys av pc) mu e negative kind w).1) ∧
    (∀ e, (significance (memoMethods (codeKeys H p) S B g b ntoys av pc) e s).1 = (significance (modelMethods S B g b ntoys av pc) e w).1) ∧
    (∀ inv e m, (memoSigma (codeKeys H p) S inv B g ntoys av pc e m s).1 = (modelSigma S inv B g ntoys av pc e m w).1) ∧
    (∀ inv fuel finder alive e CL low hig band,
      (poiUpperLimit fuel finder (memoMethods (codeKeys H p) S B g b ntoys av pc) (memoSigma (codeKeys H p) S inv B g ntoys av pc) alive e CL low hig band s).1 =
      (poiUpperLimit fuel finder (modelMethods S B g b ntoys av pc) (modelSigma S inv B g ntoys av pc) alive e CL low hig band w).1) := by
  subst hs
  refine C173_tests (C177_keys hH p S B) hS hfix h0 hw l (fun r hr => ?_) g b ntoys av pc
  cases r <;> first | exact hl _ _ hr | trivial

/-! ### Two ways of writing all calls -/

noncomputable def encFloat : F → V
  | .fin x => .float x
  | .pinf => .inf false
  | .ninf => .inf true
  | .nan => .object 0

def encOpt {α : Type} (f : α → V) : Option α → V
  | none => .none
  | some x => f x

noncomputable def encBounds : Option (List Bound) → V := encOpt fun l => .list (l.map fun b => .tuple [encOpt encFloat b.1, encOpt encFloat b.2])

def encData (i : ℕ) : Option Data → V := encOpt fun d => if i = 0 then .array [d.length] "<f8" d else .list (d.map .float)

def encKeys : Option (List Key) → V := encOpt fun l => .list (l.map fun k => match k with | .index n => .int n | .name s => .str s)

noncomputable def encPoi : Poi → V
  | .float x => .float x
  | .int n => .int n
  | .dict l => .dict (l.map fun q => (dkey q.1, .float q.2))

theorem isBool_enc (b : Bool) : IsBool (.bool b) b := by simp [IsBool, CacheKey.V.numVal]

theorem isFloat_enc (x : Option F) : IsOpt IsFloat (encOpt encFloat x) x := by
  cases x with
  | none => rfl
  | some x => cases x <;> simp [IsOpt, encOpt, IsFloat, encFloat, IsNum, CacheKey.V.numVal]

theorem forall₂_map {α : Type} {R : V → α → Prop} {f : α → V} (h : ∀ x, R (f x) x) (l : List α) : List.Forall₂ R (l.map f) l := by
  induction l with
  | nil => exact .nil
  | cons x l ih => exact .cons (h x) ih

theorem isBounds_enc (b : Option (List Bound)) : IsOpt (IsSeq IsBound) (encBounds b) b := by
  cases b with
  | none => rfl
  | some l => exact ⟨_, .inl rfl, forall₂_map (fun b => ⟨_, _, .inr rfl, isFloat_enc _, isFloat_enc _⟩) l⟩

theorem isData_enc (i : ℕ) (d : Option Data) : IsOpt IsData (encData i d) d := by
  cases d with
  | none => rfl
  | some d =>
    simp only [IsOpt, encData, encOpt]
    split
    · exact .inr ⟨_, rfl⟩
    · exact .inl ⟨_, .inl rfl, forall₂_map (R := IsNum) (f := V.float) (fun x => rfl) d⟩

theorem isKeys_enc (k : Option (List Key)) : IsOpt (IsSeq IsKey) (encKeys k) k := by
  cases k with
  | none => rfl
  | some l => exact ⟨_, .inl rfl, forall₂_map (fun k => by cases k <;> rfl) l⟩

theorem isPoi_enc (x : Poi) : IsPoi (encPoi x) x := by
  cases x with
  | float x => rfl
  | int n => rfl
  | dict l =>
    refine ⟨_, rfl, ?_⟩
    induction l with
    | nil => exact .nil
    | cons q l ih => exact .cons ⟨rfl, rfl⟩ ih

/-- The extra keywords. -/
noncomputable def encExtra (g : Bool) (x : Option Poi) : List (String × V) :=
  match x with
  | none => [("do_grad", .bool g)]
  | some x => [("do_grad", .bool g), ("fixed_poi_value", encPoi x)]

theorem isExtra_enc (g : Bool) (x : Option Poi) : IsExtra (.dict ((encExtra g x).map fun p => (Sum.inrₗ p.1, p.2))) g x := by
  have hne : (Sum.inrₗ "fixed_poi_value" : DKey) ≠ Sum.inrₗ "do_grad" := fun h => by simpa using CacheKey.inrₗ_inj h
  cases x with
  | none => exact ⟨_, rfl, by simp [encExtra], by simp [encExtra, dget, IsBool, CacheKey.V.numVal], by simp [encExtra, dget, hne]⟩
  | some x =>
    exact ⟨_, rfl, by simpa [encExtra] using hne.symm, by simp [encExtra, dget, IsBool, CacheKey.V.numVal], by
      simp only [encExtra, List.map_cons, List.map_nil, dget, if_neg hne, if_true]
      exact ⟨x, rfl, isPoi_enc x⟩⟩

/-- Number 0: keywords and arrays; others: positions and lists. -/
noncomputable def spelling : Spelling where
  asimov i c := if i = 0 then ⟨[], [("expected", .str (member c.expected)), ("test_statistic", .str c.ts), ("par_bounds", encBounds c.bounds)] ++ encExtra c.doGrad none⟩
    else ⟨[.str (member c.expected), .str c.ts, .none, encBounds c.bounds], encExtra c.doGrad none⟩
  fit i c := if i = 0 then ⟨[], [("return_nll", .bool c.returnNll), ("expected", .str (member c.expected)), ("allow_negative_signal", .bool c.negative), ("data", encData i c.data),
        ("par_bounds", encBounds c.bounds), ("poi_indices", encKeys c.keys)] ++ encExtra c.doGrad c.fixed⟩
    else ⟨[.bool c.returnNll, .str (member c.expected), .bool c.negative, encData i c.data, .none, encBounds c.bounds, encKeys c.keys], encExtra c.doGrad c.fixed⟩
  asimovFit i c := if i = 0 then ⟨[], [("return_nll", .bool c.returnNll), ("expected", .str (member c.expected)), ("test_statistics", .str c.ts),
        ("par_bounds", encBounds c.bounds), ("poi_indices", encKeys c.keys)] ++ encExtra c.doGrad none⟩
    else ⟨[.bool c.returnNll, .str (member c.expected), .str c.ts, .none, encBounds c.bounds, encKeys c.keys], encExtra c.doGrad none⟩
  asimov_writes i c := by
    have hx := isExtra_enc c.doGrad none
    split
    · refine ⟨by simp [CacheKey.Call.Ok, encExtra], _, _, ?_, isBounds_enc _, hx⟩
      simp [CacheKey.bind, asimovSig, CacheKey.bindParams, encExtra, List.lookup]
    · refine ⟨by simp [CacheKey.Call.Ok, encExtra], _, _, ?_, isBounds_enc _, hx⟩
      simp [CacheKey.bind, asimovSig, CacheKey.bindParams, encExtra, List.lookup]
  fit_writes i c _ := by
    have hx := isExtra_enc c.doGrad c.fixed
    split
    · refine ⟨?_, .bool c.returnNll, .bool c.negative, _, _, _, _, ?_, isBool_enc _, isBool_enc _, isData_enc i _, isBounds_enc _, isKeys_enc _, hx⟩
      · cases c.fixed <;> simp [CacheKey.Call.Ok, encExtra]
      · cases c.fixed <;> simp [CacheKey.bind, fitSig, CacheKey.bindParams, encExtra, List.lookup]
    · refine ⟨?_, .bool c.returnNll, .bool c.negative, _, _, _, _, ?_, isBool_enc _, isBool_enc _, isData_enc i _, isBounds_enc _, isKeys_enc _, hx⟩
      · cases c.fixed <;> simp [CacheKey.Call.Ok, encExtra]
      · cases c.fixed <;> simp [CacheKey.bind, fitSig, CacheKey.bindParams, encExtra, List.lookup]
  asimovFit_writes i c := by
    have hx := isExtra_enc c.doGrad none
    split
    · refine ⟨by simp [CacheKey.Call.Ok, encExtra], .bool c.returnNll, _, _, _, ?_, isBool_enc _, isBounds_enc _, isKeys_enc _, hx⟩
      simp [CacheKey.bind, asimovFitSig, CacheKey.bindParams, encExtra, List.lookup]
    · refine ⟨by simp [CacheKey.Call.Ok, encExtra], .bool c.returnNll, _, _, _, ?_, isBool_enc _, isBounds_enc _, isKeys_enc _, hx⟩
      simp [CacheKey.bind, asimovFitSig, CacheKey.bindParams, encExtra, List.lookup]

example : Function.Injective (id : List ℝ → List ℝ) ∧ Nonempty Spelling ∧ Simple ⟨true, .observed, true, some [1], none, some (.dict [(.name "mu", 1)]), true, none⟩ ∧
    ¬ Simple ⟨true, .observed, true, none, none, some (.dict [(.name "mu", 1), (.name "theta", 1)]), true, none⟩ :=
  ⟨fun _ _ h => h, ⟨spelling⟩, by rintro l h; cases h; simp, fun h => by simpa using h _ rfl⟩

/-! ### Dictionaries -/

/-- `maximize_likelihood(fixed_poi_value=...)`. -/
def withFixed (l : List (Key × ℝ)) : FitCall := ⟨true, .observed, true, none, none, some (.dict l), true, none⟩

/-- The call as it is written. -/
def writeFixed (l : List (DKey × V)) : CacheKey.Call := ⟨[], [("fixed_poi_value", .dict l)]⟩

theorem writesFixed (l : List (DKey × V)) (l' : List (Key × ℝ)) (h : IsPoi (.dict l) (.dict l')) : WritesFit (writeFixed l) (withFixed l') := by
  have hne : (Sum.inrₗ "do_grad" : DKey) ≠ Sum.inrₗ "fixed_poi_value" := fun h => by simpa using CacheKey.inrₗ_inj h
  refine ⟨by simp [CacheKey.Call.Ok, writeFixed], .bool true, .bool true, .none, .none, .none, .dict [(Sum.inrₗ "fixed_poi_value", .dict l)], ?_, isBool_enc true, isBool_enc true, rfl, rfl, rfl,
    _, rfl, by simp, ?_, ?_⟩
  · simp [writeFixed, CacheKey.bind, fitSig, CacheKey.bindParams, List.lookup, withFixed, member]
  · simp [dget, hne, withFixed]
  · simp only [dget, if_true]
    exact ⟨_, rfl, h⟩

theorem stale_fit {H : List ℝ → List ℝ} {x y : CacheKey.Call} {c d : FitCall} {P Q R : Prop} {v : MuHat × F} {w : World}
    (h : callKey H fitSig x = callKey H fitSig y ∧ P ∧ Q ∧ (fitRun Interface.stay Interface.exB c w).1 = .ok v ∧ R) :
    callKey H fitSig x = callKey H fitSig y ∧ P ∧ Q ∧ (fitRun Interface.stay Interface.exB c w).1 = .ok v ∧ R ∧ ∀ (p : Spelling) (i j : ℕ), p.fit i c = x → p.fit j d = y →
      (maximize (codeKeys H p) Interface.stay Interface.exB j d (after (codeKeys H p) Interface.stay Interface.exB w [.maximize i c])).1 = .ok v := by
  refine ⟨h.1, h.2.1, h.2.2.1, h.2.2.2.1, h.2.2.2.2, fun p i j hi hj => ?_⟩
  have h1 := (maximize_empty (codeKeys H p) Interface.stay Interface.exB i c (w, {}) rfl rfl rfl).1
  rw [h.2.2.2.1] at h1
  have hk : (codeKeys H p).fit j d = (codeKeys H p).fit i c := by simp only [codeKeys, hi, hj, h.1]
  simp only [after, List.foldl_cons, List.foldl_nil, perform]
  unfold maximize
  rw [hk]
  exact congrArg Prod.fst (wrapper_hit fitSlot_lawful _ (fun _ => rfl) (fun _ => rfl) (good_empty _) h1 _ rfl)

/-- **C177** fails for dictionaries: the order of the entries is not part of the key, but where two indices name the same parameter (`0` and `-2` for two parameters) the fit takes the last. With
the cache the second call returns the result of the first. -/
theorem C177_order_fails (H : List ℝ → List ℝ) :
    callKey H fitSig (writeFixed [(Sum.inlₗ 0, .float 1), (Sum.inlₗ (-2), .float 3)]) = callKey H fitSig (writeFixed [(Sum.inlₗ (-2), .float 3), (Sum.inlₗ 0, .float 1)]) ∧
    WritesFit (writeFixed [(Sum.inlₗ 0, .float 1), (Sum.inlₗ (-2), .float 3)]) (withFixed [(.index 0, 1), (.index (-2), 3)]) ∧
    WritesFit (writeFixed [(Sum.inlₗ (-2), .float 3), (Sum.inlₗ 0, .float 1)]) (withFixed [(.index (-2), 3), (.index 0, 1)]) ∧
    (fitRun Interface.stay Interface.exB (withFixed [(.index 0, 1), (.index (-2), 3)]) ⟨[0, 1], none, none⟩).1 = .ok (.one 3, fin (3 ^ 2 + 1)) ∧
    (fitRun Interface.stay Interface.exB (withFixed [(.index (-2), 3), (.index 0, 1)]) ⟨[0, 1], none, none⟩).1 = .ok (.one 1, fin (1 ^ 2 + 1)) ∧
    ∀ (p : Spelling) (i j : ℕ), p.fit i (withFixed [(.index 0, 1), (.index (-2), 3)]) = writeFixed [(Sum.inlₗ 0, .float 1), (Sum.inlₗ (-2), .float 3)] →
      p.fit j (withFixed [(.index (-2), 3), (.index 0, 1)]) = writeFixed [(Sum.inlₗ (-2), .float 3), (Sum.inlₗ 0, .float 1)] →
      (maximize (codeKeys H p) Interface.stay Interface.exB j (withFixed [(.index (-2), 3), (.index 0, 1)])
        (after (codeKeys H p) Interface.stay Interface.exB ⟨[0, 1], none, none⟩ [.maximize i (withFixed [(.index 0, 1), (.index (-2), 3)])])).1 = .ok (.one 3, fin (3 ^ 2 + 1)) := by
  refine stale_fit ⟨?_, writesFixed _ _ ⟨_, rfl, .cons ⟨rfl, rfl⟩ (.cons ⟨rfl, rfl⟩ .nil)⟩, writesFixed _ _ ⟨_, rfl, .cons ⟨rfl, rfl⟩ (.cons ⟨rfl, rfl⟩ .nil)⟩, ?_, ?_⟩
  · have h : CacheKey.token H (.dict [(Sum.inlₗ 0, .float 1), (Sum.inlₗ (-2), .float 3)]) = CacheKey.token H (.dict [(Sum.inlₗ (-2), .float 3), (Sum.inlₗ 0, .float 1)]) := by
      simp only [CacheKey.token]
      congr 2
      exact CacheKey.sort_eq_of_perm (by simp [CacheKey.tokenItems, Sum.inlₗ]) (.swap _ _ _)
    have hb : ∀ l, CacheKey.bind fitSig (writeFixed l) = some [("return_nll", .bool true), ("expected", .str (member .observed)), ("allow_negative_signal", .bool true), ("data", .none),
        ("init_pars", .none), ("par_bounds", .none), ("poi_indices", .none), ("kwargs", .dict [(Sum.inrₗ "fixed_poi_value", .dict l)])] := fun l => by
      simp [writeFixed, CacheKey.bind, fitSig, CacheKey.bindParams, List.lookup, member]
    have hx : ∀ l, CacheKey.token H (.dict [(Sum.inrₗ "fixed_poi_value", .dict l)]) =
        .tup ((CacheKey.sortItems [(Sum.inrₗ "fixed_poi_value", CacheKey.token H (.dict l))]).map CacheKey.pairD) := fun l => by
      rw [CacheKey.token, CacheKey.tokenItems, CacheKey.tokenItems]
    simp only [callKey, hb, CacheKey.buildKey, CacheKey.tokenNames, List.map_cons, List.map_nil, hx, h]
  · simp [fitRun, withFixed, Hypotest.ofInterface, Interface.maximize, Interface.exB, Interface.resolveFixed, Interface.prepareForFit,
      Interface.getObjective, Interface.config, Interface.runFit, Optimizer.fit, Optimizer.fitBounds, slot, Except.map,
      Optimizer.FixedPoi.pairs, Optimizer.setFixed, Optimizer.setSuggested, Interface.stay, Except.mapError, Interface.scaleOut, F.neg,
      Interface.estimates, Interface.readKey, resolveKey, Interface.item, Interface.resolvePoi, resolvePoiIndices, resolveLoop, dictSet, fixedPoiBoundsMulti, fixedLoop]
  · simp [fitRun, withFixed, Hypotest.ofInterface, Interface.maximize, Interface.exB, Interface.resolveFixed, Interface.prepareForFit,
      Interface.getObjective, Interface.config, Interface.runFit, Optimizer.fit, Optimizer.fitBounds, slot, Except.map,
      Optimizer.FixedPoi.pairs, Optimizer.setFixed, Optimizer.setSuggested, Interface.stay, Except.mapError, Interface.scaleOut, F.neg,
      Interface.estimates, Interface.readKey, resolveKey, Interface.item, Interface.resolvePoi, resolvePoiIndices, resolveLoop, dictSet, fixedPoiBoundsMulti, fixedLoop]

example : ∃ p : Spelling, p.fit 0 (withFixed [(.index 0, 1), (.index (-2), 3)]) = writeFixed [(Sum.inlₗ 0, .float 1), (Sum.inlₗ (-2), .float 3)] ∧
    p.fit 0 (withFixed [(.index (-2), 3), (.index 0, 1)]) = writeFixed [(Sum.inlₗ (-2), .float 3), (Sum.inlₗ 0, .float 1)] := by
  have hn : ∀ q r : Key × ℝ, ¬ Simple (withFixed [q, r]) := fun q r h => by simpa using h _ rfl
  refine ⟨{ spelling with
    fit := fun i c => if c = withFixed [(.index 0, 1), (.index (-2), 3)] then writeFixed [(Sum.inlₗ 0, .float 1), (Sum.inlₗ (-2), .float 3)]
      else if c = withFixed [(.index (-2), 3), (.index 0, 1)] then writeFixed [(Sum.inlₗ (-2), .float 3), (Sum.inlₗ 0, .float 1)] else spelling.fit i c
    fit_writes := fun i c hc => by
      rw [if_neg (by rintro rfl; exact hn _ _ hc), if_neg (by rintro rfl; exact hn _ _ hc)]
      exact spelling.fit_writes i c hc }, if_pos rfl, ?_⟩
  dsimp only
  rw [if_neg (by simp [withFixed]), if_pos rfl]

/-- **C176** fails in the sense that the cache refuses calls that the method takes: a dictionary with an index and a name. The method without cache fits and returns; with the cache `TypeError` is
raised. -/
theorem C176_mixed_fails (H : List ℝ → List ℝ) :
    WritesFit (writeFixed [(Sum.inlₗ 0, .float 1), (Sum.inrₗ "theta", .float 3)]) (withFixed [(.index 0, 1), (.name "theta", 3)]) ∧
    (fitRun Interface.stay Interface.exB (withFixed [(.index 0, 1), (.name "theta", 3)]) ⟨[0, 1], none, none⟩).1 = .ok (.one 1, fin (1 ^ 2 + 3 ^ 2)) ∧
    tryCallKey H fitSig (writeFixed [(Sum.inlₗ 0, .float 1), (Sum.inrₗ "theta", .float 3)]) = none := by
  refine ⟨writesFixed _ _ ⟨_, rfl, .cons ⟨rfl, rfl⟩ (.cons ⟨rfl, rfl⟩ .nil)⟩, ?_, ?_⟩
  · simp [fitRun, withFixed, Hypotest.ofInterface, Interface.maximize, Interface.exB, Interface.resolveFixed, Interface.prepareForFit,
      Interface.getObjective, Interface.config, Interface.runFit, Optimizer.fit, Optimizer.fitBounds, slot, Except.map,
      Optimizer.FixedPoi.pairs, Optimizer.setFixed, Optimizer.setSuggested, Interface.stay, Except.mapError, Interface.scaleOut, F.neg,
      Interface.estimates, Interface.readKey, resolveKey, Interface.item, Interface.resolvePoi, resolvePoiIndices, resolveLoop, dictSet, fixedPoiBoundsMulti, fixedLoop]
  · rw [CacheKey.C176_keys H _ _ (by simp [CacheKey.Call.Ok, writeFixed])]
    exact ⟨_, .inr (by simp [writeFixed]; rfl), .here (n := 0) (s := "theta") (by simp) (by simp)⟩

end Verif.Memo
