import Verif.Memo.Lemmas

/-!
# Lemmas: the caches with minimisers that depend on the starting point
-/

namespace Verif.Memo
set_option linter.unusedSectionVars false
open Verif.Py F Verif.Config Verif.Optimizer
open Verif.Hypotest (Comp ofInterface)
open Verif.Interface (MuHat Data Toys Size World Poi Out Solver Plain)
open Verif.Cache (Shared Quiet Fifo)

/-! ### Calls leave plain lists plain -/

section
variable {S : Solver} {B : Interface.Backend} {N : ℕ} {w : World} (hw : Plain N w)
include hw

theorem profile_like (poi e d n g b) : Plain N (Interface.profile S B poi e d n g b w).2 := by
  unfold Interface.profile
  rcases Interface.prepare_free B e d n g hw hw with ⟨err, h1, -⟩ | ⟨p, h1, -, h3⟩
  · rw [h1]; exact hw
  · rw [h1]
    dsimp only
    split
    · exact hw
    · generalize Interface.resolvePoi B w _ = r
      cases r with
      | error err => exact hw
      | ok f => exact Interface.runFit_plain hw (by rw [h3]; exact hw.2.2)

theorem likelihood_like (poi e rn d rp n g b) : Plain N (Interface.likelihood S B poi e rn d rp n g b w).2 := by
  unfold Interface.likelihood
  have h := profile_like (S := S) (B := B) hw poi e d n g b
  cases B.negLL poi e d rp with
  | ok o => exact hw
  | error err =>
    cases err <;> first | exact hw | skip
    dsimp only
    rcases hp : Interface.profile S B poi e d n g b w with ⟨r, w1⟩
    rw [hp] at h
    cases r <;> exact h

theorem maximize_like (rn e n d keys fixed g b) : Plain N (Interface.maximize S B rn e n d keys fixed g b w).2 := by
  unfold Interface.maximize
  cases B.minNegLL e n d keys with
  | ok o => exact hw
  | error err =>
    cases err <;> first | exact hw | skip
    dsimp only
    cases Interface.resolveFixed B w fixed with
    | error err => exact hw
    | ok f =>
      dsimp only
      rcases Interface.prepare_free B e d n g hw hw with ⟨err, h1, -⟩ | ⟨p, h1, -, h3⟩
      · rw [h1]; exact hw
      · rw [h1]
        dsimp only
        have h5 : Plain N (Interface.runFit S p b f (some p.logpdf) w).2 := Interface.runFit_plain hw (by rw [h3]; exact hw.2.2)
        rcases h6 : Interface.runFit S p b f (some p.logpdf) w with ⟨r, w1⟩
        rw [h6] at h5
        cases r <;> exact h5

theorem generate_like (e ts g b) : Plain N (Interface.generateAsimov S B e ts g b w).2 := by
  unfold Interface.generateAsimov
  rcases Interface.prepare_free B e none (Interface.mayBeNegative ts) g hw hw with ⟨err, h1, -⟩ | ⟨p, h1, -, h3⟩
  · rw [h1]; exact hw
  · rw [h1]
    dsimp only
    have h5 : Plain N (Interface.runFit S p b (.value (if ts = "q0" then 1 else 0)) (some p.logpdf) w).2 := Interface.runFit_plain hw (by rw [h3]; exact hw.2.2)
    rcases h6 : Interface.runFit S p b (.value (if ts = "q0" then 1 else 0)) (some p.logpdf) w with ⟨r, w1⟩
    rw [h6] at h5
    cases r <;> exact h5

theorem sampler_like (poi e size g b) : Plain N (Interface.fixedPoiSampler S B poi e size g b w).2 := by
  unfold Interface.fixedPoiSampler
  have h := profile_like (S := S) (B := B) hw poi e none true g b
  rcases hp : Interface.profile S B poi e none true g b w with ⟨r, w1⟩
  rw [hp] at h
  cases r with
  | error err => exact h
  | ok x =>
    dsimp only
    repeat' split
    all_goals exact h

theorem hessian_like (inv poi e g b) : Plain N (Interface.sigmaMuFromHessian S inv B poi e g b w).2 := by
  unfold Interface.sigmaMuFromHessian
  cases hH : B.hessian e with
  | error err => cases err <;> exact hw
  | ok H =>
    dsimp only
    rcases Interface.prepare_free B e none true g hw hw with ⟨err, h1, -⟩ | ⟨p, h1, -, h3⟩
    · rw [h1]; exact hw
    · rw [h1]
      dsimp only
      cases Interface.resolvePoi B w poi with
      | error err => exact hw
      | ok f =>
        dsimp only
        have h5 : Plain N (Interface.runFit S p b f none w).2 := Interface.runFit_plain hw (by rw [h3]; exact hw.2.2)
        rcases h6 : Interface.runFit S p b f none w with ⟨r, w1⟩
        rw [h6] at h5
        cases r with
        | error err => exact h5
        | ok r =>
          dsimp only
          cases inv ((H r.2).map fun row => row.map fun y => -1 * y) <;> exact h5

end

variable {K V : Type} [DecidableEq K]

/-! ### Results are possible ones -/

/-- From states satisfying `P` the result satisfies `X`, and the state does again satisfy `P`. -/
def Gives {σ α : Type} (P : σ → Prop) (c : Comp σ α) (X : Except Hypotest.Err α → Prop) : Prop := ∀ s, P s → X (c s).1 ∧ P (c s).2

theorem wrapper_any {slot : Slot K V} (hs : slot.Lawful) {P : State K → Prop} (hP : ∀ s c, P s → P (s.1, slot.put s.2 c)) {E : K → V → Prop}
    {X : Except Hypotest.Err V → Prop} {k : K} {f : Comp (State K) V} (hf : ∀ s, slot.get (f s).2.2 = slot.get s.2) (ha : Gives P f X)
    (hE : ∀ v, X (.ok v) ↔ E k v) : Gives (fun s => P s ∧ Good E (slot.get s.2)) (wrapper slot k f) X := by
  rintro s ⟨hp, l, hq, hl⟩
  rcases wrapper_spec hs k hf hq with ⟨v, hk, hw⟩ | ⟨hk, c1, c2, hw, h2⟩
  · rw [hw]
    exact ⟨(hE v).2 (hl _ (lookup_mem hk)), hp, l, hq, hl⟩
  · obtain ⟨h3, h4⟩ := ha _ (hP s c1 hp)
    rw [hw]
    refine ⟨h3, hP _ _ h4, ?_⟩
    dsimp only
    rw [hs.get_put]
    cases hx : (f (s.1, slot.put s.2 c1)).1 with
    | ok v =>
      rw [hx] at h2 h3
      refine ⟨_, h2, fun p hm => ?_⟩
      rcases List.mem_append.1 (mem_trim hm) with hm | hm
      · exact hl p hm
      · simp only [List.mem_singleton] at hm
        subst hm
        exact (hE v).1 h3
    | error err =>
      rw [hx] at h2
      exact ⟨l, h2, hl⟩

variable (S : Solver) (B : Interface.Backend) (w0 : World) {key : Keys K}

def PossA (key : Keys K) : Shared K Data → Prop := Good fun k v => ∃ i c, key.asimov i c = k ∧ AsimovIn S B w0 c (.ok v)
def PossF (key : Keys K) (G : FitCall → Prop) : Shared K (MuHat × F) → Prop := Good fun k v => ∃ i c, G c ∧ key.fit i c = k ∧ FitIn S B w0 c (.ok v)
def PossAF (key : Keys K) : Shared K (MuHat × F) → Prop := Good fun k v => ∃ i c, key.asimovFit i c = k ∧ AsimovFitIn S B w0 c (.ok v)

/-- States with plain lists and given properties of the caches. -/
def St (w0 : World) (a : Shared K Data → Prop) (f af : Shared K (MuHat × F) → Prop) (s : State K) : Prop :=
  Like w0 s.1 ∧ a s.2.asimov ∧ f s.2.fit ∧ af s.2.asimovFit

variable {S B w0} {a : Shared K Data → Prop} {f af : Shared K (MuHat × F) → Prop} {G : FitCall → Prop} (hkey : key.Faithful S B G)
include hkey

theorem generate_any (i : ℕ) (c : AsimovCall) : Gives (St w0 (PossA S B w0 key) f af) (generate key S B i c) (AsimovIn S B w0 c) := by
  have h := wrapper_any (P := St w0 (fun _ => True) f af) (E := fun k v => ∃ i c, key.asimov i c = k ∧ AsimovIn S B w0 c (.ok v)) (X := AsimovIn S B w0 c)
    (k := key.asimov i c) (f := onWorld (Interface.generateAsimov S B c.expected c.ts c.doGrad c.bounds)) asimovSlot_lawful
    (fun s _ h => ⟨h.1, trivial, h.2.2⟩) (fun _ => rfl) (fun s hs => ⟨⟨s.1, hs.1, rfl⟩, generate_like (N := w0.start.length) hs.1 _ _ _ _, hs.2⟩)
    (fun v => ⟨fun hx => ⟨i, c, rfl, hx⟩, fun ⟨j, c', hk, hx⟩ => by rwa [hkey.asimov _ _ _ _ hk] at hx⟩)
  intro s hs
  obtain ⟨h1, h2, h3⟩ := h s ⟨⟨hs.1, trivial, hs.2.2⟩, hs.2.1⟩
  exact ⟨h1, h2.1, h3, h2.2.2⟩

theorem maximize_any (i : ℕ) (c : FitCall) (hc : G c) : Gives (St w0 a (PossF S B w0 key G) af) (maximize key S B i c) (FitIn S B w0 c) := by
  have h := wrapper_any (P := St w0 a (fun _ => True) af) (E := fun k v => ∃ i c, G c ∧ key.fit i c = k ∧ FitIn S B w0 c (.ok v)) (X := FitIn S B w0 c)
    (k := key.fit i c) (f := onWorld (Interface.maximize S B c.returnNll c.expected c.negative c.data c.keys c.fixed c.doGrad c.bounds)) fitSlot_lawful
    (fun s _ h => ⟨h.1, h.2.1, trivial, h.2.2.2⟩) (fun _ => rfl) (fun s hs => ⟨⟨s.1, hs.1, rfl⟩, maximize_like (N := w0.start.length) hs.1 _ _ _ _ _ _ _ _, hs.2⟩)
    (fun v => ⟨fun hx => ⟨i, c, hc, rfl, hx⟩, fun ⟨j, c', hc', hk, w, hw, hx⟩ => ⟨w, hw, by rw [hkey.fit _ _ _ _ hc hc' hk.symm w, hx]⟩⟩)
  intro s hs
  obtain ⟨h1, h2, h3⟩ := h s ⟨⟨hs.1, hs.2.1, trivial, hs.2.2.2⟩, hs.2.2.1⟩
  exact ⟨h1, h2.1, h2.2.1, h3, h2.2.2.2⟩

theorem asimovFit_any (c : AsimovFitCall) : Gives (St w0 (PossA S B w0 key) (PossF S B w0 key G) af) (asimovFit key S B c) (AsimovFitIn S B w0 c) := by
  intro s hs
  unfold asimovFit AsimovFitIn
  cases B.minAsimovNegLL c.expected c.ts c.keys with
  | ok o => exact ⟨rfl, hs⟩
  | error err =>
    cases err with
    | notImplemented =>
      dsimp only
      obtain ⟨h1, h2⟩ := generate_any (S := S) (B := B) hkey 0 ⟨c.expected, c.ts, c.doGrad, c.bounds⟩ s hs
      cases hg : generate key S B 0 ⟨c.expected, c.ts, c.doGrad, c.bounds⟩ s with
      | mk x s1 =>
        rw [hg] at h1 h2
        cases x with
        | error e => rw [Hypotest.bind_error hg]; exact ⟨⟨_, h1, rfl⟩, h2⟩
        | ok d =>
          rw [Hypotest.bind_ok hg]
          obtain ⟨h3, h4⟩ := maximize_any (S := S) (B := B) hkey 0 ⟨c.returnNll, c.expected, Interface.mayBeNegative c.ts, some d, c.keys, none, c.doGrad, c.bounds⟩ (hkey.free _ rfl) s1 h2
          exact ⟨⟨_, h1, h3⟩, h4⟩
    | _ => exact ⟨rfl, hs⟩

theorem maximizeAsimov_any (i : ℕ) (c : AsimovFitCall) :
    Gives (St w0 (PossA S B w0 key) (PossF S B w0 key G) (PossAF S B w0 key)) (maximizeAsimov key S B i c) (AsimovFitIn S B w0 c) := by
  have h := wrapper_any (P := St w0 (PossA S B w0 key) (PossF S B w0 key G) fun _ => True) (E := fun k v => ∃ i c, key.asimovFit i c = k ∧ AsimovFitIn S B w0 c (.ok v))
    (X := AsimovFitIn S B w0 c) (k := key.asimovFit i c) (f := asimovFit key S B c) asimovFitSlot_lawful
    (fun s _ h => ⟨h.1, h.2.1, h.2.2.1, trivial⟩) (asimovFit_frame key S B c) (asimovFit_any hkey c)
    (fun v => ⟨fun hx => ⟨i, c, rfl, hx⟩, fun ⟨j, c', hk, hx⟩ => by rwa [hkey.asimovFit _ _ _ _ hk] at hx⟩)
  intro s hs
  obtain ⟨h1, h2, h3⟩ := h s ⟨⟨hs.1, hs.2.1, hs.2.2.1, trivial⟩, hs.2.2.2⟩
  exact ⟨h1, h2.1, h2.2.1, h2.2.2.1, h3⟩

theorem asimovLikelihood_any (poi e rn ts g b) (s : State K) (hs : St w0 (PossA S B w0 key) f af s) :
    St w0 (PossA S B w0 key) f af (asimovLikelihood key S B poi e rn ts g b s).2 := by
  unfold asimovLikelihood
  cases B.asimovNegLL poi e ts with
  | ok o => exact hs
  | error err =>
    cases err with
    | notImplemented =>
      dsimp only
      obtain ⟨h1, h2⟩ := generate_any (S := S) (B := B) hkey 0 ⟨e, ts, g, b⟩ s hs
      cases hg : generate key S B 0 ⟨e, ts, g, b⟩ s with
      | mk x s1 =>
        rw [hg] at h2
        cases x with
        | error e => rw [Hypotest.bind_error hg]; exact h2
        | ok d => rw [Hypotest.bind_ok hg]; exact ⟨likelihood_like (N := w0.start.length) h2.1 _ _ _ _ _ _ _ _, h2.2⟩
    | _ => exact hs

theorem after_any (h0 : Like w0 w0) (l : List Request) (hl : ∀ r ∈ l, r.Within G) : St w0 (PossA S B w0 key) (PossF S B w0 key G) (PossAF S B w0 key) (after key S B w0 l) := by
  unfold after
  have step : ∀ s : State K, St w0 (PossA S B w0 key) (PossF S B w0 key G) (PossAF S B w0 key) s →
      ∀ r, r.Within G → St w0 (PossA S B w0 key) (PossF S B w0 key G) (PossAF S B w0 key) (perform key S B s r) := by
    intro s h r hr
    cases r with
    | generate i c => exact (generate_any hkey i c s h).2
    | maximize i c => exact (maximize_any hkey i c hr s h).2
    | maximizeAsimov i c => exact (maximizeAsimov_any hkey i c s h).2
    | likelihood poi e rn d rp n g b => exact ⟨likelihood_like (N := w0.start.length) h.1 _ _ _ _ _ _ _ _, h.2⟩
    | asimovLikelihood poi e rn ts g b => exact asimovLikelihood_any hkey poi e rn ts g b s h
    | sample poi e size g b => exact ⟨sampler_like (N := w0.start.length) h.1 _ _ _ _ _, h.2⟩
    | hessian inv poi e g b => exact ⟨hessian_like (N := w0.start.length) h.1 _ _ _ _ _, h.2⟩
    | clearGenerate => exact ⟨h.1, good_clear _ _, h.2.2⟩
    | clearMaximize => exact ⟨h.1, h.2.1, good_clear _ _, h.2.2.2⟩
    | clearMaximizeAsimov => exact ⟨h.1, h.2.1, h.2.2.1, good_clear _ _⟩
  have : ∀ s : State K, St w0 (PossA S B w0 key) (PossF S B w0 key G) (PossAF S B w0 key) s →
      St w0 (PossA S B w0 key) (PossF S B w0 key G) (PossAF S B w0 key) (l.foldl (perform key S B) s) := by
    induction l with
    | nil => intro s h; exact h
    | cons r l ih => intro s h; exact ih (fun r hr => hl r (List.mem_cons_of_mem _ hr)) _ (step s h r (hl r List.mem_cons_self))
  exact this _ ⟨h0, good_empty _, good_empty _, good_empty _⟩

end Verif.Memo
