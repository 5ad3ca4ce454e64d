import Verif.Memo.Spec
import Verif.Cache.Live
import Verif.Hypotest.Agree
import Verif.Interface.Free

/-!
# Lemmas: the wrapper inside the interface
-/

namespace Verif.Memo
set_option linter.unusedSectionVars false
open Verif.Py F Verif.Config Verif.Optimizer
open Verif.Hypotest (Comp Methods Mu ret lift number toPoi expectation Agree AgreeMethods agree_ret agree_lift ofInterface)
open Verif.Interface (MuHat Data Toys Size World Poi Out Solver StartFree Plain)
open Verif.Stats (Expect Calc)
open Verif.Cache (Shared Quiet Fifo)

variable {K V : Type}

/-- The three slots behave as variables. -/
structure Slot.Lawful (slot : Slot K V) : Prop where
  get_put : ∀ s c, slot.get (slot.put s c) = c
  put_put : ∀ s c c', slot.put (slot.put s c) c' = slot.put s c'
  put_get : ∀ s, slot.put s (slot.get s) = s

theorem asimovSlot_lawful : (asimovSlot (K := K)).Lawful := ⟨fun _ _ => rfl, fun _ _ _ => rfl, fun _ => rfl⟩
theorem fitSlot_lawful : (fitSlot (K := K)).Lawful := ⟨fun _ _ => rfl, fun _ _ _ => rfl, fun _ => rfl⟩
theorem asimovFitSlot_lawful : (asimovFitSlot (K := K)).Lawful := ⟨fun _ _ => rfl, fun _ _ _ => rfl, fun _ => rfl⟩

variable [DecidableEq K]

/-- What the wrapper does in a state without unfinished calls. -/
theorem wrapper_spec {slot : Slot K V} (hs : slot.Lawful) (k : K) {f : Comp (State K) V} (hf : ∀ s, slot.get (f s).2.2 = slot.get s.2)
    {s : State K} {l : Fifo K V} (hq : Quiet (slot.get s.2) l) :
    (∃ v, List.lookup k l = some v ∧ wrapper slot k f s = (.ok v, s)) ∨
    (List.lookup k l = none ∧ ∃ c1 c2, wrapper slot k f s = ((f (s.1, slot.put s.2 c1)).1,
        ((f (s.1, slot.put s.2 c1)).2.1, slot.put (f (s.1, slot.put s.2 c1)).2.2 c2)) ∧
      Quiet c2 (match (f (s.1, slot.put s.2 c1)).1 with
        | .ok v => Fifo.trim (some 128) (l ++ [(k, v)])
        | .error _ => l)) := by
  have hget : (slot.get s.2).cache.get? k = (List.lookup k l).map some := by rw [hq.cache, Cache.get?_map]
  cases hl : List.lookup k l with
  | some v =>
    rw [hl] at hget
    refine Or.inl ⟨v, rfl, ?_⟩
    simp only [wrapper, Cache.enter_hit _ k v hget, hs.put_get]
  | none =>
    rw [hl] at hget
    refine Or.inr ⟨rfl, ?_⟩
    have hent := Cache.enter_compute_iff (slot.get s.2) k hget
    generalize hc1 : (Cache.enter (slot.get s.2) k).1 = c1
    have hent' : Cache.enter (slot.get s.2) k = (c1, .compute) := by
      rw [← hc1, hent]
    have hown : slot.get (f (s.1, slot.put s.2 c1)).2.2 = c1 := by rw [hf, hs.get_put]
    obtain ⟨h1, h2⟩ := Cache.callSeq_refines (some 128) hq k (f (s.1, slot.put s.2 c1)).1
    refine ⟨c1, (Cache.callSeq ((some 128 : Option ℕ).map Int.ofNat) (slot.get s.2) k (f (s.1, slot.put s.2 c1)).1).1, ?_, ?_⟩
    · simp only [wrapper, hent']
      generalize hr : f (s.1, slot.put s.2 c1) = r at hown h1 h2
      obtain ⟨x, w, st⟩ := r
      dsimp only at hown h1 h2 ⊢
      cases x with
      | ok v =>
        simp only [Cache.callSeq, Fifo.call, hl, hent'] at h1 h2 ⊢
        rw [hown]
        change ((match Cache.store (some 128) c1 k v with
          | (s2, e, none) => (Cache.signalEv s2 e, Cache.Result.ran (.ok v))
          | (s2, _, some i) => (s2, .internal i)) : _ × Cache.Result V Hypotest.Err).2 = _ at h2
        change _ = ((Except.ok v : Except Hypotest.Err V), (w, slot.put st ((match Cache.store (some 128) c1 k v with
          | (s2, e, none) => (Cache.signalEv s2 e, Cache.Result.ran (.ok v))
          | (s2, _, some i) => (s2, .internal i)) : _ × Cache.Result V Hypotest.Err).1))
        rcases hst : Cache.store (some 128) c1 k v with ⟨c, e, i⟩
        rw [hst] at h2
        cases i with
        | none => rfl
        | some i => simp at h2
      | error err =>
        simp only [Cache.callSeq, Fifo.call, hl, hent'] at h1 h2 ⊢
        rw [hown]
        rcases hst : Cache.abort c1 k with ⟨c, e, i⟩
        rw [hst] at h2
        cases i with
        | none => rfl
        | some i => simp at h2
    · have h3 := h1
      simp only [Fifo.call, hl] at h3
      generalize (Cache.callSeq ((some 128 : Option ℕ).map Int.ofNat) (slot.get s.2) k (f (s.1, slot.put s.2 c1)).1).1 = c at h3 ⊢
      generalize (f (s.1, slot.put s.2 c1)).1 = r at h3 ⊢
      generalize (some 128 : Option ℕ) = n at h3 ⊢
      cases r <;> exact h3

theorem lookup_mem {l : Fifo K V} {k : K} {v : V} (h : List.lookup k l = some v) : (k, v) ∈ l := by
  induction l with
  | nil => simp at h
  | cons p l ih =>
    obtain ⟨a, b⟩ := p
    rw [List.lookup_cons] at h
    by_cases e : k = a
    · subst e; simp at h; subst h; simp
    · have : (k == a) = false := by simpa using e
      rw [this] at h
      exact List.mem_cons_of_mem _ (ih h)

theorem mem_trim {l : Fifo K V} {n : ℕ} {p : K × V} (h : p ∈ Fifo.trim (some n) l) : p ∈ l := List.mem_of_mem_drop h

theorem lookup_last {l : Fifo K V} {k : K} {v : V} (h : List.lookup k l = none) {n : ℕ} (hn : 0 < n) :
    List.lookup k (Fifo.trim (some n) (l ++ [(k, v)])) = some v := by
  have hd : ∀ m ≤ l.length, List.lookup k (List.drop m l ++ [(k, v)]) = some v := by
    intro m _
    rw [List.lookup_append]
    have : List.lookup k (List.drop m l) = none := by
      rw [List.lookup_eq_none_iff] at h ⊢
      intro p hp
      exact h p (List.mem_of_mem_drop hp)
    rw [this]
    simp
  unfold Fifo.trim
  dsimp only
  rw [List.length_append, List.length_singleton, List.drop_append_of_le_length (by omega)]
  exact hd _ (by omega)

/-! ### Results of the caches are those of the uncached methods -/

/-- A cache without unfinished calls whose entries satisfy `E`. -/
def Good (E : K → V → Prop) (c : Shared K V) : Prop := ∃ l, Quiet c l ∧ ∀ p ∈ l, E p.1 p.2

theorem good_empty (E : K → V → Prop) : Good E ({} : Shared K V) := ⟨[], ⟨rfl, rfl, rfl, by simp⟩, by simp⟩

theorem good_clear (E : K → V → Prop) (c : Shared K V) : Good E (Cache.clear c) := ⟨[], ⟨rfl, rfl, rfl, by simp⟩, by simp⟩

theorem wrapper_agree {τ : Type} {slot : Slot K V} (hs : slot.Lawful) {P : State K → τ → Prop} (hP : ∀ s t c, P s t → P (s.1, slot.put s.2 c) t)
    {E : K → V → Prop} {k : K} {f : Comp (State K) V} {f' : Comp τ V} (hf : ∀ s, slot.get (f s).2.2 = slot.get s.2) (ha : Agree P f f')
    (hit : ∀ v s t, E k v → P s t → (f' t).1 = .ok v ∧ P s (f' t).2) (keep : ∀ v s t, P s t → (f' t).1 = .ok v → E k v) :
    Agree (fun s t => P s t ∧ Good E (slot.get s.2)) (wrapper slot k f) f' := by
  rintro s t ⟨hp, l, hq, hE⟩
  rcases wrapper_spec hs k hf hq with ⟨v, hl, hw⟩ | ⟨hl, c1, c2, hw, h2⟩
  · rw [hw]
    obtain ⟨h1, h2⟩ := hit v s t (hE _ (lookup_mem hl)) hp
    exact ⟨h1.symm, h2, l, hq, hE⟩
  · obtain ⟨h3, h4⟩ := ha _ _ (hP s t c1 hp)
    rw [hw]
    refine ⟨h3, hP _ _ _ h4, ?_⟩
    dsimp only
    rw [hs.get_put]
    cases hx : (f (s.1, slot.put s.2 c1)).1 with
    | ok v =>
      rw [hx] at h2
      refine ⟨_, h2, fun p hm => ?_⟩
      rcases List.mem_append.1 (mem_trim hm) with hm | hm
      · exact hE p hm
      · simp only [List.mem_singleton] at hm
        subst hm
        exact keep v s t hp (by rw [← h3, hx])
    | error err =>
      rw [hx] at h2
      exact ⟨l, h2, hE⟩

section
variable {S : Solver} {B : Interface.Backend} {N : ℕ} (key : Keys K)

/-- The uncached calls. -/
noncomputable def asimovRun (S : Solver) (B : Interface.Backend) (c : AsimovCall) : Comp World Data :=
  ofInterface (Interface.generateAsimov S B c.expected c.ts c.doGrad c.bounds)
noncomputable def fitRun (S : Solver) (B : Interface.Backend) (c : FitCall) : Comp World (MuHat × F) :=
  ofInterface (Interface.maximize S B c.returnNll c.expected c.negative c.data c.keys c.fixed c.doGrad c.bounds)
noncomputable def asimovFitRun (S : Solver) (B : Interface.Backend) (c : AsimovFitCall) : Comp World (MuHat × F) :=
  ofInterface (Interface.maximizeAsimov S B c.returnNll c.expected c.ts c.keys c.doGrad c.bounds)

/-- The result depends on the length of the list of starting points only. -/
def Steady (N : ℕ) {α : Type} (c : Comp World α) : Prop := ∀ w w', Plain N w → Plain N w' → (c w).1 = (c w').1 ∧ Plain N (c w).2

def GoodA (S : Solver) (B : Interface.Backend) (N : ℕ) (key : Keys K) : Shared K Data → Prop :=
  Good fun k v => ∃ i c, key.asimov i c = k ∧ ∀ w, Plain N w → (asimovRun S B c w).1 = .ok v
def GoodF (S : Solver) (B : Interface.Backend) (N : ℕ) (key : Keys K) (G : FitCall → Prop) : Shared K (MuHat × F) → Prop :=
  Good fun k v => ∃ i c, G c ∧ key.fit i c = k ∧ ∀ w, Plain N w → (fitRun S B c w).1 = .ok v
def GoodAF (S : Solver) (B : Interface.Backend) (N : ℕ) (key : Keys K) : Shared K (MuHat × F) → Prop :=
  Good fun k v => ∃ i c, key.asimovFit i c = k ∧ ∀ w, Plain N w → (asimovFitRun S B c w).1 = .ok v

/-- The relation between a model with caches and one without. -/
def Rel (N : ℕ) (a : Shared K Data → Prop) (f af : Shared K (MuHat × F) → Prop) (s : State K) (w : World) : Prop :=
  Plain N s.1 ∧ Plain N w ∧ a s.2.asimov ∧ f s.2.fit ∧ af s.2.asimovFit

variable {a : Shared K Data → Prop} {f af : Shared K (MuHat × F) → Prop}

omit [DecidableEq K] in
theorem steady_of {α : Type} {c : World → Except Interface.Err α × World}
    (h : ∀ w w', Plain N w → Plain N w' → (c w).1 = (c w').1 ∧ Plain N (c w).2) : Steady N (ofInterface c) := by
  intro w w' hw hw'
  obtain ⟨h1, h2⟩ := h w w' hw hw'
  exact ⟨congrArg (Except.mapError _) h1, h2⟩

omit [DecidableEq K] in
theorem onWorld_agree {α : Type} {c : World → Except Interface.Err α × World}
    (h : ∀ w w', Plain N w → Plain N w' → (c w).1 = (c w').1 ∧ Plain N (c w).2) : Agree (Rel (K := K) N a f af) (onWorld c) (ofInterface c) := by
  rintro s t ⟨h1, h2, h3⟩
  exact ⟨congrArg (Except.mapError _) (h _ _ h1 h2).1, (h _ _ h1 h2).2, (h _ _ h2 h1).2, h3⟩

variable {key} {G : FitCall → Prop} (hkey : key.Faithful S B G) (hS : StartFree S) (hfix : ∀ n, (B.config n).fixed = none)

include hS hfix in
omit [DecidableEq K] in
theorem asimovRun_steady (c : AsimovCall) : Steady N (asimovRun S B c) := steady_of fun _ _ hw hw' => Interface.generateAsimov_free hS B hfix _ _ _ _ hw hw'

include hS hfix in
omit [DecidableEq K] in
theorem fitRun_steady (c : FitCall) : Steady N (fitRun S B c) := steady_of fun _ _ hw hw' => Interface.maximize_free hS B hfix _ _ _ _ _ _ _ _ hw hw'

include hS hfix in
omit [DecidableEq K] in
theorem asimovFitRun_steady (c : AsimovFitCall) : Steady N (asimovFitRun S B c) :=
  steady_of fun _ _ hw hw' => Interface.maximizeAsimov_free hS B hfix _ _ _ _ _ _ hw hw'

include hkey hS hfix

theorem generate_agree (i : ℕ) (c : AsimovCall) : Agree (Rel N (GoodA S B N key) f af) (generate key S B i c) (asimovRun S B c) := by
  have hst := asimovRun_steady (N := N) hS hfix c
  have h := wrapper_agree (P := Rel N (fun _ => True) f af) (E := fun k v => ∃ i c, key.asimov i c = k ∧ ∀ w, Plain N w → (asimovRun S B c w).1 = .ok v)
    (k := key.asimov i c) (f := onWorld (Interface.generateAsimov S B c.expected c.ts c.doGrad c.bounds)) (f' := asimovRun S B c)
    asimovSlot_lawful (fun s t _ h => ⟨h.1, h.2.1, trivial, h.2.2.2⟩) (fun _ => rfl)
    (onWorld_agree fun _ _ hw hw' => Interface.generateAsimov_free hS B hfix _ _ _ _ hw hw')
    (by
      rintro v s t ⟨j, c', hk, hv⟩ hp
      have := hkey.asimov _ _ _ _ hk
      subst this
      exact ⟨hv t hp.2.1, hp.1, (hst _ _ hp.2.1 hp.1).2, hp.2.2⟩)
    (fun v s t hp hv => ⟨i, c, rfl, fun w hw => by rw [(hst w t hw hp.2.1).1, hv]⟩)
  intro s t hr
  obtain ⟨h1, h2, h3⟩ := h s t ⟨⟨hr.1, hr.2.1, trivial, hr.2.2.2⟩, hr.2.2.1⟩
  exact ⟨h1, h2.1, h2.2.1, h3, h2.2.2.2⟩

theorem maximize_agree (i : ℕ) (c : FitCall) (hc : G c) : Agree (Rel N a (GoodF S B N key G) af) (maximize key S B i c) (fitRun S B c) := by
  have hst := fitRun_steady (N := N) hS hfix c
  have h := wrapper_agree (P := Rel N a (fun _ => True) af) (E := fun k v => ∃ i c, G c ∧ key.fit i c = k ∧ ∀ w, Plain N w → (fitRun S B c w).1 = .ok v)
    (k := key.fit i c) (f := onWorld (Interface.maximize S B c.returnNll c.expected c.negative c.data c.keys c.fixed c.doGrad c.bounds)) (f' := fitRun S B c)
    fitSlot_lawful (fun s t _ h => ⟨h.1, h.2.1, h.2.2.1, trivial, h.2.2.2.2⟩) (fun _ => rfl)
    (onWorld_agree fun _ _ hw hw' => Interface.maximize_free hS B hfix _ _ _ _ _ _ _ _ hw hw')
    (by
      rintro v s t ⟨j, c', hc', hk, hv⟩ hp
      have he : fitRun S B c' = fitRun S B c := by
        funext w
        simp only [fitRun, Hypotest.ofInterface, hkey.fit _ _ _ _ hc' hc hk w]
      rw [he] at hv
      exact ⟨hv t hp.2.1, hp.1, (hst _ _ hp.2.1 hp.1).2, hp.2.2⟩)
    (fun v s t hp hv => ⟨i, c, hc, rfl, fun w hw => by rw [(hst w t hw hp.2.1).1, hv]⟩)
  intro s t hr
  obtain ⟨h1, h2, h3⟩ := h s t ⟨⟨hr.1, hr.2.1, hr.2.2.1, trivial, hr.2.2.2.2⟩, hr.2.2.2.1⟩
  exact ⟨h1, h2.1, h2.2.1, h2.2.2.1, h3, h2.2.2.2.2⟩

end

/-! ### Frames -/

theorem generate_frame (key : Keys K) (S : Solver) (B : Interface.Backend) (i : ℕ) (c : AsimovCall) (s : State K) :
    (generate key S B i c s).2.2.fit = s.2.fit ∧ (generate key S B i c s).2.2.asimovFit = s.2.asimovFit := by
  unfold generate wrapper onWorld
  dsimp only
  generalize Cache.enter (asimovSlot.get s.2) (key.asimov i c) = x
  obtain ⟨y, x⟩ := x
  cases x with
  | hit v => exact ⟨rfl, rfl⟩
  | wait e => exact ⟨rfl, rfl⟩
  | keyError => exact ⟨rfl, rfl⟩
  | compute =>
    dsimp only
    generalize Interface.generateAsimov S B c.expected c.ts c.doGrad c.bounds s.1 = r
    obtain ⟨r, w⟩ := r
    cases r with
    | ok v =>
      dsimp only [Except.mapError]
      generalize Cache.store (some 128) _ (key.asimov i c) v = z
      obtain ⟨z, e, i⟩ := z
      cases i <;> exact ⟨rfl, rfl⟩
    | error err =>
      dsimp only [Except.mapError]
      generalize Cache.abort _ (key.asimov i c) = z
      obtain ⟨z, e, i⟩ := z
      cases i <;> exact ⟨rfl, rfl⟩

theorem maximize_frame (key : Keys K) (S : Solver) (B : Interface.Backend) (i : ℕ) (c : FitCall) (s : State K) :
    (maximize key S B i c s).2.2.asimov = s.2.asimov ∧ (maximize key S B i c s).2.2.asimovFit = s.2.asimovFit := by
  unfold maximize wrapper onWorld
  dsimp only
  generalize Cache.enter (fitSlot.get s.2) (key.fit i c) = x
  obtain ⟨y, x⟩ := x
  cases x with
  | hit v => exact ⟨rfl, rfl⟩
  | wait e => exact ⟨rfl, rfl⟩
  | keyError => exact ⟨rfl, rfl⟩
  | compute =>
    dsimp only
    generalize Interface.maximize S B c.returnNll c.expected c.negative c.data c.keys c.fixed c.doGrad c.bounds s.1 = r
    obtain ⟨r, w⟩ := r
    cases r with
    | ok v =>
      dsimp only [Except.mapError]
      generalize Cache.store (some 128) _ (key.fit i c) v = z
      obtain ⟨z, e, i⟩ := z
      cases i <;> exact ⟨rfl, rfl⟩
    | error err =>
      dsimp only [Except.mapError]
      generalize Cache.abort _ (key.fit i c) = z
      obtain ⟨z, e, i⟩ := z
      cases i <;> exact ⟨rfl, rfl⟩

theorem asimovFit_frame (key : Keys K) (S : Solver) (B : Interface.Backend) (c : AsimovFitCall) (s : State K) :
    (asimovFit key S B c s).2.2.asimovFit = s.2.asimovFit := by
  unfold asimovFit
  cases B.minAsimovNegLL c.expected c.ts c.keys with
  | ok o => rfl
  | error err =>
    cases err with
    | notImplemented =>
      dsimp only
      cases hg : generate key S B 0 ⟨c.expected, c.ts, c.doGrad, c.bounds⟩ s with
      | mk x s1 =>
        have h1 := (generate_frame key S B 0 ⟨c.expected, c.ts, c.doGrad, c.bounds⟩ s).2
        rw [hg] at h1
        cases x with
        | error e => rw [Hypotest.bind_error hg]; exact h1
        | ok d => rw [Hypotest.bind_ok hg, (maximize_frame key S B 0 _ s1).2]; exact h1
    | _ => rfl

section
variable {S : Solver} {B : Interface.Backend} {N : ℕ} {key : Keys K} {G : FitCall → Prop} (hkey : key.Faithful S B G) (hS : StartFree S) (hfix : ∀ n, (B.config n).fixed = none)
  {af : Shared K (MuHat × F) → Prop}
include hkey hS hfix

/-- Running two calls of the interface one after the other. -/
theorem agree_then {α β : Type} {R : State K → World → Prop} {x : World → Except Interface.Err α × World} {k : α → World → Except Interface.Err β × World}
    {c : Comp (State K) α} {d : α → Comp (State K) β} (hc : Agree R c (ofInterface x)) (hd : ∀ v, Agree R (d v) (ofInterface (k v))) :
    Agree R (c >>= d) (ofInterface fun w => Interface.andThen (x w) (k)) := by
  have h := hc.bind hd
  intro s t hr
  have h' := h s t hr
  have he : (ofInterface x >>= fun v => ofInterface (k v)) t = ofInterface (fun w => Interface.andThen (x w) k) t := by
    cases hx : x t with
    | mk r w =>
      cases r with
      | error e =>
        have h1 : ofInterface x t = (.error (.call e), w) := by simp [ofInterface, hx, Except.mapError]
        rw [Hypotest.bind_error h1]
        simp [ofInterface, hx, Interface.andThen, Except.mapError]
      | ok v =>
        have h1 : ofInterface x t = (.ok v, w) := by simp [ofInterface, hx, Except.mapError]
        rw [Hypotest.bind_ok h1]
        simp [ofInterface, hx, Interface.andThen]
  rw [he] at h'
  exact h'

theorem asimovFit_agree (c : AsimovFitCall) : Agree (Rel N (GoodA S B N key) (GoodF S B N key G) af) (asimovFit key S B c) (asimovFitRun S B c) := by
  unfold asimovFit asimovFitRun Interface.maximizeAsimov
  cases B.minAsimovNegLL c.expected c.ts c.keys with
  | ok o => exact agree_ret _
  | error err =>
    cases err with
    | notImplemented =>
      exact agree_then hkey hS hfix (generate_agree hkey hS hfix 0 ⟨c.expected, c.ts, c.doGrad, c.bounds⟩)
        fun d => maximize_agree hkey hS hfix 0 ⟨c.returnNll, c.expected, Interface.mayBeNegative c.ts, some d, c.keys, none, c.doGrad, c.bounds⟩ (hkey.free _ rfl)
    | _ => exact agree_lift _

theorem maximizeAsimov_agree (i : ℕ) (c : AsimovFitCall) :
    Agree (Rel N (GoodA S B N key) (GoodF S B N key G) (GoodAF S B N key)) (maximizeAsimov key S B i c) (asimovFitRun S B c) := by
  have hst := asimovFitRun_steady (N := N) hS hfix c
  have h := wrapper_agree (P := Rel N (GoodA S B N key) (GoodF S B N key G) fun _ => True)
    (E := fun k v => ∃ i c, key.asimovFit i c = k ∧ ∀ w, Plain N w → (asimovFitRun S B c w).1 = .ok v)
    (k := key.asimovFit i c) (f := asimovFit key S B c) (f' := asimovFitRun S B c)
    asimovFitSlot_lawful (fun s t _ h => ⟨h.1, h.2.1, h.2.2.1, h.2.2.2.1, trivial⟩) (asimovFit_frame key S B c)
    (asimovFit_agree hkey hS hfix c)
    (by
      rintro v s t ⟨j, c', hk, hv⟩ hp
      have := hkey.asimovFit _ _ _ _ hk
      subst this
      exact ⟨hv t hp.2.1, hp.1, (hst _ _ hp.2.1 hp.1).2, hp.2.2⟩)
    (fun v s t hp hv => ⟨i, c, rfl, fun w hw => by rw [(hst w t hw hp.2.1).1, hv]⟩)
  intro s t hr
  obtain ⟨h1, h2, h3⟩ := h s t ⟨⟨hr.1, hr.2.1, hr.2.2.1, hr.2.2.2.1, trivial⟩, hr.2.2.2.2⟩
  exact ⟨h1, h2.1, h2.2.1, h2.2.2.1, h2.2.2.2.1, h3⟩

theorem asimovLikelihood_agree (poi e rn ts g b) : Agree (Rel N (GoodA S B N key) (GoodF S B N key G) af) (asimovLikelihood key S B poi e rn ts g b)
    (ofInterface (Interface.asimovLikelihood S B poi e rn ts g b)) := by
  unfold asimovLikelihood Interface.asimovLikelihood
  cases B.asimovNegLL poi e ts with
  | ok o => exact agree_ret _
  | error err =>
    cases err with
    | notImplemented =>
      exact agree_then hkey hS hfix (generate_agree hkey hS hfix 0 ⟨e, ts, g, b⟩)
        fun d => onWorld_agree fun _ _ hw hw' => Interface.likelihood_free hS B hfix _ _ _ _ _ _ _ _ hw hw'
    | _ => exact agree_lift _

/-- All caches hold results of the uncached methods. -/
def AllGood (S : Solver) (B : Interface.Backend) (N : ℕ) (key : Keys K) (G : FitCall → Prop) : State K → World → Prop :=
  Rel N (GoodA S B N key) (GoodF S B N key G) (GoodAF S B N key)

theorem memo_agree (g : Bool) (b : Option (List Bound)) (ntoys : Size) (av : Calc → Bool) (pc : List F → F → F) :
    AgreeMethods (AllGood S B N key G) (memoMethods key S B g b ntoys av pc) (Hypotest.modelMethods S B g b ntoys av pc) where
  likelihood := fun _ _ _ => (onWorld_agree fun _ _ hw hw' => Interface.likelihood_free hS B hfix _ _ _ _ _ _ _ _ hw hw').bind fun _ => agree_lift _
  maximize := fun _ _ _ => maximize_agree hkey hS hfix 1 _ (hkey.free _ rfl)
  asimovLikelihood := fun _ _ _ => (asimovLikelihood_agree hkey hS hfix _ _ _ _ _ _).bind fun _ => agree_lift _
  maximizeAsimov := fun _ _ => maximizeAsimov_agree hkey hS hfix 1 _
  sampler := fun _ _ => onWorld_agree fun _ _ hw hw' => Interface.sampler_free hS B hfix _ _ _ _ _ hw hw'
  available := rfl
  percentile := rfl

theorem memoSigma_agree (inv : List (List ℝ) → Except Interface.Err (List (List ℝ))) (g : Bool) (ntoys : Size) (av : Calc → Bool) (pc : List F → F → F) (e : Expect) (m : ℝ) :
    Agree (AllGood S B N key G) (memoSigma key S inv B g ntoys av pc e m) (Hypotest.modelSigma S inv B g ntoys av pc e m) :=
  Hypotest.sigma_agree (memo_agree hkey hS hfix g none ntoys av pc)
    (fun _ _ => onWorld_agree fun _ _ hw hw' => Interface.sigmaMuFromHessian_free hS inv B hfix _ _ _ _ hw hw') _ _ _

theorem perform_good (r : Request) (hr : r.Within G) {s : State K} {w : World} (h : AllGood S B N key G s w) : AllGood S B N key G (perform key S B s r) w := by
  have keep : ∀ {s' : State K} {w' : World}, AllGood S B N key G s' w' → AllGood S B N key G s' w := fun h' => ⟨h'.1, h.2.1, h'.2.2⟩
  cases r with
  | generate i c => exact keep (generate_agree hkey hS hfix i c s w h).2
  | maximize i c => exact keep (maximize_agree hkey hS hfix i c hr s w h).2
  | maximizeAsimov i c => exact keep (maximizeAsimov_agree hkey hS hfix i c s w h).2
  | likelihood poi e rn d rp n g b => exact keep (onWorld_agree (fun _ _ hw hw' => Interface.likelihood_free hS B hfix poi e rn d rp n g b hw hw') s w h).2
  | asimovLikelihood poi e rn ts g b => exact keep (asimovLikelihood_agree hkey hS hfix poi e rn ts g b s w h).2
  | sample poi e size g b => exact keep (onWorld_agree (fun _ _ hw hw' => Interface.sampler_free hS B hfix poi e size g b hw hw') s w h).2
  | hessian inv poi e g b => exact keep (onWorld_agree (fun _ _ hw hw' => Interface.sigmaMuFromHessian_free hS inv B hfix poi e g b hw hw') s w h).2
  | clearGenerate => exact ⟨h.1, h.2.1, good_clear _ _, h.2.2.2⟩
  | clearMaximize => exact ⟨h.1, h.2.1, h.2.2.1, good_clear _ _, h.2.2.2.2⟩
  | clearMaximizeAsimov => exact ⟨h.1, h.2.1, h.2.2.1, h.2.2.2.1, good_clear _ _⟩

theorem after_good {w0 w : World} (h0 : Plain N w0) (hw : Plain N w) (l : List Request) (hl : ∀ r ∈ l, r.Within G) : AllGood S B N key G (after key S B w0 l) w := by
  unfold after
  have : ∀ (s : State K), AllGood S B N key G s w → AllGood S B N key G (l.foldl (perform key S B) s) w := by
    induction l with
    | nil => intro s h; exact h
    | cons r l ih => intro s h; exact ih (fun r hr => hl r (List.mem_cons_of_mem _ hr)) _ (perform_good hkey hS hfix r (hl r List.mem_cons_self) h)
  exact this _ ⟨h0, hw, good_empty _, good_empty _, good_empty _⟩

end

/-! ### Caches without unfinished calls, for any minimiser -/

/-- No unfinished call. -/
abbrev Still (c : Shared K V) : Prop := Good (fun _ _ => True) c

theorem still_of {c : Shared K V} {l : Fifo K V} (h : Quiet c l) : Still c := ⟨l, h, fun _ _ => trivial⟩

theorem wrapper_still {slot : Slot K V} (hs : slot.Lawful) (k : K) {f : Comp (State K) V} (hf : ∀ s, slot.get (f s).2.2 = slot.get s.2)
    {s : State K} (hq : Still (slot.get s.2)) : Still (slot.get (wrapper slot k f s).2.2) := by
  obtain ⟨l, hl, -⟩ := hq
  rcases wrapper_spec hs k hf hl with ⟨v, -, hw⟩ | ⟨-, c1, c2, hw, h2⟩
  · rw [hw]; exact still_of hl
  · rw [hw]; dsimp only; rw [hs.get_put]; exact still_of h2

theorem wrapper_hit {slot : Slot K V} (hs : slot.Lawful) (k : K) {f g : Comp (State K) V} (hf : ∀ s, slot.get (f s).2.2 = slot.get s.2)
    (hg : ∀ s, slot.get (g s).2.2 = slot.get s.2)
    {s : State K} (hq : Still (slot.get s.2)) {v : V} (hv : (wrapper slot k f s).1 = .ok v) :
    ∀ s', slot.get s'.2 = slot.get (wrapper slot k f s).2.2 → wrapper slot k g s' = (.ok v, s') := by
  intro s' hs'
  obtain ⟨l, hl, -⟩ := hq
  have key : ∃ l', Quiet (slot.get (wrapper slot k f s).2.2) l' ∧ List.lookup k l' = some v := by
    rcases wrapper_spec hs k hf hl with ⟨v', hk, hw⟩ | ⟨hk, c1, c2, hw, h2⟩
    · rw [hw] at hv ⊢
      cases hv
      exact ⟨l, hl, hk⟩
    · rw [hw] at hv ⊢
      dsimp only at hv ⊢
      rw [hv] at h2
      rw [hs.get_put]
      exact ⟨_, h2, lookup_last hk (by norm_num)⟩
  obtain ⟨l', h1, h2⟩ := key
  rw [← hs'] at h1
  rcases wrapper_spec hs k hg h1 with ⟨v', hk, hw⟩ | ⟨hk, -⟩
  · rw [h2] at hk; cases hk; exact hw
  · rw [h2] at hk; cases hk

theorem wrapper_again {slot : Slot K V} (hs : slot.Lawful) (k : K) {f : Comp (State K) V} (hf : ∀ s, slot.get (f s).2.2 = slot.get s.2)
    {s : State K} (hq : Still (slot.get s.2)) {v : V} (hv : (wrapper slot k f s).1 = .ok v) :
    ∀ s', slot.get s'.2 = slot.get (wrapper slot k f s).2.2 → wrapper slot k f s' = (.ok v, s') :=
  wrapper_hit hs k hf hf hq hv

/-- No unfinished call in the three caches. -/
def Quiet3 (s : State K) : Prop := Still s.2.asimov ∧ Still s.2.fit ∧ Still s.2.asimovFit

theorem generate_quiet (key : Keys K) (S : Solver) (B : Interface.Backend) (i : ℕ) (c : AsimovCall) (s : State K) (h : Still s.2.asimov) :
    Still (generate key S B i c s).2.2.asimov := wrapper_still asimovSlot_lawful _ (fun _ => rfl) h

theorem maximize_quiet (key : Keys K) (S : Solver) (B : Interface.Backend) (i : ℕ) (c : FitCall) (s : State K) (h : Still s.2.fit) :
    Still (maximize key S B i c s).2.2.fit := wrapper_still fitSlot_lawful _ (fun _ => rfl) h

theorem asimovFit_quiet (key : Keys K) (S : Solver) (B : Interface.Backend) (c : AsimovFitCall) (s : State K) (h : Still s.2.asimov ∧ Still s.2.fit) :
    Still (asimovFit key S B c s).2.2.asimov ∧ Still (asimovFit key S B c s).2.2.fit := by
  unfold asimovFit
  cases B.minAsimovNegLL c.expected c.ts c.keys with
  | ok o => exact h
  | error err =>
    cases err with
    | notImplemented =>
      dsimp only
      cases hg : generate key S B 0 ⟨c.expected, c.ts, c.doGrad, c.bounds⟩ s with
      | mk x s1 =>
        have h1 := (generate_frame key S B 0 ⟨c.expected, c.ts, c.doGrad, c.bounds⟩ s).1
        have h2 := generate_quiet key S B 0 ⟨c.expected, c.ts, c.doGrad, c.bounds⟩ s h.1
        rw [hg] at h1 h2
        dsimp only at h1 h2
        have h3 : Still s1.2.fit := by rw [h1]; exact h.2
        cases x with
        | error e => rw [Hypotest.bind_error hg]; exact ⟨h2, h3⟩
        | ok d =>
          rw [Hypotest.bind_ok hg, (maximize_frame key S B 0 _ s1).1]
          exact ⟨h2, maximize_quiet key S B 0 _ s1 h3⟩
    | _ => exact h

theorem maximizeAsimov_quiet (key : Keys K) (S : Solver) (B : Interface.Backend) (i : ℕ) (c : AsimovFitCall) (s : State K) (h : Quiet3 s) :
    Quiet3 (maximizeAsimov key S B i c s).2 := by
  have h3 : Still (maximizeAsimov key S B i c s).2.2.asimovFit := wrapper_still asimovFitSlot_lawful _ (asimovFit_frame key S B c) h.2.2
  obtain ⟨l, hl, -⟩ := h.2.2
  rcases wrapper_spec asimovFitSlot_lawful (key.asimovFit i c) (asimovFit_frame key S B c) hl with ⟨v, -, hw⟩ | ⟨-, c1, c2, hw, -⟩
  · unfold maximizeAsimov
    rw [hw]
    exact h
  · have hq := asimovFit_quiet key S B c (s.1, asimovFitSlot.put s.2 c1) ⟨h.1, h.2.1⟩
    refine ⟨?_, ?_, h3⟩
    · unfold maximizeAsimov; rw [hw]; exact hq.1
    · unfold maximizeAsimov; rw [hw]; exact hq.2

theorem asimovLikelihood_quiet (key : Keys K) (S : Solver) (B : Interface.Backend) (poi e rn ts g b) (s : State K) (h : Quiet3 s) :
    Quiet3 (asimovLikelihood key S B poi e rn ts g b s).2 := by
  unfold asimovLikelihood
  cases B.asimovNegLL poi e ts with
  | ok o => exact h
  | error err =>
    cases err with
    | notImplemented =>
      dsimp only
      cases hg : generate key S B 0 ⟨e, ts, g, b⟩ s with
      | mk x s1 =>
        have h1 := generate_frame key S B 0 ⟨e, ts, g, b⟩ s
        have h2 := generate_quiet key S B 0 ⟨e, ts, g, b⟩ s h.1
        rw [hg] at h1 h2
        dsimp only at h1 h2
        have h3 : Quiet3 s1 := ⟨h2, by rw [h1.1]; exact h.2.1, by rw [h1.2]; exact h.2.2⟩
        cases x with
        | error e => rw [Hypotest.bind_error hg]; exact h3
        | ok d => rw [Hypotest.bind_ok hg]; exact h3
    | _ => exact h

theorem perform_quiet (key : Keys K) (S : Solver) (B : Interface.Backend) (s : State K) (h : Quiet3 s) (r : Request) : Quiet3 (perform key S B s r) := by
  cases r with
  | generate i c =>
    have h1 := generate_frame key S B i c s
    exact ⟨generate_quiet key S B i c s h.1, by unfold perform; rw [h1.1]; exact h.2.1, by unfold perform; rw [h1.2]; exact h.2.2⟩
  | maximize i c =>
    have h1 := maximize_frame key S B i c s
    exact ⟨by unfold perform; rw [h1.1]; exact h.1, maximize_quiet key S B i c s h.2.1, by unfold perform; rw [h1.2]; exact h.2.2⟩
  | maximizeAsimov i c => exact maximizeAsimov_quiet key S B i c s h
  | asimovLikelihood poi e rn ts g b => exact asimovLikelihood_quiet key S B poi e rn ts g b s h
  | clearGenerate => exact ⟨good_clear _ _, h.2⟩
  | clearMaximize => exact ⟨h.1, good_clear _ _, h.2.2⟩
  | clearMaximizeAsimov => exact ⟨h.1, h.2.1, good_clear _ _⟩
  | _ => exact h

theorem after_quiet (key : Keys K) (S : Solver) (B : Interface.Backend) (w : World) (l : List Request) : Quiet3 (after key S B w l) := by
  unfold after
  have : ∀ s : State K, Quiet3 s → Quiet3 (l.foldl (perform key S B) s) := by
    induction l with
    | nil => intro s h; exact h
    | cons r l ih => intro s h; exact ih _ (perform_quiet key S B s h r)
  exact this _ ⟨good_empty _, good_empty _, good_empty _⟩

/-- A call that finds an empty cache runs the method. -/
theorem maximize_empty (key : Keys K) (S : Solver) (B : Interface.Backend) (i : ℕ) (c : FitCall) (s : State K) (h : s.2.fit.cache = []) (ho : s.2.fit.order = [])
    (he : s.2.fit.events = []) : (maximize key S B i c s).1 = (fitRun S B c s.1).1 ∧ (maximize key S B i c s).2.1 = (fitRun S B c s.1).2 := by
  have hq : Quiet (fitSlot.get s.2) ([] : Fifo K (MuHat × F)) := ⟨h, ho, he, by simp⟩
  rcases wrapper_spec fitSlot_lawful (key.fit i c)
    (f := onWorld (Interface.maximize S B c.returnNll c.expected c.negative c.data c.keys c.fixed c.doGrad c.bounds)) (fun _ => rfl) hq with
    ⟨v, hk, -⟩ | ⟨-, c1, c2, hw, -⟩
  · cases hk
  · unfold maximize
    rw [hw]
    exact ⟨rfl, rfl⟩

end Verif.Memo
