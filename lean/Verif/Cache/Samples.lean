import Verif.Cache.Live

/-! # Proof internals for the cache: witness histories -/

namespace Verif.Cache
open Verif.Py
set_option linter.unusedSectionVars false

variable {K V X : Type} [DecidableEq K]

/-- Everything computed comes from a `complete` move of the history. -/
theorem computed_from_ops {m : Option Int} {ops : List (Op K V X)} {s : Sys K V X} (h : After m ops s) :
    ∀ t k v, Obs.computed t k v ∈ s.log → ∃ a b s', ops = a ++ Op.complete t (.ok v) :: b ∧ After m a s' ∧
      Computing s' t k := by
  refine After.induct (P := fun ops s => ∀ t k v, Obs.computed t k v ∈ s.log →
    ∃ a b s', ops = a ++ Op.complete t (.ok v) :: b ∧ After m a s' ∧ Computing s' t k) ?_ ?_ h
  · intro t k v h'; simp [init] at h'
  · intro ops s op s' haft ih hs t k v h'
    have old : Obs.computed t k v ∈ s.log → ∃ a b s', ops ++ [op] = a ++ Op.complete t (.ok v) :: b ∧
        After m a s' ∧ Computing s' t k := by
      intro h''
      obtain ⟨a, b, s1, rfl, h2, h3⟩ := ih t k v h''
      exact ⟨a, b ++ [op], s1, by simp, h2, h3⟩
    have hsi := haft.inv.si
    have ent : ∀ t' k', s' = doEnter s t' k' → Obs.computed t k v ∈ s.log := by
      intro t' k' e
      rcases doEnter_shape hsi t' k' with ⟨_, hc, he⟩ | ⟨_, hc, hev, he⟩ | ⟨hc, he⟩ <;> rw [e, he] at h' <;>
        simpa using h'
    rcases step_cases hs with ⟨t', k', -, ht', e⟩ | ⟨t', k', -, ht', e⟩ | ⟨t', k', r, hop, ht', e⟩ |
      ⟨t', e', k', v', -, ht', e⟩ | ⟨t', e', k', x, -, ht', e⟩ | ⟨t', k', e', v', -, ht', _, _, e⟩ |
      ⟨t', k', e', -, ht', _, _, e⟩ | ⟨-, e⟩
    · exact old (ent _ _ e)
    · exact old (ent _ _ e)
    · rcases doComplete_shape m hsi t' k' r with ⟨x, rfl, he⟩ | ⟨v', rfl, hst, he⟩ | ⟨v', rfl, hst, he⟩ <;>
        rw [e, he] at h'
      · exact old (by simpa using h')
      · rcases List.mem_cons.1 h' with h' | h'
        · cases h'; subst hop; exact ⟨ops, [], s, rfl, haft, ht'⟩
        · exact old h'
      · rcases List.mem_cons.1 h' with h' | h'
        · cases h'
        rcases List.mem_cons.1 h' with h' | h'
        · cases h'; subst hop; exact ⟨ops, [], s, rfl, haft, ht'⟩
        · exact old h'
    all_goals rw [e] at h'; exact old (by simpa using h')

/-! ### The counterexample for C02 and C03, for every `maxsize ≥ 1`

Thread 1 computes key 0 and thread 2 waits for it. Thread 3 meanwhile computes `n` other keys, one after the other.
The last of these evicts the entry of key 0 although its computation is still running. -/

/-- One complete call of thread 3 for key `i + 1`. -/
def fill (i : Nat) : List (Op Nat Nat Unit) := [.call 3 (i + 1), .complete 3 (.ok 0), .signal 3]

/-- The first part of the history. -/
def fills : Nat → List (Op Nat Nat Unit)
  | 0 => [.call 1 0, .call 2 0]
  | i + 1 => fills i ++ fill i

/-- Finished entries of the keys `1..i`. -/
def doneEntries (i : Nat) : Dict Nat (Option Nat) := (List.range i).map (fun j => (j + 1, some 0))

/-- State after `fills i` while nothing is evicted. -/
structure Filled (i : Nat) (s : Sys Nat Nat Unit) : Prop where
  cache : s.sh.cache = (0, none) :: doneEntries i
  order : s.sh.order = 0 :: (List.range i).map (· + 1)
  events : s.sh.events = [(0, 0)]
  isSet : s.sh.isSet 0 = false
  t1 : s.thr 1 = .computing 0
  t2 : s.thr 2 = .waiting 0 0
  rest : ∀ t, t ≠ 1 → t ≠ 2 → s.thr t = .idle

theorem get?_doneEntries (i k : Nat) (h : i < k) : Dict.get? (doneEntries i) k = none := by
  rw [Dict.get?_eq_none_iff]
  simp only [Dict.keys, doneEntries, List.map_map, List.mem_map, List.mem_range, Function.comp_def, not_exists, not_and]
  intro x hx; omega

theorem set_doneEntries (i : Nat) (y : Option Nat) :
    Dict.set (doneEntries i) (i + 1) y = doneEntries i ++ [(i + 1, y)] := by
  apply Dict.set_of_not_mem
  rw [← Dict.get?_eq_none_iff]; exact get?_doneEntries i _ (by omega)

theorem set_set_doneEntries (i : Nat) (y z : Option Nat) :
    Dict.set (doneEntries i ++ [(i + 1, y)]) (i + 1) z = doneEntries i ++ [(i + 1, z)] := by
  have := set_last (K := Nat) (V := Nat) (l := (List.range i).map (fun j => (j + 1, 0))) (k := i + 1) (by simp) y z
  simpa [doneEntries, Function.comp_def] using this

/-- The move `call 3 (i+1)`. -/
theorem filled_call {m : Option Int} {i : Nat} {s : Sys Nat Nat Unit} (h : Filled i s) :
    ∃ s1, step m s (.call 3 (i + 1)) = some s1 ∧
      s1.sh.cache = (0, none) :: (doneEntries i ++ [(i + 1, none)]) ∧
      s1.sh.order = 0 :: ((List.range i).map (· + 1) ++ [i + 1]) ∧
      s1.sh.events = [(0, 0), (i + 1, s.sh.fresh)] ∧ s1.sh.isSet = s.sh.isSet ∧ s1.thr = setThr s.thr 3 (.computing (i + 1)) := by
  have hg : s.sh.cache.get? (i + 1) = none := by
    rw [h.cache, Dict.get?_cons, if_neg (by simp), get?_doneEntries _ _ (by omega)]
  refine ⟨_, by simp only [step, h.rest 3 (by decide) (by decide)]; rfl, ?_⟩
  simp only [doEnter, enter, hg]
  refine ⟨?_, ?_, ?_, trivial, trivial⟩
  · rw [h.cache]; simp only [Dict.set]; rw [if_neg (by simp), set_doneEntries]
  · rw [h.order]; simp
  · rw [h.events]; simp [Dict.set]

theorem run_three {m : Option Int} {s s1 s2 s3 : Sys K V X} {a b c : Op K V X} (h1 : step m s a = some s1)
    (h2 : step m s1 b = some s2) (h3 : step m s2 c = some s3) : run m s [a, b, c] = some s3 := by
  simp [run, h1, h2, h3]

theorem doneEntries_succ (i : Nat) : doneEntries (i + 1) = doneEntries i ++ [(i + 1, some 0)] := by
  simp [doneEntries, List.range_succ]

theorem length_doneEntries (i : Nat) : (doneEntries i).length = i := by simp [doneEntries]

/-- Effect of `fill i` while there is room. -/
theorem filled_succ {n i : Nat} (hi : i + 2 ≤ n) {s : Sys Nat Nat Unit} (h : Filled i s) (hinv : Inv s) :
    ∃ s', run (some (n : Int)) s (fill i) = some s' ∧ Filled (i + 1) s' := by
  obtain ⟨s1, h1, hc, ho, hev, hset, hthr⟩ := filled_call (m := some (n : Int)) h
  have hcs : s1.sh.cache.set (i + 1) (some 0) = (0, none) :: doneEntries (i + 1) := by
    rw [hc]; simp only [Dict.set]; rw [if_neg (by simp), set_set_doneEntries, doneEntries_succ]
  have hst : store (some (n : Int)) s1.sh (i + 1) 0 =
      ({ s1.sh with cache := (0, none) :: doneEntries (i + 1), events := [(0, 0)] }, some s.sh.fresh, none) := by
    simp only [store, hcs]
    rw [evict_id]
    · simp [hev, Dict.erase, Dict.get?]
    · simp [length_doneEntries]; omega
  have hfr : s.sh.fresh ≠ 0 := by
    have := hinv.si.lt 0 0 (by rw [h.events]; simp [Dict.get?]); omega
  have h2 : step (some (n : Int)) s1 (.complete 3 (.ok 0)) = some
      { sh := { s1.sh with cache := (0, none) :: doneEntries (i + 1), events := [(0, 0)] },
        thr := setThr s1.thr 3 (.signalling (some s.sh.fresh) (i + 1) (.ok 0)), log := .computed 3 (i + 1) 0 :: s1.log } := by
    simp only [step, hthr, setThr_self, doComplete, hst]
  refine ⟨_, run_three h1 h2 (by simp only [step, setThr_self]; rfl), ?_⟩
  refine ⟨rfl, ?_, rfl, ?_, ?_, ?_, ?_⟩
  · simp [signalEv, ho, List.range_succ]
  · simp [signalEv, hset, h.isSet, Ne.symm hfr]
  · simp [setThr, hthr, h.t1]
  · simp [setThr, hthr, h.t2]
  · intro t ht1 ht2
    by_cases h3 : t = 3
    · subst h3; simp [setThr]
    · simp [setThr, hthr, h3, h.rest t ht1 ht2]

theorem filled_init (m : Option Int) : ∃ s, After m (fills 0) s ∧ Filled 0 s := by
  refine ⟨_, rfl, rfl, rfl, rfl, rfl, rfl, rfl, ?_⟩
  intro t h1 h2
  simp [setThr, h1, h2, doEnter, enter, init, Dict.get?, Dict.set]

theorem filled_all (n : Nat) : ∀ i, i + 1 ≤ n → ∃ s, After (some (n : Int)) (fills i) s ∧ Filled i s := by
  intro i
  induction i with
  | zero => intro _; exact filled_init _
  | succ i ih =>
    intro hi
    obtain ⟨s, h1, h2⟩ := ih (by omega)
    obtain ⟨s', h3, h4⟩ := filled_succ (n := n) (by omega) h2 h1.inv
    refine ⟨s', ?_, h4⟩
    unfold After at h1 ⊢
    rw [fills, run_append, h1]; exact h3

/-- The state after all `n` calls of thread 3 and a further call for key 0 by thread 4. -/
theorem evicted_state (n : Nat) (hn : 1 ≤ n) : ∃ s, After (some (n : Int)) (fills n ++ [.call 4 0]) s ∧
    s.thr 1 = .computing 0 ∧ s.thr 4 = .computing 0 ∧ Dead 2 0 0 s := by
  obtain ⟨i, rfl⟩ : ∃ i, n = i + 1 := ⟨n - 1, by omega⟩
  obtain ⟨s, haft, h⟩ := filled_all (i + 1) i (by omega)
  have hinv := haft.inv
  obtain ⟨s1, h1, hc, ho, hev, hset, hthr⟩ := filled_call (m := some ((i + 1 : Nat) : Int)) h
  have hcs : s1.sh.cache.set (i + 1) (some 0) = (0, none) :: doneEntries (i + 1) := by
    rw [hc]; simp only [Dict.set]; rw [if_neg (by simp), set_set_doneEntries, doneEntries_succ]
  have hst : store (some ((i + 1 : Nat) : Int)) s1.sh (i + 1) 0 =
      ({ s1.sh with cache := doneEntries (i + 1), order := (List.range i).map (· + 1) ++ [i + 1], events := [(0, 0)] },
        some s.sh.fresh, none) := by
    have he : Dict.erase ((0, none) :: doneEntries (i + 1)) 0 = doneEntries (i + 1) := by simp [Dict.erase]
    simp only [store, hcs, ho, evict]
    rw [if_pos (by simp [length_doneEntries]; omega), he, evict_id _ _ _ (by simp [length_doneEntries])]
    simp [hev, Dict.erase, Dict.get?]
  have hfr : s.sh.fresh ≠ 0 := by
    have := hinv.si.lt 0 0 (by rw [h.events]; simp [Dict.get?]); omega
  have hrun : ∃ s2, run (some ((i + 1 : Nat) : Int)) s (fill i) = some s2 ∧ s2.sh.cache = doneEntries (i + 1) ∧
      s2.sh.events = [(0, 0)] ∧ s2.sh.isSet 0 = false ∧ s2.thr 1 = .computing 0 ∧ s2.thr 2 = .waiting 0 0 ∧
      (∀ t, t ≠ 1 → t ≠ 2 → s2.thr t = .idle) := by
    have h2 : step (some ((i + 1 : Nat) : Int)) s1 (.complete 3 (.ok 0)) = some
        { sh := { s1.sh with cache := doneEntries (i + 1), order := (List.range i).map (· + 1) ++ [i + 1], events := [(0, 0)] },
          thr := setThr s1.thr 3 (.signalling (some s.sh.fresh) (i + 1) (.ok 0)), log := .computed 3 (i + 1) 0 :: s1.log } := by
      simp only [step, hthr, setThr_self, doComplete, hst]
    refine ⟨_, run_three h1 h2 (by simp only [step, setThr_self]; rfl), rfl, rfl, ?_, ?_, ?_, ?_⟩
    · simp [signalEv, hset, h.isSet, Ne.symm hfr]
    · simp [setThr, hthr, h.t1]
    · simp [setThr, hthr, h.t2]
    · intro t ht1 ht2
      by_cases h3 : t = 3
      · subst h3; simp [setThr]
      · simp [setThr, hthr, h3, h.rest t ht1 ht2]
  obtain ⟨s2, hr2, hc2, he2, hset2, ht1, ht2, hrest⟩ := hrun
  have haft2 : After (some ((i + 1 : Nat) : Int)) (fills (i + 1)) s2 := by
    unfold After at haft ⊢
    rw [fills, run_append, haft]; exact hr2
  have hg0 : s2.sh.cache.get? 0 = none := by
    rw [hc2, Dict.get?_eq_none_iff]
    simp [Dict.keys, doneEntries]
  have hstep : step (some ((i + 1 : Nat) : Int)) s2 (.call 4 0) = some (doEnter s2 4 0) := by
    simp [step, hrest 4 (by decide) (by decide)]
  have haft3 := After.snoc_iff.2 ⟨s2, haft2, hstep⟩
  have hlt : 0 < s2.sh.fresh := haft2.inv.si.lt 0 0 (by rw [he2]; simp [Dict.get?])
  refine ⟨_, haft3, ?_, ?_, haft3.inv, ?_, ?_, ?_, ?_⟩
  · rw [doEnter_thr_ne _ _ _ (by decide)]; exact ht1
  · simp [doEnter, enter, hg0]
  · rw [doEnter_thr_ne _ _ _ (by decide)]; exact ht2
  · simp [doEnter, enter, hg0, hset2]
  · intro k' h'
    simp only [doEnter, enter, hg0, he2, Dict.set, if_true, Dict.get?] at h'
    split at h'
    · simp only [Option.some.injEq] at h'; omega
    · cases h'
  · intro t' k' r h'
    by_cases e4 : t' = 4
    · subst e4; simp [doEnter, enter, hg0] at h'
    · rw [doEnter_thr_ne _ _ _ e4] at h'
      by_cases e1 : t' = 1
      · subst e1; rw [ht1] at h'; cases h'
      · by_cases e2 : t' = 2
        · subst e2; rw [ht2] at h'; cases h'
        · rw [hrest _ e1 e2] at h'; cases h'

theorem noClear_fills (n : Nat) : NoClear (fills n ++ [.call 4 0]) := by
  have : Op.clear ∉ fills n := by
    induction n with
    | zero => simp [fills]
    | succ n ih => simp [fills, fill, ih]
  simp [NoClear, this]

/-! A fair execution with a waiting thread. -/

/-- Moves of the sample execution. -/
def sampleOp : Nat → Op Nat Nat Unit
  | 0 => .call 1 0
  | 1 => .call 2 0
  | 2 => .complete 1 (.ok 7)
  | 3 => .signal 1
  | 4 => .wake 2
  | _ => .call 1 0

/-- States of the sample execution. -/
def sampleSt : Nat → Sys Nat Nat Unit
  | 0 => init
  | n + 1 => (step (some 1) (sampleSt n) (sampleOp n)).getD init

theorem sampleSt_succ (n : Nat) : sampleSt (n + 1) = (step (some 1) (sampleSt n) (sampleOp n)).getD init := rfl

theorem sampleOp_late (n : Nat) : sampleOp (n + 5) = .call 1 0 := rfl

theorem sample_late (n : Nat) : (∀ t, (sampleSt (n + 5)).thr t = .idle) ∧
    (sampleSt (n + 5)).sh.cache = [(0, some 7)] := by
  induction n with
  | zero =>
    refine ⟨?_, rfl⟩
    intro t
    show setThr (setThr (setThr (setThr (setThr (fun _ => Thr.idle) 1 _) 2 _) 1 _) 1 .idle) 2 .idle t = Thr.idle
    by_cases h1 : t = 1
    · subst h1; rfl
    · by_cases h2 : t = 2
      · subst h2; rfl
      · simp [setThr, h1, h2]
  | succ n ih =>
    have : sampleSt (n + 1 + 5) = { sampleSt (n + 5) with
        thr := setThr (sampleSt (n + 5)).thr 1 .idle, log := .returned 1 0 7 :: (sampleSt (n + 5)).log } := by
      rw [show n + 1 + 5 = (n + 5) + 1 by omega, sampleSt_succ, sampleOp_late]
      simp [step, ih.1, doEnter, enter, ih.2, Dict.get?]
    rw [this]
    refine ⟨?_, ih.2⟩
    intro t
    by_cases h : t = 1
    · subst h; simp
    · simp [setThr, h, ih.1]

/-- The sample execution. -/
def sample : Execution (some 1) Nat Nat Unit where
  st := sampleSt
  op := sampleOp
  start := rfl
  next := by
    intro n
    match n with
    | 0 => rfl
    | 1 => rfl
    | 2 => rfl
    | 3 => rfl
    | 4 => rfl
    | n + 5 =>
      have h1 : step (some 1) (sampleSt (n + 5)) (sampleOp (n + 5)) = some (doEnter (sampleSt (n + 5)) 1 0) := by
        rw [sampleOp_late]; simp only [step, (sample_late n).1]
      have h2 : sampleSt (n + 5 + 1) = doEnter (sampleSt (n + 5)) 1 0 := by rw [sampleSt_succ (n + 5), h1]; rfl
      rw [h1, h2]

theorem sample_thr (n t : Nat) (h1 : t ≠ 1) (h2 : t ≠ 2) : (sampleSt n).thr t = .idle := by
  have e : ∀ n, opThr (sampleOp n) ≠ some t := by
    intro n
    match n with
    | 0 => simpa [sampleOp, opThr] using Ne.symm h1
    | 1 => simpa [sampleOp, opThr] using Ne.symm h2
    | 2 => simpa [sampleOp, opThr] using Ne.symm h1
    | 3 => simpa [sampleOp, opThr] using Ne.symm h1
    | 4 => simpa [sampleOp, opThr] using Ne.symm h2
    | n + 5 => simpa [sampleOp, opThr] using Ne.symm h1
  induction n with
  | zero => rfl
  | succ n ih => exact (step_thr (sample.next n) (e n)).trans ih

theorem sample_fair : Fair sample := by
  constructor
  · intro n t k h
    match n with
    | 0 => cases h
    | 1 => by_cases h1 : t = 1
           · subst h1; exact ⟨2, by decide, .ok 7, rfl⟩
           · by_cases h2 : t = 2
             · subst h2; cases h
             · rw [show (sample.st 1).thr t = _ from sample_thr 1 t h1 h2] at h; cases h
    | 2 => by_cases h1 : t = 1
           · subst h1; exact ⟨2, by decide, .ok 7, rfl⟩
           · by_cases h2 : t = 2
             · subst h2; cases h
             · rw [show (sample.st 2).thr t = _ from sample_thr 2 t h1 h2] at h; cases h
    | 3 => by_cases h1 : t = 1
           · subst h1; cases h
           · by_cases h2 : t = 2
             · subst h2; cases h
             · rw [show (sample.st 3).thr t = _ from sample_thr 3 t h1 h2] at h; cases h
    | 4 => by_cases h1 : t = 1
           · subst h1; cases h
           · by_cases h2 : t = 2
             · subst h2; cases h
             · rw [show (sample.st 4).thr t = _ from sample_thr 4 t h1 h2] at h; cases h
    | n + 5 => rw [show (sample.st (n + 5)).thr t = _ from (sample_late n).1 t] at h; cases h
  · intro n t e k r h
    match n with
    | 0 => cases h
    | 1 => by_cases h1 : t = 1
           · subst h1; cases h
           · by_cases h2 : t = 2
             · subst h2; cases h
             · rw [show (sample.st 1).thr t = _ from sample_thr 1 t h1 h2] at h; cases h
    | 2 => by_cases h1 : t = 1
           · subst h1; cases h
           · by_cases h2 : t = 2
             · subst h2; cases h
             · rw [show (sample.st 2).thr t = _ from sample_thr 2 t h1 h2] at h; cases h
    | 3 => by_cases h1 : t = 1
           · subst h1; exact ⟨3, by decide, rfl⟩
           · by_cases h2 : t = 2
             · subst h2; cases h
             · rw [show (sample.st 3).thr t = _ from sample_thr 3 t h1 h2] at h; cases h
    | 4 => by_cases h1 : t = 1
           · subst h1; cases h
           · by_cases h2 : t = 2
             · subst h2; cases h
             · rw [show (sample.st 4).thr t = _ from sample_thr 4 t h1 h2] at h; cases h
    | n + 5 => rw [show (sample.st (n + 5)).thr t = _ from (sample_late n).1 t] at h; cases h
  · intro n t k e h hset
    by_cases h1 : t = 1
    · subst h1
      match n with
      | 0 => cases h
      | 1 => cases h
      | 2 => cases h
      | 3 => cases h
      | 4 => cases h
      | n + 5 => rw [show (sample.st (n + 5)).thr 1 = _ from (sample_late n).1 1] at h; cases h
    · by_cases h2 : t = 2
      · subst h2
        by_cases hn : n ≤ 4
        · exact ⟨4, hn, rfl⟩
        · obtain ⟨d, rfl⟩ : ∃ d, n = d + 5 := ⟨n - 5, by omega⟩
          rw [show (sample.st (d + 5)).thr 2 = _ from (sample_late d).1 2] at h; cases h
      · rw [show (sample.st n).thr t = _ from sample_thr n t h1 h2] at h; cases h
  · intro n t k h
    match n with
    | 0 => cases h
    | 1 => by_cases h1 : t = 1
           · subst h1; cases h
           · by_cases h2 : t = 2
             · subst h2; cases h
             · rw [show (sample.st 1).thr t = _ from sample_thr 1 t h1 h2] at h; cases h
    | 2 => by_cases h1 : t = 1
           · subst h1; cases h
           · by_cases h2 : t = 2
             · subst h2; cases h
             · rw [show (sample.st 2).thr t = _ from sample_thr 2 t h1 h2] at h; cases h
    | 3 => by_cases h1 : t = 1
           · subst h1; cases h
           · by_cases h2 : t = 2
             · subst h2; cases h
             · rw [show (sample.st 3).thr t = _ from sample_thr 3 t h1 h2] at h; cases h
    | 4 => by_cases h1 : t = 1
           · subst h1; cases h
           · by_cases h2 : t = 2
             · subst h2; cases h
             · rw [show (sample.st 4).thr t = _ from sample_thr 4 t h1 h2] at h; cases h
    | n + 5 => rw [show (sample.st (n + 5)).thr t = _ from (sample_late n).1 t] at h; cases h

theorem sample_calls (n t k : Nat) (h : sampleOp n = .call t k) : k = 0 := by
  match n with
  | 0 => cases h; rfl
  | 1 => cases h; rfl
  | 2 => cases h
  | 3 => cases h
  | 4 => cases h
  | n + 5 => cases h; rfl

end Verif.Cache
