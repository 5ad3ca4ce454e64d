import Verif.Cache.Samples

/-!
# C01-C06: the result cache (`/repo/src/spey/system/cache.py`)

The theorems quantify over all histories `ops` of moves of any number of threads (`After maxsize ops s`).
-/

namespace Verif.Cache
open Verif.Py
set_option linter.unusedSectionVars false

variable {K V X : Type} [DecidableEq K]

/-! ## C01 -/

/-- C01: whatever the threads do (calls, failures, evictions, `cache_clear`), a value returned for key `k` was
produced before by a completed evaluation of the function for the key `k`. -/
theorem C01_returned_values_were_computed {m : Option Int} {ops : List (Op K V X)} {s : Sys K V X}
    (h : After m ops s) {l₁ l₂ : List (Obs K V X)} {t : Nat} {k : K} {v : V}
    (hr : s.log = l₁ ++ Obs.returned t k v :: l₂) : ∃ t', Obs.computed t' k v ∈ l₂ :=
  h.inv.just _ _ _ _ _ hr

/-- C01: the cache itself never holds anything but values that the function produced for that key. -/
theorem C01_stored_values_were_computed {m : Option Int} {ops : List (Op K V X)} {s : Sys K V X}
    (h : After m ops s) {k : K} {v : V} (hv : Holds s k v) : ∃ t, Obs.computed t k v ∈ s.log :=
  h.inv.prov _ _ hv

/-- C01, deterministic function `f`: if every evaluation that returns, returns `f` of its key, every call that returns
gives `f k`, so the cache is invisible. -/
theorem C01_deterministic_function_is_transparent {m : Option Int} {ops : List (Op K V X)} {s : Sys K V X} (f : K → V)
    (h : After m ops s)
    (hf : ∀ a t v b s' k, ops = a ++ Op.complete t (.ok v) :: b → After m a s' → Computing s' t k → v = f k)
    {t : Nat} {k : K} {v : V} (hr : Obs.returned t k v ∈ s.log) : v = f k := by
  obtain ⟨l₁, l₂, he⟩ := List.append_of_mem hr
  obtain ⟨t', h'⟩ := C01_returned_values_were_computed h he
  obtain ⟨a, b, s', h1, h2, h3⟩ := computed_from_ops h t' k v (by rw [he]; simp [h'])
  exact hf a t' v b s' k h1 h2 h3

/-- A run with a failure, an eviction and a `cache_clear` in which values are returned. -/
example : ∃ s : Sys Nat Nat Unit,
    After (some 1) [.call 1 5, .call 2 5, .complete 1 (.error ()), .signal 1, .wake 2, .retry 2, .complete 2 (.ok 50),
      .signal 2, .call 1 6, .complete 1 (.ok 60), .signal 1, .clear, .call 1 5, .complete 1 (.ok 50), .signal 1,
      .call 3 5] s ∧ Obs.returned 3 5 50 ∈ s.log ∧ Obs.returned 1 6 60 ∈ s.log ∧ Obs.failed 1 5 () ∈ s.log :=
  ⟨_, rfl, by decide, by decide, by decide⟩

/-! ## C02 -/

/-- C02 with room for all keys in use and no `cache_clear`: at any time at most one thread computes a key, and no
evaluation starts after a successful one for the same key (`l₂` is the history before the start). -/
theorem C02_single_flight_partial {m : Option Int} {ops : List (Op K V X)} {s : Sys K V X} (h : After m ops s)
    (hn : NoClear ops) (hf : KeysFit m (Called ops)) :
    (∀ t t' k, Computing s t k → Computing s t' k → t = t') ∧
    (∀ l₁ l₂ t k, s.log = l₁ ++ Obs.started t k :: l₂ → ∀ t' v, Obs.computed t' k v ∉ l₂) ∧
    (∀ l₁ l₂ t k v, s.log = l₁ ++ Obs.computed t k v :: l₂ → ∀ t' v', Obs.computed t' k v' ∉ l₂) :=
  have hr := h.rinv hf hn (fun _ h => h)
  ⟨hr.uniq, hr.once, hr.once'⟩

/-- C02, same conditions: while a key is being computed or once it is stored, a call does not run the function. -/
theorem C02_call_does_not_recompute_partial {m : Option Int} {ops : List (Op K V X)} {s s' : Sys K V X}
    (h : After m ops s) (hn : NoClear ops) (hf : KeysFit m (Called ops)) {t t' : Nat} {k : K}
    (hbusy : Computing s t k ∨ ∃ v, Obs.computed t k v ∈ s.log)
    (hs : step m s (.call t' k) = some s') : ∀ t'', Obs.started t'' k ∈ s'.log → Obs.started t'' k ∈ s.log := by
  have hr := h.rinv hf hn (fun _ h => h)
  intro t'' h'
  rcases step_cases hs with ⟨_, _, hop, ht', e⟩ | ⟨_, _, hop, ht', e⟩ | ⟨_, _, r, hop, ht', e⟩ |
      ⟨_, e', _, v', hop, ht', e⟩ | ⟨_, e', _, x, hop, ht', e⟩ | ⟨_, _, e', v', hop, ht', _, _, e⟩ |
      ⟨_, _, e', hop, ht', _, _, e⟩ | ⟨hop, e⟩ <;> cases hop
  have hne : s.sh.cache.get? k ≠ none := by
    rcases hbusy with hb | ⟨v, hb⟩
    · rw [hr.sf _ _ hb]; simp
    · obtain ⟨v', hv'⟩ := hr.done _ _ _ hb; rw [hv']; simp
  rcases doEnter_shape hr.inv.si t' k with ⟨v, hc, he⟩ | ⟨e', hc, hev, he⟩ | ⟨hc, he⟩
  · rw [e, he] at h'; simpa using h'
  · rw [e, he] at h'; simpa using h'
  · exact absurd hc hne

/-- Two keys fit into a cache of size two: contention, with a result. -/
example : ∃ s : Sys Nat Nat Unit, After (some 2) [.call 1 5, .call 2 5, .call 3 6, .complete 1 (.ok 50), .signal 1,
      .wake 2, .complete 3 (.ok 60), .call 1 5] s ∧
    NoClear ([.call 1 5, .call 2 5, .call 3 6, .complete 1 (.ok 50), .signal 1,
      .wake 2, .complete 3 (.ok 60), .call 1 5] : List (Op Nat Nat Unit)) ∧
    KeysFit (some 2) (Called ([.call 1 5, .call 2 5, .call 3 6, .complete 1 (.ok 50), .signal 1,
      .wake 2, .complete 3 (.ok 60), .call 1 5] : List (Op Nat Nat Unit))) ∧ Obs.returned 2 5 50 ∈ s.log := by
  refine ⟨_, rfl, by simp [NoClear], ?_, by decide⟩
  intro n hn l hnd hl
  cases hn
  have hsub : l ⊆ [5, 6] := by
    intro k hk
    obtain ⟨t, ht⟩ := hl k hk
    simp at ht
    simp only [List.mem_cons, List.not_mem_nil, or_false]
    omega
  have := (List.subperm_of_subset hnd hsub).length_le
  simp only [List.length_cons, List.length_nil] at this
  exact_mod_cast this

/-- C02 fails as soon as more keys are used than `maxsize` (here `n + 1` keys for `maxsize = n`, any `n ≥ 1`): a key
that is being computed is evicted and another thread computes it at the same time. -/
theorem C02_single_flight_fails (n : Nat) (hn : 1 ≤ n) :
    ∃ (ops : List (Op Nat Nat Unit)) (s : Sys Nat Nat Unit), After (some (n : Int)) ops s ∧ NoClear ops ∧
      ∃ t t' k, t ≠ t' ∧ Computing s t k ∧ Computing s t' k := by
  obtain ⟨s, h1, h2, h3, -⟩ := evicted_state n hn
  exact ⟨_, s, h1, noClear_fills n, 1, 4, 0, by decide, h2, h3⟩

/-- C02 fails after `cache_clear()` during a computation, whatever the `maxsize`. -/
theorem C02_single_flight_fails_with_clear (m : Option Int) :
    ∃ (ops : List (Op Nat Nat Unit)) (s : Sys Nat Nat Unit), After m ops s ∧
      ∃ t t' k, t ≠ t' ∧ Computing s t k ∧ Computing s t' k :=
  ⟨[.call 1 0, .clear, .call 2 0], _, rfl, 1, 2, 0, by decide, rfl, rfl⟩

/-! ## C03 -/

/-- C03 with room for all keys in use and no `cache_clear`: in every fair execution (evaluations end, threads that can
move do so) a thread that waits for another thread's result is eventually woken. -/
theorem C03_waiters_are_woken_partial {m : Option Int} (x : Execution m K V X) (fair : Fair x)
    (hn : ∀ n, x.op n ≠ .clear) (hf : KeysFit m (fun k => ∃ n t, x.op n = .call t k)) {n t : Nat} {k : K}
    (hw : Waiting (x.st n) t k) : ∃ j, n ≤ j ∧ x.op j = .wake t := by
  obtain ⟨e, hw⟩ := hw
  obtain ⟨j, h1, h2, -⟩ := woken x hf hn (fun n t k h => ⟨n, t, h⟩) fair hw
  exact ⟨j, h1, h2⟩

/-- C03, same conditions: if from some time on the evaluations for `k` do not raise, every call for `k` ends. -/
theorem C03_calls_end_partial {m : Option Int} (x : Execution m K V X) (fair : Fair x)
    (hn : ∀ n, x.op n ≠ .clear) (hf : KeysFit m (fun k => ∃ n t, x.op n = .call t k)) {N : Nat} {k : K}
    (hN : ∀ n t r, N ≤ n → Computing (x.st n) t k → x.op n = .complete t r → ∃ v, r = .ok v)
    {n t : Nat} (h : InCall (x.st n) t k) : ∃ j, n ≤ j ∧ (x.st j).thr t = .idle :=
  call_ends x hf hn (fun n t k h => ⟨n, t, h⟩) fair hN h

/-- C03 fails for every `maxsize = n ≥ 1` without any `cache_clear`: with `n + 1` keys a waiting thread can be blocked
whatever happens later. -/
theorem C03_no_lost_waiter_fails (n : Nat) (hn : 1 ≤ n) :
    ∃ (ops : List (Op Nat Nat Unit)) (s : Sys Nat Nat Unit), After (some (n : Int)) ops s ∧ NoClear ops ∧
      ∃ t k, Waiting s t k ∧ StuckForever (some (n : Int)) s t k := by
  obtain ⟨s, h1, -, -, h4⟩ := evicted_state n hn
  exact ⟨_, s, h1, noClear_fills n, 2, 0, ⟨0, h4.wait⟩, h4.stuck⟩

/-- C03 fails with `cache_clear()`, whatever the `maxsize`: the event of a running computation is dropped and never
set. -/
theorem C03_no_lost_waiter_fails_with_clear (m : Option Int) :
    ∃ (ops : List (Op Nat Nat Unit)) (s : Sys Nat Nat Unit), After m ops s ∧
      ∃ t k, Waiting s t k ∧ StuckForever m s t k := by
  have haft : After m ([.call 1 0, .call 2 0, .clear] : List (Op Nat Nat Unit)) _ := rfl
  refine ⟨_, _, haft, 2, 0, ⟨0, rfl⟩, Dead.stuck (e := 0) ⟨haft.inv, rfl, rfl, ?_, ?_⟩⟩
  · intro _; simp [clear]
  · intro t' k' r h'
    by_cases e2 : t' = 2
    · subst e2; cases h'
    · by_cases e1 : t' = 1
      · subst e1; cases h'
      · simp [doEnter, enter, init, Dict.get?, Dict.set, setThr, e1, e2] at h'

/-- The hypotheses of C03 are met by an execution in which thread 2 waits. -/
example : Fair sample ∧ (∀ n, sample.op n ≠ .clear) ∧
    KeysFit (some 1) (fun k => ∃ n t, sample.op n = .call t k) ∧ Waiting (sample.st 2) 2 0 ∧
    (∀ n t r, 0 ≤ n → Computing (sample.st n) t 0 → sample.op n = .complete t r → ∃ v, r = .ok v) := by
  refine ⟨sample_fair, ?_, ?_, ⟨0, rfl⟩, ?_⟩
  · intro n
    match n with
    | 0 => intro h; cases h
    | 1 => intro h; cases h
    | 2 => intro h; cases h
    | 3 => intro h; cases h
    | 4 => intro h; cases h
    | n + 5 => intro h; cases h
  · intro n hn l hnd hl
    cases hn
    have hsub : l ⊆ [0] := by
      intro k hk
      obtain ⟨n, t, h⟩ := hl k hk
      simp [sample_calls n t k h]
    have := (List.subperm_of_subset hnd hsub).length_le
    simp only [List.length_cons, List.length_nil] at this
    exact_mod_cast this
  · intro n t r _ _ h
    match n with
    | 0 => cases h
    | 1 => cases h
    | 2 => cases h; exact ⟨7, rfl⟩
    | 3 => cases h
    | 4 => cases h
    | n + 5 => cases h

/-! ## C04 -/

/-- C04, every schedule: when the function run by thread `t` for `k` raises `x`, no unfinished entry for `k` is left,
all finished results are as before, and the only next move of `t` is to raise `x` to its caller. -/
theorem C04_failure_leaves_no_trace {m : Option Int} {ops : List (Op K V X)} {s s' : Sys K V X} (h : After m ops s)
    {t : Nat} {k : K} {x : X} (hc : Computing s t k) (hs : step m s (.complete t (.error x)) = some s') :
    s'.sh.cache.get? k ≠ some none ∧ (∀ k' v, Holds s' k' v ↔ Holds s k' v) ∧ s'.sh.events.get? k = none ∧
    (∃ s'', step m s' (.signal t) = some s'' ∧ s''.log = .failed t k x :: s'.log) ∧
    (∀ op s'', step m s' op = some s'' → opThr op = some t → op = .signal t) := by
  have hsi := h.inv.si
  obtain ⟨r, hop, rfl⟩ := move_computing hs rfl hc
  cases hop
  obtain ⟨h1, h2, -, -, h5⟩ := abort_cache hsi k
  have he : doComplete m s t k (.error x) = { sh := (abort s.sh k).1, thr := setThr s.thr t (.signalling (s.sh.events.get? k) k (.error x)), log := .raised t k x :: s.log } := by
    rcases doComplete_shape m hsi t k (.error x) with ⟨x', e, he⟩ | ⟨_, e, _⟩ | ⟨_, e, _⟩ <;> cases e
    exact he
  rw [he]
  refine ⟨h2, ?_, ?_, ?_, ?_⟩
  · intro k' v
    refine ⟨h1 _ _, ?_⟩
    intro hv
    simp only [Holds] at hv ⊢
    rcases abort_shape hsi k with ⟨hk, he⟩ | ⟨hk, he⟩ <;> rw [he]
    · have : k ≠ k' := by rintro rfl; rw [hk] at hv; cases hv
      simp only; rw [Dict.get?_erase hsi.wfc, if_neg this]; exact hv
    · exact hv
  · simp only [h5]; rw [Dict.get?_erase hsi.wfe]; simp
  · refine ⟨_, by simp only [step, setThr_self]; rfl, rfl⟩
  · intro op s'' hst ho
    cases op with
    | call t' k' => simp only [opThr, Option.some.injEq] at ho; subst ho; simp [step] at hst
    | complete t' r => simp only [opThr, Option.some.injEq] at ho; subst ho; simp [step] at hst
    | signal t' => simp only [opThr, Option.some.injEq] at ho; subst ho; rfl
    | wake t' => simp only [opThr, Option.some.injEq] at ho; subst ho; simp [step] at hst
    | retry t' => simp only [opThr, Option.some.injEq] at ho; subst ho; simp [step] at hst
    | clear => cases ho

/-- C04, with room for all keys and no `cache_clear`: after the failure the key is absent, so the next call of any
thread for it runs the function; and a thread that waited for it, once woken, recurses and runs the function (if no
other thread was faster). -/
theorem C04_failure_is_retried_partial {m : Option Int} {ops : List (Op K V X)} {s s' : Sys K V X} (h : After m ops s)
    (hn : NoClear ops) (hf : KeysFit m (Called ops))
    {t : Nat} {k : K} {x : X} (hc : Computing s t k) (hs : step m s (.complete t (.error x)) = some s') :
    s'.sh.cache.get? k = none ∧
    (∀ t' s'', step m s' (.call t' k) = some s'' → s''.log = .started t' k :: s'.log) := by
  have hr := h.rinv hf hn (fun _ h => h)
  obtain ⟨r, hop, rfl⟩ := move_computing hs rfl hc
  cases hop
  obtain ⟨-, -, -, -, h5, -, -⟩ := hr.doComplete hf t k (.error x) hc
  refine ⟨h5 x rfl, ?_⟩
  intro t' s'' hs''
  simp only [step] at hs''
  split at hs''
  · simp only [Option.some.injEq] at hs''
    subst hs''
    simp [doEnter, enter, h5 x rfl]
  · cases hs''

/-- C04, every schedule: the failure is not remembered. After it, the next call of any thread for the key runs the function,
unless the cache held a finished result for the key already before the failure (which another thread may have stored); then that
result is returned. -/
theorem C04_next_call {m : Option Int} {ops : List (Op K V X)} {s s' s'' : Sys K V X} (h : After m ops s) {t t' : Nat} {k : K} {x : X}
    (hc : Computing s t k) (hs : step m s (.complete t (.error x)) = some s') (hs' : step m s' (.call t' k) = some s'') :
    ((∀ v, ¬ Holds s k v) ∧ Computing s'' t' k ∧ s''.log = .started t' k :: s'.log) ∨
    ∃ v, Holds s k v ∧ s''.log = .returned t' k v :: s'.log := by
  obtain ⟨h1, h2, -⟩ := C04_failure_leaves_no_trace h hc hs
  simp only [step] at hs'
  split at hs'
  · simp only [Option.some.injEq] at hs'
    subst hs'
    cases hk : s'.sh.cache.get? k with
    | none =>
      left
      refine ⟨fun v hv => ?_, ?_, ?_⟩
      · have := (h2 k v).mpr hv
        simp only [Holds] at this
        rw [hk] at this
        cases this
      · simp [Computing, doEnter, enter, hk]
      · simp [doEnter, enter, hk]
    | some o =>
      cases o with
      | none => exact absurd hk h1
      | some v =>
        right
        exact ⟨v, (h2 k v).mp hk, by simp [doEnter, enter, hk]⟩
  · cases hs'

/-- C04 fails for threads that waited: after `cache_clear()` during the computation, the failure wakes nobody, and the waiting thread
is blocked whatever happens later. Any `maxsize`. -/
theorem C04_waiter_fails (m : Option Int) :
    ∃ (ops : List (Op Nat Nat Unit)) (s s' s'' : Sys Nat Nat Unit), After m ops s ∧ Computing s 1 0 ∧ Waiting s 2 0 ∧
      step m s (.complete 1 (.error ())) = some s' ∧ step m s' (.signal 1) = some s'' ∧ StuckForever m s'' 2 0 := by
  have haft : After m ([.call 1 0, .call 2 0, .clear] : List (Op Nat Nat Unit)) _ := rfl
  have hd : Dead 2 0 0 ({ sh := _, thr := _, log := _ } : Sys Nat Nat Unit) := ⟨haft.inv, rfl, rfl, by intro _; simp [clear], by
    intro t' k' r h'
    by_cases e2 : t' = 2
    · subst e2; cases h'
    · by_cases e1 : t' = 1
      · subst e1; cases h'
      · simp [doEnter, enter, init, Dict.get?, Dict.set, setThr, e1, e2] at h'⟩
  exact ⟨_, _, _, _, haft, rfl, ⟨0, rfl⟩, rfl, rfl, Dead.stuck (e := 0) ((hd.step (m := m) (op := .complete 1 (.error ())) rfl).step
    (m := m) (op := .signal 1) rfl)⟩

/-- C04: a waiting thread that is woken and finds no entry runs the function itself. Every state of every schedule. -/
theorem C04_waiter_takes_over {m : Option Int} {ops : List (Op K V X)} {s : Sys K V X} (_h : After m ops s)
    {t e : Nat} {k : K} (hw : s.thr t = .waiting k e) (hset : s.sh.isSet e = true) (habs : s.sh.cache.get? k = none) :
    ∃ s', run m s [.wake t, .retry t] = some s' ∧ Computing s' t k ∧ Obs.started t k ∈ s'.log := by
  refine ⟨_, by simp only [run, step, hw, hset, if_true, reread, habs, setThr_self]; rfl, ?_, ?_⟩
  · simp [Computing, doEnter, enter, habs]
  · simp [doEnter, enter, habs]

example : ∃ s s' : Sys Nat Nat Unit, After (some 1) [.call 1 0, .call 2 0] s ∧ Computing s 1 0 ∧
    step (some 1) s (.complete 1 (.error ())) = some s' :=
  ⟨_, _, rfl, rfl, rfl⟩

example : ∃ s : Sys Nat Nat Unit, After (some 1) [.call 1 0, .call 2 0, .complete 1 (.error ()), .signal 1] s ∧
    s.thr 2 = .waiting 0 0 ∧ s.sh.isSet 0 = true ∧ s.sh.cache.get? 0 = none :=
  ⟨_, rfl, rfl, rfl, rfl⟩

/-! ## C05 -/

/-- C05 on one thread: every history of calls shows the caller the same results as the ideal FIFO map, and the cache
then holds exactly the map's content (`cache_info()["size"]` is its length). -/
theorem C05_sequential_fifo (n : Option Nat) (cs : List (K × Except X V)) :
    (callsSeq (n.map Int.ofNat) ({} : Shared K V) cs).2 = (Fifo.calls n [] cs).2 ∧
    (∀ k v, (callsSeq (n.map Int.ofNat) ({} : Shared K V) cs).1.cache.get? k = some (some v) ↔
      List.lookup k (Fifo.calls n [] cs).1 = some v) ∧
    size (callsSeq (n.map Int.ofNat) ({} : Shared K V) cs).1 = (Fifo.calls n [] cs).1.length := by
  have hq : Quiet ({} : Shared K V) [] := ⟨rfl, rfl, rfl, by simp⟩
  obtain ⟨h1, h2⟩ := callsSeq_refines n cs hq
  refine ⟨h2, ?_, ?_⟩
  · intro k v
    rw [h1.cache, get?_map]
    cases List.lookup k (Fifo.calls n [] cs).1 <;> simp
  · simp [size, h1.cache]

/-- The ideal map has at most `n` entries, so the cache has. -/
theorem C05_sequential_bound (n : Nat) (cs : List (K × Except X V)) :
    size (callsSeq (some (n : Int)) ({} : Shared K V) cs).1 ≤ n := by
  have h := (C05_sequential_fifo (some n) cs).2.2
  simp only [Option.map_some, Int.ofNat_eq_natCast] at h
  rw [h]
  have : ∀ (l : Fifo K V), l.length ≤ n → (Fifo.calls (some n) l cs).1.length ≤ n := by
    clear h
    induction cs with
    | nil => intro l hl; exact hl
    | cons c cs ih =>
      intro l hl
      obtain ⟨k, r⟩ := c
      simp only [Fifo.calls]
      apply ih
      unfold Fifo.call
      split
      · exact hl
      · split
        · simp only [Fifo.trim, List.length_drop]; omega
        · exact hl
  exact this [] (by simp)

/-- C05 on any number of threads: the number of stored results never exceeds `maxsize`, as long as the eviction loop
did not crash (see C06). -/
theorem C05_concurrent_bound_partial {n : Int} (hn : 0 ≤ n) {ops : List (Op K V X)} {s : Sys K V X}
    (h : After (some n) ops s) (hi : ∀ t k, Obs.internal t k .indexError ∉ s.log) (l : List K) (hnd : l.Nodup)
    (hl : ∀ k ∈ l, ∃ v, Holds s k v) : (l.length : Int) ≤ n :=
  results_bounded hn h hi l hnd hl

/-- C05, same condition: whenever nobody is computing, `cache_info()["size"] <= maxsize`. -/
theorem C05_quiescent_size_partial {n : Int} (hn : 0 ≤ n) {ops : List (Op K V X)} {s : Sys K V X}
    (h : After (some n) ops s) (hi : ∀ t k, Obs.internal t k .indexError ∉ s.log)
    (hq : ∀ t k, ¬ Computing s t k) : (size s.sh : Int) ≤ n := by
  have := results_bounded hn h hi s.sh.cache.keys h.inv.si.wfc (by
    intro k hk
    rw [Dict.mem_keys_iff] at hk
    obtain ⟨y, hy⟩ := hk
    cases y with
    | none => obtain ⟨t, ht⟩ := h.inv.sent k hy; exact absurd ht (hq t k)
    | some v => exact ⟨v, hy⟩)
  simpa [size, Dict.keys] using this

/-- The oldest entry is dropped, and a hit does not refresh it. -/
example : (callsSeq (X := Unit) (some 2) ({} : Shared Nat Nat)
      [(1, .ok 10), (2, .ok 20), (1, .ok 11), (3, .ok 30), (2, .ok 21), (1, .ok 12)]).1.cache =
    [(3, some 30), (1, some 12)] := rfl

/-- C05 fails under concurrency: one worker finishing late leaves more results than `maxsize`. -/
theorem C05_concurrent_bound_fails : ∃ (ops : List (Op Nat Nat Unit)) (s : Sys Nat Nat Unit),
    After (some 1) ops s ∧ NoClear ops ∧ Holds s 1 10 ∧ Holds s 2 20 :=
  ⟨[.call 1 1, .call 2 2, .call 3 3, .complete 3 (.ok 30), .complete 1 (.ok 10), .complete 2 (.ok 20)], _, rfl,
    by simp [NoClear], rfl, rfl⟩

/-! ## C06 -/

/-- C06, every schedule: the lookup of the event never raises `KeyError` and `order.remove` never raises
`ValueError`. -/
theorem C06_no_key_or_value_error {m : Option Int} {ops : List (Op K V X)} {s : Sys K V X} (h : After m ops s)
    (t : Nat) (k : K) : Obs.internal t k .keyError ∉ s.log ∧ Obs.internal t k .valueError ∉ s.log := by
  constructor <;> intro h' <;> have := h.inv.noInt _ _ _ h' <;> cases this

/-- C06 with room for all keys in use and no `cache_clear`: no bookkeeping error at all. -/
theorem C06_no_internal_error_partial {m : Option Int} {ops : List (Op K V X)} {s : Sys K V X} (h : After m ops s)
    (hn : NoClear ops) (hf : KeysFit m (Called ops)) (t : Nat) (k : K) (i : Internal) :
    Obs.internal t k i ∉ s.log :=
  (h.rinv hf hn (fun _ h => h)).noInt t k i

/-- C06 on one thread with `maxsize = None` or `maxsize ≥ 0`: no call ever fails inside the cache, and none blocks. -/
theorem C06_sequential (n : Option Nat) (cs : List (K × Except X V)) :
    ∀ o ∈ (callsSeq (n.map Int.ofNat) ({} : Shared K V) cs).2, (∃ v, o = .hit v) ∨ ∃ r, o = .ran r := by
  rw [(C05_sequential_fifo n cs).1]
  generalize ([] : Fifo K V) = l
  induction cs generalizing l with
  | nil => intro o ho; simp [Fifo.calls] at ho
  | cons c cs ih =>
    obtain ⟨k, r⟩ := c
    intro o ho
    simp only [Fifo.calls, List.mem_cons] at ho
    rcases ho with rfl | ho
    · unfold Fifo.call
      split
      · exact Or.inl ⟨_, rfl⟩
      · split <;> exact Or.inr ⟨_, rfl⟩
    · exact ih _ o ho

/-- C06 fails under concurrency: `order.popleft()` on an empty queue raises `IndexError` in the caller of a
successful evaluation (`maxsize = 1`, three keys in flight, no `cache_clear`). -/
theorem C06_no_internal_error_fails : ∃ (ops : List (Op Nat Nat Unit)) (s : Sys Nat Nat Unit),
    After (some 1) ops s ∧ NoClear ops ∧ Obs.internal 2 2 .indexError ∈ s.log :=
  ⟨[.call 1 1, .call 2 2, .call 3 3, .complete 3 (.ok 30), .complete 1 (.ok 10), .complete 2 (.ok 20)], _, rfl,
    by simp [NoClear], by decide⟩

/-- C06 fails with a negative `maxsize` already on one thread. -/
theorem C06_negative_maxsize_fails (n : Int) (hn : n < 0) (k : K) (v : V) :
    (callSeq (X := X) (some n) ({} : Shared K V) k (.ok v)).2 = .internal .indexError := by
  have h0 : (0 : Int) > n := hn
  have h1 : (1 : Int) > n := by omega
  simp [callSeq, enter, Dict.get?, store, Dict.set, evict, h1, Dict.erase, h0]

end Verif.Cache
