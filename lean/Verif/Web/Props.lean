import Verif.Web.Spec
import Mathlib.Tactic

/-!
# Properties C68, C69 and C90: the update check
-/

namespace Verif.Web

/-! ## C68: at most one request per day -/

theorem sorted_perm {α : Type} (l : List (File α)) : (sorted l).Perm l := List.mergeSort_perm _ _

theorem sorted_pairwise {α : Type} (l : List (File α)) : (sorted l).Pairwise fun a b => b.name ≤ a.name := by
  have := List.pairwise_mergeSort (le := fun a b : File α => decide (b.name ≤ a.name))
    (fun a b c h1 h2 => by simp only [decide_eq_true_eq] at *; omega)
    (fun a b => by simp only [Bool.or_eq_true, decide_eq_true_eq]; omega) l
  exact this.imp (by simp)

theorem tryFile_fresh {α : Type} (now : ℚ) (f : File α) (m : ℚ) (hm : f.stat = .ok m) (h : now - m ≤ 86400) (d : Option α)
    (hr : f.read = .ok d) : tryFile now f = .ok (.ret d) := by
  unfold tryFile
  rw [hm, hr]
  exact if_pos h

theorem tryFile_stale {α : Type} (now : ℚ) (f : File α) (m : ℚ) (hm : f.stat = .ok m) (h : 86400 < now - m) :
    tryFile now f = .ok .stop := by
  unfold tryFile
  rw [hm]
  exact if_neg (not_le.mpr h)

/-- What the loop does: it stops at the first file that is neither unreadable nor, if fresh, undecodable. -/
theorem scan_eq {α : Type} (now : ℚ) (pre post : List (File α)) (f : File α)
    (hpre : ∀ g ∈ pre, tryFile now g = .error .failed) (s : Step α) (hf : tryFile now f = .ok s) :
    scan now (pre ++ f :: post) = (match s with | .ret d => d | .stop => none) := by
  induction pre with
  | nil =>
    simp only [List.nil_append, scan, hf]
    cases s <;> rfl
  | cons g t ih =>
    simp only [List.cons_append, scan, hpre g (by simp)]
    exact ih fun g hg => hpre g (List.mem_cons_of_mem _ hg)

/-- C68. A cached result is the content of a fresh file of the directory. -/
theorem C68_cached {α : Type} (now : ℚ) (access : Bool) (fs : Fs α) (v : α) (h : load now access fs = some v) :
    ∃ l f, fs = some l ∧ f ∈ l ∧ Fresh now f ∧ f.read = .ok (some v) := by
  cases fs with
  | none => simp [load] at h
  | some l =>
    cases access with
    | false => simp [load] at h
    | true =>
      simp only [load, if_true] at h
      have key : ∀ k : List (File α), scan now k = some v → ∃ f ∈ k, Fresh now f ∧ f.read = .ok (some v) := by
        intro k
        induction k with
        | nil => intro h; simp [scan] at h
        | cons g t ih =>
          intro h
          simp only [scan, tryFile] at h
          cases hs : g.stat with
          | error e =>
            rw [hs] at h
            obtain ⟨f, h1, h2⟩ := ih h
            exact ⟨f, List.mem_cons_of_mem _ h1, h2⟩
          | ok m =>
            rw [hs] at h
            simp only at h
            by_cases ha : now - m ≤ maxAge
            · rw [if_pos ha] at h
              cases hr : g.read with
              | error e =>
                rw [hr] at h
                obtain ⟨f, h1, h2⟩ := ih h
                exact ⟨f, List.mem_cons_of_mem _ h1, h2⟩
              | ok d =>
                rw [hr] at h
                simp only at h
                exact ⟨g, by simp, ⟨m, hs, ha⟩, by rw [hr, h]⟩
            · rw [if_neg ha] at h
              simp at h
      obtain ⟨f, h1, h2, h3⟩ := key _ h
      exact ⟨l, f, rfl, (sorted_perm l).mem_iff.mp h1, h2, h3⟩

/-- C68. A directory that has a fresh readable result, and in which all files with later names are unreadable, corrupt or removed,
gives that result. -/
theorem C68_found {α : Type} (now : ℚ) (l : List (File α)) (hd : Distinct l) (f : File α) (hf : f ∈ l) (v : Option α)
    (hfresh : Fresh now f) (hr : f.read = .ok v) (hlater : ∀ g ∈ l, f.name < g.name → tryFile now g = .error .failed) :
    load now true (some l) = v := by
  obtain ⟨m, hm, hage⟩ := hfresh
  have hmem : f ∈ sorted l := (sorted_perm l).mem_iff.mpr hf
  obtain ⟨pre, post, e⟩ := List.append_of_mem hmem
  have hnd : ((sorted l).map File.name).Nodup := ((sorted_perm l).map File.name).nodup_iff.mpr hd
  have hpw := sorted_pairwise l
  rw [e] at hpw hnd
  have hpre : ∀ g ∈ pre, tryFile now g = .error .failed := by
    intro g hg
    have hle : f.name ≤ g.name := (List.pairwise_append.mp hpw).2.2 g hg f (by simp)
    have hne : g.name ≠ f.name := by
      rw [List.map_append] at hnd
      exact (List.nodup_append.mp hnd).2.2 g.name (List.mem_map_of_mem hg) f.name (by simp)
    refine hlater g ?_ (lt_of_le_of_ne hle (Ne.symm hne))
    refine (sorted_perm l).mem_iff.mp ?_
    rw [e]
    simp [hg]
  have hF : tryFile now f = .ok (.ret v) := by
    exact tryFile_fresh now f m hm hage v hr
  simp only [load, if_true, e]
  rw [scan_eq now pre post f hpre _ hF]

/-- The state of the directory after a result was stored: the file is there, and the others that could not be removed have earlier
names. -/
theorem save_found {α : Type} (s : Saving) (v : Option α) (fs : Fs α) (hm : s.mkdir = true) (hw : s.write = .ok)
    (hg : s.glob = true) (hd : ∀ l, fs = some l → Distinct l)
    (hu : ∀ l, fs = some l → ∀ f ∈ l, s.unlink f.name = true ∨ f.name ≤ s.name) (now : ℚ) (hn : now - s.mtime ≤ 86400) :
    load now true (save s v fs) = v := by
  have hd' : Distinct (fs.getD []) := by
    cases fs with
    | none => simp [Distinct]
    | some l => exact hd l rfl
  have hu' : ∀ f ∈ fs.getD [], s.unlink f.name = true ∨ f.name ≤ s.name := by
    cases fs with
    | none => simp
    | some l => exact hu l rfl
  simp only [save, hm, if_true]
  refine C68_found now _ ?_ ⟨s.name, .ok s.mtime, .ok v⟩ ?_ v ⟨s.mtime, rfl, hn⟩ rfl ?_
  · simp only [removed, hg, if_true, written, hw, Distinct]
    refine List.Nodup.sublist (List.Sublist.map _ List.filter_sublist) ?_
    rw [List.map_cons, List.nodup_cons]
    constructor
    · intro hc
      obtain ⟨f, hf, he⟩ := List.mem_map.mp hc
      rw [List.mem_filter] at hf
      exact (of_decide_eq_true hf.2) he
    · exact List.Nodup.sublist (List.Sublist.map _ List.filter_sublist) hd'
  · simp [removed, hg, written, hw]
  · intro g hg' hlt
    exfalso
    simp only [removed, hg, if_true, written, hw, List.mem_filter, List.mem_cons, decide_eq_true_eq] at hg'
    obtain ⟨h1, h2⟩ := hg'
    rcases h1 with rfl | ⟨h1, h3⟩
    · exact absurd hlt (lt_irrefl _)
    · rcases h2 with h2 | h2
      · exact h3 h2
      · rcases hu' g h1 with h4 | h4
        · rw [h4] at h2; cases h2
        · simp only at hlt
          omega

/-- C68. At most one request per day: after a check that has made a request and stored its result, none of the checks in the 24 hours
after that makes a request, and each of them gets the stored result. The result is not the JSON text `null`, the other files could
be removed or have earlier names, and the directory can be looked at. -/
theorem C68_once {α : Type} (e : Env α) (es : List (Env α)) (fs : Fs α) (v : α) (hq : (get e fs).2.2 = true)
    (hv : request e = .ok (some v)) (hm : e.saving.mkdir = true) (hw : e.saving.write = .ok)
    (hg : e.saving.glob = true) (hd : ∀ l, fs = some l → Distinct l)
    (hu : ∀ l, fs = some l → ∀ f ∈ l, e.saving.unlink f.name = true ∨ f.name ≤ e.saving.name)
    (hes : ∀ e' ∈ es, e'.access = true ∧ e'.now - e.saving.mtime ≤ 86400) :
    (run (e :: es) fs).1 = (some v, true) :: es.map fun _ => (some v, false) := by
  have h0 : get e fs = (some v, save e.saving (some v) fs, true) := by
    unfold get at hq ⊢
    cases hl : load e.now e.access fs with
    | some d => rw [hl] at hq; simp at hq
    | none => simp only [hv]
  have hrest : ∀ es : List (Env α), (∀ e' ∈ es, e'.access = true ∧ e'.now - e.saving.mtime ≤ 86400) →
      (run es (save e.saving (some v) fs)).1 = es.map fun _ => (some v, false) := by
    intro es
    induction es with
    | nil => intro _; rfl
    | cons e' t ih =>
      intro h
      obtain ⟨ha, hn⟩ := h e' (by simp)
      have hl := save_found e.saving (some v) fs hm hw hg hd hu e'.now hn
      have h1 : get e' (save e.saving (some v) fs) = (some v, save e.saving (some v) fs, false) := by
        unfold get
        rw [ha, hl]
      simp only [run, h1, List.map_cons]
      rw [ih fun x hx => h x (List.mem_cons_of_mem _ hx)]
  simp only [run, h0]
  rw [hrest es hes]

def exSaving : Saving := ⟨true, .ok, true, fun _ => true, 7, 100⟩
def exEnv (now : ℚ) : Env ℕ := ⟨now, true, .ok (200, .ok (some 3)), exSaving⟩

/-- A corrupt file, and an old one; then checks after an hour, after a day and after two days. -/
def exFs : Fs ℕ := some [⟨2, .ok 5, .error .failed⟩, ⟨1, .ok (-90000), .ok (some 1)⟩]

theorem load_one {α : Type} (now m : ℚ) (n : ℕ) (d : Option α) :
    load now true (some [⟨n, .ok m, .ok d⟩]) = if now - m ≤ 86400 then d else none := by
  simp only [load, sorted, List.mergeSort_singleton, scan, if_true]
  by_cases h : now - m ≤ 86400
  · rw [tryFile_fresh now ⟨n, .ok m, .ok d⟩ m rfl h d rfl, if_pos h]
  · rw [tryFile_stale now ⟨n, .ok m, .ok d⟩ m rfl (not_le.mp h), if_neg h]

theorem exLoad : load 100 true exFs = none := by
  cases h : load 100 true exFs with
  | none => rfl
  | some v =>
    obtain ⟨l, f, h1, h2, ⟨m, h3, h4⟩, h5⟩ := C68_cached _ _ _ _ h
    simp only [exFs, Option.some.injEq] at h1
    subst h1
    simp only [List.mem_cons, List.not_mem_nil, or_false] at h2
    rcases h2 with rfl | rfl
    · simp at h5
    · simp only [Except.ok.injEq] at h3
      subst h3
      norm_num at h4

example : (run [exEnv 100, exEnv 3700, exEnv 86500] exFs).1 = [(some 3, true), (some 3, false), (some 3, false)] := by
  refine C68_once (exEnv 100) [exEnv 3700, exEnv 86500] exFs 3 ?_ rfl rfl rfl rfl ?_ ?_ ?_
  · simp only [get, exEnv, exLoad, request]
  · rintro l h; cases h; simp [Distinct]
  · rintro l h; cases h; simp [exEnv, exSaving]
  · intro e he
    simp only [List.mem_cons, List.not_mem_nil, or_false] at he
    rcases he with rfl | rfl <;> simp [exEnv, exSaving] <;> norm_num

/-- C68. After a day there is a new request. -/
theorem C68_expires {α : Type} (e : Env α) (n : ℕ) (m : ℚ) (d : Option α) (h : 86400 < e.now - m) :
    (get e (some [⟨n, .ok m, .ok d⟩])).2.2 = true := by
  have : load e.now e.access (some [⟨n, .ok m, .ok d⟩]) = none := by
    cases ha : e.access with
    | false => simp [load]
    | true => rw [load_one, if_neg (by linarith)]
  unfold get
  rw [this]
  simp only
  cases request e <;> rfl

example : (86400 : ℚ) < (exEnv 90000).now - 100 := by norm_num [exEnv]

/-- C68 fails for a reply that is the JSON text `null`: it is stored, but reads as if nothing was stored, so that every check makes a
request. -/
theorem C68_null_fails :
    ∃ e : Env ℕ, request e = .ok none ∧ (get e none).2.2 = true ∧
      (run [e, e, e] none).1 = [(none, true), (none, true), (none, true)] := by
  let e : Env ℕ := ⟨100, true, .ok (200, .ok none), exSaving⟩
  have hl : load 100 true (none : Fs ℕ) = none := rfl
  have hs : ∀ fs : Fs ℕ, fs = none ∨ fs = some [⟨7, .ok 100, .ok none⟩] →
      get e fs = (none, some [⟨7, .ok 100, .ok none⟩], true) := by
    rintro fs (rfl | rfl)
    · rfl
    · have : load 100 true (some [⟨7, .ok 100, .ok none⟩]) = (none : Option ℕ) := by rw [load_one]; simp
      simp only [get, e, this, request]
      rfl
  refine ⟨e, rfl, ?_, ?_⟩
  · rw [hs none (.inl rfl)]
  · simp only [run, hs _ (.inl rfl), hs _ (.inr rfl)]

/-- C68 fails when a stale file with a later name cannot be removed (the clock was set back, say): the loop stops at it, and the
result just stored is never found. -/
theorem C68_stale_fails (now m m' : ℚ) (n n' v w : ℕ) (hn : n < n') (h' : 86400 < now - m') :
    load now true (some [⟨n, .ok m, .ok (some v)⟩, ⟨n', .ok m', .ok (some w)⟩]) = none := by
  have hs : sorted [(⟨n, .ok m, .ok (some v)⟩ : File ℕ), ⟨n', .ok m', .ok (some w)⟩] =
      [⟨n', .ok m', .ok (some w)⟩, ⟨n, .ok m, .ok (some v)⟩] := by
    unfold sorted
    have h1 : ¬ n' ≤ n := by omega
    simp [List.mergeSort, List.MergeSort.Internal.splitInTwo, h1]
  simp only [load, if_true, hs, scan]
  rw [tryFile_stale now ⟨n', .ok m', .ok (some w)⟩ m' rfl h']

example : (86400 : ℚ) < 100000 - 1 := by norm_num

/-! ## C90: only answers are stored -/

/-- C90 fails: the status of the reply is not looked at. An error page in JSON is stored and used for a day. -/
theorem C90_status_fails (page : ℕ) :
    ∃ e e' : Env ℕ, e.reply = .ok (503, .ok (some page)) ∧ e'.reply = .ok (200, .ok (some 3)) ∧ e'.now = e.now + 3600 ∧
      (run [e, e'] none).1 = [(some page, true), (some page, false)] := by
  refine ⟨⟨100, true, .ok (503, .ok (some page)), exSaving⟩, ⟨3700, true, .ok (200, .ok (some 3)), exSaving⟩, rfl, rfl, by norm_num, ?_⟩
  have := C68_once (⟨100, true, .ok (503, .ok (some page)), exSaving⟩ : Env ℕ) [⟨3700, true, .ok (200, .ok (some 3)), exSaving⟩] none page
    rfl rfl rfl rfl rfl (by simp) (by simp) (by simp [exSaving]; norm_num)
  simpa using this

/-- C90, where it holds: a request that fails, or whose reply cannot be decoded, leaves the directory as it is. Missing: replies with
an error status and a JSON text, see above. -/
theorem C90_failed_partial {α : Type} (e : Env α) (fs : Fs α) (err : Err) (h : request e = .error err) :
    (get e fs).2.1 = fs := by
  unfold get
  cases load e.now e.access fs with
  | some d => rfl
  | none => simp only [h]

example : request (⟨0, true, .error .failed, exSaving⟩ : Env ℕ) = .error .failed := rfl

/-! ## C69: several processes -/

theorem runAll_cons (name : ℕ → ℕ) (σ : State) (i : ℕ) (s : List ℕ) : runAll name σ (i :: s) = runAll name (step name σ i) s := rfl

theorem runAll_append (name : ℕ → ℕ) (σ : State) (s t : List ℕ) : runAll name σ (s ++ t) = runAll name (runAll name σ s) t := by
  simp [runAll]

/-- C69 fails: each of two processes deletes the file of the other. -/
theorem C69_race_fails :
    ∃ σ₀, Start 2 σ₀ ∧ Finished 2 (runAll (fun i => i) σ₀ [0, 1, 0, 1, 0, 1, 0, 1]) ∧
      (runAll (fun i => i) σ₀ [0, 1, 0, 1, 0, 1, 0, 1]).files = [] := by
  refine ⟨⟨[], fun i => if i < 2 then .write else .done⟩,
    ⟨List.nodup_nil, fun i hi => if_pos hi, fun i hi => if_neg (not_lt.mpr hi)⟩, ?_, by decide⟩
  intro i hi
  have : i = 0 ∨ i = 1 := by omega
  rcases this with rfl | rfl <;> decide

/-- The files of processes that have not written yet are not known to any process. -/
def Unknown (name : ℕ → ℕ) (σ : State) (p : ℕ) : Prop :=
  σ.pc p = .write → name p ∉ σ.files ∧ ∀ i r, σ.pc i = .unlink r → name p ∉ r

theorem unknown_step (name : ℕ → ℕ) (hinj : Function.Injective name) (σ : State) (p i : ℕ) (h : Unknown name σ p) :
    Unknown name (step name σ i) p := by
  intro hp
  have hpw : σ.pc p = .write := by
    by_contra hc
    by_cases hip : p = i
    · subst hip
      unfold step at hp
      split at hp <;> simp_all
    · unfold step at hp
      split at hp <;> simp_all [Function.update_of_ne hip]
  obtain ⟨h1, h2⟩ := h hpw
  have hne : name p ≠ name i ∨ i = p := by
    by_cases hip : i = p
    · exact .inr hip
    · exact .inl fun e => hip (hinj e.symm)
  rcases hne with hne | rfl
  · have hip : i ≠ p := fun e => hne (by rw [e])
    unfold step
    split
    · refine ⟨?_, fun j r hj => ?_⟩
      · simp only
        split
        · exact h1
        · simp [hne, h1]
      · by_cases hji : j = i
        · subst hji; simp at hj
        · simp only [Function.update_of_ne hji] at hj
          exact h2 j r hj
    · refine ⟨h1, fun j r hj => ?_⟩
      by_cases hji : j = i
      · subst hji
        simp only [Function.update_self, Pc.unlink.injEq] at hj
        subst hj
        intro hm
        exact h1 (List.mem_of_mem_filter hm)
      · simp only [Function.update_of_ne hji] at hj
        exact h2 j r hj
    · refine ⟨h1, fun j r hj => ?_⟩
      by_cases hji : j = i
      · subst hji; simp at hj
      · simp only [Function.update_of_ne hji] at hj
        exact h2 j r hj
    · rename_i n r' hpc
      refine ⟨fun hm => h1 (List.mem_of_mem_filter hm), fun j r hj => ?_⟩
      by_cases hji : j = i
      · subst hji
        simp only [Function.update_self, Pc.unlink.injEq] at hj
        subst hj
        intro hm
        exact h2 j _ hpc (List.mem_cons_of_mem _ hm)
      · simp only [Function.update_of_ne hji] at hj
        exact h2 j r hj
    · exact ⟨h1, h2⟩
  · exfalso
    unfold step at hp
    rw [hpw] at hp
    simp at hp

theorem unknown_run (name : ℕ → ℕ) (hinj : Function.Injective name) (σ : State) (p : ℕ) (s : List ℕ) (h : Unknown name σ p) :
    Unknown name (runAll name σ s) p := by
  induction s generalizing σ with
  | nil => exact h
  | cons i t ih => exact ih _ (unknown_step name hinj σ p i h)

/-- The file of `p` is there, no process is about to delete it, and the others have listed the directory. -/
def Safe (name : ℕ → ℕ) (p : ℕ) (σ : State) : Prop :=
  name p ∈ σ.files ∧ σ.pc p ≠ .write ∧ (∀ i r, σ.pc i = .unlink r → name p ∉ r) ∧ ∀ i, i ≠ p → σ.pc i ≠ .list ∧ σ.pc i ≠ .write

theorem safe_step (name : ℕ → ℕ) (σ : State) (p i : ℕ) (h : Safe name p σ) : Safe name p (step name σ i) := by
  obtain ⟨h1, h2, h3, h4⟩ := h
  unfold step
  split
  · rename_i hpc
    by_cases hip : i = p
    · subst hip; exact absurd hpc h2
    · exact absurd hpc (h4 i hip).2
  · rename_i hpc
    have hip : i = p := by
      by_contra hc
      exact (h4 i hc).1 hpc
    subst hip
    refine ⟨h1, by simp, fun j r hj => ?_, fun j hj => ?_⟩
    · by_cases hji : j = i
      · subst hji
        simp only [Function.update_self, Pc.unlink.injEq] at hj
        subst hj
        simp
      · simp only [Function.update_of_ne hji] at hj
        exact h3 j r hj
    · simp only [Function.update_of_ne hj]
      exact h4 j hj
  · refine ⟨h1, ?_, fun j r hj => ?_, fun j hj => ?_⟩
    · by_cases hpi : p = i
      · subst hpi; simp
      · simp only [Function.update_of_ne hpi]; exact h2
    · by_cases hji : j = i
      · subst hji; simp at hj
      · simp only [Function.update_of_ne hji] at hj
        exact h3 j r hj
    · by_cases hji : j = i
      · subst hji; simp
      · simp only [Function.update_of_ne hji]; exact h4 j hj
  · rename_i n r' hpc
    have hn : name p ≠ n := by
      rintro e
      exact h3 i _ hpc (by rw [e]; simp)
    refine ⟨?_, ?_, fun j r hj => ?_, fun j hj => ?_⟩
    · simp [h1, hn]
    · by_cases hpi : p = i
      · subst hpi; simp
      · simp only [Function.update_of_ne hpi]; exact h2
    · by_cases hji : j = i
      · subst hji
        simp only [Function.update_self, Pc.unlink.injEq] at hj
        subst hj
        exact fun hm => h3 j _ hpc (List.mem_cons_of_mem _ hm)
      · simp only [Function.update_of_ne hji] at hj
        exact h3 j r hj
    · by_cases hji : j = i
      · subst hji; simp
      · simp only [Function.update_of_ne hji]; exact h4 j hj
  · exact ⟨h1, h2, h3, h4⟩

theorem done_run (name : ℕ → ℕ) (σ : State) (s : List ℕ) (i : ℕ) (h : σ.pc i = .done) : (runAll name σ s).pc i = .done := by
  induction s generalizing σ with
  | nil => exact h
  | cons j t ih =>
    refine ih _ ?_
    by_cases hji : i = j
    · subst hji; unfold step; rw [h]; exact h
    · unfold step
      split <;> simp [Function.update_of_ne hji, h]

/-- C69, where it holds: processes save in any order, each under a name of its own that is not there yet. If process `p` writes its
file when all others have already listed the directory (so that it is the last, as it would be if writing and listing were one
step), its file remains, whatever the order of the remaining steps. Missing: the race above. -/
theorem C69_last_partial (name : ℕ → ℕ) (hinj : Function.Injective name) (k : ℕ) (σ₀ : State) (h0 : Start k σ₀) (p : ℕ)
    (hp : name p ∉ σ₀.files) (s t : List ℕ) (hw : (runAll name σ₀ s).pc p = .write)
    (hothers : ∀ i < k, i ≠ p → (runAll name σ₀ s).pc i ≠ .list ∧ (runAll name σ₀ s).pc i ≠ .write) :
    name p ∈ (runAll name σ₀ (s ++ p :: t)).files := by
  have hu : Unknown name σ₀ p := fun _ => ⟨hp, fun i r hi => by
    rcases lt_or_ge i k with h | h
    · rw [h0.2.1 i h] at hi; cases hi
    · rw [h0.2.2 i h] at hi; cases hi⟩
  replace hothers : ∀ i, i ≠ p → (runAll name σ₀ s).pc i ≠ .list ∧ (runAll name σ₀ s).pc i ≠ .write := by
    intro i hi
    rcases lt_or_ge i k with h | h
    · exact hothers i h hi
    · rw [done_run name σ₀ s i (h0.2.2 i h)]; simp
  have hu' := unknown_run name hinj σ₀ p s hu hw
  rw [runAll_append, runAll_cons]
  generalize runAll name σ₀ s = σ at *
  have hs : Safe name p (step name σ p) := by
    unfold step
    rw [hw]
    refine ⟨?_, by simp, fun j r hj => ?_, fun j hj => ?_⟩
    · simp only
      split
      · assumption
      · simp
    · by_cases hji : j = p
      · subst hji; simp at hj
      · simp only [Function.update_of_ne hji] at hj
        exact hu'.2 j r hj
    · simp only [Function.update_of_ne hj]
      exact hothers j hj
  have : ∀ τ, Safe name p τ → Safe name p (runAll name τ t) := by
    intro τ hτ
    induction t generalizing τ with
    | nil => exact hτ
    | cons i t ih => exact ih _ (safe_step name τ p i hτ)
  exact (this _ hs).1

/-- Process 1 starts when process 0 has listed the directory, while process 0 has yet to delete the old file. -/
example : ∃ σ₀, Start 2 σ₀ ∧ (runAll (fun i => i + 1) σ₀ [0, 0]).pc 1 = .write ∧
    (∀ i < 2, i ≠ 1 → (runAll (fun i => i + 1) σ₀ [0, 0]).pc i ≠ .list ∧ (runAll (fun i => i + 1) σ₀ [0, 0]).pc i ≠ .write) ∧
    (runAll (fun i => i + 1) σ₀ ([0, 0] ++ 1 :: [1, 0, 1, 1, 0])).files = [2] := by
  refine ⟨⟨[0], fun i => if i < 2 then .write else .done⟩,
    ⟨by simp, fun i hi => if_pos hi, fun i hi => if_neg (not_lt.mpr hi)⟩, by decide, by decide, by decide⟩

/-- C69. When processes with the same name (that is, in the same second) save one after the other or at the same time, the file
remains. -/
theorem C69_same_name (n : ℕ) (k : ℕ) (σ₀ : State) (h0 : Start k σ₀) (s : List ℕ) (p : ℕ) (hp : p < k)
    (hd : (runAll (fun _ => n) σ₀ s).pc p ≠ .write) : n ∈ (runAll (fun _ => n) σ₀ s).files := by
  have inv : ∀ τ : State, ((∀ i r, τ.pc i = .unlink r → n ∉ r) ∧ (n ∈ τ.files ∨ ∀ i < k, τ.pc i = .write)) → ∀ i,
      ((∀ j r, (step (fun _ => n) τ i).pc j = .unlink r → n ∉ r) ∧
        (n ∈ (step (fun _ => n) τ i).files ∨ ∀ j < k, (step (fun _ => n) τ i).pc j = .write)) := by
    rintro τ ⟨h1, h2⟩ i
    unfold step
    split
    · refine ⟨fun j r hj => ?_, .inl ?_⟩
      · by_cases hji : j = i
        · subst hji; simp at hj
        · simp only [Function.update_of_ne hji] at hj; exact h1 j r hj
      · simp only
        split
        · assumption
        · simp
    · rename_i hpc
      refine ⟨fun j r hj => ?_, ?_⟩
      · by_cases hji : j = i
        · subst hji
          simp only [Function.update_self, Pc.unlink.injEq] at hj
          subst hj
          simp
        · simp only [Function.update_of_ne hji] at hj; exact h1 j r hj
      · rcases h2 with h2 | h2
        · exact .inl h2
        · by_cases hik : i < k
          · rw [h2 i hik] at hpc; cases hpc
          · refine .inr fun j hj => ?_
            have : j ≠ i := by omega
            simp only [Function.update_of_ne this]; exact h2 j hj
    · rename_i hpc
      refine ⟨fun j r hj => ?_, ?_⟩
      · by_cases hji : j = i
        · subst hji; simp at hj
        · simp only [Function.update_of_ne hji] at hj; exact h1 j r hj
      · rcases h2 with h2 | h2
        · exact .inl h2
        · by_cases hik : i < k
          · rw [h2 i hik] at hpc; cases hpc
          · refine .inr fun j hj => ?_
            have : j ≠ i := by omega
            simp only [Function.update_of_ne this]; exact h2 j hj
    · rename_i m r' hpc
      refine ⟨fun j r hj => ?_, ?_⟩
      · by_cases hji : j = i
        · subst hji
          simp only [Function.update_self, Pc.unlink.injEq] at hj
          subst hj
          exact fun hm => h1 j _ hpc (List.mem_cons_of_mem _ hm)
        · simp only [Function.update_of_ne hji] at hj; exact h1 j r hj
      · rcases h2 with h2 | h2
        · left
          have : n ≠ m := fun e => h1 i _ hpc (by rw [e]; simp)
          simp [h2, this]
        · by_cases hik : i < k
          · rw [h2 i hik] at hpc; cases hpc
          · refine .inr fun j hj => ?_
            have : j ≠ i := by omega
            simp only [Function.update_of_ne this]; exact h2 j hj
    · exact ⟨h1, h2⟩
  have hall : ∀ s (τ : State), ((∀ i r, τ.pc i = .unlink r → n ∉ r) ∧ (n ∈ τ.files ∨ ∀ i < k, τ.pc i = .write)) →
      (n ∈ (runAll (fun _ => n) τ s).files ∨ ∀ i < k, (runAll (fun _ => n) τ s).pc i = .write) := by
    intro s
    induction s with
    | nil => exact fun τ h => h.2
    | cons i t ih => exact fun τ h => ih _ (inv τ h i)
  have hs : ∀ i r, σ₀.pc i = .unlink r → n ∉ r := by
    intro i r hi
    rcases lt_or_ge i k with h | h
    · rw [h0.2.1 i h] at hi; cases hi
    · rw [h0.2.2 i h] at hi; cases hi
  rcases hall s σ₀ ⟨hs, .inr h0.2.1⟩ with h | h
  · exact h
  · exact absurd (h p hp) hd

example : ∃ σ₀, Start 2 σ₀ ∧ Finished 2 (runAll (fun _ => 5) σ₀ [0, 1, 0, 1, 0, 1, 0, 1]) ∧
    (runAll (fun _ => 5) σ₀ [0, 1, 0, 1, 0, 1, 0, 1]).files = [5] := by
  refine ⟨⟨[1], fun i => if i < 2 then .write else .done⟩,
    ⟨by simp, fun i hi => if_pos hi, fun i hi => if_neg (not_lt.mpr hi)⟩, ?_, by decide⟩
  intro i hi
  have : i = 0 ∨ i = 1 := by omega
  rcases this with rfl | rfl <;> decide

/-- C69. A file that was there before is gone when a process that does not use its name is done. -/
theorem C69_old_files (name : ℕ → ℕ) (k : ℕ) (σ₀ : State) (h0 : Start k σ₀) (o : ℕ) (ho : ∀ i, name i ≠ o) (s : List ℕ) (p : ℕ)
    (hp : p < k) (hd : (runAll name σ₀ s).pc p = .done) : o ∉ (runAll name σ₀ s).files := by
  -- no process is done while the file is there, and whoever deletes files has it on the list
  have inv : ∀ τ, (o ∈ τ.files → ∀ i < k, τ.pc i ≠ .done ∧ ∀ r, τ.pc i = .unlink r → o ∈ r) → ∀ i,
      (o ∈ (step name τ i).files → ∀ j < k, (step name τ i).pc j ≠ .done ∧ ∀ r, (step name τ i).pc j = .unlink r → o ∈ r) := by
    intro τ h i
    unfold step
    split
    · intro hm j hj
      have hm' : o ∈ τ.files := by
        simp only at hm
        split at hm
        · exact hm
        · rcases List.mem_cons.mp hm with e | hm
          · exact absurd e.symm (ho i)
          · exact hm
      by_cases hji : j = i
      · subst hji; simp
      · simp only [Function.update_of_ne hji]; exact h hm' j hj
    · intro hm j hj
      by_cases hji : j = i
      · subst hji
        simp only [Function.update_self]
        refine ⟨by simp, fun r hr => ?_⟩
        simp only [Pc.unlink.injEq] at hr
        subst hr
        rw [List.mem_filter]
        exact ⟨hm, by simp [Ne.symm (ho j)]⟩
      · simp only [Function.update_of_ne hji]; exact h hm j hj
    · rename_i hpc
      intro hm j hj
      by_cases hji : j = i
      · subst hji
        have := (h hm j hj).2 _ hpc
        simp at this
      · simp only [Function.update_of_ne hji]; exact h hm j hj
    · rename_i n r' hpc
      intro hm j hj
      simp only [List.mem_filter, decide_eq_true_eq] at hm
      by_cases hji : j = i
      · subst hji
        simp only [Function.update_self]
        refine ⟨by simp, fun r hr => ?_⟩
        simp only [Pc.unlink.injEq] at hr
        subst hr
        rcases List.mem_cons.mp ((h hm.1 j hj).2 _ hpc) with e | hm'
        · exact absurd e hm.2
        · exact hm'
      · simp only [Function.update_of_ne hji]; exact h hm.1 j hj
    · exact h
  have hall : ∀ s τ, (o ∈ τ.files → ∀ i < k, τ.pc i ≠ .done ∧ ∀ r, τ.pc i = .unlink r → o ∈ r) →
      (o ∈ (runAll name τ s).files → ∀ i < k, (runAll name τ s).pc i ≠ .done ∧ ∀ r, (runAll name τ s).pc i = .unlink r → o ∈ r) := by
    intro s
    induction s with
    | nil => exact fun τ h => h
    | cons i t ih => exact fun τ h => ih _ (inv τ h i)
  intro hm
  exact (hall s σ₀ (fun _ i hi => by rw [h0.2.1 i hi]; simp) hm p hp).1 hd

example : ∃ σ₀, Start 1 σ₀ ∧ (0 : ℕ) ∈ σ₀.files ∧ (runAll (fun i => i + 1) σ₀ [0, 0, 0, 0]).pc 0 = .done ∧
    (runAll (fun i => i + 1) σ₀ [0, 0, 0, 0]).files = [1] := by
  refine ⟨⟨[0], fun i => if i < 1 then .write else .done⟩,
    ⟨by simp, fun i hi => if_pos hi, fun i hi => if_neg (not_lt.mpr hi)⟩, by simp, by decide, by decide⟩

end Verif.Web
