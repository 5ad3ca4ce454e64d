import Verif.Registry.Lemmas
import Mathlib.Data.List.Induction

/-!
# C41-C43: the registry of backends
-/

namespace Verif.Registry
open Verif.Py

/-! ## C41 -/

/-- A concrete backend named `mine`. -/
def mine : Cls where
  isBackend := true
  isConverter := false
  abstractMethods := []
  name := some "mine"
  requires := some ">=0.2"
  author := some "me"
  version := none
  doi := []
  arXiv := ["1234.5678"]
  zenodo := []
  load := none
  init := .ok ()

/-- The running version meets the requirement `>=0.2` and no other. -/
def v : Spec := fun s => .ok (s == ">=0.2")

/-- One entry point, `default`, with class number 1; all other classes are `mine`. -/
def world : World where
  classes := fun c => if c = 1 then { mine with name := some "default" } else mine
  entries := [("default", .point (.ok 1))]

theorem admissible_mine : Admissible v world 0 "mine" where
  kind := Or.inl rfl
  concrete := by simp [world, mine]
  named := rfl
  free := by simp [world]
  requires := ⟨">=0.2", rfl, rfl⟩

/-- C41: `register_backend` succeeds exactly if the class is admissible; then its name leads to the class, every other name
leads to what it led to before, the new name is the last one, and no class changes. Otherwise it raises and nothing changes. -/
theorem C41_all_or_nothing (spec : Spec) (w : World) (c : ℕ) :
    ((register spec w c).2 = .ok c ↔ ∃ name, Admissible spec w c name) ∧
    (∀ name, Admissible spec w c name →
      dictGet name (register spec w c).1.entries = some (.cls c) ∧
      (∀ n, n ≠ name → dictGet n (register spec w c).1.entries = dictGet n w.entries) ∧
      (register spec w c).1.entries.map Prod.fst = w.entries.map Prod.fst ++ [name] ∧
      (register spec w c).1.classes = w.classes) ∧
    ((∀ name, ¬ Admissible spec w c name) → ∃ e, register spec w c = (w, .error e)) := by
  refine ⟨⟨fun h => ?_, fun ⟨name, h⟩ => by rw [register_ok h]⟩, fun name h => ?_, fun h => ?_⟩
  · rcases register_cases spec w c with ⟨name, ha, _⟩ | ⟨_, e, he⟩
    · exact ⟨name, ha⟩
    · rw [he] at h; simp at h
  · rw [register_ok h]
    simp only [← dictSet_new h.free (v := .cls c)]
    refine ⟨by rw [dictGet_set]; simp, fun n hn => by rw [dictGet_set]; simp [hn], ?_, trivial⟩
    rw [dictSet_new h.free]
    simp
  · rcases register_cases spec w c with ⟨name, ha, _⟩ | ⟨_, he⟩
    · exact absurd ha (h name)
    · exact he

example : (register v world 0).2 = .ok 0 ∧ (register v world 0).1.entries.map Prod.fst = ["default", "mine"] ∧
    ∃ e, register v world 1 = (world, .error e) := by
  have h := C41_all_or_nothing v world 0
  refine ⟨h.1.mpr ⟨"mine", admissible_mine⟩, (h.2.1 "mine" admissible_mine).2.2.1, ?_⟩
  refine (C41_all_or_nothing v world 1).2.2 fun name ha => ?_
  have hn := ha.named
  simp only [world, if_true, Option.some.injEq] at hn
  subst hn
  exact ha.free (.point (.ok 1)) (by simp [world])

/-- C41: the exceptions. What is no backend and no converter is refused with `AssertionError`, an abstract class with
`AbstractModel`, missing metadata with `MissingMetaData`, a taken name with `ValueError`, and a requirement which is not met
with `PluginError`, checked in this order. -/
theorem C41_exceptions (spec : Spec) (w : World) (c : ℕ) :
    ((register spec w c).2 = .error .assertion ↔
      ((w.classes c).isBackend = false ∧ (w.classes c).isConverter = false) ∨
      ((w.classes c).isBackend = true ∨ (w.classes c).isConverter = true) ∧ (w.classes c).abstractMethods = [] ∧
        ∃ req name, (w.classes c).requires = some req ∧ (w.classes c).name = some name ∧
          name ∉ w.entries.map Prod.fst ∧ spec req = .error .assertion) ∧
    (((w.classes c).isBackend = true ∨ (w.classes c).isConverter = true) →
      ((w.classes c).abstractMethods ≠ [] → (register spec w c).2 = .error .abstract) ∧
      ((w.classes c).abstractMethods = [] →
        ((w.classes c).requires = none ∨ (w.classes c).name = none → (register spec w c).2 = .error .missingMeta) ∧
        ∀ req name, (w.classes c).requires = some req → (w.classes c).name = some name →
          (name ∈ w.entries.map Prod.fst → (register spec w c).2 = .error .value) ∧
          (name ∉ w.entries.map Prod.fst → (∀ e, spec req = .error e → (register spec w c).2 = .error e) ∧
            (spec req = .ok false → (register spec w c).2 = .error .plugin)))) := by
  constructor
  · unfold register checkRegister
    cases hb : (w.classes c).isBackend <;> cases hc : (w.classes c).isConverter <;>
      simp only [Bool.false_eq_true, or_false, false_or, or_self, or_true, not_true, not_false_eq_true, if_true,
        if_false, and_self, true_and, and_true, false_and, and_false, reduceCtorEq]
    all_goals
      by_cases ha : (w.classes c).abstractMethods = []
      · simp only [ha, ne_eq, not_true, if_false, true_and]
        cases hr : (w.classes c).requires with
        | none => simp
        | some req =>
          cases hn : (w.classes c).name with
          | none => simp
          | some name =>
            by_cases hf : name ∈ w.entries.map Prod.fst
            · simp only [hf, if_true]
              simp only [Except.error.injEq, reduceCtorEq, Option.some.injEq, false_iff, not_exists]
              rintro req' name' ⟨rfl, rfl, h, _⟩
              exact h hf
            · simp only [hf, if_false]
              constructor
              · intro h
                refine ⟨req, name, rfl, rfl, hf, ?_⟩
                cases hs : spec req with
                | error e => simpa [hs] using h
                | ok b => cases b <;> simp [hs] at h
              · rintro ⟨req', name', h1, h2, h3, h4⟩
                simp only [Option.some.injEq] at h1
                subst h1
                simp [h4]
      · simp [ha]
  · intro hk
    have hk' : ¬ ¬ ((w.classes c).isBackend = true ∨ (w.classes c).isConverter = true) := not_not.mpr hk
    refine ⟨fun ha => ?_, fun ha => ⟨fun hm => ?_, fun req name hr hn => ⟨fun hf => ?_, fun hf => ⟨fun e hs => ?_, fun hs => ?_⟩⟩⟩⟩
    all_goals unfold register checkRegister; rw [if_neg hk']
    · rw [if_pos ha]
    · rw [if_neg (not_not.mpr ha)]
      rcases hm with hm | hm
      · simp [hm]
      · cases hr : (w.classes c).requires <;> simp [hm]
    · rw [if_neg (not_not.mpr ha)]
      simp only [hr, hn, hf, if_true]
    · rw [if_neg (not_not.mpr ha)]
      simp only [hr, hn, hf, if_false, hs]
    · rw [if_neg (not_not.mpr ha)]
      simp only [hr, hn, hf, if_false, hs]

example : (register v { world with classes := fun _ => { mine with requires := some ">=9" } } 0).2 = .error .plugin := by
  refine (((C41_exceptions v _ 0).2 (Or.inl rfl)).2 rfl).2 ">=9" "mine" rfl rfl |>.2 ?_ |>.2 rfl
  simp [world]

/-- C41: after every history of registrations, scans, look-ups and changes of classes, names are unique, and every class in
the registry got there by a registration of this class under this name which was admissible at that moment. -/
theorem C41_history (spec : Spec) (w : World) (hu : Unique w) (hw : ∀ n c, (n, Entry.cls c) ∉ w.entries) (ops : List Op) :
    Unique (run spec w ops) ∧
    ∀ n c, (n, Entry.cls c) ∈ (run spec w ops).entries → WasRegistered spec w ops n c := by
  induction ops using List.reverseRecOn with
  | nil => exact ⟨hu, fun n c h => absurd h (hw n c)⟩
  | append_singleton ops o ih =>
    have hrun : run spec w (ops ++ [o]) = step spec (run spec w ops) o := by rw [run_append]; rfl
    have hext : ∀ n c, WasRegistered spec w ops n c → WasRegistered spec w (ops ++ [o]) n c := by
      rintro n c ⟨a, b, rfl, h⟩
      exact ⟨a, b ++ [o], by simp, h⟩
    rw [hrun]
    obtain ⟨ihu, ihm⟩ := ih
    cases o with
    | register c =>
      rcases register_cases spec (run spec w ops) c with ⟨name, ha, he⟩ | ⟨_, e, he⟩
      · simp only [step, he]
        constructor
        · simp only [Unique, List.map_append, List.map_cons, List.map_nil, List.nodup_append]
          refine ⟨ihu, by simp, ?_⟩
          intro a ha' b hb
          simp only [List.mem_singleton] at hb
          subst hb
          rintro rfl
          exact not_mem_keys.mpr ha.free ha'
        · intro n c' h
          rw [List.mem_append] at h
          rcases h with h | h
          · exact hext _ _ (ihm n c' h)
          · simp only [List.mem_singleton, Prod.mk.injEq, Entry.cls.injEq] at h
            obtain ⟨rfl, rfl⟩ := h
            exact ⟨ops, [], rfl, ha⟩
      · simp only [step, he]
        exact ⟨ihu, fun n c h => hext _ _ (ihm n c h)⟩
    | reset found =>
      refine ⟨unique_update ihu, fun n c h => ?_⟩
      rcases mem_update h with h | h
      · simp at h
      · exact hext _ _ (ihm n c h)
    | get name =>
      simp only [step, Unique, get_entries]
      exact ⟨ihu, fun n c h => hext _ _ (ihm n c h)⟩
    | edit c new => exact ⟨ihu, fun n c h => hext _ _ (ihm n c h)⟩

example : Unique (run v world [.register 0, .get "mine", .register 0, .reset [("default", .ok 1)]]) :=
  (C41_history v world (by simp [Unique, world]) (by simp [world]) _).1

/-- C41: a registered class stays in the registry until a scan of the system finds an entry point of that name. -/
theorem C41_stays (spec : Spec) (w : World) (c : ℕ) (name : String) (h : dictGet name w.entries = some (.cls c))
    (ops : List Op) (hops : ∀ o ∈ ops, ∀ found, o = .reset found → ∀ p ∈ found, p.1 ≠ name) :
    dictGet name (run spec w ops).entries = some (.cls c) := by
  induction ops generalizing w with
  | nil => exact h
  | cons o ops ih =>
    refine ih (step spec w o) ?_ (fun o' ho' => hops o' (List.mem_cons_of_mem _ ho'))
    cases o with
    | register c' =>
      rcases register_cases spec w c' with ⟨n, ha, he⟩ | ⟨_, e, he⟩
      · simp only [step, he]
        rw [← dictSet_new ha.free, dictGet_set]
        split
        · rename_i hn
          subst hn
          exact absurd (mem_of_dictGet h) (ha.free _)
        · exact h
      · simp only [step, he]; exact h
    | reset found =>
      simp only [step, reset]
      rw [dictGet_update, h]
      intro e he
      rw [List.mem_map] at he
      obtain ⟨p, hp, hpe⟩ := he
      simp only [Prod.mk.injEq] at hpe
      exact hops _ List.mem_cons_self found rfl p hp hpe.1
    | get n => simp only [step, get_entries]; exact h
    | edit c' new => exact h

example : dictGet "mine" (run v (register v world 0).1 [.get "mine", .reset [("default", .ok 1)], .register 3]).entries =
    some (.cls 0) := by
  refine C41_stays v _ 0 "mine" ((C41_all_or_nothing v world 0).2.1 _ admissible_mine).1 _ ?_
  intro o ho found hf p hp
  simp only [List.mem_cons, List.not_mem_nil, or_false] at ho
  rcases ho with rfl | rfl | rfl
  · simp at hf
  · simp only [Op.reset.injEq] at hf
    subst hf
    simp only [List.mem_singleton] at hp
    subst hp
    decide
  · simp at hf

/-- C41, what is not true: `register_backend` refuses a name that is taken, but `reset_backend_entries` replaces a registered
class by an entry point of the same name, silently and for every name it finds. -/
theorem C41_replaced_by_scan_fails (w : World) (found : List (String × Except Err ℕ)) (name : String) (r : Except Err ℕ)
    (h : (name, r) ∈ found) : ∀ c, dictGet name (reset w found).entries ≠ some (.cls c) := by
  intro c hc
  have : ∃ e, (name, e) ∈ found.map fun p => (p.1, Entry.point p.2) :=
    ⟨.point r, List.mem_map.mpr ⟨(name, r), h, rfl⟩⟩
  obtain ⟨e, he, hg⟩ := dictGet_update_mem (d := w.entries) this
  rw [reset] at hc
  rw [hg] at hc
  simp only [Option.some.injEq] at hc
  subst hc
  simp at he

example : dictGet "mine" (reset (register v world 0).1 [("mine", .ok 7)]).entries ≠ some (.cls 0) :=
  C41_replaced_by_scan_fails _ _ "mine" (.ok 7) (by simp) 0

/-! ## C42 -/

/-- C42 is false. Whatever class is registered: unless the class happens to define a method `load` of its own, both
`get_backend` and `get_backend_metadata` raise `AttributeError` for its name. -/
theorem C42_registered_not_usable_fails (spec : Spec) (w : World) (c : ℕ) (name : String) (h : Admissible spec w c name)
    (hl : (w.classes c).load = none) :
    (register spec w c).2 = .ok c ∧
    getBackend spec (register spec w c).1 name = ((register spec w c).1, .error .attribute) ∧
    getMetadata (register spec w c).1 name = .error .attribute := by
  have hg := ((C41_all_or_nothing spec w c).2.1 name h)
  have hload : load (register spec w c).1 (.cls c) = .error .attribute := by
    simp only [load, hg.2.2.2, hl]
  refine ⟨(C41_all_or_nothing spec w c).1.mpr ⟨name, h⟩, ?_, ?_⟩
  · simp only [getBackend, hg.1, hload]
  · simp only [getMetadata, hg.1, hload]

example : (register v world 0).2 = .ok 0 ∧ (getBackend v (register v world 0).1 "mine").2 = .error .attribute := by
  have h := C42_registered_not_usable_fails v world 0 "mine" admissible_mine rfl
  exact ⟨h.1, by rw [h.2.1]⟩

/-- C42, what is true: a backend installed as an entry point can be used. If names are unique, the entry point loads class
`c`, the class has the same name (or none), is concrete, and its requirement is met, then `get_backend` returns a wrapper of
the class; for converters, a wrapper of a new instance. The metadata are those of the class. -/
theorem C42_installed_usable_partial (spec : Spec) (w : World) (hu : Unique w) (name : String) (c : ℕ) (req : String)
    (hi : Installed w name c) (ha : ∀ m, m ∉ (w.classes c).abstractMethods) (hr : (w.classes c).requires = some req)
    (hs : spec req = .ok true) (hn : ∀ n, (w.classes c).name = some n → n = name ∨ n = "")
    (hinit : (w.classes c).isConverter = true → (w.classes c).init = .ok ()) :
    (getBackend spec w name).2 = .ok (if (w.classes c).isConverter then .instance c else .cls c) ∧
    ((getBackend spec w name).1.classes c).name = some name ∧
    (getBackend spec w name).1.entries = w.entries ∧
    (∀ c', c' ≠ c → (getBackend spec w name).1.classes c' = w.classes c') ∧
    getMetadata w name = .ok
      { name := (w.classes c).name.getD "__unknown_model__"
        author := (w.classes c).author.getD "__unknown_author__"
        version := (w.classes c).version.getD "__unknown_version__"
        requires := req
        doi := (w.classes c).doi
        arXiv := (w.classes c).arXiv
        zenodo := (w.classes c).zenodo } := by
  have hg : dictGet name w.entries = some (.point (.ok c)) := dictGet_of_mem hu hi
  have hid : ∃ w', identify w name c = (w', .ok ()) := by
    unfold identify
    cases hc : (w.classes c).name with
    | none => exact ⟨_, rfl⟩
    | some n =>
      by_cases he : n = ""
      · simp [he]
      · have : n = name := (hn n hc).resolve_right he
        simp [← this, he]
  obtain ⟨w', hw'⟩ := hid
  obtain ⟨h1, h2, h3, h4, _⟩ := identify_ok hw'
  have ha' : (w.classes c).abstractMethods = [] := List.eq_nil_iff_forall_not_mem.mpr ha
  have hgb : getBackend spec w name = (w', finish spec w' req c) := by
    simp only [getBackend, hg, load, hr, hw']
  rw [hgb]
  refine ⟨?_, h1, h2, h3, by simp only [getMetadata, hg, load, hr]⟩
  simp only [finish, hs, h4, ha', ne_eq, not_true, if_false]
  by_cases hc : (w.classes c).isConverter = true
  · simp [hc, hinit hc]
  · simp [hc]

example : (getBackend v world "default").2 = .ok (.cls 1) :=
  (C42_installed_usable_partial v world (by simp [Unique, world]) "default" 1 ">=0.2" (by simp [Installed, world])
    (by simp [world, mine]) rfl rfl (by intro n hn; left; simpa [world] using hn.symm) (by simp [world, mine])).1

/-! ## C43 -/

/-- C43: whatever `get_backend` returns is a wrapper of a class (or of an instance of a converter) that the entry of this name
loads, with the requirement met by the running version, without abstract methods, and carrying the requested name. -/
theorem C43_only_compatible (spec : Spec) (w : World) (name : String) (x : Wrapped) (h : (getBackend spec w name).2 = .ok x) :
    ∃ entry c req, dictGet name w.entries = some entry ∧ load w entry = .ok c ∧
      (x = if (w.classes c).isConverter then .instance c else .cls c) ∧
      (w.classes c).requires = some req ∧ spec req = .ok true ∧ (∀ m, m ∉ (w.classes c).abstractMethods) ∧
      ((getBackend spec w name).1.classes c).name = some name := by
  unfold getBackend at h ⊢
  cases hg : dictGet name w.entries with
  | none => simp [hg] at h
  | some entry =>
    simp only [hg] at h ⊢
    cases hl : load w entry with
    | error e => simp [hl] at h
    | ok c =>
      simp only [hl] at h ⊢
      cases hr : (w.classes c).requires with
      | none => simp [hr] at h
      | some req =>
        simp only [hr] at h ⊢
        rcases hid : identify w name c with ⟨w', e | u⟩
        · simp [hid] at h
        · simp only [hid] at h ⊢
          obtain ⟨h1, h2, h3, h4, _⟩ := identify_ok hid
          refine ⟨entry, c, req, rfl, hl, ?_⟩
          unfold finish at h
          rcases hs : spec req with e | b
          · simp [hs] at h
          · cases b
            · simp [hs] at h
            · simp only [hs, h4] at h
              by_cases ha : (w.classes c).abstractMethods = []
              · simp only [ha, ne_eq, not_true, if_false] at h
                refine ⟨?_, hr, rfl, by simp [ha], h1⟩
                by_cases hc : (w.classes c).isConverter = true
                · simp only [hc, if_true] at h ⊢
                  cases hi : (w.classes c).init with
                  | error e => simp [hi] at h
                  | ok u => simp only [hi, Except.ok.injEq] at h; exact h.symm
                · simp only [hc, Bool.false_eq_true, if_false, Except.ok.injEq] at h ⊢
                  exact h.symm
              · simp [ha] at h

example : ∃ entry c req, dictGet "default" world.entries = some entry ∧ load world entry = .ok c ∧
    (world.classes c).requires = some req ∧ v req = .ok true := by
  obtain ⟨entry, c, req, h1, h2, _, h3, h4, _⟩ := C43_only_compatible v world "default" (.cls 1)
    (C42_installed_usable_partial v world (by simp [Unique, world]) "default" 1 ">=0.2" (by simp [Installed, world])
      (by simp [world, mine]) rfl rfl (by intro n hn; left; simpa [world] using hn.symm) (by simp [world, mine])).1
  exact ⟨entry, c, req, h1, h2, h3, h4⟩

/-- C43: the refusals. A name that is not in the registry raises `PluginError`. If the entry loads class `c`: no
`spey_requires` raises `AssertionError`; another name raises `AssertionError`; a requirement that is not met raises
`PluginError`; an abstract class raises `AbstractModel`. -/
theorem C43_refusals (spec : Spec) (w : World) (name : String) :
    ((∀ e, (name, e) ∉ w.entries) → getBackend spec w name = (w, .error .plugin) ∧ getMetadata w name = .error .plugin) ∧
    (∀ entry c, dictGet name w.entries = some entry → load w entry = .ok c →
      ((w.classes c).requires = none → getBackend spec w name = (w, .error .assertion)) ∧
      ∀ req, (w.classes c).requires = some req →
        (∀ n, (w.classes c).name = some n → n ≠ name → n ≠ "" → getBackend spec w name = (w, .error .assertion)) ∧
        ((∀ n, (w.classes c).name = some n → n = name ∨ n = "") →
          (spec req = .ok false → (getBackend spec w name).2 = .error .plugin) ∧
          (spec req = .ok true → (w.classes c).abstractMethods ≠ [] → (getBackend spec w name).2 = .error .abstract))) := by
  constructor
  · intro h
    have : dictGet name w.entries = none := by
      cases hg : dictGet name w.entries with
      | none => rfl
      | some e => exact absurd (mem_of_dictGet hg) (h e)
    exact ⟨by simp only [getBackend, this], by simp only [getMetadata, this]⟩
  · intro entry c hg hl
    refine ⟨fun hr => by simp only [getBackend, hg, hl, hr], fun req hr => ⟨fun n hn h1 h2 => ?_, fun hn => ?_⟩⟩
    · have : identify w name c = (w, .error .assertion) := by simp only [identify, hn, h2, h1, if_false]
      simp only [getBackend, hg, hl, hr, this]
    · have hid : ∃ w', identify w name c = (w', .ok ()) := by
        unfold identify
        cases hc : (w.classes c).name with
        | none => exact ⟨_, rfl⟩
        | some n =>
          by_cases he : n = ""
          · simp [he]
          · have : n = name := (hn n hc).resolve_right he
            simp [← this, he]
      obtain ⟨w', hw'⟩ := hid
      obtain ⟨h1, h2, h3, h4, _⟩ := identify_ok hw'
      have hgb : getBackend spec w name = (w', finish spec w' req c) := by
        simp only [getBackend, hg, hl, hr, hw']
      rw [hgb]
      constructor
      · intro hs; simp only [finish, hs]
      · intro hs ha
        simp only [finish, hs, h4, ha, ne_eq, not_false_eq_true, if_true]

example : getBackend v world "nothing" = (world, .error .plugin) :=
  ((C43_refusals v world "nothing").1 (by simp [world])).1

/-- C43, what is not true: a refused look-up may still change something. An incompatible class without a name is refused with
`PluginError`, but carries the name of the entry afterwards; another entry for the same class, which would have been checked
for its version before, is now refused with `AssertionError`. -/
theorem C43_refused_names_class_fails :
    ∃ (w : World) (c : ℕ), (getBackend v w "a").2 = .error .plugin ∧ (w.classes c).name = none ∧
      ((getBackend v w "a").1.classes c).name = some "a" ∧ (getBackend v w "b").2 = .error .plugin ∧
      (getBackend v (getBackend v w "a").1 "b").2 = .error .assertion := by
  refine ⟨{ classes := fun _ => { mine with name := none, requires := some ">=9" },
            entries := [("a", .point (.ok 0)), ("b", .point (.ok 0))] }, 0, ?_, rfl, ?_, ?_, ?_⟩
  · simp [getBackend, dictGet, load, identify, finish, v]
  · simp [getBackend, dictGet, load, identify]
  · simp [getBackend, dictGet, load, identify, finish, v]
  · simp [getBackend, dictGet, load, identify]

end Verif.Registry
