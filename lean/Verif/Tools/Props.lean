import Verif.Tools.Spec
import Mathlib.Data.List.TakeWhile
import Mathlib.Tactic

/-!
# Properties C131-C137: tools around the models
-/

namespace Verif.Tools

/-! ## C131: the minimiser -/

theorem set_spec (iminuit : Bool) (env : Option String) (name : String) :
    setOptimiser iminuit env name = match meaning iminuit name with | none => env | some .scipy => some "scipy" | some .minuit => some "minuit" := by
  unfold setOptimiser meaning
  by_cases h1 : name = "scipy"
  · subst h1; simp
  · by_cases h2 : name = "minuit" ∨ name = "iminuit"
    · cases iminuit <;> simp [h1, h2]
    · simp [h1, h2]

theorem chosen_set (iminuit : Bool) (lower : String → String) (hs : lower "scipy" = "scipy") (hm : lower "minuit" = "minuit") (m : Min) (hi : m = .minuit → iminuit = true) :
    chosen iminuit lower (match m with | .scipy => some "scipy" | .minuit => some "minuit") none = .ok m := by
  cases m with
  | scipy => simp [chosen, minimizerName, hs, getMinimizer]
  | minuit => simp [chosen, minimizerName, hm, getMinimizer, hi rfl]

/-- C131: after any sequence of calls of `set_optimiser` a fit uses the last minimiser that was asked for and is installed, and if there is none the one of the environment
before. -/
theorem C131_set_partial (iminuit : Bool) (lower : String → String) (hs : lower "scipy" = "scipy") (hm : lower "minuit" = "minuit") (names : List String) :
    ∀ env, chosen iminuit lower (names.foldl (setOptimiser iminuit) env) none = match lastAsked iminuit names with | some m => .ok m | none => chosen iminuit lower env none := by
  induction names with
  | nil => intro env; rfl
  | cons name names ih =>
    intro env
    rw [List.foldl_cons, ih]
    unfold lastAsked
    rw [List.filterMap_cons, set_spec]
    cases hn : meaning iminuit name with
    | none => rfl
    | some m =>
      have hc := chosen_set iminuit lower hs hm m (by
        rintro rfl
        unfold meaning at hn
        split at hn
        · cases hn
        · split at hn
          · rename_i h; exact h.2
          · cases hn)
      cases hl : (names.filterMap (meaning iminuit)).getLast? with
      | none =>
        rw [List.getLast?_eq_none_iff] at hl
        simp only [hl, List.getLast?_singleton]
        cases m <;> exact hc
      | some m' =>
        rw [List.getLast?_cons, hl]
        rfl

/-- C131: the argument `minimizer` of a call wins over the environment, and no name at all makes the choice fail. -/
theorem C131_option (iminuit : Bool) (lower : String → String) (env : Option String) :
    chosen iminuit lower env (some "scipy") = .ok .scipy ∧ chosen iminuit lower env (some "minuit") = .ok (if iminuit then .minuit else .scipy) ∧
      ∀ option, ∃ m, chosen iminuit lower env option = .ok m := by
  refine ⟨by simp [chosen, minimizerName, getMinimizer], ?_, fun option => ?_⟩
  · cases iminuit <;> simp [chosen, minimizerName, getMinimizer]
  · unfold chosen minimizerName
    simp only
    split
    · exact ⟨.scipy, by simp [getMinimizer]⟩
    · rename_i h
      simp only [List.mem_cons, List.not_mem_nil, or_false, not_not] at h
      rcases h with h | h <;> rw [h] <;> cases iminuit <;> simp [getMinimizer]

/-- C131 is false for the names: `iminuit` is known to `set_optimiser` only, and letters of another case to the environment variable only. Everywhere else scipy is used
instead. -/
theorem C131_names_fails (lower : String → String) (h1 : lower "minuit" = "minuit") (h2 : lower "iminuit" = "iminuit") (h3 : lower "Minuit" = "minuit") :
    (chosen true lower (setOptimiser true none "iminuit") none = .ok .minuit ∧ chosen true lower (some "iminuit") none = .ok .scipy ∧
      ∀ env, chosen true lower env (some "iminuit") = .ok .scipy) ∧
    (chosen true lower (some "Minuit") none = .ok .minuit ∧ (∀ env, chosen true lower env (some "Minuit") = .ok .scipy) ∧
      ∀ env, setOptimiser true env "Minuit" = env) := by
  simp [chosen, minimizerName, getMinimizer, setOptimiser, h1, h2, h3]

example : lastAsked true ["minuit", "scipy", "iminuit", "newton"] = some .minuit ∧ lastAsked false ["scipy", "minuit"] = some .scipy := by decide

/-! ## C132: messages that should be written once -/

section
variable {κ : Type} [DecidableEq κ]

/-- The different keys of a history, the latest call first, each at its latest call. -/
def recent : List κ → List κ
  | [] => []
  | k :: h => k :: (recent h).filter (· ≠ k)

theorem mem_recent (k : κ) : ∀ h : List κ, k ∈ recent h ↔ k ∈ h
  | [] => Iff.rfl
  | x :: h => by
    simp only [recent, List.mem_cons, List.mem_filter, mem_recent k h, decide_eq_true_eq]
    tauto

theorem nodup_recent : ∀ h : List κ, (recent h).Nodup
  | [] => List.nodup_nil
  | x :: h => by
    simp only [recent, List.nodup_cons, List.mem_filter]
    exact ⟨by simp, (nodup_recent h).filter _⟩

theorem takeWhile_filter (p q : κ → Bool) (hpq : ∀ x, p x = false → q x = true) : ∀ l : List κ, (l.filter q).takeWhile p = (l.takeWhile p).filter q
  | [] => rfl
  | x :: l => by
    have ih := takeWhile_filter p q hpq l
    by_cases hp : p x = true
    · by_cases hq : q x = true
      · simp [hp, hq, ih]
      · simp [hp, hq, ih]
    · have hq := hpq x (by simpa using hp)
      simp [hp, hq]

theorem takeWhile_recent (k : κ) : ∀ h : List κ, (recent h).takeWhile (· ≠ k) = recent (h.takeWhile (· ≠ k))
  | [] => rfl
  | x :: h => by
    by_cases hx : x = k
    · subst hx; simp [recent]
    · have := takeWhile_filter (fun y => decide (y ≠ k)) (fun y => decide (y ≠ x)) (by
        intro y hy
        simp only [decide_eq_false_iff_not, not_not] at hy
        subst hy
        simpa using Ne.symm hx) (recent h)
      simp only [recent, List.takeWhile_cons, hx, ne_eq, not_false_eq_true, decide_true, if_true]
      simp only [ne_eq] at this
      rw [this]
      have ih := takeWhile_recent k h
      simp only [ne_eq] at ih
      rw [ih]

theorem length_recent (h : List κ) : (recent h).length = h.dedup.length := by
  apply List.Perm.length_eq
  rw [List.perm_ext_iff_of_nodup (nodup_recent h) (List.nodup_dedup h)]
  intro a
  rw [mem_recent, List.mem_dedup]

theorem mem_take (k : κ) : ∀ (n : ℕ) (l : List κ), k ∈ l.take n ↔ k ∈ l ∧ (l.takeWhile (· ≠ k)).length < n
  | 0, l => by simp
  | n + 1, [] => by simp
  | n + 1, x :: l => by
    have ih := mem_take k n l
    by_cases hx : x = k
    · subst hx; simp
    · simp only [List.take_succ_cons, List.mem_cons, ih, Ne.symm hx, false_or, List.takeWhile_cons, ne_eq, hx, not_false_eq_true, decide_true, if_true, List.length_cons,
        Nat.add_lt_add_iff_right]

/-- The cache holds the latest keys. -/
theorem lru_recent (n : ℕ) (hn : 0 < n) (h : List κ) (k : κ) : (lru n ((recent h).take n) k).2 = (recent (k :: h)).take n := by
  obtain ⟨m, rfl⟩ : ∃ m, n = m + 1 := ⟨n - 1, by omega⟩
  unfold lru
  have hnd := nodup_recent h
  simp only [recent, List.take_succ_cons]
  generalize recent h = r at hnd ⊢
  by_cases hk : k ∈ r.take (m + 1)
  · rw [if_pos hk]
    congr 1
    obtain ⟨a, b, hab⟩ := List.append_of_mem ((List.take_subset _ _) hk)
    subst hab
    have hka : k ∉ a := fun h => by
      rw [List.nodup_append] at hnd
      exact hnd.2.2 k h k (by simp) rfl
    have hkb : k ∉ b := fun h => by
      rw [List.nodup_append] at hnd
      exact (List.nodup_cons.mp hnd.2.1).1 h
    have hal : a.length ≤ m := by
      by_contra hc
      rw [List.take_append_of_le_length (by omega)] at hk
      exact hka ((List.take_subset _ _) hk)
    have hfa : a.filter (· ≠ k) = a := List.filter_eq_self.mpr fun x hx => by simpa using fun e : x = k => hka (e ▸ hx)
    have hfb : b.filter (· ≠ k) = b := List.filter_eq_self.mpr fun x hx => by simpa using fun e : x = k => hkb (e ▸ hx)
    rw [List.filter_append, hfa, List.filter_cons_of_neg (by simp), hfb, List.take_append, List.take_append, List.take_of_length_le (show a.length ≤ m + 1 by omega),
      List.take_of_length_le hal, List.erase_append_right _ hka]
    congr 1
    rw [show m + 1 - a.length = (m - a.length) + 1 by omega, List.take_succ_cons, List.erase_cons_head]
  · rw [if_neg hk]
    congr 1
    have hf : (r.take (m + 1)).filter (· ≠ k) = r.take (m + 1) := List.filter_eq_self.mpr fun x hx => by simpa using fun e : x = k => hk (e ▸ hx)
    conv_rhs => rw [← List.take_append_drop (m + 1) r, List.filter_append, hf]
    rw [List.take_take, List.take_append]
    by_cases hl : r.length ≤ m
    · have : r.drop (m + 1) = [] := List.drop_eq_nil_of_le (by omega)
      simp [this, List.take_take]
    · have : m - (r.take (m + 1)).length = 0 := by simp; omega
      rw [this, List.take_zero, List.append_nil, List.take_take]

theorem lru_writes (n : ℕ) (h : List κ) (k : κ) : (lru n ((recent h).take n) k).1 = true ↔ k ∉ h ∨ n ≤ (h.takeWhile (· ≠ k)).dedup.length := by
  have : (lru n ((recent h).take n) k).1 = true ↔ k ∉ (recent h).take n := by
    unfold lru
    split <;> simp_all
  rw [this, mem_take, mem_recent, takeWhile_recent, length_recent]
  rw [not_and_or, not_lt]

theorem logOnce_length (cache l : List κ) : (logOnce cache l).length = l.length := by
  induction l generalizing cache with
  | nil => rfl
  | cons k l ih => simp [logOnce, ih]

theorem logOnce_from : ∀ (l h : List κ) (i : ℕ) (k : κ), l[i]? = some k →
    ((logOnce ((recent h).take 10) l)[i]? = some true ↔ k ∉ (l.take i).reverse ++ h ∨ 10 ≤ (((l.take i).reverse ++ h).takeWhile (· ≠ k)).dedup.length)
  | [], _, i, k, hi => by simp at hi
  | x :: l, h, 0, k, hi => by
    simp only [List.getElem?_cons_zero, Option.some.injEq] at hi
    subst hi
    simp only [logOnce, List.getElem?_cons_zero, Option.some.injEq, List.take_zero, List.reverse_nil, List.nil_append]
    exact lru_writes 10 h x
  | x :: l, h, i + 1, k, hi => by
    simp only [List.getElem?_cons_succ] at hi
    have ih := logOnce_from l (x :: h) i k hi
    simp only [logOnce, List.getElem?_cons_succ]
    rw [lru_recent 10 (by norm_num), ih]
    simp

/-- C132: a message is written if and only if it has not been asked for before, or if ten or more different other messages have come since it was asked for last. -/
theorem C132_exact (l : List κ) (i : ℕ) (k : κ) (hi : l[i]? = some k) : (logOnce [] l)[i]? = some true ↔ k ∉ l.take i ∨ 10 ≤ since k (l.take i) := by
  have := logOnce_from l [] i k hi
  simpa [since, recent] using this

/-- C132: a message is written once. Missing: more than ten different messages, for which the claim is false (`C132_again_fails`). -/
theorem C132_once_partial (l : List κ) (h10 : l.dedup.length ≤ 10) (i : ℕ) (k : κ) (hi : l[i]? = some k) : (logOnce [] l)[i]? = some true ↔ k ∉ l.take i := by
  rw [C132_exact l i k hi]
  refine or_iff_left fun hs => ?_
  unfold since at hs
  have hki : k ∈ l := List.mem_of_getElem? hi
  have hsub : (k :: ((l.take i).reverse.takeWhile (· ≠ k)).dedup) ⊆ l.dedup := by
    intro x hx
    rw [List.mem_dedup]
    rcases List.mem_cons.mp hx with rfl | hx
    · exact hki
    · rw [List.mem_dedup] at hx
      exact List.take_subset _ _ (List.mem_reverse.mp ((List.takeWhile_prefix _).subset hx))
  have hnd : (k :: ((l.take i).reverse.takeWhile (· ≠ k)).dedup).Nodup := by
    refine List.nodup_cons.mpr ⟨fun hx => ?_, List.nodup_dedup _⟩
    rw [List.mem_dedup] at hx
    simpa using List.mem_takeWhile_imp hx
  have := (hnd.subperm hsub).length_le
  simp only [List.length_cons] at this
  omega

/-- C132 is false in general: after ten different other messages a message is written again. -/
theorem C132_again_fails (k : κ) (others : List κ) (hn : others.Nodup) (hk : k ∉ others) (hl : others.length = 10) :
    (logOnce [] (k :: others ++ [k]))[0]? = some true ∧ (logOnce [] (k :: others ++ [k]))[11]? = some true := by
  constructor
  · rw [C132_exact _ 0 k (by simp)]
    simp
  · rw [C132_exact _ 11 k (by rw [List.getElem?_append_right (by simp [hl])]; simp [hl])]
    right
    have ht : (k :: others ++ [k]).take 11 = k :: others := by
      rw [List.take_append_of_le_length (by simp [hl]), List.take_of_length_le (by simp [hl])]
    rw [ht]
    unfold since
    rw [List.reverse_cons, List.takeWhile_append_of_pos (by
      intro x hx
      simp only [List.mem_reverse] at hx
      simpa using fun e : x = k => hk (e ▸ hx))]
    simp [(List.nodup_reverse.mpr hn).dedup, hl]

example : (logOnce [] [1, 2, 1, 1, 3, 2] = [true, true, false, false, true, false]) ∧
    logOnce [] [0, 1, 2, 3, 4, 5, 6, 7, 8, 9, 10, 0] = [true, true, true, true, true, true, true, true, true, true, true, true] := by decide

end

/-! ## C133: warnings -/

theorem track_kept : ∀ (t : Trace) (ok : Bool), ((track t).1 ++ if ok then (track t).2 else []).Perm (kept t ok)
  | .done, ok => by cases ok <;> simp [track, kept]
  | .warn w rest, ok => by
    have ih := track_kept rest ok
    cases ok
    · simpa [track, kept] using ih
    · simp only [track, kept, if_true] at ih ⊢
      exact List.perm_middle.trans (ih.cons w)
  | .call body o rest, ok => by
    have h1 := track_kept body o
    have h2 := track_kept rest ok
    simp only [track, kept]
    rw [List.append_assoc]
    exact h1.append h2

/-- C133: a function with the decorator writes each of its warnings once, and those of the decorated functions that it calls once. Missing: functions that raise, whose own
warnings are lost (`C133_raise_fails`). -/
theorem C133_warnings_partial (t : Trace) (h : Returns t) : (logged t true).Perm (all t) := by
  have hk : ∀ t, Returns t → kept t true = all t := by
    intro t
    induction t with
    | done => intro _; rfl
    | warn w rest ih => intro h; simp [kept, all, ih h]
    | call body ok rest ih1 ih2 => rintro ⟨h1, rfl, h2⟩; simp [kept, all, ih1 h1, ih2 h2]
  have := track_kept t true
  simp only [logged, track, List.append_nil]
  rw [hk t h] at this
  exact this

/-- C133: in general exactly the warnings are written whose own function returns, each once. -/
theorem C133_exact (t : Trace) (ok : Bool) : (logged t ok).Perm (kept t ok) := by
  simpa [logged, track] using track_kept t ok

/-- C133 is false for a function that raises: its warnings are neither shown nor written, whatever they are. -/
theorem C133_raise_fails (ws : List String) : logged (ws.foldr Trace.warn .done) false = [] ∧ all (ws.foldr Trace.warn .done) = ws := by
  have h1 : ∀ ws : List String, (track (ws.foldr Trace.warn .done)).1 = [] := by
    intro ws
    induction ws with
    | nil => rfl
    | cons w ws ih => simpa [track] using ih
  refine ⟨by simp [logged, track, h1], ?_⟩
  induction ws with
  | nil => rfl
  | cons w ws ih => simp [all, ih]

/-- A function that warns, calls a function that warns, and warns again: the inner warning is written first. -/
example : logged (.warn "a" (.call (.warn "b" .done) true (.warn "c" .done))) true = ["b", "a", "c"] ∧
    Returns (.warn "a" (.call (.warn "b" .done) true (.warn "c" .done))) := ⟨by decide, trivial, rfl, trivial⟩

/-! ## C134: entries for the literature -/

theorem get_known (net : String → Reply) (home url id : String) (hh : homeLoc home = some url) (hn : net (url ++ id) ≠ .noConnection) :
    getBibtex net home id = .ok ((known net url id).getD "") := by
  unfold getBibtex known
  rw [hh]
  simp only
  cases h : net (url ++ id) with
  | answer s t =>
    simp only
    by_cases hs : 200 ≤ s ∧ s ≤ 299
    · by_cases ht : t = ""
      · subst ht; simp [hs]
      · simp [hs, ht]
    · have : ¬ (200 ≤ s ∧ s ≤ 299 ∧ t ≠ "") := fun h => hs ⟨h.1, h.2.1⟩
      simp [hs, this]
  | noConnection => exact absurd h hn
  | failure => rfl

theorem known_ne (net : String → Reply) (url id t : String) (h : known net url id = some t) : t ≠ "" := by
  unfold known at h
  split at h
  · split at h
    · rename_i h'; simp only [Option.some.injEq] at h; rw [← h]; exact h'.2.2
    · cases h
  · cases h

theorem arxivLoop_eq (indent : String → String) (net : String → Reply) (hn : Online net) : ∀ (l : List String) (out : Entries),
    arxivLoop indent (getBibtex net) l out = ({ out with inspire := out.inspire ++ (l.filterMap (known net inspireArxiv)).map indent }, true)
  | [], out => by simp [arxivLoop]
  | i :: l, out => by
    simp only [arxivLoop]
    rw [get_known net "inspire/arxiv" inspireArxiv i rfl (hn _)]
    simp only
    rw [arxivLoop_eq indent net hn l]
    cases hk : known net inspireArxiv i with
    | none => simp [hk]
    | some t => simp [hk, known_ne _ _ _ _ hk]

theorem doiLoop_eq (indent : String → String) (net : String → Reply) (hn : Online net) : ∀ (l : List String) (out : Entries),
    doiLoop indent (getBibtex net) l out = ({ out with
      inspire := out.inspire ++ (l.filterMap (known net inspireDoi)).map indent
      doi := out.doi ++ (l.filter fun i => (known net inspireDoi i).isNone).filterMap (known net doiOrg) }, true)
  | [], out => by simp [doiLoop]
  | i :: l, out => by
    simp only [doiLoop]
    rw [get_known net "inspire/doi" inspireDoi i rfl (hn _)]
    simp only
    cases hk : known net inspireDoi i with
    | some t =>
      simp only [Option.getD_some, known_ne _ _ _ _ hk, if_false]
      rw [doiLoop_eq indent net hn l]
      simp [hk]
    | none =>
      simp only [Option.getD_none, if_true]
      rw [get_known net "doi" doiOrg i rfl (hn _)]
      simp only
      rw [doiLoop_eq indent net hn l]
      cases hd : known net doiOrg i with
      | none => simp [hk, hd]
      | some u => simp [hk, hd, known_ne _ _ _ _ hd]

theorem zenodoLoop_eq (indent : String → String) (net : String → Reply) (hn : Online net) : ∀ (l : List String) (out : Entries),
    zenodoLoop indent (getBibtex net) l out = ({ out with zenodo := out.zenodo ++ (l.filterMap (known net zenodoOrg)).map indent }, true)
  | [], out => by simp [zenodoLoop]
  | i :: l, out => by
    simp only [zenodoLoop]
    rw [get_known net "zenodo" zenodoOrg i rfl (hn _)]
    simp only
    rw [zenodoLoop_eq indent net hn l]
    cases hk : known net zenodoOrg i with
    | none => simp [hk]
    | some t => simp [hk, known_ne _ _ _ _ hk]

/-- C134: as long as there is a connection every identifier leads to the entry of the first place that knows it, in the order of the metadata; places that do not know it, and
requests that fail, only leave out that entry. -/
theorem C134_entries (indent : String → String) (net : String → Reply) (hn : Online net) (arxiv doi zenodo : List String) :
    backendBibtex indent net arxiv doi zenodo =
      ⟨(arxiv.filterMap (known net inspireArxiv) ++ doi.filterMap (known net inspireDoi)).map indent,
        (doi.filter fun i => (known net inspireDoi i).isNone).filterMap (known net doiOrg), (zenodo.filterMap (known net zenodoOrg)).map indent⟩ := by
  unfold backendBibtex
  simp only [arxivLoop_eq indent net hn, doiLoop_eq indent net hn, zenodoLoop_eq indent net hn, if_true, List.nil_append, List.map_append]

theorem get_extends (net net' : String → Reply) (he : Extends net net') (home id t : String) (h : getBibtex net home id = .ok t) : getBibtex net' home id = .ok t := by
  unfold getBibtex at h ⊢
  cases hh : homeLoc home with
  | none => rw [hh] at h; exact h
  | some url =>
    rw [hh] at h
    simp only at h ⊢
    have : net (url ++ id) ≠ .noConnection := by
      intro hc
      rw [hc] at h
      cases h
    rw [he _ this]
    exact h

theorem Entries.Prefix.refl (a : Entries) : a.Prefix a := ⟨List.prefix_rfl, List.prefix_rfl, List.prefix_rfl⟩

theorem Entries.Prefix.trans {a b c : Entries} (h : a.Prefix b) (h' : b.Prefix c) : a.Prefix c := ⟨h.1.trans h'.1, h.2.1.trans h'.2.1, h.2.2.trans h'.2.2⟩

/-- If the loop ends with a connection, the other net gives the same; if not, its result is a beginning of what the other net gives. -/
def Follows (a b : Entries × Bool) : Prop := if a.2 then b.1 = a.1 ∧ b.2 = true else a.1.Prefix b.1

theorem arxivLoop_grows (indent : String → String) (get : String → String → Except Err String) : ∀ (l : List String) (out : Entries), out.Prefix (arxivLoop indent get l out).1
  | [], out => Entries.Prefix.refl out
  | i :: l, out => by
    simp only [arxivLoop]
    cases get "inspire/arxiv" i with
    | error e => exact Entries.Prefix.refl out
    | ok t =>
      refine Entries.Prefix.trans ?_ (arxivLoop_grows indent get l _)
      split
      · exact ⟨List.prefix_append _ _, List.prefix_rfl, List.prefix_rfl⟩
      · exact Entries.Prefix.refl out

theorem zenodoLoop_grows (indent : String → String) (get : String → String → Except Err String) : ∀ (l : List String) (out : Entries), out.Prefix (zenodoLoop indent get l out).1
  | [], out => Entries.Prefix.refl out
  | i :: l, out => by
    simp only [zenodoLoop]
    cases get "zenodo" i with
    | error e => exact Entries.Prefix.refl out
    | ok t =>
      refine Entries.Prefix.trans ?_ (zenodoLoop_grows indent get l _)
      split
      · exact ⟨List.prefix_rfl, List.prefix_rfl, List.prefix_append _ _⟩
      · exact Entries.Prefix.refl out

theorem doiLoop_grows (indent : String → String) (get : String → String → Except Err String) : ∀ (l : List String) (out : Entries), out.Prefix (doiLoop indent get l out).1
  | [], out => Entries.Prefix.refl out
  | i :: l, out => by
    simp only [doiLoop]
    cases get "inspire/doi" i with
    | error e => exact Entries.Prefix.refl out
    | ok t =>
      simp only
      split
      · cases get "doi" i with
        | error e => exact Entries.Prefix.refl out
        | ok u =>
          refine Entries.Prefix.trans ?_ (doiLoop_grows indent get l _)
          split
          · exact ⟨List.prefix_rfl, List.prefix_append _ _, List.prefix_rfl⟩
          · exact Entries.Prefix.refl out
      · refine Entries.Prefix.trans ?_ (doiLoop_grows indent get l _)
        exact ⟨List.prefix_append _ _, List.prefix_rfl, List.prefix_rfl⟩

section
variable (indent : String → String) (net net' : String → Reply) (he : Extends net net')
include he

theorem arxivLoop_follows : ∀ (l : List String) (out : Entries), Follows (arxivLoop indent (getBibtex net) l out) (arxivLoop indent (getBibtex net') l out)
  | [], out => ⟨rfl, rfl⟩
  | i :: l, out => by
    cases h : getBibtex net "inspire/arxiv" i with
    | error e =>
      have : arxivLoop indent (getBibtex net) (i :: l) out = (out, false) := by simp [arxivLoop, h]
      rw [this]
      exact arxivLoop_grows indent _ _ _
    | ok t =>
      simp only [arxivLoop, h, get_extends net net' he _ _ _ h]
      exact arxivLoop_follows l _

theorem zenodoLoop_follows : ∀ (l : List String) (out : Entries), Follows (zenodoLoop indent (getBibtex net) l out) (zenodoLoop indent (getBibtex net') l out)
  | [], out => ⟨rfl, rfl⟩
  | i :: l, out => by
    cases h : getBibtex net "zenodo" i with
    | error e =>
      have : zenodoLoop indent (getBibtex net) (i :: l) out = (out, false) := by simp [zenodoLoop, h]
      rw [this]
      exact zenodoLoop_grows indent _ _ _
    | ok t =>
      simp only [zenodoLoop, h, get_extends net net' he _ _ _ h]
      exact zenodoLoop_follows l _

theorem doiLoop_follows : ∀ (l : List String) (out : Entries), Follows (doiLoop indent (getBibtex net) l out) (doiLoop indent (getBibtex net') l out)
  | [], out => ⟨rfl, rfl⟩
  | i :: l, out => by
    cases h : getBibtex net "inspire/doi" i with
    | error e =>
      have : doiLoop indent (getBibtex net) (i :: l) out = (out, false) := by simp [doiLoop, h]
      rw [this]
      exact doiLoop_grows indent _ _ _
    | ok t =>
      by_cases ht : t = ""
      · cases hd : getBibtex net "doi" i with
        | error e =>
          have : doiLoop indent (getBibtex net) (i :: l) out = (out, false) := by simp [doiLoop, h, ht, hd]
          rw [this]
          exact doiLoop_grows indent _ _ _
        | ok u =>
          simp only [doiLoop, h, get_extends net net' he _ _ _ h, ht, if_true, hd, get_extends net net' he _ _ _ hd]
          exact doiLoop_follows l _
      · simp only [doiLoop, h, get_extends net net' he _ _ _ h, ht, if_false]
        exact doiLoop_follows l _

/-- C134: a lost connection only cuts off: every list is a beginning of the list that would have been found with the connection. -/
theorem C134_offline (arxiv doi zenodo : List String) : (backendBibtex indent net arxiv doi zenodo).Prefix (backendBibtex indent net' arxiv doi zenodo) := by
  have h1 := arxivLoop_follows indent net net' he arxiv ⟨[], [], []⟩
  unfold backendBibtex
  rcases ha : arxivLoop indent (getBibtex net) arxiv ⟨[], [], []⟩ with ⟨o, ok⟩
  rcases hb : arxivLoop indent (getBibtex net') arxiv ⟨[], [], []⟩ with ⟨o', ok'⟩
  rw [ha, hb] at h1
  have grow : ∀ o : Entries, o.Prefix (if (doiLoop indent (getBibtex net') doi o).2 = true then
      (zenodoLoop indent (getBibtex net') zenodo (doiLoop indent (getBibtex net') doi o).1).1 else (doiLoop indent (getBibtex net') doi o).1) := by
    intro o
    have g := doiLoop_grows indent (getBibtex net') doi o
    split
    · exact g.trans (zenodoLoop_grows indent _ _ _)
    · exact g
  cases ok with
  | false =>
    simp only [Follows, Bool.false_eq_true, if_false] at h1 ⊢
    refine h1.trans ?_
    cases ok' with
    | false => exact Entries.Prefix.refl _
    | true => exact grow o'
  | true =>
    simp only [Follows, if_true] at h1
    obtain ⟨rfl, rfl⟩ := h1
    have h2 := doiLoop_follows indent net net' he doi o'
    simp only [if_true]
    rcases hc : doiLoop indent (getBibtex net) doi o' with ⟨p, ok⟩
    rcases hd : doiLoop indent (getBibtex net') doi o' with ⟨p', ok'⟩
    rw [hc, hd] at h2
    cases ok with
    | false =>
      simp only [Follows, Bool.false_eq_true, if_false] at h2 ⊢
      refine h2.trans ?_
      split
      · exact zenodoLoop_grows indent _ _ _
      · exact Entries.Prefix.refl _
    | true =>
      simp only [Follows, if_true] at h2
      obtain ⟨rfl, rfl⟩ := h2
      simp only [if_true]
      have h3 := zenodoLoop_follows indent net net' he zenodo p'
      unfold Follows at h3
      split at h3
      · rw [h3.1]; exact Entries.Prefix.refl _
      · exact h3

end

/-- One identifier known to Inspire, one to doi.org, and the connection lost before the third. -/
example : ∃ net net' : String → Reply, Extends net net' ∧ Online net' ∧
    backendBibtex id net ["a"] ["b", "c"] ["d"] = ⟨["A"], ["B"], []⟩ ∧ backendBibtex id net' ["a"] ["b", "c"] ["d"] = ⟨["A", "C"], ["B"], ["D"]⟩ := by
  let net' : String → Reply := fun u =>
    if u = inspireArxiv ++ "a" then .answer 200 "A" else if u = doiOrg ++ "b" then .answer 200 "B" else if u = inspireDoi ++ "c" then .answer 200 "C"
    else if u = zenodoOrg ++ "d" then .answer 200 "D" else .answer 404 "unknown"
  refine ⟨fun u => if u = inspireDoi ++ "c" then .noConnection else net' u, net', fun u hu => ?_, fun u => ?_, by decide, by decide⟩
  · by_cases h : u = inspireDoi ++ "c"
    · simp [h] at hu
    · simp [h]
  · simp only [net']; split_ifs <;> simp

/-! ## C135: how to cite -/

theorem isPrefixOf_self (a b : List Char) : a.isPrefixOf (a ++ b) = true := by
  rw [List.isPrefixOf_iff_prefix]; exact List.prefix_append a b

theorem lazyGroup_key (rest : List Char) : ∀ (key acc : List Char), acc ++ key ≠ [] → (∀ c ∈ key, c ≠ '\n') →
    lazyGroup acc (key ++ ',' :: '\n' :: rest) = some (acc ++ key)
  | [], acc, ha, _ => by
    rw [List.append_nil] at ha
    simp [lazyGroup, ha]
  | c :: key, acc, _, hc => by
    have h1 := hc c (by simp)
    have ih := lazyGroup_key rest key (acc ++ [c]) (by simp) fun c' h => hc c' (by simp [h])
    simp only [List.cons_append, lazyGroup]
    rw [if_neg (fun h => ?_), if_neg h1, ih]
    · simp
    · obtain ⟨-, h⟩ := h
      rw [List.isPrefixOf_iff_prefix] at h
      obtain ⟨t, ht⟩ := h
      cases key with
      | nil => simp at ht
      | cons d key => simp at ht; exact hc d (by simp) ht.2.1.symm

theorem search_key (key rest : List Char) (hk : key ≠ []) (hc : ∀ c ∈ key, c ≠ '\n') :
    search ("@software{".toList ++ key ++ ',' :: '\n' :: rest) = some key := by
  have e : "@software{".toList = ['@', 's', 'o', 'f', 't', 'w', 'a', 'r', 'e', '{'] := rfl
  have h := lazyGroup_key rest key [] (by simpa using hk) hc
  have hp := isPrefixOf_self "@software{".toList (key ++ ',' :: '\n' :: rest)
  rw [e] at hp ⊢
  simp only [List.cons_append, List.nil_append] at hp ⊢
  unfold search
  rw [e, if_pos hp]
  simp only [List.drop_succ_cons, List.drop_zero, h]
  simp

theorem replace_none (old new : List Char) : ∀ l : List Char, (∀ p q, l ≠ p ++ old ++ q) → replaceFrom old new 0 l = l
  | [], _ => rfl
  | c :: t, h => by
    unfold replaceFrom
    rw [if_neg, replace_none old new t fun p q e => h (c :: p) q (by simp [e])]
    rw [List.isPrefixOf_iff_prefix]
    rintro ⟨q, hq⟩
    exact h [] q (by simp [hq])

theorem replace_skip (old new : List Char) : ∀ (a b : List Char), replaceFrom old new a.length (a ++ b) = replaceFrom old new 0 b
  | [], b => rfl
  | c :: a, b => by
    simp only [List.length_cons, List.cons_append, replaceFrom]
    exact replace_skip old new a b

theorem replace_one (old new b : List Char) (ho : old ≠ []) : ∀ a : List Char, (∀ p q, a ++ old ++ b = p ++ old ++ q → p = a) →
    replaceFrom old new 0 (a ++ old ++ b) = a ++ new ++ replaceFrom old new 0 b
  | [], _ => by
    obtain ⟨c, t, rfl⟩ := List.exists_cons_of_ne_nil ho
    have := isPrefixOf_self (c :: t) b
    simp only [List.nil_append, List.cons_append] at this ⊢
    unfold replaceFrom
    rw [if_pos this]
    simp only [List.length_cons, Nat.add_sub_cancel]
    rw [replace_skip]
    cases b <;> rfl
  | c :: a, h => by
    simp only [List.cons_append]
    rw [replaceFrom, if_neg, replace_one old new b ho a fun p q e => by
      have := h (c :: p) q (by simp only [List.cons_append]; rw [e])
      simpa using this]
    rw [List.isPrefixOf_iff_prefix]
    rintro ⟨q, hq⟩
    have := h [] q (by simp only [List.nil_append, List.cons_append]; exact hq.symm)
    simp at this

/-- C135: `cite` gives the entry of the article and that of the program, of which only the key is changed. Missing: keys that also occur elsewhere in the entry, for which the
claim is false (`C135_key_fails`). -/
theorem C135_cite_partial (net : String → Reply) (key rest : List Char) (arxiv zenodo : String)
    (h1 : net (inspireArxiv ++ "2307.06996") = .answer 200 arxiv) (h2 : net (zenodoOrg ++ "10156353") = .answer 200 zenodo)
    (hz : zenodo.toList = "@software{".toList ++ key ++ ',' :: '\n' :: rest) (hk : key ≠ []) (hc : ∀ c ∈ key, c ≠ '\n')
    (honly : ∀ p q, zenodo.toList = p ++ key ++ q → p = "@software{".toList) :
    cite net = arxiv.toList ++ "\n\n".toList ++ ("@software{".toList ++ "spey_zenodo".toList ++ ',' :: '\n' :: rest) := by
  have g1 : getBibtex net "inspire/arxiv" "2307.06996" = .ok arxiv := by
    have : homeLoc "inspire/arxiv" = some inspireArxiv := rfl
    simp [getBibtex, this, h1]
  have g2 : getBibtex net "zenodo" "10156353" = .ok zenodo := by
    have : homeLoc "zenodo" = some zenodoOrg := rfl
    simp [getBibtex, this, h2]
  unfold cite
  simp only [g1, g2]
  congr 1
  unfold rename
  rw [hz] at honly ⊢
  rw [search_key key rest hk hc]
  simp only
  rw [replace_one key _ _ hk _ honly, replace_none]
  intro p q e
  have := honly ("@software{".toList ++ key ++ p) q (by rw [e]; simp)
  have := congrArg List.length this
  simp only [List.length_append] at this
  have : key.length = 0 := by omega
  exact hk (List.length_eq_zero_iff.mp this)

theorem search_none : ∀ z : List Char, (∀ p q, z ≠ p ++ "@software{".toList ++ q) → search z = none
  | [], _ => rfl
  | c :: t, h => by
    have hn : ¬ "@software{".toList.isPrefixOf (c :: t) = true := by
      rw [List.isPrefixOf_iff_prefix]
      rintro ⟨q, hq⟩
      exact h [] q (by rw [← hq]; rfl)
    unfold search
    rw [if_neg hn]
    exact search_none t fun p q e => h (c :: p) q (by rw [e]; rfl)

/-- C135: an entry of another kind is given unchanged. -/
theorem C135_other (net : String → Reply) (arxiv zenodo : String)
    (h1 : net (inspireArxiv ++ "2307.06996") = .answer 200 arxiv) (h2 : net (zenodoOrg ++ "10156353") = .answer 200 zenodo)
    (h : ∀ p q, zenodo.toList ≠ p ++ "@software{".toList ++ q) :
    cite net = arxiv.toList ++ "\n\n".toList ++ zenodo.toList := by
  have g1 : getBibtex net "inspire/arxiv" "2307.06996" = .ok arxiv := by
    have : homeLoc "inspire/arxiv" = some inspireArxiv := rfl
    simp [getBibtex, this, h1]
  have g2 : getBibtex net "zenodo" "10156353" = .ok zenodo := by
    have : homeLoc "zenodo" = some zenodoOrg := rfl
    simp [getBibtex, this, h2]
  unfold cite
  simp only [g1, g2, rename, search_none _ h]

theorem no_mark (z a : List Char) (h : ∀ i < z.length + 1, a.isPrefixOf (z.drop i) = false) : ∀ p q, z ≠ p ++ a ++ q := by
  intro p q e
  have hi := h p.length (by rw [e]; simp)
  rw [e, List.append_assoc, List.drop_left, isPrefixOf_self a q] at hi
  cases hi

/-- An entry of another kind. -/
example : (∀ p q, "@misc{a,\n title={b}}".toList ≠ p ++ "@software{".toList ++ q) ∧ rename "@misc{a,\n title={b}}".toList = "@misc{a,\n title={b}}".toList :=
  ⟨no_mark _ _ (by decide), by decide⟩

/-- C135: without connection the result is empty. -/
theorem C135_offline (net : String → Reply) (h : net (inspireArxiv ++ "2307.06996") = .noConnection ∨ net (zenodoOrg ++ "10156353") = .noConnection) : cite net = [] := by
  have e1 : homeLoc "inspire/arxiv" = some inspireArxiv := rfl
  have e2 : homeLoc "zenodo" = some zenodoOrg := rfl
  unfold cite
  rcases h with h | h
  · simp [getBibtex, e1, h]
  · split
    · rfl
    · simp [getBibtex, e2, h]

/-- C135 is false if the key occurs again: its other occurrences are changed too, here the title. -/
theorem C135_key_fails : rename "@software{spey,\n title={spey 0.2}}".toList = "@software{spey_zenodo,\n title={spey_zenodo 0.2}}".toList := by decide

theorem only_at (z key a : List Char) (ha : a.isPrefixOf z = true) (h : ∀ i < z.length + 1, key.isPrefixOf (z.drop i) = true → i = a.length) :
    ∀ p q, z = p ++ key ++ q → p = a := by
  intro p q e
  have hi := h p.length (by rw [e]; simp) (by rw [e, List.append_assoc, List.drop_left]; exact isPrefixOf_self key q)
  rw [List.isPrefixOf_iff_prefix] at ha
  have hp : p <+: z := ⟨key ++ q, by rw [e, List.append_assoc]⟩
  exact (List.prefix_of_prefix_length_le hp ha hi.le).eq_of_length hi

/-- An entry whose key occurs once. -/
example : let key := "araz_10156353".toList
    let z := "@software{araz_10156353,\n author={A}}".toList
    z = "@software{".toList ++ key ++ ',' :: '\n' :: " author={A}}".toList ∧ (∀ c ∈ key, c ≠ '\n') ∧ (∀ p q, z = p ++ key ++ q → p = "@software{".toList) ∧
      rename z = "@software{spey_zenodo,\n author={A}}".toList :=
  ⟨by decide, by decide, only_at _ _ _ (by decide) (by decide), by decide⟩

/-! ## C136: updates -/

/-- C136: the user is told which of the two versions is newer, or that a test version is in use, and if the newest version does not run with this version of Python. Missing:
versions and requirements that cannot be read, for which the claim is false (`C136_unreadable_fails`). -/
theorem C136_updates_partial {V : Type} (S : Semver V) (python current new requires : String) (py cur v : V) (req : V → Bool) (h1 : S.version python = some py)
    (h2 : S.version current = some cur) (h3 : S.version new = some v) (h4 : S.spec requires = some req) (hasym : ∀ a b, S.lt a b = true → S.lt b a = false) (m : Msg) :
    m ∈ checkUpdates S python current (.of (some new) (some requires)) ↔
      match m with
      | .prerelease => S.beta cur = true
      | .newer => S.beta cur = false ∧ S.lt cur v = true
      | .unstable => S.beta cur = false ∧ S.lt v cur = true
      | .python => req py = false := by
  unfold checkUpdates
  simp only [h1, h2, h3, h4, Option.bind_some]
  have ha := hasym cur v
  cases hb : S.beta cur <;> cases hr : req py <;> cases hl : S.lt cur v <;> cases hg : S.lt v cur <;> cases m <;> simp_all

/-- C136: nothing is said if there is no answer or no version in it. -/
theorem C136_silent {V : Type} (S : Semver V) (python current : String) (requires : Option String) :
    checkUpdates S python current .missing = [] ∧ checkUpdates S python current .malformed = [] ∧ checkUpdates S python current (.of none requires) = [] := by
  refine ⟨rfl, rfl, ?_⟩
  unfold checkUpdates
  cases S.version python <;> rfl

/-- C136 is false if the version of Python is no semantic version (as `3.14.0rc1`), or if the index gives no requirement: a newer version is not announced. -/
theorem C136_unreadable_fails {V : Type} (S : Semver V) (python current new : String) (requires : Option String)
    (h : S.version python = none ∨ requires = none ∨ requires.bind S.spec = none) : checkUpdates S python current (.of (some new) requires) = [] := by
  unfold checkUpdates
  rcases h with h | h | h
  · simp [h]
  · subst h; cases S.version python <;> rfl
  · cases S.version python <;> simp [h]

/-- The version of a few texts. -/
def exNumber (s : String) : Option ℕ := if s = "1" then some 1 else if s = "2" then some 2 else if s = "3" then some 3 else if s = "4" then some 4 else none

/-- Version numbers with one digit; the requirement "3" means at least 3. -/
def exVer : Semver ℕ := ⟨exNumber, fun s => (exNumber s).map fun n m => decide (n ≤ m), fun a b => decide (a < b), fun _ => false⟩

example : checkUpdates exVer "2" "1" (.of (some "4") (some "3")) = [.newer, .python] ∧ checkUpdates exVer "3rc1" "1" (.of (some "4") (some "3")) = [] ∧
    (∀ a b, exVer.lt a b = true → exVer.lt b a = false) := by
  refine ⟨by decide, by decide, fun a b h => ?_⟩
  simp only [exVer, decide_eq_true_eq, decide_eq_false_iff_not, not_lt] at h ⊢
  exact h.le

/-! ## C137: the level of messages -/

/-- C137: the package can be imported whatever `SPEY_LOGLEVEL` is; 0 to 3 set the documented level, otherwise the level is that without the variable. Missing: numbers above 3
and texts that are no numbers, for which the claim is false (`C137_import_fails`). -/
theorem C137_level_partial (toInt : String → Option ℤ) (s : String) (n : ℤ) (hn : toInt s = some n) (h3 : n ≤ 3) :
    importLevel toInt (some s) = .ok (if n = 0 then .error else if n = 1 then .warning else if n = 3 then .debug else .info) := by
  unfold importLevel
  simp only [hn]
  by_cases h0 : 0 ≤ n
  · rw [if_pos h0]
    have : n = 0 ∨ n = 1 ∨ n = 2 ∨ n = 3 := by omega
    rcases this with rfl | rfl | rfl | rfl <;> rfl
  · rw [if_neg h0, if_neg (by omega), if_neg (by omega), if_neg (by omega)]

theorem C137_default (toInt : String → Option ℤ) : importLevel toInt none = .ok .info := rfl

/-- C137 is false for other values: the import ends with a `KeyError` or a `ValueError`. -/
theorem C137_import_fails (toInt : String → Option ℤ) (s : String) : (∀ n, toInt s = some n → 3 < n → importLevel toInt (some s) = .error .key) ∧
    (toInt s = none → importLevel toInt (some s) = .error .value) := by
  refine ⟨fun n hn h => ?_, fun hn => by simp [importLevel, hn]⟩
  unfold importLevel
  simp only [hn]
  rw [if_pos (by omega)]
  unfold logLevel
  rw [if_neg (by omega), if_neg (by omega), if_neg (by omega), if_neg (by omega)]

/-- `int` on a few texts. -/
def exInt (s : String) : Option ℤ := if s = "-5" then some (-5) else if s = "3" then some 3 else if s = "4" then some 4 else none

example : importLevel exInt (some "-5") = .ok .info ∧ importLevel exInt (some "3") = .ok .debug ∧ importLevel exInt (some "4") = .error .key ∧
    importLevel exInt (some "debug") = .error .value := by decide

end Verif.Tools
