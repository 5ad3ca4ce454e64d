import Verif.Logger.Lemmas

/-!
# Properties C67 and C88: capturing log messages, setting up the logger
-/

namespace Verif.Logger

/-! ## C67: capturing log messages -/

/-- C67. Whatever a program that logs, raises, catches exceptions and uses the two context managers, nested in any way, does: the
level, the propagation, the handlers (in their order) and the threshold of `logging.disable` are the same afterwards. -/
theorem C67_restored (p : Prog) (hp : Plain p) (w : World) (hw : Sound w) : SameSettings w (exec p w).2 ∧ Sound (exec p w).2 := by
  suffices h : ∀ w, Sound w → SameSettings w (exec p w).2 ∧ w.next ≤ (exec p w).2.next by
    obtain ⟨h1, h2⟩ := h w hw
    refine ⟨h1, by rw [h1.handlers]; exact hw.1, fun i hi => ?_⟩
    rw [h1.handlers] at hi
    exact lt_of_lt_of_le (hw.2 i hi) h2
  clear hw w
  have trans : ∀ {a b c : World}, SameSettings a b → SameSettings b c → SameSettings a c := fun h1 h2 =>
    ⟨h2.level.trans h1.level, h2.propagate.trans h1.propagate, h2.handlers.trans h1.handlers, h2.rootLevel.trans h1.rootLevel,
      h2.rootHandlers.trans h1.rootHandlers, h2.disable.trans h1.disable⟩
  have keep : ∀ {a b : World}, Sound a → SameSettings a b → a.next ≤ b.next → Sound b := fun ha h1 h2 =>
    ⟨by rw [h1.handlers]; exact ha.1, fun i hi => by rw [h1.handlers] at hi; exact lt_of_lt_of_le (ha.2 i hi) h2⟩
  induction p with
  | skip => exact fun w _ => ⟨⟨rfl, rfl, rfl, rfl, rfl, rfl⟩, le_refl _⟩
  | raise e => exact fun w _ => ⟨⟨rfl, rfl, rfl, rfl, rfl, rfl⟩, le_refl _⟩
  | log r =>
    intro w _
    obtain ⟨o, c, h⟩ := emit_only w r
    simp only [exec, h]
    exact ⟨⟨rfl, rfl, rfl, rfl, rfl, rfl⟩, le_refl _⟩
  | seq p q ihp ihq =>
    intro w hw
    have h1 := ihp hp.1 w hw
    simp only [exec]
    cases he : exec p w with
    | mk o w1 =>
      rw [he] at h1
      cases o with
      | ok =>
        have h2 := ihq hp.2 w1 (keep hw h1.1 h1.2)
        exact ⟨trans h1.1 h2.1, h1.2.trans h2.2⟩
      | raised e => exact h1
  | attempt p q ihp ihq =>
    intro w hw
    have h1 := ihp hp.1 w hw
    simp only [exec]
    cases he : exec p w with
    | mk o w1 =>
      rw [he] at h1
      cases o with
      | ok => exact h1
      | raised e =>
        have h2 := ihq hp.2 w1 (keep hw h1.1 h1.2)
        exact ⟨trans h1.1 h2.1, h1.2.trans h2.2⟩
  | disable d p ih =>
    intro w hw
    have h1 := ih hp { w with disable := d } hw
    exact ⟨⟨h1.1.level, h1.1.propagate, h1.1.handlers, h1.1.rootLevel, h1.1.rootHandlers, rfl⟩, h1.2⟩
  | capture l s p ih =>
    intro w hw
    have h0 := (exec_inside p hp w.next l _ (enter_inside w l)).2.1
    have e := enterCapture_eq w l
    have fin : ∀ w2 out coll, w2 = { (exec p (enterCapture w l)).2 with out := out, collected := coll } →
        SameSettings w (leaveCapture w w2) ∧ w.next ≤ (leaveCapture w w2).next := by
      intro w2 out coll h2
      rw [leaveCapture_eq]
      subst h2
      refine ⟨⟨rfl, rfl, ?_, ?_, ?_, ?_⟩, ?_⟩
      · have hh : (exec p (enterCapture w l)).2.handlers = [w.next] := h0.handlers.trans (by rw [e])
        simp only [hh, List.erase_cons_head]
        rw [foldl_insert_nodup _ _ (by simpa using hw.1)]
        simp
      · exact h0.rootLevel.trans (by rw [e])
      · exact h0.rootHandlers.trans (by rw [e])
      · exact h0.disable.trans (by rw [e])
      · have hn : (enterCapture w l).next = w.next + 1 := by rw [e]
        have := h0.next
        simp only
        omega
    simp only [exec]
    cases he : exec p (enterCapture w l) with
    | mk o w1 =>
      rw [he] at fin
      cases o with
      | ok =>
        obtain ⟨out, c, hw1⟩ := writeAll_only w1 s (w1.collected w.next)
        exact fin _ _ _ hw1
      | raised e => exact fin w1 w1.out w1.collected rfl
  | setLevel l => exact hp.elim
  | setPropagate b => exact hp.elim
  | addHandler h => exact hp.elim
  | removeHandler h => exact hp.elim

/-- C67, for bodies that change the logger themselves: level and propagation are those from before in any case, all previous
handlers are there, the handler of the capture is not, and no handler is there twice. -/
theorem C67_any_body (p : Prog) (l s : ℕ) (w : World) (hw : Sound w) :
    (exec (.capture l s p) w).2.level = w.level ∧ (exec (.capture l s p) w).2.propagate = w.propagate ∧
      (∀ h ∈ w.handlers, h ∈ (exec (.capture l s p) w).2.handlers) ∧ w.next ∉ (exec (.capture l s p) w).2.handlers ∧
      (exec (.capture l s p) w).2.handlers.Nodup := by
  have hn := exec_nodup (.capture l s p) w hw.1
  have h0 := exec_nodup p (enterCapture w l) (by rw [enterCapture_eq]; simp)
  have fin : ∀ w2, w2.handlers = (exec p (enterCapture w l)).2.handlers → (leaveCapture w w2).level = w.level ∧
      (leaveCapture w w2).propagate = w.propagate ∧ (∀ h ∈ w.handlers, h ∈ (leaveCapture w w2).handlers) ∧
      w.next ∉ (leaveCapture w w2).handlers := by
    intro w2 h2
    rw [leaveCapture_eq]
    refine ⟨rfl, rfl, fun h hh => ?_, fun hc => ?_⟩
    · exact (foldl_insert_mem _ _ _).mpr (.inr hh)
    · rcases (foldl_insert_mem _ _ _).mp hc with h | h
      · rw [h2] at h
        exact (List.Nodup.not_mem_erase h0) h
      · exact absurd (hw.2 _ h) (lt_irrefl _)
  refine ⟨?_, ?_, ?_, ?_, hn⟩ <;>
  · simp only [exec]
    cases he : exec p (enterCapture w l) with
    | mk o w1 =>
      rw [he] at fin
      cases o with
      | ok =>
        obtain ⟨out, c, hw1⟩ := writeAll_only w1 s (w1.collected w.next)
        have := fin (writeAll w1 s (w1.collected w.next)).2 (by rw [hw1])
        first | exact this.1 | exact this.2.1 | exact this.2.2.1 | exact this.2.2.2
      | raised e =>
        have := fin w1 rfl
        first | exact this.1 | exact this.2.1 | exact this.2.2.1 | exact this.2.2.2

/-- C67. What a capture writes. `ms` are the messages that the body logs at or above the level (and above the threshold of
`logging.disable`), in order; the lines after those of the captures inside are the distinct ones among them, each once, in the
order of their first occurrence, and all go to the given stream. For the level 0, `meaning` also asks for the level of the root
logger. -/
theorem C67_once (p : Prog) (hp : Plain p) (l s : ℕ) (w : World) (ms : List String) (ls : List (ℕ × String))
    (hm : meaning w.broken w.rootLevel l w.disable p = (ms, ls, .ok)) (hb : w.broken s = false) :
    ∃ ks : List String, (exec (.capture l s p) w).1 = .ok ∧
      (exec (.capture l s p) w).2.out = w.out ++ ls ++ ks.map (fun m => (s, m)) ∧
      ks.Nodup ∧ (∀ m, m ∈ ks ↔ m ∈ ms) ∧ ks.Pairwise fun a b => ms.idxOf a < ms.idxOf b := by
  obtain ⟨a1, a2, a3, a4⟩ := exec_inside p hp w.next l _ (enter_inside w l)
  have e := enterCapture_eq w l
  have ebr : (enterCapture w l).broken = w.broken := by rw [e]
  have ert : (enterCapture w l).rootLevel = w.rootLevel := by rw [e]
  have edi : (enterCapture w l).disable = w.disable := by rw [e]
  have eout : (enterCapture w l).out = w.out := by rw [e]
  have ecol : (enterCapture w l).collected w.next = [] := by rw [e]; simp
  rw [ebr, ert, edi, hm] at a1 a3 a4
  rw [eout] at a3
  rw [ecol, foldl_collect_nil] at a4
  refine ⟨firsts ms, ?_, ?_, firsts_nodup _, firsts_mem ms, firsts_order ms⟩
  all_goals
    simp only [exec]
    cases he : exec p (enterCapture w l) with
    | mk o w1 =>
      rw [he] at a1 a2 a3 a4
      simp only at a1 a2 a3 a4
      subst a1
      simp only
      rw [writeAll_spec, a4, a2.broken, ebr, if_neg (by simp [hb] : ¬ w.broken s = true)]
      by_cases hn : firsts ms = []
      · rw [if_pos hn]
        try (rw [leaveCapture_eq, hn]; simpa using a3)
      · rw [if_neg hn]
        try (rw [leaveCapture_eq]; simp only [a3])

/-- A handler for the terminal (stream 1); its own messages appear at once. -/
def exWorld : World where
  level := 20
  propagate := false
  handlers := [0]
  rootLevel := 30
  rootHandlers := []
  disable := 0
  next := 1
  object := fun _ => ⟨0, .colored, .stream 1⟩
  collected := fun _ => []
  out := []
  broken := fun s => s == 9

def exRecord (msg : String) (level : ℕ) : Record := ⟨level, "m.f() in m.py::L1", msg⟩

/-- A loop that repeats a message, an inner capture, an exception that is caught. -/
def exProg : Prog :=
  .seq (.log (exRecord "b" 30)) (.seq (.log (exRecord "a" 30)) (.seq (.log (exRecord "b" 30)) (.seq (.log (exRecord "low" 10))
    (.attempt (.capture 20 2 (.seq (.log (exRecord "lost" 30)) (.raise 4))) (.capture 10 2 (.log (exRecord "inner" 10)))))))

example : Sound exWorld ∧ Plain exProg := ⟨⟨by decide, by decide⟩, by simp [exProg, Plain]⟩

example : ((exec (.capture 20 1 exProg) exWorld).2.out) =
    [(2, "\x1b[36mSpey - DEBUG (m.f() in m.py::L1): inner\x1b[0m"), (1, "\x1b[35mSpey - WARNING: b\x1b[0m"),
      (1, "\x1b[35mSpey - WARNING: a\x1b[0m")] ∧
    (exec (.capture 20 1 exProg) exWorld).2.handlers = [0] := by decide

/-- C67 fails when the body raises: the messages logged before the exception are never written. -/
theorem C67_exception_fails :
    (exec (.capture 20 1 (.seq (.log (exRecord "a" 30)) (.raise 4))) exWorld).2.out = [] ∧
      (meaning exWorld.broken exWorld.rootLevel 20 exWorld.disable (.seq (.log (exRecord "a" 30)) (.raise 4))).1 ≠ [] := by decide

/-- C67, for bodies that raise: the exception is passed on, the captures inside have written their lines, and nothing else is
written. Missing: the messages themselves, see above. -/
theorem C67_exception_partial (p : Prog) (hp : Plain p) (l s : ℕ) (w : World) (ms : List String) (ls : List (ℕ × String)) (e : ℕ)
    (hm : meaning w.broken w.rootLevel l w.disable p = (ms, ls, .raised e)) :
    (exec (.capture l s p) w).1 = .raised e ∧ (exec (.capture l s p) w).2.out = w.out ++ ls := by
  obtain ⟨a1, a2, a3, a4⟩ := exec_inside p hp w.next l _ (enter_inside w l)
  have e := enterCapture_eq w l
  have ebr : (enterCapture w l).broken = w.broken := by rw [e]
  have ert : (enterCapture w l).rootLevel = w.rootLevel := by rw [e]
  have edi : (enterCapture w l).disable = w.disable := by rw [e]
  have eout : (enterCapture w l).out = w.out := by rw [e]
  rw [ebr, ert, edi, hm] at a1 a3
  rw [eout] at a3
  simp only [exec]
  cases he : exec p (enterCapture w l) with
  | mk o w1 =>
    rw [he] at a1 a3
    simp only at a1 a3
    subst a1
    simp only
    refine ⟨trivial, ?_⟩
    rw [leaveCapture_eq]
    exact a3

example : (meaning exWorld.broken exWorld.rootLevel 20 exWorld.disable (.seq (.log (exRecord "a" 30)) (.raise 4))).2.2 = .raised 4 := by
  decide

/-- C67 fails for the level 0: it means the level of the root logger, so that messages above 0 are dropped. -/
theorem C67_level_zero_fails :
    (exec (.capture 0 1 (.log (exRecord "a" 20))) exWorld).2.out = [] ∧
      (exec (.capture 1 1 (.log (exRecord "a" 20))) exWorld).2.out = [(1, "\x1b[0mSpey: a\x1b[0m")] := by decide

/-- C67 fails for bodies that add a handler: it stays, and it is then before the previous ones. -/
theorem C67_added_handler_fails : (exec (.capture 20 1 (.addHandler 5)) exWorld).2.handlers = [5, 0] := by decide

/-! ## C88: setting up the logger -/

/-- C88 fails: the loop that removes the previous handlers changes the list that it goes over, and skips every second handler. -/
theorem C88_init_fails (w : World) (a b : ℕ) (hw : w.handlers = [a, b]) (hne : a ≠ b) (s : ℕ) :
    (init w s).handlers = [b, w.next + 1] := by
  simp only [init, hw]
  have := removeLoop_odds [a, b] [] (by simpa using hne)
  simp only [List.length_nil, List.nil_append] at this
  rw [this]
  rfl

/-- C88, where it holds: with at most one previous handler, the new handler for the given stream is the only one, messages are not
passed on to the root logger, and calling `init` again changes nothing but the stream. Missing: two or more previous handlers. -/
theorem C88_init_partial (w : World) (h : w.handlers.length ≤ 1) (s t : ℕ) :
    (init w s).handlers = [w.next + 1] ∧ (init w s).object (w.next + 1) = ⟨0, .colored, .stream s⟩ ∧
      (init w s).propagate = false ∧ (init (init w s) t).handlers.length = 1 := by
  have hl : ∀ w' : World, w'.handlers.length ≤ 1 → ∀ s, (init w' s).handlers = [w'.next + 1] := by
    intro w' h' s
    simp only [init]
    match hh : w'.handlers with
    | [] => rw [show removeLoop 0 [] = [] by unfold removeLoop; simp]; rfl
    | [a] =>
      have := removeLoop_odds [a] [] (by simp)
      simp only [List.length_nil, List.nil_append] at this
      rw [this]; rfl
    | a :: b :: l => rw [hh] at h'; simp at h'
  refine ⟨hl w h s, by simp [init], rfl, ?_⟩
  rw [hl (init w s) (by rw [hl w h s]; simp) t]
  rfl

example : exWorld.handlers.length ≤ 1 := by decide

/-- C88. What `init` does to the root logger: each call adds one more handler, so that messages of other packages are shown once
more with each call. -/
theorem C88_root_fails (w : World) (s t : ℕ) :
    (init (init w s) t).rootHandlers = w.rootHandlers ++ [w.next, w.next + 2] := by
  simp [init]

end Verif.Logger
