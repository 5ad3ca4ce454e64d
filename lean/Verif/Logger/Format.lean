import Verif.Logger.Props

/-!
# Property C103: what a message looks like
-/

namespace Verif.Logger

/-- The severities of Python's `logging`. -/
inductive Severity
  | other | debug | info | warning | error
  deriving DecidableEq

/-- The smallest level of each severity; everything below `DEBUG` is `other`. -/
def Severity.floor : Severity → ℕ
  | .other => 0
  | .debug => 10
  | .info => 20
  | .warning => 30
  | .error => 40

/-- The severity of a level: the largest whose smallest level is not above it. -/
def IsSeverity (level : ℕ) (s : Severity) : Prop := s.floor ≤ level ∧ ∀ s' : Severity, s'.floor ≤ level → s'.floor ≤ s.floor

/-- What is put before a message of this severity. -/
def Severity.label (place : String) : Severity → String
  | .other => "Spey: "
  | .debug => "Spey - DEBUG (" ++ place ++ "): "
  | .info => "Spey: "
  | .warning => "Spey - WARNING: "
  | .error => "Spey - ERROR: "

/-- The colours. -/
def Severity.colour : Severity → String
  | .other => "\x1b[0m"
  | .debug => "\x1b[36m"
  | .info => "\x1b[0m"
  | .warning => "\x1b[35m"
  | .error => "\x1b[31m"

/-- The line for a record: colour, label, message, end of colour. -/
def display (s : Severity) (r : Record) : String := s.colour ++ s.label r.place ++ r.msg ++ "\x1b[0m"

theorem heading_severity {level : ℕ} {s : Severity} (h : IsSeverity level s) (place : String) :
    heading level place = s.colour ++ s.label place := by
  obtain ⟨h1, h2⟩ := h
  have e := h2 .error
  have wa := h2 .warning
  have i := h2 .info
  have d := h2 .debug
  unfold heading
  cases s <;> simp only [Severity.floor, Severity.colour, Severity.label] at h1 e wa i d ⊢
  · rw [if_neg (by omega), if_neg (by omega), if_neg (by omega), if_neg (by omega)]; rfl
  · rw [if_neg (by omega), if_neg (by omega), if_neg (by omega), if_pos (by omega)]
    simp only [toString, ← String.append_assoc]
    rfl
  · rw [if_neg (by omega), if_neg (by omega), if_pos (by omega)]; rfl
  · rw [if_neg (by omega), if_pos (by omega)]; rfl
  · rw [if_pos (by omega)]; rfl

/-- Every level has one severity. -/
theorem severity_exists (level : ℕ) : ∃ s, IsSeverity level s := by
  by_cases h4 : 40 ≤ level
  · exact ⟨.error, h4, fun s' _ => by cases s' <;> simp [Severity.floor]⟩
  by_cases h3 : 30 ≤ level
  · exact ⟨.warning, h3, fun s' h => by cases s' <;> simp_all [Severity.floor] <;> omega⟩
  by_cases h2 : 20 ≤ level
  · exact ⟨.info, h2, fun s' h => by cases s' <;> simp_all [Severity.floor] <;> omega⟩
  by_cases h1 : 10 ≤ level
  · exact ⟨.debug, h1, fun s' h => by cases s' <;> simp_all [Severity.floor] <;> omega⟩
  · exact ⟨.other, by simp [Severity.floor], fun s' h => by cases s' <;> simp_all [Severity.floor] <;> omega⟩

/-- C103: the format of every message is that of its severity. -/
theorem C103_format (r : Record) (s : Severity) (h : IsSeverity r.level s) :
    Formatter.colored.format r = (display s r, { r with msg := display s r }) := by
  simp [Formatter.format, colored, display, heading_severity h]

/-- C103: so messages of different severity look different (those below `DEBUG` look like information), if their texts are the same. -/
theorem C103_distinct (r r' : Record) (s s' : Severity) (h : IsSeverity r.level s) (h' : IsSeverity r'.level s')
    (hp : r'.place = r.place) (hm : r'.msg = r.msg) (he : (Formatter.colored.format r).1 = (Formatter.colored.format r').1) :
    s = s' ∨ (s = .other ∧ s' = .info) ∨ (s = .info ∧ s' = .other) := by
  rw [C103_format r s h, C103_format r' s' h'] at he
  simp only [display, hp, hm] at he
  have h1 : s.colour.toList.take 4 = s'.colour.toList.take 4 ∨ s = .other ∨ s = .info ∨ s' = .other ∨ s' = .info := by
    cases s <;> cases s' <;> simp
    all_goals
      exfalso
      have := congrArg (fun t => t.toList.take 5) he
      simp [Severity.colour, Severity.label] at this
  cases s <;> cases s' <;> simp [Severity.colour] at h1 ⊢
  all_goals
    have := congrArg (fun t => t.toList.take 3) he
    simp [Severity.colour, Severity.label] at this

/-- C103, first part: with one handler, as `init` leaves it, a message that is not suppressed is written once, in the format of its
severity. Missing: several handlers, see `C103_twice_fails`. -/
theorem C103_written_partial (w : World) (h l s : ℕ) (hw : w.handlers = [h]) (ho : w.object h = ⟨l, .colored, .stream s⟩)
    (hp : w.propagate = false) (hb : w.broken s = false) (r : Record) (sev : Severity) (hs : IsSeverity r.level sev) :
    (enabled w r.level ∧ l ≤ r.level → (emit w r).out = w.out ++ [(s, display sev r)]) ∧
    (¬ (enabled w r.level ∧ l ≤ r.level) → (emit w r).out = w.out) := by
  have hf := C103_format r sev hs
  constructor
  · rintro ⟨h1, h2⟩
    simp [emit, h1, callHandlers, hw, hp, handleAll, handle, ho, h2, hf, hb]
  · intro h1
    by_cases h2 : enabled w r.level
    · have h3 : ¬ l ≤ r.level := fun h3 => h1 ⟨h2, h3⟩
      simp [emit, h2, callHandlers, hw, hp, handleAll, handle, ho, h3]
    · simp [emit, h2]

/-- C103 fails with two handlers: formatting changes the record, so the second handler shows colour and heading twice. -/
theorem C103_twice_fails (w : World) (h h' s s' : ℕ) (hw : w.handlers = [h, h']) (ho : w.object h = ⟨0, .colored, .stream s⟩)
    (ho' : w.object h' = ⟨0, .colored, .stream s'⟩) (hp : w.propagate = false) (hb : w.broken s = false) (hb' : w.broken s' = false)
    (r : Record) (hr : enabled w r.level) (sev : Severity) (hs : IsSeverity r.level sev) :
    (emit w r).out = w.out ++ [(s, display sev r), (s', display sev { r with msg := display sev r })] := by
  have hf := C103_format r sev hs
  have hf' := C103_format { r with msg := display sev r } sev hs
  simp [emit, hr, callHandlers, hw, hp, handleAll, handle, ho, ho', hf, hf', hb, hb']

example : IsSeverity 35 .warning ∧ (emit exWorld ⟨35, "m.f()", "careful"⟩).out = [(1, "\x1b[35mSpey - WARNING: careful\x1b[0m")] := by
  refine ⟨⟨by decide, fun s' h => by cases s' <;> simp_all [Severity.floor]⟩, by decide⟩

end Verif.Logger
