import Verif.Web.Model

/-!
# Vocabulary for the update check
-/

namespace Verif.Web

/-- The file can be looked at and was written within the last 24 hours. -/
def Fresh {α : Type} (now : ℚ) (f : File α) : Prop := ∃ m, f.stat = .ok m ∧ now - m ≤ 86400

/-- The file can be looked at, and was written earlier than that. -/
def Stale {α : Type} (now : ℚ) (f : File α) : Prop := ∃ m, f.stat = .ok m ∧ 86400 < now - m

/-- The names of the files are different. -/
def Distinct {α : Type} (l : List (File α)) : Prop := (l.map File.name).Nodup

/-- The state before any of the first `k` processes has started to save; there are no others. -/
def Start (k : ℕ) (σ : State) : Prop := σ.files.Nodup ∧ (∀ i < k, σ.pc i = .write) ∧ ∀ i, k ≤ i → σ.pc i = .done

/-- All of the first `k` processes are done. -/
def Finished (k : ℕ) (σ : State) : Prop := ∀ i < k, σ.pc i = .done

end Verif.Web
