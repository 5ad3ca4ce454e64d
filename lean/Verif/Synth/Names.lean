import Verif.Synth.Lemmas
import Mathlib.Data.List.Nodup
import Mathlib.Data.List.Pairwise

/-!
# C47: when the names of the parameters differ
-/

namespace Verif.Synth
open Verif.Py F

theorem split_last {l l' d d' : List Char} (hd : '_' ∉ d) (hd' : '_' ∉ d') (h : l ++ '_' :: d = l' ++ '_' :: d') : l = l' ∧ d = d' := by
  rcases List.append_eq_append_iff.1 h with ⟨a, h1, h2⟩ | ⟨a, h1, h2⟩
  · cases a with
    | nil => simp at h1 h2; exact ⟨h1.symm, h2⟩
    | cons x a =>
      simp only [List.cons_append, List.cons.injEq] at h2
      exact absurd (by rw [h2.2]; simp) hd
  · cases a with
    | nil => simp at h1 h2; exact ⟨h1, h2.symm⟩
    | cons x a =>
      simp only [List.cons_append, List.cons.injEq] at h2
      exact absurd (by rw [h2.2]; simp) hd'

theorem digits_inj {i j : ℕ} (h : Nat.toDigits 10 i = Nat.toDigits 10 j) : i = j := by
  rw [← Nat.ofDigitChars_ten_toDigits (n := i), h, Nat.ofDigitChars_ten_toDigits]

theorem shape_name_inj {a b : String} {i j : ℕ} (h : s!"theta_sig_{a}_{i}" = s!"theta_sig_{b}_{j}") : a = b ∧ i = j := by
  have h' := congrArg String.toList h
  simp only [toString, String.toList_append, Nat.toList_repr] at h'
  have h2 : a.toList ++ '_' :: Nat.toDigits 10 i = b.toList ++ '_' :: Nat.toDigits 10 j := by simpa using h'
  obtain ⟨h3, h4⟩ := split_last Nat.underscore_not_in_toDigits Nat.underscore_not_in_toDigits h2
  exact ⟨String.toList_inj.1 h3, digits_inj h4⟩

theorem norm_name_inj {a b : String} (h : s!"theta_sig_{a}" = s!"theta_sig_{b}") : a = b := by
  have h' := congrArg String.toList h
  simp only [toString, String.toList_append] at h'
  exact String.toList_inj.1 (by simpa using h')

theorem mixed_name {a b : String} {i : ℕ} (h : s!"theta_sig_{a}" = s!"theta_sig_{b}_{i}") : a = s!"{b}_{i}" := by
  have h' := congrArg String.toList h
  simp only [toString, String.toList_append] at h'
  apply String.toList_inj.1
  simp only [toString, String.toList_append]
  simpa using h'

/-- The labels of the modifiers: their names, or `mod{k}` with their position, L381. -/
def labels : ℕ → List Modifier → List (Bool × String)
  | _, [] => []
  | k, m :: l => (decide (m.type = some "shape"), m.name.getD s!"mod{k}") :: labels (k + 1) l

theorem build_labels {signal : List ℝ} : ∀ {ms : List Modifier} {k idx : ℕ} {bs : List Block}, build signal k idx ms = .ok bs → bs.map (fun b => (b.shape, b.label)) = labels k ms := by
  intro ms
  induction ms with
  | nil => intro k idx bs h; simp [build] at h; subst h; rfl
  | cons m ms ih =>
    intro k idx bs h
    obtain ⟨b, bs', h1, h2, rfl⟩ := build_cons h
    obtain ⟨-, hs, -, hl, -⟩ := block_start h1
    rw [List.map_cons, ih h2, labels, hl]
    congr 2
    rw [Bool.eq_iff_iff, hs]; simp

/-- C47, names: the names of the parameters differ if the labels do, and no label of a normalisation modifier is that of a shape modifier followed by the number of a bin. -/
theorem C47_names_partial (signal : List ℝ) (ms : List Modifier) (nsp : ℕ) (d : Option ℕ) (c : Config) (h : synth signal ms nsp d = .ok c)
    (hn : ((labels 0 ms).map Prod.snd).Nodup) (hm : ∀ a b, (false, a) ∈ labels 0 ms → (true, b) ∈ labels 0 ms → ∀ i < signal.length, a ≠ s!"{b}_{i}") :
    c.names.Nodup := by
  unfold synth at h
  split at h
  · simp at h
  · rename_i bs hb
    simp only [Except.ok.injEq] at h
    subst h
    have hl := build_labels hb
    have hmem : ∀ b ∈ bs, (b.shape, b.label) ∈ labels 0 ms := fun b hb => by rw [← hl]; exact List.mem_map.2 ⟨b, hb, rfl⟩
    simp only
    rw [List.nodup_flatMap]
    refine ⟨fun b _ => ?_, ?_⟩
    · unfold Block.names
      split
      · exact List.Nodup.map (fun i j hij => (shape_name_inj hij).2) List.nodup_range
      · simp
    · rw [← hl, List.map_map] at hn
      have hp : bs.Pairwise fun a b => a.label ≠ b.label := (List.pairwise_map.1 hn)
      refine hp.imp_of_mem fun {a b} ha hb' hab => ?_
      simp only [Function.onFun, List.Disjoint, Block.names]
      intro x hx hy
      have h1 := hmem a ha
      have h2 := hmem b hb'
      by_cases sa : a.shape = true <;> by_cases sb : b.shape = true <;>
        simp only [sa, sb, if_true, if_false, Bool.false_eq_true, List.mem_map, List.mem_range, List.mem_singleton, Bool.not_eq_true] at hx hy h1 h2
      · obtain ⟨i, _, rfl⟩ := hx
        obtain ⟨j, _, hj⟩ := hy
        exact hab (shape_name_inj hj).1.symm
      · obtain ⟨i, hi, rfl⟩ := hx
        exact hm _ _ h2 h1 i hi (mixed_name hy.symm)
      · obtain ⟨i, hi, rfl⟩ := hy
        exact hm _ _ h1 h2 i hi (mixed_name hx.symm)
      · exact hab (norm_name_inj (hx.symm.trans hy))

-- a normalisation without a name, and two shapes with names that look like those of bins
example (u : Unc) : let ms : List Modifier := [⟨some "normalization", some u, none⟩, ⟨some "shape", some u, some "jes"⟩, ⟨some "shape", some u, some "jes_0"⟩]
    ((labels 0 ms).map Prod.snd).Nodup ∧ ∀ a b, (false, a) ∈ labels 0 ms → (true, b) ∈ labels 0 ms → ∀ i < 2, a ≠ s!"{b}_{i}" := by
  intro ms
  have hl : labels 0 ms = [(false, "mod0"), (true, "jes"), (true, "jes_0")] := rfl
  rw [hl]
  refine ⟨by decide, fun a b ha hb i hi => ?_⟩
  simp only [List.mem_cons, Prod.mk.injEq, List.not_mem_nil, or_false, Bool.true_eq_false, Bool.false_eq_true, false_and, false_or, true_and] at ha hb
  subst ha
  interval_cases i <;> rcases hb with rfl | rfl <;> decide

end Verif.Synth
