import Verif.UpperLimit.Props

/-!
# Lemma: the upper limit when the confidence level is never reached
-/

namespace Verif.UpperLimit
open Verif.Py F Verif.Stats

/-- If the level is below the confidence level at all strengths from `1e-10` on, then the limit is infinite, whatever the root finder does. -/
theorem limit_never (solve : Solver) (I : Inputs) (hl : I.alive = true) (hav : I.backend.available .asymptotic = true) (hf : ∀ mu : ℝ, FiniteInputs I.backend (fin mu) .asymptotic)
    (e : Expected) (CL : ℝ) (h0 : 0 ≤ CL) (h1 : CL ≤ 1) (low hig : ℝ) (h2 : 1e-10 ≤ low) (h3 : 0 < hig) (band : Band) (hb : band ≠ .unknown)
    (hn : ∀ i ∈ Entries e band, ∀ mu r, 0 ≤ mu → Level I.backend e false i mu (fin r) → r < CL) :
    ∃ L, EndsWith (fun n => poiUpperLimit n solve I e CL (some low) (some hig) band) (.ok L) ∧ ∀ x ∈ L.values, x = pinf := by
  have key : ∀ i ∈ Entries e band, EndsWith (fun n => limitAt n solve (computer I.backend e CL false i) low hig) (.ok pinf) := by
    intro i hi
    obtain ⟨a, b, hB, hE⟩ := limitAt_spec solve (computer I.backend e CL false i) low hig h3
    have hv := entries_valid hi
    have hlt : ∀ x, 0 ≤ x → lt (computer I.backend e CL false i x) (fin 0) := by
      intro x hx
      obtain ⟨r, -, -, hL, hr⟩ := computer_finite (CL := CL) (neg := false) hv hav (hf x)
      rw [hr]
      have := hn i hi x r hx hL
      show r - CL < 0
      linarith
    have ha : 0 ≤ a := le_trans (by norm_num) (hB.low_bound h2)
    have hb : 0 ≤ b := h3.le.trans hB.high_ge
    rw [if_pos (.inr ⟨hlt a ha, hlt b hb⟩)] at hE
    exact hE
  have all : ∀ is : List ℕ, (∀ i ∈ is, i ∈ Entries e band) → ∃ xs : List F, (∀ x ∈ xs, x = pinf) ∧
      EndsWith (fun n => limitsAt n solve (computer I.backend e CL false) low hig is) (.ok xs) := by
    intro is
    induction is with
    | nil => exact fun _ => ⟨[], by simp, 0, fun n _ => rfl⟩
    | cons i is ih =>
      intro his
      obtain ⟨xs, hxs, N, hN⟩ := ih (fun j hj => his j (List.mem_cons_of_mem _ hj))
      obtain ⟨M, hM⟩ := key i (his i List.mem_cons_self)
      refine ⟨pinf :: xs, ?_, N + M, fun n hn => ?_⟩
      · intro x hx
        rcases List.mem_cons.1 hx with rfl | hx
        · rfl
        · exact hxs x hx
      · have g1 := hM n (by omega)
        have g2 := hN n (by omega)
        simp only at g1 g2
        simp only [limitsAt, g1, g2]
  obtain ⟨xs, hxs, N, hN⟩ := all _ (fun i hi => hi)
  refine ⟨pack xs, ⟨N, fun n hn => ?_⟩, by rw [pack_values]; exact hxs⟩
  have g := hN n hn
  simp only at g
  have hb' : (if e = .observed then Band.nominal else band) ≠ .unknown := by
    split
    · simp
    · exact hb
  simp only [poiUpperLimit, if_pos (And.intro h0 h1), hl, if_true, starts, findPoiUpperLimit]
  rw [if_neg hb', indexRange_eq e _ hb', entries_observed, g]

end Verif.UpperLimit
