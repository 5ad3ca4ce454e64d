import Verif.Logger.Spec
import Mathlib.Tactic

namespace Verif.Logger

/-! ### Distinct messages -/

theorem firsts_mem (l : List String) (m : String) : m ∈ firsts l ↔ m ∈ l := by
  induction l with
  | nil => rfl
  | cons a t ih =>
    simp only [firsts, List.mem_cons, List.mem_filter, decide_eq_true_eq, ih]
    by_cases h : m = a <;> simp [h]

theorem firsts_nodup (l : List String) : (firsts l).Nodup := by
  induction l with
  | nil => exact List.nodup_nil
  | cons a t ih =>
    simp only [firsts, List.nodup_cons]
    exact ⟨by simp, ih.filter _⟩

theorem firsts_order (l : List String) : (firsts l).Pairwise fun a b => l.idxOf a < l.idxOf b := by
  induction l with
  | nil => exact List.Pairwise.nil
  | cons a t ih =>
    simp only [firsts, List.pairwise_cons]
    constructor
    · intro b hb
      simp only [List.mem_filter, decide_eq_true_eq] at hb
      rw [List.idxOf_cons_self, List.idxOf_cons_ne _ (Ne.symm hb.2)]
      omega
    · have h1 := List.Pairwise.sublist (List.filter_sublist (p := fun m => decide (m ≠ a)) (l := firsts t)) ih
      refine h1.imp_of_mem ?_
      intro x y hx hy h
      simp only [List.mem_filter, decide_eq_true_eq] at hx hy
      rw [List.idxOf_cons_ne _ (Ne.symm hx.2), List.idxOf_cons_ne _ (Ne.symm hy.2)]
      omega

theorem foldl_collect (ms acc : List String) :
    ms.foldl collect acc = acc ++ (firsts ms).filter (fun m => decide (m ∉ acc)) := by
  induction ms generalizing acc with
  | nil => simp [firsts]
  | cons a t ih =>
    simp only [List.foldl_cons, firsts]
    rw [ih]
    unfold collect
    split
    · rename_i h
      rw [List.filter_cons_of_neg (by simpa using h), List.filter_filter]
      congr 1
      apply List.filter_congr
      intro x _
      by_cases hx : x ∈ acc
      · simp [hx]
      · have : x ≠ a := by rintro rfl; exact hx h
        simp [hx, this]
    · rename_i h
      rw [List.filter_cons_of_pos (by simpa using h), List.filter_filter, List.append_assoc, List.singleton_append]
      congr 2
      apply List.filter_congr
      intro x _
      by_cases hx : x ∈ acc <;> by_cases hxa : x = a <;> simp [hx, hxa]

theorem foldl_collect_nil (ms : List String) : ms.foldl collect [] = firsts ms := by
  rw [foldl_collect]
  simp

/-! ### Adding and removing handlers -/

theorem foldl_erase (l : List ℕ) : l.foldl (fun acc h => acc.erase h) l = [] := by
  induction l with
  | nil => rfl
  | cons a t ih => rw [List.foldl_cons, List.erase_cons_head]; exact ih

theorem foldl_removeHandler (l : List ℕ) (w : World) :
    l.foldl removeHandler w = { w with handlers := l.foldl (fun acc h => acc.erase h) w.handlers } := by
  induction l generalizing w with
  | nil => rfl
  | cons a t ih => rw [List.foldl_cons, ih]; rfl

/-- The handlers after `addHandler`. -/
def insertHandler (acc : List ℕ) (h : ℕ) : List ℕ := if h ∈ acc then acc else acc ++ [h]

theorem addHandler_eq (w : World) (h : ℕ) : addHandler w h = { w with handlers := insertHandler w.handlers h } := by
  unfold addHandler insertHandler
  split <;> rfl

theorem foldl_addHandler (l : List ℕ) (w : World) :
    l.foldl addHandler w = { w with handlers := l.foldl insertHandler w.handlers } := by
  induction l generalizing w with
  | nil => rfl
  | cons a t ih => rw [List.foldl_cons, ih, addHandler_eq]; rfl

theorem foldl_insert_nodup (l acc : List ℕ) (h : (acc ++ l).Nodup) : l.foldl insertHandler acc = acc ++ l := by
  induction l generalizing acc with
  | nil => simp
  | cons a t ih =>
    have ha : a ∉ acc := by
      intro hm
      have := (List.nodup_append.mp h).2.2 a hm a (by simp)
      exact this rfl
    rw [List.foldl_cons]
    have : insertHandler acc a = acc ++ [a] := by simp [insertHandler, ha]
    rw [this, ih _ (by simpa using h)]
    simp

theorem foldl_insert_mem (l acc : List ℕ) (h : ℕ) : h ∈ l.foldl insertHandler acc ↔ h ∈ acc ∨ h ∈ l := by
  induction l generalizing acc with
  | nil => simp
  | cons a t ih =>
    rw [List.foldl_cons, ih]
    unfold insertHandler
    split
    · rename_i ha
      simp only [List.mem_cons]
      constructor
      · rintro (h1 | h1)
        · exact .inl h1
        · exact .inr (.inr h1)
      · rintro (h1 | rfl | h1)
        · exact .inl h1
        · exact .inl ha
        · exact .inr h1
    · simp only [List.mem_append, List.mem_cons, List.not_mem_nil, or_false]
      tauto

theorem insertHandler_nodup (acc : List ℕ) (h : ℕ) (ha : acc.Nodup) : (insertHandler acc h).Nodup := by
  unfold insertHandler
  split
  · exact ha
  · rename_i hm
    rw [List.nodup_append]
    refine ⟨ha, by simp, ?_⟩
    intro a h1 b h2 e
    simp only [List.mem_cons, List.not_mem_nil, or_false] at h2
    subst h2 e
    exact hm h1

theorem foldl_insert_nodup' (l acc : List ℕ) (h : acc.Nodup) : (l.foldl insertHandler acc).Nodup := by
  induction l generalizing acc with
  | nil => exact h
  | cons a t ih => exact ih _ (insertHandler_nodup _ _ h)

/-! ### Logging changes only what is written and collected -/

/-- Only `out` and `collected` may differ. -/
def OnlyOutput (w w' : World) : Prop := ∃ out collected, w' = { w with out := out, collected := collected }

theorem OnlyOutput.refl (w : World) : OnlyOutput w w := ⟨w.out, w.collected, rfl⟩

theorem OnlyOutput.trans {a b c : World} (h1 : OnlyOutput a b) (h2 : OnlyOutput b c) : OnlyOutput a c := by
  obtain ⟨o1, c1, rfl⟩ := h1
  obtain ⟨o2, c2, rfl⟩ := h2
  exact ⟨o2, c2, rfl⟩

theorem handle_only (w : World) (h : ℕ) (r : Record) : OnlyOutput w (handle w h r).1 := by
  unfold handle
  split
  · simp only
    split
    · simp only
      split
      · exact .refl w
      · exact ⟨_, w.collected, rfl⟩
    · exact ⟨w.out, _, rfl⟩
  · exact .refl w

theorem handleAll_only (w : World) (hs : List ℕ) (r : Record) : OnlyOutput w (handleAll w hs r).1 := by
  induction hs generalizing w r with
  | nil => exact .refl w
  | cons h l ih => exact (handle_only w h r).trans (ih _ _)

theorem emit_only (w : World) (r : Record) : OnlyOutput w (emit w r) := by
  unfold emit
  split
  · unfold callHandlers
    have h1 := handleAll_only w w.handlers r
    simp only
    split
    · split
      · split
        · exact ⟨_, w.collected, rfl⟩
        · exact .refl w
      · exact h1.trans (handleAll_only _ _ _)
    · split
      · split
        · exact ⟨_, w.collected, rfl⟩
        · exact .refl w
      · exact h1
  · exact .refl w

theorem writeAll_spec (w : World) (s : ℕ) (l : List String) :
    writeAll w s l = if l = [] then (.ok, w) else if w.broken s then (.raised streamError, w)
      else (.ok, { w with out := w.out ++ l.map fun m => (s, m) }) := by
  induction l generalizing w with
  | nil => rfl
  | cons m t ih =>
    simp only [writeAll]
    rw [if_neg (c := m :: t = []) (by simp)]
    by_cases hb : w.broken s = true
    · rw [if_pos hb, if_pos hb]
    · rw [if_neg hb, if_neg hb, ih]
      by_cases ht : t = []
      · subst ht; rfl
      · rw [if_neg ht, if_neg hb]
        simp

theorem writeAll_only (w : World) (s : ℕ) (l : List String) : OnlyOutput w (writeAll w s l).2 := by
  rw [writeAll_spec]
  split
  · exact .refl w
  · split
    · exact .refl w
    · exact ⟨_, w.collected, rfl⟩

/-! ### Captures -/

theorem enterCapture_eq (w : World) (l : ℕ) :
    enterCapture w l = { w with
      next := w.next + 1
      object := Function.update w.object w.next ⟨l, .colored, .dedup⟩
      collected := Function.update w.collected w.next []
      handlers := [w.next]
      level := l
      propagate := false } := by
  unfold enterCapture
  simp only
  rw [foldl_removeHandler]
  simp only [foldl_erase, addHandler_eq, insertHandler]
  simp

theorem leaveCapture_eq (b w : World) :
    leaveCapture b w = { w with
      handlers := b.handlers.foldl insertHandler (w.handlers.erase b.next)
      level := b.level
      propagate := b.propagate } := by
  unfold leaveCapture
  simp only
  rw [foldl_addHandler]
  rfl

/-- What a plain program leaves as it is, in a capture whose handler is `h`. -/
structure Keeps (h : ℕ) (w w' : World) : Prop where
  level : w'.level = w.level
  propagate : w'.propagate = w.propagate
  handlers : w'.handlers = w.handlers
  rootLevel : w'.rootLevel = w.rootLevel
  rootHandlers : w'.rootHandlers = w.rootHandlers
  disable : w'.disable = w.disable
  broken : w'.broken = w.broken
  next : w.next ≤ w'.next
  object : ∀ i < w.next, w'.object i = w.object i
  collected : ∀ i < w.next, i ≠ h → w'.collected i = w.collected i

theorem Keeps.refl (h : ℕ) (w : World) : Keeps h w w :=
  ⟨rfl, rfl, rfl, rfl, rfl, rfl, rfl, le_refl _, fun _ _ => rfl, fun _ _ _ => rfl⟩

theorem Keeps.trans {h : ℕ} {a b c : World} (h1 : Keeps h a b) (h2 : Keeps h b c) : Keeps h a c where
  level := h2.level.trans h1.level
  propagate := h2.propagate.trans h1.propagate
  handlers := h2.handlers.trans h1.handlers
  rootLevel := h2.rootLevel.trans h1.rootLevel
  rootHandlers := h2.rootHandlers.trans h1.rootHandlers
  disable := h2.disable.trans h1.disable
  broken := h2.broken.trans h1.broken
  next := h1.next.trans h2.next
  object := fun i hi => (h2.object i (lt_of_lt_of_le hi h1.next)).trans (h1.object i hi)
  collected := fun i hi hne => (h2.collected i (lt_of_lt_of_le hi h1.next) hne).trans (h1.collected i hi hne)

/-- The state inside a capture of level `l` whose handler is `h`. -/
structure Inside (h l : ℕ) (w : World) : Prop where
  handlers : w.handlers = [h]
  lt : h < w.next
  object : w.object h = ⟨l, .colored, .dedup⟩
  level : w.level = l
  propagate : w.propagate = false

theorem Inside.keep {h l : ℕ} {w w' : World} (hi : Inside h l w) (hk : Keeps h w w') : Inside h l w' where
  handlers := hk.handlers.trans hi.handlers
  lt := lt_of_lt_of_le hi.lt hk.next
  object := (hk.object h hi.lt).trans hi.object
  level := hk.level.trans hi.level
  propagate := hk.propagate.trans hi.propagate

theorem enter_inside (w : World) (l : ℕ) : Inside w.next l (enterCapture w l) := by
  rw [enterCapture_eq]
  exact ⟨rfl, Nat.lt_succ_self _, by simp, rfl, rfl⟩

theorem emit_inside {h l : ℕ} {w : World} (hi : Inside h l w) (r : Record) :
    Keeps h w (emit w r) ∧ (emit w r).out = w.out ∧
      (emit w r).collected h = (if l ≤ r.level ∧ w.disable < r.level ∧ (l = 0 → w.rootLevel ≤ r.level)
        then [(colored r).msg] else []).foldl collect (w.collected h) := by
  have hen : enabled w r.level ↔ w.disable < r.level ∧ (l = 0 → w.rootLevel ≤ r.level) ∧ (l ≠ 0 → l ≤ r.level) := by
    unfold enabled effectiveLevel
    rw [hi.level]
    by_cases h0 : l = 0 <;> simp [h0]
  unfold emit
  by_cases he : enabled w r.level
  · rw [if_pos he]
    have he' := hen.mp he
    have hl : l ≤ r.level := by
      by_cases h0 : l = 0
      · omega
      · exact he'.2.2 h0
    unfold callHandlers
    rw [hi.handlers, hi.propagate]
    simp only [handleAll, handle, hi.object, hl, if_true, Formatter.format]
    rw [if_neg (by simp), if_neg (by simp), if_pos ⟨trivial, he'.1, he'.2.1⟩]
    refine ⟨⟨rfl, rfl, rfl, rfl, rfl, rfl, rfl, le_refl _, fun _ _ => rfl, ?_⟩, rfl, ?_⟩
    · intro i _ hne
      simp [Function.update_of_ne hne]
    · simp
  · rw [if_neg he]
    refine ⟨.refl _ _, rfl, ?_⟩
    rw [if_neg]
    · rfl
    · intro hc
      exact he (hen.mpr ⟨hc.2.1, hc.2.2, fun _ => hc.1⟩)

theorem firsts_eq_nil (ms : List String) : firsts ms = [] ↔ ms = [] := by
  cases ms with
  | nil => simp [firsts]
  | cons a t => simp [firsts]

/-- A plain program inside a capture does what it means. -/
theorem exec_inside (p : Prog) (hp : Plain p) (h l : ℕ) (w : World) (hi : Inside h l w) :
    (exec p w).1 = (meaning w.broken w.rootLevel l w.disable p).2.2 ∧ Keeps h w (exec p w).2 ∧
      (exec p w).2.out = w.out ++ (meaning w.broken w.rootLevel l w.disable p).2.1 ∧
      (exec p w).2.collected h = (meaning w.broken w.rootLevel l w.disable p).1.foldl collect (w.collected h) := by
  induction p generalizing h l w with
  | skip => exact ⟨rfl, .refl _ _, by simp [exec, meaning], rfl⟩
  | raise e => exact ⟨rfl, .refl _ _, by simp [exec, meaning], rfl⟩
  | log r =>
    obtain ⟨h1, h2, h3⟩ := emit_inside hi r
    exact ⟨rfl, h1, by simp only [exec, meaning, h2, List.append_nil], h3⟩
  | seq p q ihp ihq =>
    obtain ⟨a1, a2, a3, a4⟩ := ihp hp.1 h l w hi
    simp only [exec, meaning]
    cases hm : meaning w.broken w.rootLevel l w.disable p with
    | mk ms t =>
      obtain ⟨ls, o⟩ := t
      cases he : exec p w with
      | mk o1 w1 =>
        rw [hm, he] at a1 a3 a4
        rw [he] at a2
        simp only at a1 a2 a3 a4
        subst a1
        cases o1 with
        | ok =>
          obtain ⟨b1, b2, b3, b4⟩ := ihq hp.2 h l w1 (hi.keep a2)
          rw [a2.broken, a2.rootLevel, a2.disable] at b1 b3 b4
          simp only
          refine ⟨b1, a2.trans b2, ?_, ?_⟩
          · rw [b3, a3, List.append_assoc]
          · rw [b4, a4, List.foldl_append]
        | raised e => exact ⟨rfl, a2, a3, a4⟩
  | attempt p q ihp ihq =>
    obtain ⟨a1, a2, a3, a4⟩ := ihp hp.1 h l w hi
    simp only [exec, meaning]
    cases hm : meaning w.broken w.rootLevel l w.disable p with
    | mk ms t =>
      obtain ⟨ls, o⟩ := t
      cases he : exec p w with
      | mk o1 w1 =>
        rw [hm, he] at a1 a3 a4
        rw [he] at a2
        simp only at a1 a2 a3 a4
        subst a1
        cases o1 with
        | ok => exact ⟨rfl, a2, a3, a4⟩
        | raised e =>
          obtain ⟨b1, b2, b3, b4⟩ := ihq hp.2 h l w1 (hi.keep a2)
          rw [a2.broken, a2.rootLevel, a2.disable] at b1 b3 b4
          simp only
          refine ⟨b1, a2.trans b2, ?_, ?_⟩
          · rw [b3, a3, List.append_assoc]
          · rw [b4, a4, List.foldl_append]
  | disable d p ih =>
    have hi' : Inside h l { w with disable := d } := ⟨hi.handlers, hi.lt, hi.object, hi.level, hi.propagate⟩
    obtain ⟨a1, a2, a3, a4⟩ := ih hp h l _ hi'
    simp only [exec, meaning]
    refine ⟨a1, ⟨a2.level, a2.propagate, a2.handlers, a2.rootLevel, a2.rootHandlers, rfl, a2.broken, a2.next, a2.object,
      a2.collected⟩, a3, a4⟩
  | capture l' s p ih =>
    obtain ⟨a1, a2, a3, a4⟩ := ih hp w.next l' _ (enter_inside w l')
    have e := enterCapture_eq w l'
    have ebr : (enterCapture w l').broken = w.broken := by rw [e]
    have ert : (enterCapture w l').rootLevel = w.rootLevel := by rw [e]
    have edi : (enterCapture w l').disable = w.disable := by rw [e]
    have eout : (enterCapture w l').out = w.out := by rw [e]
    have ecol : (enterCapture w l').collected w.next = [] := by rw [e]; simp
    have ehd : (enterCapture w l').handlers = [w.next] := by rw [e]
    have enx : (enterCapture w l').next = w.next + 1 := by rw [e]
    have hobj : ∀ i < w.next, (enterCapture w l').object i = w.object i := by
      intro i hi'; rw [e]; simp [Function.update_of_ne (Nat.ne_of_lt hi')]
    have hcol : ∀ i < w.next, (enterCapture w l').collected i = w.collected i := by
      intro i hi'; rw [e]; simp [Function.update_of_ne (Nat.ne_of_lt hi')]
    rw [ebr, ert, edi] at a1 a3 a4
    rw [eout] at a3
    rw [ecol, foldl_collect_nil] at a4
    -- the state after the `finally` block
    have fin : ∀ w2 out, w2 = { (exec p (enterCapture w l')).2 with out := out } →
        Keeps h w (leaveCapture w w2) ∧ (leaveCapture w w2).out = out ∧
          (leaveCapture w w2).collected h = w.collected h := by
      intro w2 out hw2
      rw [leaveCapture_eq]
      subst hw2
      refine ⟨⟨rfl, rfl, ?_, ?_, ?_, ?_, ?_, ?_, ?_, ?_⟩, rfl, ?_⟩
      · simp [a2.handlers, ehd, hi.handlers, insertHandler]
      · simp only [a2.rootLevel, ert]
      · exact a2.rootHandlers.trans (by rw [e])
      · simp only [a2.disable, edi]
      · simp only [a2.broken, ebr]
      · have := a2.next
        simp only [enx] at this ⊢
        omega
      · intro i hi'
        have := a2.object i (by rw [enx]; omega)
        simp only [this, hobj i hi']
      · intro i hi' _
        have := a2.collected i (by rw [enx]; omega) (by omega)
        simp only [this, hcol i hi']
      · have := a2.collected h (by rw [enx]; have := hi.lt; omega) (by have := hi.lt; omega)
        simp only [this, hcol h hi.lt]
    have hbr2 : (exec p (enterCapture w l')).2.broken = w.broken := a2.broken.trans ebr
    simp only [exec, meaning]
    cases hm : meaning w.broken w.rootLevel l' w.disable p with
    | mk ms t =>
      obtain ⟨ls, o⟩ := t
      cases he : exec p (enterCapture w l') with
      | mk o1 w1 =>
        rw [hm, he] at a1 a3 a4
        rw [he] at fin hbr2
        simp only at a1 a3 a4 fin hbr2
        subst a1
        cases o1 with
        | raised e' =>
          obtain ⟨f1, f2, f3⟩ := fin w1 w1.out rfl
          exact ⟨rfl, f1, f2.trans a3, f3⟩
        | ok =>
          simp only
          rw [writeAll_spec, a4, hbr2]
          by_cases hn : ms = []
          · rw [if_pos ((firsts_eq_nil _).mpr hn), if_pos hn]
            obtain ⟨f1, f2, f3⟩ := fin w1 w1.out rfl
            exact ⟨rfl, f1, f2.trans a3, f3⟩
          · rw [if_neg (mt (firsts_eq_nil _).mp hn), if_neg hn]
            by_cases hb : w.broken s = true
            · rw [if_pos hb, if_pos hb]
              obtain ⟨f1, f2, f3⟩ := fin w1 w1.out rfl
              exact ⟨rfl, f1, f2.trans a3, f3⟩
            · rw [if_neg hb, if_neg hb]
              obtain ⟨f1, f2, f3⟩ := fin { w1 with out := w1.out ++ (firsts ms).map (fun m => (s, m)), broken := w.broken }
                (w1.out ++ (firsts ms).map fun m => (s, m)) (by rw [← hbr2])
              refine ⟨rfl, f1, ?_, f3⟩
              rw [f2, a3, List.append_assoc]
  | setLevel l => exact hp.elim
  | setPropagate b => exact hp.elim
  | addHandler h => exact hp.elim
  | removeHandler h => exact hp.elim

/-- Every program leaves the handlers different from each other. -/
theorem exec_nodup (p : Prog) (w : World) (hw : w.handlers.Nodup) : (exec p w).2.handlers.Nodup := by
  induction p generalizing w with
  | skip => exact hw
  | raise e => exact hw
  | log r => obtain ⟨o, c, h⟩ := emit_only w r; simp only [exec, h]; exact hw
  | seq p q ihp ihq =>
    have := ihp w hw
    simp only [exec]
    cases he : exec p w with
    | mk o w1 =>
      rw [he] at this
      cases o with
      | ok => exact ihq w1 this
      | raised e => exact this
  | attempt p q ihp ihq =>
    have := ihp w hw
    simp only [exec]
    cases he : exec p w with
    | mk o w1 =>
      rw [he] at this
      cases o with
      | ok => exact this
      | raised e => exact ihq w1 this
  | capture l s p ih =>
    have h0 := ih (enterCapture w l) (by rw [enterCapture_eq]; simp)
    have fin : ∀ w2, w2.handlers = (exec p (enterCapture w l)).2.handlers → (leaveCapture w w2).handlers.Nodup := by
      intro w2 h2
      rw [leaveCapture_eq]
      simp only [h2]
      exact foldl_insert_nodup' _ _ (h0.erase _)
    simp only [exec]
    cases he : exec p (enterCapture w l) with
    | mk o w1 =>
      rw [he] at fin
      cases o with
      | ok =>
        obtain ⟨out, c, hw1⟩ := writeAll_only w1 s (w1.collected w.next)
        exact fin _ (by rw [hw1])
      | raised e => exact fin _ rfl
  | disable d p ih => exact ih _ hw
  | setLevel l => exact hw
  | setPropagate b => exact hw
  | addHandler h => simp only [exec, addHandler_eq]; exact insertHandler_nodup _ _ hw
  | removeHandler h => exact hw.erase _

/-! ### The loop of `init` -/

/-- Every second element, starting with the second. -/
def odds : List ℕ → List ℕ
  | [] => []
  | [_] => []
  | _ :: b :: l => b :: odds l

theorem removeLoop_odds (l pre : List ℕ) (h : (pre ++ l).Nodup) : removeLoop pre.length (pre ++ l) = pre ++ odds l := by
  induction l using odds.induct generalizing pre with
  | case1 =>
    unfold removeLoop
    simp [odds]
  | case2 a =>
    have ha : a ∉ pre := by
      intro hm
      exact (List.nodup_append.mp h).2.2 a hm a (by simp) rfl
    unfold removeLoop
    rw [dif_pos (by simp)]
    simp only [List.getElem_append_right (Nat.le_refl _), Nat.sub_self, List.getElem_cons_zero]
    rw [List.erase_append_right _ ha, List.erase_cons_head]
    unfold removeLoop
    simp [odds]
  | case3 a b l ih =>
    have ha : a ∉ pre := by
      intro hm
      exact (List.nodup_append.mp h).2.2 a hm a (by simp) rfl
    unfold removeLoop
    rw [dif_pos (by simp)]
    simp only [List.getElem_append_right (Nat.le_refl _), Nat.sub_self, List.getElem_cons_zero]
    rw [List.erase_append_right _ ha, List.erase_cons_head]
    have h2 : ((pre ++ [b]) ++ l).Nodup := by
      rw [List.append_assoc, List.singleton_append]
      refine h.sublist ?_
      exact (List.append_sublist_append_left pre).mpr (List.sublist_cons_self a (b :: l))
    have := ih (pre ++ [b]) h2
    simpa [odds] using this

end Verif.Logger
