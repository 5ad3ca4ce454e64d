import Verif.Memo.Keys
import Verif.CacheKey.Lemmas

/-!
# Lemmas: the keys of the cached methods
-/

namespace Verif.Memo
open Verif.Py Verif.Config
open Verif.Interface (Poi Data)
open Verif.CacheKey (V T Sig Call DKey token token_of_num tokenList_eq tokenItems_eq)

variable {H : List ℝ → List ℝ}

/-- Values with the same token stand for the same thing. -/
def Tells {α : Type} (H : List ℝ → List ℝ) (R : V → α → Prop) : Prop := ∀ v x v' x', R v x → R v' x' → token H v = token H v' → x = x'

/-- Not written as `None`. -/
def NotNone {α : Type} (R : V → α → Prop) : Prop := ∀ v x, R v x → v ≠ .none

theorem num_tells : Tells H IsNum := by
  intro v x v' x' h h' e
  rw [token_of_num h, token_of_num h'] at e
  simpa using e

theorem bool_tells : Tells H IsBool := by
  intro v x v' x' h h' e
  rw [token_of_num h, token_of_num h'] at e
  cases x <;> cases x' <;> simp at e <;> rfl

theorem float_tells : Tells H IsFloat := by
  intro v x v' x' h h' e
  cases x <;> cases x' <;> simp only [IsFloat] at h h'
  all_goals first
    | rfl
    | (rw [num_tells v _ v' _ h h' e])
    | (rw [token_of_num h] at e; first | (subst h'; simp [token] at e) | (obtain ⟨i, rfl⟩ := h'; simp [token] at e))
    | (rw [token_of_num h'] at e; first | (subst h; simp [token] at e) | (obtain ⟨i, rfl⟩ := h; simp [token] at e))
    | (subst h; subst h'; simp [token] at e)
    | (subst h; obtain ⟨i, rfl⟩ := h'; simp [token] at e)
    | (subst h'; obtain ⟨i, rfl⟩ := h; simp [token] at e)

theorem float_some : NotNone IsFloat := by
  intro v x h
  rintro rfl
  cases x <;> simp [IsFloat, IsNum, CacheKey.V.numVal] at h

theorem key_tells : Tells H IsKey := by
  intro v x v' x' h h' e
  cases x <;> cases x' <;> simp only [IsKey] at h h'
  · subst h; subst h'; simpa [token] using e
  · subst h; rw [token_of_num h'] at e; simp [token] at e
  · subst h'; rw [token_of_num h] at e; simp [token] at e
  · have := num_tells v _ v' _ h h' e
    simpa using this

theorem opt_tells {α : Type} {R : V → α → Prop} (h1 : Tells H R) (h2 : NotNone R) : Tells H (IsOpt R) := by
  intro v x v' x' h h' e
  cases x <;> cases x' <;> simp only [IsOpt] at h h'
  · rfl
  · subst h
    exact absurd ((CacheKey.token_none_iff (H := H) v').1 (by rw [← e]; simp [token])) (h2 _ _ h')
  · subst h'
    exact absurd ((CacheKey.token_none_iff (H := H) v).1 (by rw [e]; simp [token])) (h2 _ _ h)
  · rw [h1 _ _ _ _ h h' e]

theorem seq_token {α : Type} {R : V → α → Prop} {v : V} {l : List α} (h : IsSeq R v l) : ∃ vs, token H v = .tup (vs.map (token H)) ∧ List.Forall₂ R vs l := by
  obtain ⟨vs, rfl | rfl, h⟩ := h <;> exact ⟨vs, by simp [token, tokenList_eq], h⟩

theorem seq_tells {α : Type} {R : V → α → Prop} (h1 : Tells H R) : Tells H (IsSeq R) := by
  intro v x v' x' h h' e
  obtain ⟨vs, e1, hx⟩ := seq_token (H := H) h
  obtain ⟨vs', e2, hx'⟩ := seq_token (H := H) h'
  rw [e1, e2, T.tup.injEq] at e
  clear e1 e2 h h'
  induction hx generalizing vs' x' with
  | nil =>
    cases hx' with
    | nil => rfl
    | cons _ _ => simp at e
  | cons ha _ ih =>
    cases hx' with
    | nil => simp at e
    | cons hb hbs =>
      simp only [List.map_cons, List.cons.injEq] at e
      rw [h1 _ _ _ _ ha hb e.1, ih _ _ e.2 hbs]

theorem seq_some {α : Type} {R : V → α → Prop} : NotNone (IsSeq R) := by
  rintro v x ⟨vs, rfl | rfl, -⟩ <;> simp

theorem bound_tells : Tells H IsBound := by
  rintro v ⟨a, b⟩ v' ⟨a', b'⟩ ⟨x, y, hv, hx, hy⟩ ⟨x', y', hv', hx', hy'⟩ e
  have e1 : token H v = .tup [token H x, token H y] := by rcases hv with rfl | rfl <;> simp [token, tokenList_eq]
  have e2 : token H v' = .tup [token H x', token H y'] := by rcases hv' with rfl | rfl <;> simp [token, tokenList_eq]
  rw [e1, e2] at e
  simp only [T.tup.injEq, List.cons.injEq, and_true] at e
  have ht := opt_tells (H := H) float_tells float_some
  exact Prod.ext (ht _ _ _ _ hx hx' e.1) (ht _ _ _ _ hy hy' e.2)

theorem bounds_tells : Tells H (IsOpt (IsSeq IsBound)) := opt_tells (seq_tells bound_tells) seq_some

theorem keys_tells : Tells H (IsOpt (IsSeq IsKey)) := opt_tells (seq_tells key_tells) seq_some

theorem data_tells (hH : Function.Injective H) : Tells H IsData := by
  have hne : ∀ v d (n : ℕ) t b, IsSeq IsNum v d → token H v ≠ token H (.array [n] t b) := by
    intro v d n t b h e
    obtain ⟨vs, e1, hx⟩ := seq_token (H := H) h
    rw [e1] at e
    simp only [token, T.tup.injEq] at e
    cases hx with
    | nil => simp at e
    | cons ha _ =>
      simp only [List.map_cons, List.cons.injEq] at e
      rw [token_of_num ha] at e
      simp at e
  rintro v d v' d' (h | ⟨t, rfl⟩) (h' | ⟨t', rfl⟩) e
  · exact seq_tells num_tells _ _ _ _ h h' e
  · exact absurd e (hne _ _ _ _ _ h)
  · exact absurd e.symm (hne _ _ _ _ _ h')
  · simp only [token, T.tup.injEq, List.cons.injEq, T.bytes.injEq] at e
    exact hH e.2.2.1

theorem data_some : NotNone IsData := by
  rintro v d (h | ⟨t, rfl⟩)
  · exact seq_some v d h
  · simp

theorem dkey_inj : Function.Injective dkey := by
  intro a b h
  cases a <;> cases b <;> simp only [dkey] at h
  · rw [CacheKey.inrₗ_inj h]
  · exact absurd (congrArg ofLex h) (by simp)
  · exact absurd (congrArg ofLex h) (by simp)
  · have := congrArg ofLex h
    simpa using this

/-- Values of `fixed_poi_value` that are not dictionaries with several entries: the same number, or the same entry. -/
theorem poi_tells {v v' : V} {x x' : Poi} (h : IsPoi v x) (h' : IsPoi v' x') (hx : ∀ l, x = .dict l → l.length ≤ 1) (hx' : ∀ l, x' = .dict l → l.length ≤ 1)
    (e : token H v = token H v') (B : Interface.Backend) (w : Interface.World) : Interface.resolvePoi B w x = Interface.resolvePoi B w x' := by
  have hnd : ∀ {v v' : V} {r : ℝ} {items : List (DKey × V)}, IsNum v r → v' = .dict items → token H v ≠ token H v' := by
    intro v v' r items h h' e
    subst h'
    rw [token_of_num h] at e
    simp [token] at e
  cases x <;> cases x' <;> simp only [IsPoi] at h h'
  · rw [num_tells _ _ _ _ h h' e]
  · have := num_tells _ _ _ _ h h' e
    simp only [Interface.resolvePoi, this]
  · obtain ⟨_, h', -⟩ := h'
    exact absurd e (hnd h h')
  · have := num_tells _ _ _ _ h h' e
    simp only [Interface.resolvePoi, this]
  · have := num_tells _ _ _ _ h h' e
    simp only [Interface.resolvePoi, this]
  · obtain ⟨_, h', -⟩ := h'
    exact absurd e (hnd h h')
  · obtain ⟨_, h, -⟩ := h
    exact absurd e.symm (hnd h' h)
  · obtain ⟨_, h, -⟩ := h
    exact absurd e.symm (hnd h' h)
  · rename_i l l'
    have h1 := hx l rfl
    have h2 := hx' l' rfl
    obtain ⟨items, rfl, h⟩ := h
    obtain ⟨items', rfl, h'⟩ := h'
    suffices l = l' by rw [this]
    match l, l', h1, h2, items, items', h, h' with
    | [], [], _, _, _, _, _, _ => rfl
    | [], [_], _, _, _, _, .nil, .cons _ .nil => simp [token, tokenItems_eq, CacheKey.sortItems] at e
    | [_], [], _, _, _, _, .cons _ .nil, .nil => simp [token, tokenItems_eq, CacheKey.sortItems] at e
    | [(k, r)], [(k', r')], _, _, _, _, .cons (a := (i, a)) ha .nil, .cons (a := (i', a')) hb .nil =>
      simp only [token, tokenItems_eq, CacheKey.sortItems, List.map_cons, List.map_nil, List.mergeSort_singleton, T.tup.injEq, List.cons.injEq, and_true] at e
      have hp := CacheKey.pairD_inj e
      simp only [Prod.mk.injEq] at hp
      have hk : k = k' := dkey_inj (by rw [← ha.1, ← hb.1]; exact hp.1)
      have hr : r = r' := num_tells _ _ _ _ ha.2 hb.2 hp.2
      rw [hk, hr]
    | _ :: _ :: _, _, h, _, _, _, _, _ => simp at h
    | _, _ :: _ :: _, _, h, _, _, _, _ => simp at h

theorem dlookup_mem {l : List (DKey × V)} {k : DKey} {v : V} (h : dget k l = some v) : (k, v) ∈ l := by
  induction l with
  | nil => simp [dget] at h
  | cons p l ih =>
    obtain ⟨k', b⟩ := p
    simp only [dget] at h
    split at h
    · rename_i hk
      simp only [Option.some.injEq] at h
      rw [hk, h]; exact List.mem_cons_self
    · exact List.mem_cons_of_mem _ (ih h)

theorem mem_dlookup {l : List (DKey × V)} (hn : (l.map Prod.fst).Nodup) {k : DKey} {v : V} (h : (k, v) ∈ l) : dget k l = some v := by
  induction l with
  | nil => simp at h
  | cons p l ih =>
    obtain ⟨k', b⟩ := p
    simp only [List.map_cons, List.nodup_cons] at hn
    rw [dget]
    rcases List.mem_cons.1 h with h2 | h2
    · simp only [Prod.mk.injEq] at h2
      rw [if_pos h2.1, h2.2]
    · have : k ≠ k' := by
        rintro rfl
        exact hn.1 (List.mem_map.2 ⟨(k, v), h2, rfl⟩)
      rw [if_neg this]
      exact ih hn.2 h2

/-- Dictionaries with the same token have, key by key, values with the same tokens. -/
theorem dict_lookup {l l' : List (DKey × V)} (hn : (l.map Prod.fst).Nodup) (hn' : (l'.map Prod.fst).Nodup) (e : token H (.dict l) = token H (.dict l')) (k : DKey) :
    (dget k l).map (token H) = (dget k l').map (token H) := by
  simp only [token, T.tup.injEq, tokenItems_eq] at e
  have hp := CacheKey.perm_of_sort_eq (CacheKey.map_pairD_inj e)
  have hm : ∀ (l l' : List (DKey × V)), (l'.map Prod.fst).Nodup → (l.map fun p => (p.1, token H p.2)).Perm (l'.map fun p => (p.1, token H p.2)) → ∀ v, dget k l = some v →
      ∃ v', dget k l' = some v' ∧ token H v = token H v' := by
    intro l l' hn' hp v hv
    have h1 : (k, token H v) ∈ l'.map fun p => (p.1, token H p.2) := hp.mem_iff.1 (List.mem_map.2 ⟨(k, v), dlookup_mem hv, rfl⟩)
    obtain ⟨⟨k', v'⟩, h2, h3⟩ := List.mem_map.1 h1
    simp only [Prod.mk.injEq] at h3
    obtain ⟨rfl, h3⟩ := h3
    exact ⟨v', mem_dlookup hn' h2, h3.symm⟩
  cases h : dget k l with
  | some v =>
    obtain ⟨v', h1, h2⟩ := hm l l' hn' hp v h
    rw [h1, Option.map_some, Option.map_some, h2]
  | none =>
    cases h' : dget k l' with
    | none => rfl
    | some v' =>
      obtain ⟨v, h1, -⟩ := hm l' l hn hp.symm v' h'
      rw [h] at h1
      simp at h1
/-- What the extra keywords tell. -/
theorem extra_tells {v v' : V} {g g' : Bool} {x x' : Option Poi} (h : IsExtra v g x) (h' : IsExtra v' g' x') (e : token H v = token H v') :
    g = g' ∧ ((∀ l, x = some (.dict l) → l.length ≤ 1) → (∀ l, x' = some (.dict l) → l.length ≤ 1) → ∀ B w, Interface.resolveFixed B w x = Interface.resolveFixed B w x') := by
  obtain ⟨l, rfl, hn, h1, h2⟩ := h
  obtain ⟨l', rfl, hn', h1', h2'⟩ := h'
  constructor
  · have := dict_lookup hn hn' e (Sum.inrₗ "do_grad")
    revert this h1 h1'
    cases dget (Sum.inrₗ "do_grad") l <;> cases dget (Sum.inrₗ "do_grad") l' <;> simp only [Option.map_none, Option.map_some, reduceCtorEq, false_implies, implies_true, Option.some.injEq]
    · rintro rfl rfl _; rfl
    · intro h h' e; exact bool_tells _ _ _ _ h h' e
  · intro hx hx' B w
    have := dict_lookup hn hn' e (Sum.inrₗ "fixed_poi_value")
    revert this h2 h2'
    cases dget (Sum.inrₗ "fixed_poi_value") l <;> cases dget (Sum.inrₗ "fixed_poi_value") l' <;>
      simp only [Option.map_none, Option.map_some, reduceCtorEq, false_implies, implies_true, Option.some.injEq]
    · rintro rfl rfl _; rfl
    · rintro ⟨p, rfl, hp⟩ ⟨p', rfl, hp'⟩ e
      exact poi_tells hp hp' (fun l h => hx l (by rw [h])) (fun l h => hx' l (by rw [h])) e B w

/-- Equal keys: argument by argument the same token. -/
theorem key_values {b b' : List (String × V)} (hn : (b'.map Prod.fst).Nodup) (e : CacheKey.buildKey H [] b = CacheKey.buildKey H [] b') {k : String} {v v' : V} (hv : (k, v) ∈ b)
    (hv' : (k, v') ∈ b') : token H v = token H v' := by
  simp only [CacheKey.buildKey, CacheKey.tokenNames, T.tup.injEq, List.cons.injEq, and_true] at e
  have hp := CacheKey.perm_of_sort_eq (CacheKey.map_pairT_inj e.2)
  have h1 : (k, token H v) ∈ b'.map fun p => (p.1, token H p.2) := hp.mem_iff.1 (List.mem_map.2 ⟨(k, v), hv, rfl⟩)
  obtain ⟨⟨k', v''⟩, h2, h3⟩ := List.mem_map.1 h1
  simp only [Prod.mk.injEq] at h3
  obtain ⟨rfl, h3⟩ := h3
  rw [← h3, CacheKey.unique_of_nodup hn h2 hv']

theorem member_inj : Function.Injective member := by
  intro a b h
  cases a <;> cases b <;> simp [member] at h <;> rfl

end Verif.Memo
