import Verif.Combiner.Props

/-!
# C192: Asimov data of combinations whose members were renamed
-/

namespace Verif.Combiner
open Verif.Py F
open Classical

variable {D V : Type}

/-- `k` is the last of the models with name `a`. -/
def IsLast (name : ℕ → String) (stack : List ℕ) (a : String) (k : ℕ) : Prop :=
  ∃ l1 l2, stack = l1 ++ k :: l2 ∧ name k = a ∧ a ∉ l2.map name

theorem asimovLoop_last (S : Stat D V) (name : ℕ → String) (options : String → Kwargs V) (kw : Kwargs V) (d : ℕ → D) :
    ∀ (stack : List ℕ) (d0 : List (String × D)), (∀ m ∈ stack, NoClash ["expected", "test_statistic"] (options (S.backendType m)) kw) →
    (∀ m ∈ stack, S.asimov m (options (S.backendType m) ++ kw) = .ok (d m)) →
    ∃ r, asimovLoop S name options kw d0 stack = .ok r ∧ (∀ a k, IsLast name stack a k → dictGet a r = some (d k)) ∧
      ∀ a, a ∉ stack.map name → dictGet a r = dictGet a d0 := by
  intro stack
  induction stack with
  | nil =>
    intro d0 _ _
    refine ⟨d0, rfl, ?_, fun _ _ => rfl⟩
    rintro a k ⟨l1, l2, h, -⟩
    simp at h
  | cons m l ih =>
    intro d0 hk hd
    obtain ⟨r, h1, h2, h3⟩ := ih (dictSet (name m) (d m) d0) (fun x hx => hk x (List.mem_cons_of_mem _ hx)) (fun x hx => hd x (List.mem_cons_of_mem _ hx))
    refine ⟨r, ?_, ?_, ?_⟩
    · simp only [asimovLoop, mergeKw_ok (hk m List.mem_cons_self), hd m List.mem_cons_self]
      exact h1
    · rintro a k ⟨l1, l2, h, rfl, ha⟩
      cases l1 with
      | nil =>
        obtain ⟨rfl, rfl⟩ := List.cons.inj h
        rw [h3 _ ha, dictGet_set, if_pos rfl]
      | cons y l1 =>
        obtain ⟨rfl, rfl⟩ := List.cons.inj h
        exact h2 _ k ⟨l1, l2, rfl, rfl, ha⟩
    · intro a ha
      simp only [List.map_cons, List.mem_cons, not_or] at ha
      rw [h3 a ha.2, dictGet_set, if_neg ha.1]

/-- **C192** For every list of models with any names, also equal ones: in the Asimov likelihood of the combination each member is evaluated with the Asimov data of the last member with the same name. -/
theorem C192_last (S : Stat D V) (name : ℕ → String) (stack : List ℕ) (poi : ℝ) (options : String → Kwargs V) (kw : Kwargs V)
    (hk : ∀ m ∈ stack, NoClash ["poi_test", "expected", "data"] (options (S.backendType m)) kw)
    (hk' : ∀ m ∈ stack, NoClash ["expected", "test_statistic"] (options (S.backendType m)) kw)
    (d : ℕ → D) (hd : ∀ m ∈ stack, S.asimov m (options (S.backendType m) ++ kw) = .ok (d m))
    (last : ℕ → ℕ) (hlast : ∀ m ∈ stack, IsLast name stack (name m) (last m))
    (x : ℕ → ℝ) (hx : ∀ m ∈ stack, S.nll m poi (some (d (last m))) (options (S.backendType m) ++ kw) = .ok (fin (x m))) :
    asimovLikelihood S name stack poi true options kw = .ok (fin (stack.map x).sum) ∧
    asimovLikelihood S name stack poi false options kw = .ok (fin (stack.map (fun m => Real.exp (-x m))).prod) := by
  obtain ⟨r, h1, h2, -⟩ := asimovLoop_last S name options kw d stack [] hk' hd
  have hf : List.Forall₂ (Gives (term S name options r kw poi)) stack ((stack.map x).map fin) := by
    rw [List.map_map, List.forall₂_map_right_iff, List.forall₂_same]
    intro m hm
    left
    simp only [term, mergeKw_ok (hk m hm), h2 _ _ (hlast m hm)]
    exact hx m hm
  have hs := sumLoop_eq _ _ _ (fin 0) hf
  rw [F.zero_add, sumF_fin] at hs
  refine ⟨?_, ?_⟩
  · simp [asimovLikelihood, h1, likelihood, hs, Except.map, scaleOut]
  · simp only [asimovLikelihood, h1, likelihood, hs, Except.map, scaleOut, isNan, neg, exp, Bool.false_eq_true, or_false,
      if_false, Except.ok.injEq, fin.injEq]
    rw [exp_neg_sum, List.map_map]
    rfl

/-- A last member exists for every name that occurs. -/
theorem exists_last (name : ℕ → String) (stack : List ℕ) {a : String} (ha : a ∈ stack.map name) : ∃ k ∈ stack, IsLast name stack a k := by
  induction stack with
  | nil => simp at ha
  | cons m l ih =>
    by_cases h : a ∈ l.map name
    · obtain ⟨k, hk, l1, l2, rfl, h1, h2⟩ := ih h
      exact ⟨k, List.mem_cons_of_mem _ hk, m :: l1, l2, rfl, h1, h2⟩
    · simp only [List.map_cons, List.mem_cons] at ha
      exact ⟨m, List.mem_cons_self, [], l, rfl, (ha.resolve_right h).symm, h⟩

/-- **C192** After every history of creations, `append`, `remove` and `@`, each member of each combination is evaluated with its own Asimov data. Missing: histories with assignments to `analysis`
(`C192_renamed_fails`; for these see `C192_last`). -/
theorem C192_own_partial (S : Stat D V) (name : ℕ → String) (ops : List Op) (ho : ∀ o ∈ ops, o.keepsNames) (stack : List ℕ) (hstack : stack ∈ (run ⟨name, []⟩ ops).lists)
    (poi : ℝ) (options : String → Kwargs V) (kw : Kwargs V)
    (hk : ∀ m ∈ stack, NoClash ["poi_test", "expected", "data"] (options (S.backendType m)) kw)
    (hk' : ∀ m ∈ stack, NoClash ["expected", "test_statistic"] (options (S.backendType m)) kw)
    (d : ℕ → D) (hd : ∀ m ∈ stack, S.asimov m (options (S.backendType m) ++ kw) = .ok (d m))
    (x : ℕ → ℝ) (hx : ∀ m ∈ stack, S.nll m poi (some (d m)) (options (S.backendType m) ++ kw) = .ok (fin (x m))) :
    asimovLikelihood S (run ⟨name, []⟩ ops).name stack poi true options kw = .ok (fin (stack.map x).sum) ∧
    asimovLikelihood S (run ⟨name, []⟩ ops).name stack poi false options kw = .ok (fin (stack.map (fun m => Real.exp (-x m))).prod) :=
  C35_asimov S _ stack (C34_names_distinct_partial _ (by intro l hl; simp at hl) ops ho stack hstack) poi options kw hk hk' d hd x hx

/-- **C192** After an assignment to `analysis` that makes two names equal, the Asimov likelihood of an existing combination is neither the sum over the members with their own Asimov data (14 here), nor
independent of the order of the members. -/
theorem C192_renamed_fails :
    let ab := run ⟨names, []⟩ [.new [.model 0, .model 1], .rename 1 "a"]
    let ba := run ⟨names, []⟩ [.new [.model 1, .model 0], .rename 1 "a"]
    ab.lists = [[0, 1]] ∧ ba.lists = [[1, 0]] ∧ ab.name = ba.name ∧
    (∀ m ∈ [0, 1], toy.asimov m [] = .ok ((m : ℝ) * 10) ∧ toy.nll m 2 (some ((m : ℝ) * 10)) [] = .ok (fin ((m : ℝ) * 10 + 2))) ∧
    asimovLikelihood toy ab.name [0, 1] 2 true (fun _ => []) [] = .ok (fin 24) ∧
    asimovLikelihood toy ba.name [1, 0] 2 true (fun _ => []) [] = .ok (fin 4) := by
  intro ab ba
  have hn0 : ab.name 0 = "a" := by decide
  have hn1 : ab.name 1 = "a" := by decide
  have hm0 : ba.name 0 = "a" := by decide
  have hm1 : ba.name 1 = "a" := by decide
  refine ⟨by decide, by decide, rfl, by simp [toy], ?_, ?_⟩
  · have := (C192_last toy ab.name [0, 1] 2 (fun _ => []) [] (by simp [NoClash]) (by simp [NoClash]) (fun m => m * 10) (by simp [toy])
      (fun _ => 1) (fun m hm => ⟨[0], [], rfl, by simp at hm; rcases hm with rfl | rfl <;> simp [hn0, hn1], by simp⟩) (fun _ => 12) (by simp [toy]; norm_num)).1
    rw [this]
    norm_num
  · have := (C192_last toy ba.name [1, 0] 2 (fun _ => []) [] (by simp [NoClash]) (by simp [NoClash]) (fun m => m * 10) (by simp [toy])
      (fun _ => 0) (fun m hm => ⟨[1], [], rfl, by simp at hm; rcases hm with rfl | rfl <;> simp [hm0, hm1], by simp⟩) (fun _ => 2) (by simp [toy])).1
    rw [this]
    norm_num

-- three members, of which the first and the last have the same name after an assignment: the first is evaluated with the data of the last
example : asimovLikelihood toy (run ⟨names, []⟩ [.new [.model 0, .model 1, .model 2], .rename 2 "a"]).name [0, 1, 2] 2 true (fun _ => []) [] = .ok (fin 56) := by
  obtain ⟨h, hh⟩ : ∃ h, h = run ⟨names, []⟩ [.new [.model 0, .model 1, .model 2], .rename 2 "a"] := ⟨_, rfl⟩
  have h0 : h.name 0 = "a" := by subst hh; decide
  have h1 : h.name 1 = "b" := by subst hh; decide
  have h2 : h.name 2 = "a" := by subst hh; decide
  rw [← hh]
  have := (C192_last toy h.name [0, 1, 2] 2 (fun _ => []) [] (by simp [NoClash]) (by simp [NoClash]) (fun m => m * 10) (by simp [toy])
    (fun m => if m = 1 then 1 else 2) (fun m hm => by
      simp at hm
      rcases hm with rfl | rfl | rfl
      · exact ⟨[0, 1], [], rfl, by simp [h0, h2], by simp⟩
      · exact ⟨[0], [2], rfl, rfl, by simp [h1, h2]⟩
      · exact ⟨[0, 1], [], rfl, rfl, by simp⟩) (fun m => if m = 1 then 12 else 22) (by simp [toy]; norm_num)).1
  rw [this]
  norm_num

-- a combination made with `@` after a removal
example : asimovLikelihood toy (run ⟨names, []⟩ [.new [.model 0, .model 1], .remove 0 "a", .matmul 0 (.model 2)]).name [1, 2] 2 true (fun _ => []) [] = .ok (fin 34) := by
  have := (C192_own_partial toy names [.new [.model 0, .model 1], .remove 0 "a", .matmul 0 (.model 2)] (by simp [Op.keepsNames]) [1, 2] (by decide) 2 (fun _ => []) [] (by simp [NoClash])
    (by simp [NoClash]) (fun m => m * 10) (by simp [toy]) (fun m => m * 10 + 2) (by simp [toy])).1
  rw [this]
  norm_num

end Verif.Combiner
