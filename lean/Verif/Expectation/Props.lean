import Verif.Expectation.Spec
import Mathlib.Tactic

/-!
# Property C60: comparing expectation types
-/

namespace Verif.Expectation

theorem name_injective {a b : Member} (h : a.name = b.name) : a = b := by
  cases a <;> cases b <;> first | rfl | (exfalso; revert h; decide)

theorem memberEq_iff {a b : Member} : memberEq a b = true ↔ a = b := by
  unfold memberEq
  simp only [decide_eq_true_eq]
  exact ⟨name_injective, fun h => by rw [h]⟩

/-- C60. Comparison with a member, from either side, raises `ValueError` for objects that are neither members, strings, booleans
nor `None`, and otherwise tells whether the object stands for that member. The two orders agree, and no two of the members are
equal. -/
theorem C60_compare (m : Member) (v : Value) :
    pyEq (.member m) v = pyEq v (.member m) ∧
    ((∃ n, v = .other n) → pyEq v (.member m) = .error .value) ∧
    ((∀ n, v ≠ .other n) → ∃ b, pyEq v (.member m) = .ok b ∧ (b = true ↔ Denotes v m)) := by
  cases v with
  | member a =>
    have hs : memberEq m a = memberEq a m := by
      rw [Bool.eq_iff_iff, memberEq_iff, memberEq_iff]; exact eq_comm
    refine ⟨by simp [pyEq, enumEq, hs], by simp, fun _ => ⟨_, rfl, ?_⟩⟩
    rw [memberEq_iff]; rfl
  | str s => exact ⟨rfl, by simp, fun _ => ⟨_, rfl, by simp [Denotes]⟩⟩
  | bool b =>
    refine ⟨rfl, by simp, fun _ => ⟨_, rfl, ?_⟩⟩
    rw [memberEq_iff]
    cases b <;> cases m <;> simp [Denotes]
  | none => exact ⟨rfl, by simp, fun _ => ⟨_, rfl, by simp [Denotes]⟩⟩
  | other n => exact ⟨rfl, fun _ => rfl, fun h => absurd rfl (h n)⟩

/-- A member equals itself, its name and no other member; its negation of a boolean. -/
example : pyEq (.str "observed") (.member .observed) = .ok true ∧ pyEq (.bool true) (.member .observed) = .ok false ∧
    pyEq (.member .apriori) (.member .observed) = .ok false ∧ pyEq (.member .apriori) (.other 3) = .error .value := by decide

/-- C60. A value stands for at most one member, and each member is stood for by itself and its name. -/
theorem C60_distinct (v : Value) (a b : Member) (ha : Denotes v a) (hb : Denotes v b) : a = b := by
  cases v with
  | member m => exact ha.symm.trans hb
  | str s => exact name_injective (ha.symm.trans hb)
  | bool c =>
    rcases ha with ⟨h1, h2⟩ | ⟨h1, h2⟩ <;> rcases hb with ⟨h3, h4⟩ | ⟨h3, h4⟩
    · rw [h2, h4]
    · rw [h1] at h3; cases h3
    · rw [h1] at h3; cases h3
    · rw [h2, h4]
  | none => exact ha.elim
  | other n => exact ha.elim

example (m : Member) : Denotes (.member m) m ∧ Denotes (.str m.name) m := ⟨rfl, rfl⟩

/-- C60. On members and strings equality is reflexive, symmetric and transitive, never raises, and equal objects have equal hash
values, whatever hash values Python chooses. -/
theorem C60_names (H : Hashes) :
    (∀ v, Named v → pyEq v v = .ok true) ∧
    (∀ v w, Named v → Named w → (pyEq v w = .ok true ∨ pyEq v w = .ok false) ∧ pyEq v w = pyEq w v ∧
      (pyEq v w = .ok true → hash H v = hash H w)) ∧
    (∀ u v w, Named u → Named v → Named w → pyEq u v = .ok true → pyEq v w = .ok true → pyEq u w = .ok true) := by
  have key : ∀ v w, Named v → Named w → ∃ b, pyEq v w = .ok b ∧ (b = true ↔
      (match v with | .member m => m.name | .str s => s | _ => "") = (match w with | .member m => m.name | .str s => s | _ => "")) := by
    intro v w hv hw
    cases v <;> cases w <;> simp only [Named] at hv hw <;>
      refine ⟨_, rfl, ?_⟩
    · simp only [memberEq, decide_eq_true_eq]
    · simp only [decide_eq_true_eq]; exact eq_comm
    · simp only [decide_eq_true_eq]
    · simp
  have bool : ∀ b c : Bool, (b = true ↔ c = true) → b = c := by decide
  refine ⟨fun v hv => ?_, fun v w hv hw => ⟨?_, ?_, ?_⟩, fun u v w hu hv hw h1 h2 => ?_⟩
  · obtain ⟨b, h1, h2⟩ := key v v hv hv
    rw [h1, h2.mpr rfl]
  · obtain ⟨b, h1, h2⟩ := key v w hv hw
    rw [h1]
    cases b
    · exact .inr rfl
    · exact .inl rfl
  · obtain ⟨b, h1, h2⟩ := key v w hv hw
    obtain ⟨c, h3, h4⟩ := key w v hw hv
    rw [h1, h3, bool b c (by rw [h2, h4]; exact eq_comm)]
  · intro h
    obtain ⟨b, h1, h2⟩ := key v w hv hw
    rw [h1] at h
    have hb : b = true := by injection h
    have := h2.mp hb
    cases v <;> cases w <;> simp only [Named] at hv hw <;> simp only at this <;> simp only [hash] <;> rw [this]
  · obtain ⟨b, h3, h4⟩ := key u v hu hv
    obtain ⟨c, h5, h6⟩ := key v w hv hw
    obtain ⟨d, h7, h8⟩ := key u w hu hw
    rw [h3] at h1
    rw [h5] at h2
    have hb : b = true := by injection h1
    have hc : c = true := by injection h2
    rw [h7, h8.mpr ((h4.mp hb).trans (h6.mp hc))]

/-- C60. A dict with members as keys: a member and its name find the same entry, the one stored for that member. -/
theorem C60_dict (H : Hashes) (hinj : ∀ a b : Member, H.str a.name = H.str b.name → a = b) {α : Type} (f : Member → α) (m : Member) :
    lookup H [(.member .apriori, f .apriori), (.member .aposteriori, f .aposteriori), (.member .observed, f .observed)] (.member m) =
      .ok (some (f m)) ∧
    lookup H [(.member .apriori, f .apriori), (.member .aposteriori, f .aposteriori), (.member .observed, f .observed)] (.str m.name) =
      .ok (some (f m)) := by
  have ne : ∀ a b : Member, a ≠ b → H.str a.name ≠ H.str b.name := fun a b h e => h (hinj a b e)
  have h1 := ne .apriori .aposteriori (by decide)
  have h2 := ne .apriori .observed (by decide)
  have h3 := ne .aposteriori .observed (by decide)
  cases m
  · constructor <;> simp [lookup, pyIs, hash, pyEq, enumEq, Member.name]
  · constructor <;> simp [lookup, pyIs, hash, pyEq, enumEq, h1, h1.symm]
  · constructor <;> simp [lookup, pyIs, hash, pyEq, enumEq, h2, h3]

/-- Hash values that distinguish the three names, and a name that finds the entry of its member. -/
def exHashes : Hashes := ⟨fun s => 10 + s.length, -5, fun n => n⟩

example : lookup exHashes [(.member .apriori, 1), (.member .aposteriori, 2), (.member .observed, 3)] (.str "observed") = .ok (some 3) := by
  refine (C60_dict exHashes ?_ (fun m => match m with | .apriori => 1 | .aposteriori => 2 | .observed => 3) .observed).2
  intro a b h
  cases a <;> cases b <;> first | rfl | (exfalso; revert h; decide)

/-- C60 fails for booleans: `apriori == True`, but the hash values differ (unless the random hash of the name happens to be 1), so
that `True` does not find the entry of `apriori` in a dict; and equality is not transitive. -/
theorem C60_bool_fails (H : Hashes) (h1 : H.str "apriori" ≠ 1) {α : Type} (x : α) :
    pyEq (.member .apriori) (.bool true) = .ok true ∧ hash H (.member .apriori) ≠ hash H (.bool true) ∧
    lookup H [(.member .apriori, x)] (.bool true) = .ok Option.none ∧
    pyEq (.str "apriori") (.member .apriori) = .ok true ∧ pyEq (.str "apriori") (.bool true) = .ok false := by
  refine ⟨rfl, h1, ?_, rfl, rfl⟩
  simp [lookup, pyIs, hash, Member.name, h1]

example : exHashes.str "apriori" ≠ 1 := by decide

/-! ## C89: an expectation may be given by its name -/

/-- C89 fails: `find_poi_upper_limit` asks for the observed limit with `==` in one place and with `is` in another. For the name
`"observed"`, which equals the member, the index of an expected p-value is used for the list of the observed one. -/
theorem C89_limit_fails :
    pyEq (.str "observed") (.member .observed) = .ok true ∧ nominalPvalue (.member .observed) = .ok (0, 1) ∧
      nominalPvalue (.str "observed") = .error .index ∧ nominalPvalue (.bool false) = .error .index := by decide

/-- C89, where it holds: every value that stands for one of the two expected types leads to the same p-value as the member.
Missing: the observed limit, see above. -/
theorem C89_limit_partial (v : Value) (m : Member) (h : Denotes v m) (hm : m ≠ .observed) :
    nominalPvalue v = nominalPvalue (.member m) ∧ nominalPvalue v = .ok (2, 5) := by
  have hc : pvalueCount v = .ok 5 := by
    have h' : ¬ Denotes v .observed := fun hb => hm (C60_distinct v _ _ h hb)
    have hv : ∀ n, v ≠ .other n := by rintro n rfl; exact h.elim
    obtain ⟨b, h1, h2⟩ := (C60_compare .observed v).2.2 hv
    unfold pvalueCount
    rw [h1]
    cases b
    · rfl
    · exact absurd (h2.mp rfl) h'
  have hi : nominalIndex v = 2 := by
    unfold nominalIndex
    rw [if_neg]
    intro hs
    cases v with
    | member a =>
      simp only [pyIs, decide_eq_true_eq, Value.member.injEq] at hs
      exact hm (h.symm.trans hs)
    | _ => simp [pyIs] at hs
  have e : nominalPvalue v = .ok (2, 5) := by simp [nominalPvalue, hc, hi]
  refine ⟨?_, e⟩
  rw [e]
  cases m with
  | observed => exact absurd rfl hm
  | _ => decide

example : Denotes (.str "apriori") .apriori ∧ Member.apriori ≠ .observed := ⟨rfl, by decide⟩

end Verif.Expectation
