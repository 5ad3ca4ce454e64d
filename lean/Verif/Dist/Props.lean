import Verif.Dist.Spec
import Verif.Backend.Lemmas
import Mathlib.Tactic

/-!
# Properties C126-C130: the distributions behind the backends
-/

namespace Verif.Dist
open Verif.Py F
open Verif.Backend (Vec Ext Domain Main mvnLog at' bcast dot mvnLogProb clip)

/-! ## C126: covariance matrices given by functions -/

theorem logProb_eq (E : Ext) (mean : Vec) (cov : Cov) (d : Domain) (value x : Vec) (hx : d.get value = .ok x) (h : Shapes E mean (cov.at x) x) :
    logProb E mean cov d value = .ok (trueLog E mean (cov.at x) x + (E.logdet (cov.at x) - cov.logdet E x) / 2) := by
  have e := Backend.mvn_block E (cov.at x) (at' x) (at' mean) x.length h.size h.inv h.rows
  have e1 : (List.range x.length).map (at' x) = x := (Backend.vec_eq x rfl).symm
  have e2 : (List.range x.length).map (at' mean) = mean := (Backend.vec_eq mean h.means).symm
  rw [e1, e2] at e
  unfold mvnLogProb at e
  unfold logProb
  rw [hx, Backend.ok_bind]
  have hb : bcast (fun a b => a - b) x mean = .ok (List.zipWith (fun a b => a - b) x mean) := by simp [bcast, h.means]
  have hl : ¬ (List.zipWith (fun a b : ℝ => a - b) x mean).length ≠ (cov.at x).length := by simp [h.means, h.size]
  rw [hb, Backend.ok_bind, if_neg hl] at e ⊢
  rw [Backend.pure_ok] at e ⊢
  simp only [Except.ok.injEq] at e
  unfold trueLog
  rw [← e]
  congr 1
  ring

/-- C126: the density of `MultivariateNormal` is that of the normal distribution with the covariance matrix at the point. Missing: matrices given by a function whose
determinant is below one, for which the claim is false (`C126_callable_fails`). -/
theorem C126_density_partial (E : Ext) (mean : Vec) (cov : Cov) (d : Domain) (value x : Vec) (hx : d.get value = .ok x) (h : Shapes E mean (cov.at x) x)
    (hd : (∃ f, cov = .function f) → 1 / 10 ^ 20 ≤ E.logdet (cov.at x)) : logProb E mean cov d value = .ok (trueLog E mean (cov.at x) x) := by
  rw [logProb_eq E mean cov d value x hx h]
  congr 1
  cases cov with
  | matrix c => simp [Cov.at, Cov.logdet]
  | function f => simp only [Cov.at, Cov.logdet] at hd ⊢; rw [max_eq_left (hd ⟨f, rfl⟩)]; ring

/-- C126 is false for functions: a matrix with determinant below one gets the density of determinant one, so too small a density. -/
theorem C126_callable_fails (E : Ext) (mean : Vec) (f : Vec → List Vec) (d : Domain) (value x : Vec) (hx : d.get value = .ok x) (h : Shapes E mean (f x) x)
    (hd : E.logdet (f x) < 0) : ∃ y, logProb E mean (.function f) d value = .ok y ∧ y < trueLog E mean (f x) x + E.logdet (f x) / 2 ∧
      logProb E mean (.matrix (f x)) d value = .ok (trueLog E mean (f x) x) := by
  refine ⟨_, logProb_eq E mean (.function f) d value x hx h, ?_, C126_density_partial E mean (.matrix (f x)) d value x hx h (by simp)⟩
  simp only [Cov.at, Cov.logdet]
  rw [max_eq_right (hd.le.trans (by positivity))]
  have : (0 : ℝ) < 1 / 10 ^ 20 := by positivity
  linarith

/-- One dimension, variance `v`. -/
noncomputable def exCov : Ext := ⟨fun _ => 0, fun c => [[1 / at' (c.getD 0 []) 0]], fun c => Real.log (at' (c.getD 0 []) 0)⟩

/-- A variance of 4 at the point 2: determinant above one. -/
example : Shapes exCov [1] [[4]] [2] ∧ 1 / 10 ^ 20 ≤ exCov.logdet [[4]] ∧ exCov.logdet [[1 / 4]] < 0 ∧ Shapes exCov [1] [[1 / 4]] [2] := by
  refine ⟨⟨rfl, rfl, rfl, by simp [exCov]⟩, ?_, ?_, ⟨rfl, rfl, rfl, by simp [exCov]⟩⟩
  · simp only [exCov, at', List.getD_cons_zero]
    have := Real.one_sub_inv_le_log_of_pos (show (0 : ℝ) < 4 by norm_num)
    norm_num at this ⊢
    linarith
  · simp only [exCov, at', List.getD_cons_zero]
    exact Real.log_neg (by norm_num) (by norm_num)

/-! ## C127: threads -/

section
variable (E : Ext) (m : Main)

/-- The value that a pending evaluation should get. -/
noncomputable def owed (t : Thread) : List (Except Backend.Err ℝ) :=
  match t.pending with
  | none => []
  | some (e, _) => [m.logProb E e.pars e.data]

theorem evalAt_eq (e : Eval) (loc : Vec) (h : m.rate e.pars = .ok loc) : evalAt E m loc e.data = m.logProb E e.pars e.data := by
  cases m <;> simp only [Main.rate] at h <;> simp only [Main.logProb, evalAt, h] <;> rfl

theorem logProb_error (e : Eval) (err : Backend.Err) (h : m.rate e.pars = .error err) : m.logProb E e.pars e.data = .error err := by
  cases m <;> simp only [Main.rate] at h <;> simp only [Main.logProb, h] <;> rfl

/-- Nothing is lost, and a pending evaluation has its own object with the right mean. -/
def Good (l : List Eval) (t : Thread) : Prop :=
  t.done ++ owed E m t ++ alone E m t.todo = alone E m l ∧ ∀ e own, t.pending = some (e, own) → ∃ loc, own = some loc ∧ m.rate e.pars = .ok loc

theorem step_pending {i : ℕ} {s : State} {e : Eval} {own : Option Vec} (h : (s.threads i).pending = some (e, own)) :
    step E m i s = ⟨s.mean, Function.update s.threads i ⟨(s.threads i).todo, none, (s.threads i).done ++ [evalAt E m (own.getD s.mean) e.data]⟩⟩ := by
  unfold step; rw [h]

theorem step_nil {i : ℕ} {s : State} (h : (s.threads i).pending = none) (ht : (s.threads i).todo = []) : step E m i s = s := by
  unfold step; rw [h, ht]

theorem step_error {i : ℕ} {s : State} {e : Eval} {l : List Eval} {err : Backend.Err} (h : (s.threads i).pending = none) (ht : (s.threads i).todo = e :: l)
    (hr : m.rate e.pars = .error err) : step E m i s = ⟨s.mean, Function.update s.threads i ⟨l, none, (s.threads i).done ++ [.error err]⟩⟩ := by
  unfold step; rw [h, ht]; simp only [hr]

theorem step_ok {i : ℕ} {s : State} {e : Eval} {l : List Eval} {loc : Vec} (h : (s.threads i).pending = none) (ht : (s.threads i).todo = e :: l)
    (hr : m.rate e.pars = .ok loc) : step E m i s = if shares m then ⟨loc, Function.update s.threads i ⟨l, some (e, none), (s.threads i).done⟩⟩
        else ⟨s.mean, Function.update s.threads i ⟨l, some (e, some loc), (s.threads i).done⟩⟩ := by
  unfold step; rw [h, ht]; simp only [hr]

theorem fresh_shares {m : Main} (hm : Fresh m) : shares m = false := by
  cases m with
  | mvn r c => exact absurd rfl (hm r c)
  | poisson r => rfl
  | normal r c => rfl

theorem step_other (i j : ℕ) (hij : j ≠ i) (s : State) : (step E m i s).threads j = s.threads j := by
  cases hp : (s.threads i).pending with
  | some p => obtain ⟨e, own⟩ := p; rw [step_pending E m hp]; simp [hij]
  | none =>
    cases ht : (s.threads i).todo with
    | nil => rw [step_nil E m hp ht]
    | cons e l =>
      cases hr : m.rate e.pars with
      | error err => rw [step_error E m hp ht hr]; simp [hij]
      | ok loc => rw [step_ok E m hp ht hr]; split <;> simp [hij]

theorem step_good (hm : Fresh m) (i : ℕ) (l : List Eval) (s : State) (h : Good E m l (s.threads i)) : Good E m l ((step E m i s).threads i) := by
  obtain ⟨h1, h2⟩ := h
  cases hp : (s.threads i).pending with
  | some p =>
    obtain ⟨e, own⟩ := p
    obtain ⟨loc, rfl, hloc⟩ := h2 e own hp
    rw [step_pending E m hp]
    simp only [Function.update_self]
    refine ⟨?_, by simp⟩
    simp only [owed, hp] at h1
    simp only [owed, Option.getD_some, List.append_nil, evalAt_eq E m e loc hloc]
    exact h1
  | none =>
    simp only [owed, hp] at h1
    cases ht : (s.threads i).todo with
    | nil =>
      rw [step_nil E m hp ht]
      exact ⟨by simpa [owed, hp] using h1, by simp [hp]⟩
    | cons e t =>
      rw [ht] at h1
      simp only [alone, List.map_cons] at h1
      cases hr : m.rate e.pars with
      | error err =>
        rw [step_error E m hp ht hr]
        simp only [Function.update_self]
        refine ⟨?_, by simp⟩
        rw [logProb_error E m e err hr] at h1
        simpa [owed, alone] using h1
      | ok loc =>
        rw [step_ok E m hp ht hr, fresh_shares hm]
        simp only [Bool.false_eq_true, if_false, Function.update_self]
        refine ⟨by simpa [owed, alone] using h1, ?_⟩
        simp only [Option.some.injEq, Prod.mk.injEq]
        rintro e' own ⟨rfl, rfl⟩
        exact ⟨loc, rfl, hr⟩

theorem run_good (hm : Fresh m) (i : ℕ) (l : List Eval) : ∀ (sched : List ℕ) (s : State), Good E m l (s.threads i) → Good E m l ((run E m sched s).threads i)
  | [], _, h => h
  | j :: sched, s, h => by
    refine run_good hm i l sched _ ?_
    by_cases hij : i = j
    · subst hij; exact step_good E m hm i l s h
    · rw [step_other E m j i hij]; exact h

/-- How many steps a thread still needs at most. -/
def left (t : Thread) : ℕ := 2 * t.todo.length + if t.pending.isSome then 1 else 0

theorem step_left (i : ℕ) (s : State) : left ((step E m i s).threads i) ≤ left (s.threads i) - 1 := by
  cases hp : (s.threads i).pending with
  | some p => obtain ⟨e, own⟩ := p; rw [step_pending E m hp]; simp [left, hp]
  | none =>
    cases ht : (s.threads i).todo with
    | nil => rw [step_nil E m hp ht]; simp [left, hp, ht]
    | cons e l =>
      cases hr : m.rate e.pars with
      | error err => rw [step_error E m hp ht hr]; simp [left, hp, ht]; omega
      | ok loc => rw [step_ok E m hp ht hr]; split <;> simp [left, hp, ht] <;> omega

theorem run_left (i : ℕ) : ∀ (sched : List ℕ) (s : State), left ((run E m sched s).threads i) ≤ left (s.threads i) - sched.count i
  | [], s => by simp [run]
  | j :: sched, s => by
    have h := run_left i sched (step E m j s)
    simp only [run]
    by_cases hij : i = j
    · subst hij
      have := step_left E m i s
      rw [List.count_cons_self]
      omega
    · rw [step_other E m j i hij] at h
      rw [List.count_cons_of_ne (Ne.symm hij)]
      exact h

/-- C127: in every order in which the threads take their steps, each of them gets the values that it gets alone, in the same order, and all of them after at most two steps
per evaluation. Missing: multivariate normal models with a constant matrix, for which the claim is false (`C127_shared_fails`). -/
theorem C127_threads_partial (hm : Fresh m) (mean : Vec) (todo : ℕ → List Eval) (sched : List ℕ) (i : ℕ) :
    ((run E m sched (start mean todo)).threads i).done <+: alone E m (todo i) ∧
      (2 * (todo i).length ≤ sched.count i → ((run E m sched (start mean todo)).threads i).done = alone E m (todo i)) := by
  have h := (run_good E m hm i (todo i) sched (start mean todo) ⟨by simp [start, owed], by simp [start]⟩).1
  refine ⟨⟨_, by rw [← h, List.append_assoc]⟩, fun hc => ?_⟩
  have hl := run_left E m i sched (start mean todo)
  have h0 : left ((start mean todo).threads i) = 2 * (todo i).length := by simp [left, start]
  have hz : left ((run E m sched (start mean todo)).threads i) = 0 := by omega
  unfold left at hz
  have h1 : ((run E m sched (start mean todo)).threads i).todo = [] := List.length_eq_zero_iff.mp (by omega)
  have h2 : ((run E m sched (start mean todo)).threads i).pending = none := by
    cases hp : ((run E m sched (start mean todo)).threads i).pending with
    | none => rfl
    | some p => rw [hp] at hz; simp at hz
  simpa [h1, h2, owed, alone] using h

/-- The same with the shared object: the mean is that of the pending evaluation. -/
def GoodShared (l : List Eval) (s : State) (i : ℕ) : Prop :=
  (s.threads i).done ++ owed E m (s.threads i) ++ alone E m (s.threads i).todo = alone E m l ∧
    ∀ e own, (s.threads i).pending = some (e, own) → own = none ∧ m.rate e.pars = .ok s.mean

theorem step_shared {r : Vec → Except Backend.Err Vec} {c : List Vec} (i : ℕ) (l : List Eval) (s : State) (h : GoodShared E (.mvn r c) l s i) :
    GoodShared E (.mvn r c) l (step E (.mvn r c) i s) i := by
  obtain ⟨h1, h2⟩ := h
  cases hp : (s.threads i).pending with
  | some p =>
    obtain ⟨e, own⟩ := p
    obtain ⟨rfl, hloc⟩ := h2 e own hp
    rw [step_pending E _ hp]
    refine ⟨?_, by simp⟩
    simp only [owed, hp] at h1
    simp only [Function.update_self, owed, Option.getD_none, List.append_nil, evalAt_eq E (.mvn r c) e s.mean hloc]
    exact h1
  | none =>
    simp only [owed, hp] at h1
    cases ht : (s.threads i).todo with
    | nil =>
      rw [step_nil E _ hp ht]
      exact ⟨by simpa [owed, hp] using h1, by simp [hp]⟩
    | cons e t =>
      rw [ht] at h1
      simp only [alone, List.map_cons] at h1
      cases hr : (Main.mvn r c).rate e.pars with
      | error err =>
        rw [step_error E _ hp ht hr]
        refine ⟨?_, by simp⟩
        rw [logProb_error E (.mvn r c) e err hr] at h1
        simpa [owed, alone] using h1
      | ok loc =>
        rw [step_ok E _ hp ht hr]
        simp only [shares, if_true]
        refine ⟨by simpa [owed, alone] using h1, ?_⟩
        simp only [Function.update_self, Option.some.injEq, Prod.mk.injEq]
        rintro e' own ⟨rfl, rfl⟩
        exact ⟨rfl, hr⟩

/-- C127: with one thread the shared object does no harm: whatever was evaluated before, every value is that of its own parameters. -/
theorem C127_alone (mean : Vec) (todo : ℕ → List Eval) (i n : ℕ) :
    ((run E m (List.replicate n i) (start mean todo)).threads i).done <+: alone E m (todo i) ∧
      (2 * (todo i).length ≤ n → ((run E m (List.replicate n i) (start mean todo)).threads i).done = alone E m (todo i)) := by
  cases m with
  | poisson r => simpa using C127_threads_partial E (.poisson r) (by intro _ _ h; cases h) mean todo (List.replicate n i) i
  | normal r c => simpa using C127_threads_partial E (.normal r c) (by intro _ _ h; cases h) mean todo (List.replicate n i) i
  | mvn r c =>
    have hrun : ∀ (k : ℕ) (s : State), GoodShared E (.mvn r c) (todo i) s i → GoodShared E (.mvn r c) (todo i) (run E (.mvn r c) (List.replicate k i) s) i := by
      intro k
      induction k with
      | zero => intro s h; exact h
      | succ k ih => intro s h; exact ih _ (step_shared E i _ s h)
    have h := (hrun n (start mean todo) ⟨by simp [start, owed], by simp [start]⟩).1
    refine ⟨⟨_, by rw [← h, List.append_assoc]⟩, fun hc => ?_⟩
    have hl := run_left E (.mvn r c) i (List.replicate n i) (start mean todo)
    have h0 : left ((start mean todo).threads i) = 2 * (todo i).length := by simp [left, start]
    rw [List.count_replicate_self] at hl
    have hz : left ((run E (.mvn r c) (List.replicate n i) (start mean todo)).threads i) = 0 := by omega
    unfold left at hz
    have h1 : ((run E (.mvn r c) (List.replicate n i) (start mean todo)).threads i).todo = [] := List.length_eq_zero_iff.mp (by omega)
    have h2 : ((run E (.mvn r c) (List.replicate n i) (start mean todo)).threads i).pending = none := by
      cases hp : ((run E (.mvn r c) (List.replicate n i) (start mean todo)).threads i).pending with
      | none => rfl
      | some p => rw [hp] at hz; simp at hz
    simpa [h1, h2, owed, alone] using h

end

/-- C127 is false for multivariate normal models: a thread that is interrupted by another one between getting the object and using it gets the likelihood of the other one's
parameters. -/
theorem C127_shared_fails (E : Ext) (r : Vec → Except Backend.Err Vec) (c : List Vec) (mean : Vec) (a b : Eval) (la lb : Vec) (ha : r a.pars = .ok la) (hb : r b.pars = .ok lb) :
    ((run E (.mvn r c) [0, 1, 0, 1] (start mean fun i => if i = 0 then [a] else if i = 1 then [b] else [])).threads 0).done =
      [(Main.mvn r c).logProb E b.pars a.data] := by
  have e : (Main.mvn r c).logProb E b.pars a.data = evalAt E (.mvn r c) lb a.data :=
    (evalAt_eq E (.mvn r c) ⟨b.pars, a.data⟩ lb hb).symm
  rw [e]
  simp [run, step, start, Main.rate, ha, hb, Function.update, shares]

/-- Two evaluations of the same data in one bin: strength zero, and strength one, which has another likelihood. -/
example : ∃ (r : Vec → Except Backend.Err Vec) (a b : Eval), r a.pars = .ok [0] ∧ r b.pars = .ok [1] ∧
    (Main.mvn r [[4]]).logProb exCov b.pars a.data ≠ (Main.mvn r [[4]]).logProb exCov a.pars a.data ∧ Fresh (.poisson r) := by
  refine ⟨fun p => .ok p, ⟨[0], [0]⟩, ⟨[1], [0]⟩, rfl, rfl, ?_, by intro _ _ h; cases h⟩
  simp [Main.logProb, mvnLogProb, Backend.ok_bind, bcast, dot, exCov, at', Backend.pure_ok]

/-! ## C128: mixtures -/

theorem sample_average {α : Type} {n : ℕ} (p : Fin (n + 1) → PMF α) (x : α) : mixtureSample p x = average p x := by
  unfold mixtureSample average
  rw [PMF.bind_apply, tsum_fintype]
  simp only [PMF.uniformOfFintype_apply, Fintype.card_fin]
  rw [← Finset.mul_sum, ENNReal.div_eq_inv_mul]

/-- C128: `MixtureModel.log_prob` is the logarithm of the probability with which `sample` draws the value. Missing: more than one distribution, for which the claim is false
(`C128_density_fails`). -/
theorem C128_density_partial {α : Type} (p : Fin 1 → PMF α) (x : α) : mixtureLogProb p x = logOf (mixtureSample p x) := by
  rw [sample_average]
  have : average p x = p 0 x := by simp [average]
  rw [this]
  simp only [mixtureLogProb, List.ofFn_succ, List.ofFn_zero, List.foldr_cons, List.foldr_nil]
  unfold logOf
  split <;> simp [add]

/-- C128: a draw of a mixture comes from each of the distributions with the same probability. -/
theorem C128_sample {α : Type} {n : ℕ} (p : Fin (n + 1) → PMF α) (x : α) : mixtureSample p x = (∑ k, p k x) / ((n + 1 : ℕ) : ENNReal) := sample_average p x

/-- C128 is false for two or more distributions: the probabilities are multiplied, not averaged. For `n` times the same distribution `sample` draws from it, but `log_prob` is
`n` times its logarithm. -/
theorem C128_density_fails {α : Type} (q : PMF α) (x : α) (h0 : 0 < q x) (h1 : q x < 1) (n : ℕ) :
    mixtureSample (fun _ : Fin (n + 2) => q) x = q x ∧ mixtureLogProb (fun _ : Fin (n + 2) => q) x = fin ((n + 2) * Real.log (q x).toReal) ∧
      mixtureLogProb (fun _ : Fin (n + 2) => q) x ≠ logOf (mixtureSample (fun _ : Fin (n + 2) => q) x) := by
  have hs : mixtureSample (fun _ : Fin (n + 2) => q) x = q x := by
    rw [sample_average]
    simp only [average, Finset.sum_const, Finset.card_univ, Fintype.card_fin, nsmul_eq_mul]
    rw [mul_comm, ENNReal.mul_div_cancel_right (by simp) (by simp)]
  have hl : logOf (q x) = fin (Real.log (q x).toReal) := by unfold logOf; rw [if_neg h0.ne']
  have hk : ∀ k : ℕ, mixtureLogProb (fun _ : Fin k => q) x = fin (k * Real.log (q x).toReal) := by
    intro k
    induction k with
    | zero => simp [mixtureLogProb]
    | succ k ih =>
      unfold mixtureLogProb at ih ⊢
      rw [List.ofFn_succ, List.foldr_cons, ih, hl]
      simp only [add]
      congr 1
      push_cast
      ring
  have hn := hk (n + 2)
  push_cast at hn
  refine ⟨hs, hn, ?_⟩
  rw [hs, hl, hn]
  have ht0 : 0 < (q x).toReal := ENNReal.toReal_pos h0.ne' (h1.trans ENNReal.one_lt_top).ne
  have ht1 : (q x).toReal < 1 := by
    have := (ENNReal.toReal_lt_toReal (h1.trans ENNReal.one_lt_top).ne ENNReal.one_ne_top).mpr h1
    simpa using this
  have := Real.log_neg ht0 ht1
  intro h
  simp only [fin.injEq] at h
  nlinarith [(Nat.cast_nonneg n : (0 : ℝ) ≤ n)]

/-- A fair coin. -/
example : 0 < PMF.uniformOfFintype Bool true ∧ PMF.uniformOfFintype Bool true < 1 := by
  rw [PMF.uniformOfFintype_apply]
  simp

/-- C128: a mixture whose last distribution is one of this module cannot be sampled: it has no attribute `shape`. -/
theorem C128_sample_fails (l : List Class) (c : Class) (hc : c = .poisson ∨ c = .normal ∨ c = .mvn) : mixtureDraw (l ++ [c]) = .error .attribute := by
  rcases hc with rfl | rfl | rfl <;> simp [mixtureDraw, Class.shape]

/-! ## C129: names of distributions -/

/-- C129: a constraint term gets the class that its name says, and names that differ from the two known ones by more than case are refused with the message. Missing: known
names in another case, for which the claim is false (`C129_case_fails`). -/
theorem C129_names_partial (lower : String → String) (hl : ∀ s ∈ ["normal", "multivariatenormal"], lower s = s) :
    describe lower "normal" = .ok .normal ∧ describe lower "multivariatenormal" = .ok .mvn ∧
      ∀ s, lower s ∉ ["normal", "multivariatenormal"] → describe lower s = .error .assertion := by
  refine ⟨?_, ?_, fun s hs => ?_⟩
  · simp [describe, hl "normal" (by simp), lookup]
  · simp [describe, hl "multivariatenormal" (by simp), lookup]
  · unfold describe; rw [if_neg hs]

/-- C129 is false for a known name in another case: it passes the check, which ignores case, and then leads to a `KeyError`. -/
theorem C129_case_fails (lower : String → String) (s : String) (hs : lower s ∈ ["normal", "multivariatenormal"]) (hn : s ≠ "normal") (hm : s ≠ "multivariatenormal") :
    describe lower s = .error .key := by
  unfold describe
  rw [if_pos hs]
  simp [lookup, hn, hm]

example : ∃ lower : String → String, (∀ s ∈ ["normal", "multivariatenormal"], lower s = s) ∧ lower "Normal" ∈ ["normal", "multivariatenormal"] ∧
    lower "cauchy" ∉ ["normal", "multivariatenormal"] :=
  ⟨fun s => if s = "Normal" then "normal" else s, by decide, by decide, by decide⟩

/-! ## C130: integer data -/

/-- C130: the logarithm of the Poisson probability of a number does not depend on whether the data are integers or floats; it is minus infinity for negative numbers. -/
theorem C130_counts {gl : ℝ → ℝ} {logpmf : ℤ → ℝ → F} {gammaln : ℝ → F} (h1 : LogPmf gl logpmf) (h2 : GammaLn gl gammaln) (loc : ℝ) (n : ℤ) :
    poissonLogProb logpmf gammaln loc (.int n) = poissonLogProb logpmf gammaln loc (.other n) ∧
      (0 ≤ n → poissonLogProb logpmf gammaln loc (.int n) = fin (n * Real.log (max loc (1 / 10 ^ 20)) - max loc (1 / 10 ^ 20) - gl (n + 1))) ∧
      (n < 0 → poissonLogProb logpmf gammaln loc (.int n) = ninf) := by
  have hc : 0 < clip loc := lt_max_of_lt_right (by positivity)
  rcases lt_or_ge n 0 with hn | hn
  · have h3 := h1.2 n (clip loc) hn hc
    have h4 : gammaln ((n : ℝ) + 1) = pinf := by
      have := h2.2 (n + 1) (by omega)
      push_cast at this
      exact this
    refine ⟨?_, fun h => absurd hn (not_lt.mpr h), fun _ => h3⟩
    simp only [poissonLogProb, h3, h4]
    simp [sub, add, F.neg]
  · have h3 := h1.1 n (clip loc) hn hc
    have h4 := h2.1 ((n : ℝ) + 1) (by have : (0 : ℝ) ≤ n := by exact_mod_cast hn
                                      linarith)
    refine ⟨?_, fun _ => ?_, fun h => absurd hn (not_le.mpr h)⟩
    · simp only [poissonLogProb, h3, h4, sub, add, F.neg, fin.injEq]
      ring
    · simp only [poissonLogProb, h3, fin.injEq]
      unfold clip
      ring

example : ∃ (gl : ℝ → ℝ) (logpmf : ℤ → ℝ → F) (gammaln : ℝ → F), LogPmf gl logpmf ∧ GammaLn gl gammaln := by
  refine ⟨fun _ => 0, fun n l => if 0 ≤ n then fin (n * Real.log l - 0 - l) else ninf, fun x => open Classical in if 0 < x then fin 0 else pinf,
    ⟨fun n l h _ => by simp [h], fun n l h _ => by simp [not_le.mpr h]⟩, fun x h => by simp [h], fun n h => ?_⟩
  have : ¬ (0 : ℝ) < n := not_lt.mpr (by exact_mod_cast h)
  simp [this]

end Verif.Dist
