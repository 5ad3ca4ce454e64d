import Verif.Uncorrelated.Information

/-!
# Property C185: the uncertainty of the signal strength of counts
-/

namespace Verif.Uncorrelated
open Verif.Py F Verif.Hypotest Verif.Chain
open Verif.Interface (World Size Plain Solver)
open Verif.Backend (Ext Vec)
open Verif.Stats (Expect Calc)
open Verif.UpperLimit (Expected Band Limit Entries Sound)

/-- C185. `sigma_mu` of `default.poisson` is the square root of the inverse of the observed information at the strength, if there is background (more than `1e-20`) in each bin, and an event in a bin
with signal. -/
theorem C185_sigma {S : Solver} (hS : Exact S) (hT : Finds S) {E : Ext} (draw : Vec × List Vec → ℕ → List Vec) {bins : List Bin} {m : Backend.Model}
    (h : Backend.poisson (bins.map Bin.s) (bins.map Bin.b) (bins.map Bin.d) none = .ok m) (hv : Valid bins) (hb : ∀ x ∈ bins, 1 / 10 ^ 20 < x.b) (e : Expect)
    (hd : ∃ x ∈ seen e bins, 0 < x.s ∧ 0 < x.d) {inv : List (List ℝ) → Except Interface.Err (List (List ℝ))} (hinv : InvertsNumbers inv) {v : ℝ} (hv0 : 0 ≤ v) (g : Bool) (ntoys : Size)
    (available : Calc → Bool) (percentile : List F → F → F) :
    Ends (Plain 1) (modelSigma S inv (plugged E draw m) g ntoys available percentile e v) (.ok (fin (√(1 / information (seen e bins) v)))) := by
  obtain ⟨lo, hlow, hB⟩ := counts_low (E := E) draw h hv
  have hlog := counts_none E draw h e
  have hH : (plugged E draw m).hessian (expectation e) = .ok fun x => match Backend.hessianLogpdf E m (expectation e) none x with
    | .ok h => h
    | .error _ => [] := rfl
  have hval : ∀ u, Backend.logpdf E m (expectation e) none [u] = .ok (counts E.gammaln (seen e bins) u) := by
    intro u
    have := hlog u
    simp only [plugged] at this
    cases hb : Backend.logpdf E m (expectation e) none [u] with
    | ok r => rw [hb] at this; simpa [value] using this
    | error r => rw [hb] at this; simp [value] at this
  have hclear : Clear (seen e bins) v := by
    intro x hx
    have : 0 ≤ x.s ∧ 1 / 10 ^ 20 < x.b := by
      refine ⟨((seen_valid e hv).1 x hx).1, ?_⟩
      unfold seen at hx
      split at hx
      · obtain ⟨y, hy, rfl⟩ := List.mem_map.mp hx
        exact hb y hy
      · exact hb x hx
    nlinarith [mul_nonneg hv0 this.1]
  have hpos := information_pos (seen_valid e hv).1 hv0 hd
  have hlo : lo ≤ v := hlow.trans hv0
  have hs := single_hessian hS hT hB hlog hH (s := -(information (seen e bins) v)) (by linarith) hlo (by
    simp only [Backend.hessianLogpdf, counts_second _ hclear _ hval]) hinv g
  rw [neg_neg] at hs
  intro w hw
  obtain ⟨k1, k2⟩ := hs w hw
  unfold modelSigma sigmaMu hessianOr
  simp only [Option.map_some]
  cases hr : modelHessian S inv (plugged E draw m) g none (.float v) e w with
  | mk r w' =>
    rw [hr] at k1 k2
    dsimp only at k1 k2
    subst k1
    exact ⟨rfl, k2⟩

theorem exCounts_background : ∀ x ∈ exCounts, 1 / 10 ^ 20 < x.b := by
  intro x hx
  simp only [exCounts, List.mem_cons, List.not_mem_nil, or_false] at hx
  rcases hx with rfl | rfl <;> norm_num

theorem exInverse : InvertsNumbers fun M => .ok [[1 / (M.getD 0 []).getD 0 0]] := fun x _ => by simp

/-- Two bins with 5 and 2 signal events on a background of 50 and 60, of which 55 and 58 were seen. -/
example (E : Ext) (draw) : ∃ m, Ends (Plain 1) (modelSigma Interface.perfect (fun M => .ok [[1 / (M.getD 0 []).getD 0 0]]) (plugged E draw m) true (.int 100) (fun _ => true) (fun _ _ => nan) .observed 0)
    (.ok (fin (√(1 / (55 * 5 ^ 2 / 50 ^ 2 + 58 * 2 ^ 2 / 60 ^ 2))))) := by
  obtain ⟨m, hm⟩ := Backend.poisson_accepts (exCounts.map Bin.s) (exCounts.map Bin.b) (exCounts.map Bin.d) (by simp)
  refine ⟨m, ?_⟩
  have := C185_sigma perfect_exact perfect_finds (E := E) draw hm exCounts_valid exCounts_background .observed ⟨⟨5, 50, 0, 55⟩, by simp [seen, exCounts], by norm_num, by norm_num⟩ exInverse (le_refl 0) true
    (.int 100) (fun _ => true) (fun _ _ => nan)
  simpa [information, seen, exCounts] using this

/-- The starting points without given ones. -/
theorem starts_none {σ : Type} {I : σ → Prop} {sigma : ℝ → Comp σ F} {m s : ℝ} (hm : 0 ≤ m) (hs : 0 < s) (hsig : Ends I (sigma m) (.ok (fin s))) :
    ∃ a b, 1e-10 ≤ a ∧ a < b ∧ b ≤ m + 2.5 * max s 1 ∧ Ends I (starts sigma (.one m) none none) (.ok (a, b)) := by
  have hp : (positivePart (.one m) : Except Err ℝ) = .ok m := by
    unfold positivePart
    rcases hm.eq_or_lt with rfl | h0
    · simp
    · simp [h0]
  obtain ⟨t, ht0, ht1, ht⟩ : ∃ t, 1e-8 < m + 1.5 * t ∧ 0 < t ∧ t ≤ max s 1 ∧ Ends I (if |m| ≤ 1e-8 then ret (fin 1) else sigma m) (.ok (fin t)) := by
    split
    · exact ⟨1, by norm_num; linarith, one_pos, le_max_right _ _, ends_ret _⟩
    · rename_i h
      rw [abs_of_nonneg hm, not_le] at h
      exact ⟨s, by linarith, hs, le_max_left _ _, hsig⟩
  have h10 : (1e-10 : ℝ) < 1e-8 := by norm_num
  refine ⟨m + 1.5 * t, m + 2.5 * t, by linarith, by linarith, by linarith [ht.1], ?_⟩
  unfold starts
  refine Ends.bind (a := m) (by rw [hp]; exact ends_ret _) (Ends.bind (a := fin t) ht.2 ?_)
  simp only [UpperLimit.orElse]
  rw [max_eq_left (by linarith), max_eq_left (by linarith)]
  exact ends_ret _

/-- C185. `poi_upper_limit` of `default.poisson` without starting points takes them from this uncertainty, and returns a finite limit, if for each of the requested entries the level of some strength
from `1e-10` is at most, and that of some strength up to `1e5` at least, the confidence level. -/
theorem C185_limit {S : Solver} (hS : Exact S) (hT : Finds S) (hC : Interface.Constrained S) {E : Ext} (draw : Vec × List Vec → ℕ → List Vec) {bins : List Bin} {m : Backend.Model}
    (h : Backend.poisson (bins.map Bin.s) (bins.map Bin.b) (bins.map Bin.d) none = .ok m) (hσ : ∀ x ∈ bins, x.σ = 0) (hv : Valid bins) (hb : ∀ x ∈ bins, 1 / 10 ^ 20 < x.b)
    {inv : List (List ℝ) → Except Interface.Err (List (List ℝ))} (hinv : InvertsNumbers inv) (g : Bool) (ntoys : Size)
    (available : Calc → Bool) (hav : available .asymptotic = true) (percentile : List F → F → F) (T : Finder) (tol : ℝ → ℝ) (hsound : Sound tol T.solver) (hok : UpperLimit.Succeeds T.solver)
    (hstay : T.Stays) (e : Expected) (hd : ∃ x ∈ seen e.toExpect bins, 0 < x.s ∧ 0 < x.d) (hsmall : ∀ v, 0 ≤ v → v ≤ 10 → 1e-9 ≤ information (seen e.toExpect bins) v)
    (CL : ℝ) (h0 : 0 ≤ CL) (h1 : CL ≤ 1) (band : Band) (hband : band ≠ .unknown)
    (hcross : ∀ i ∈ Entries e band, ∃ u u' r r', 1e-10 ≤ u ∧ 0 ≤ u' ∧ u' ≤ 1e5 ∧ r ≤ CL ∧ CL ≤ r' ∧
      Reported (Plain 1) (modelMethods S (plugged E draw m) g none ntoys available percentile) e i u (fin r) ∧
      Reported (Plain 1) (modelMethods S (plugged E draw m) g none ntoys available percentile) e i u' (fin r')) :
    ∃ L : Limit, (∃ n0, ∀ n ≥ n0, Ends (Plain 1) (poiUpperLimit n T (modelMethods S (plugged E draw m) g none ntoys available percentile)
        (modelSigma S inv (plugged E draw m) g ntoys available percentile) true e CL none none band) (.ok (some L))) ∧
      L.Shaped (Entries e band).length ∧ List.Forall₂ (fun i x => ∃ mu, x = fin mu ∧ 1e-10 ≤ mu + tol mu ∧
        ∀ v, 0 ≤ v → ∃ r, Reported (Plain 1) (modelMethods S (plugged E draw m) g none ntoys available percentile) e i v (fin r) ∧
          (v ≤ mu - tol mu → r ≤ CL) ∧ (mu + tol mu ≤ v → CL ≤ r)) (Entries e band) L.values := by
  obtain ⟨lo, hlow, hB⟩ := counts_low (E := E) draw h hv
  obtain ⟨x, hx⟩ := counts_best E.gammaln (seen_valid e.toExpect hv)
  obtain ⟨xA, hxA⟩ := counts_best E.gammaln (asimov_valid 0 (seen_valid e.toExpect hv))
  have hfits := FitsFrom.of_all (single_all hS hT hB (counts_none E draw h e.toExpect) (counts_log E draw h e.toExpect _ (by simp [seen_length]) fun i hi => asimov_bin e.toExpect 0 hi)
      (counts_asimov E draw h hv e.toExpect hσ le_rfl) hx hxA g ntoys available percentile)
  have hsig := C185_sigma hS hT (E := E) draw h hv hb e.toExpect hd hinv hx.1 g ntoys available percentile
  have hi := hsmall x hx.1 hx.2.1
  have hi0 : 0 < information (seen e.toExpect bins) x := lt_of_lt_of_le (by norm_num) hi
  have hs0 : 0 < √(1 / information (seen e.toExpect bins) x) := Real.sqrt_pos.mpr (by positivity)
  have hs1 : √(1 / information (seen e.toExpect bins) x) ≤ 3.2e4 := by
    rw [Real.sqrt_le_left (by norm_num)]
    rw [div_le_iff₀ hi0]
    nlinarith
  obtain ⟨a, b, k1, k2, k3, k4⟩ := starts_none hx.1 hs0 hsig
  have hb5 : b ≤ 1e5 := by
    have : max (√(1 / information (seen e.toExpect bins) x)) 1 ≤ 3.2e4 := max_le hs1 (by norm_num)
    have := hx.2.1
    have : b ≤ 10 + 2.5 * 3.2e4 := by linarith
    exact this.trans (by norm_num)
  obtain ⟨L, ⟨n0, hn⟩, r1, r2⟩ := C153_exists hS.free hS hT hC (E := E) draw (.poisson h hσ) hv g ntoys available hav percentile inv T tol hsound hok hstay e CL h0 h1 a b k1 k2.le hb5 band hband (.inl k2) hcross
  refine ⟨L, ⟨n0, fun n hge => ?_⟩, r1, r2⟩
  obtain ⟨w, hw⟩ : ∃ w : World, Plain 1 w := ⟨⟨[0], none, none⟩, rfl, rfl, rfl⟩
  have hb0 : 0 ≤ b := by linarith [show (0 : ℝ) < 1e-10 by norm_num]
  have e1 := agrees_started hfits k4 k1 hb0 n hstay true CL band
  have e2 := agrees_started hfits (starts_given (modelSigma S inv (plugged E draw m) g ntoys available percentile e.toExpect) (.one x) a b) k1 hb0 n hstay true CL band
  have e3 := (hn n hge w hw).1
  rw [(e2 w hw).1] at e3
  rw [← e3]
  exact e1

/-- The hypotheses hold for these bins, and the confidence level with which the strength 1 is excluded. -/
example (E : Ext) (draw : Vec × List Vec → ℕ → List Vec) : ∃ m, Backend.poisson (exCounts.map Bin.s) (exCounts.map Bin.b) (exCounts.map Bin.d) none = .ok m ∧ (∀ x ∈ exCounts, x.σ = 0) ∧
    (∀ v, 0 ≤ v → v ≤ 10 → 1e-9 ≤ information (seen .observed exCounts) v) ∧ ∃ r, ∀ i ∈ Entries .observed .nominal, ∃ u u' s s', 1e-10 ≤ u ∧ 0 ≤ u' ∧ u' ≤ 1e5 ∧ s ≤ r ∧ r ≤ s' ∧
      Reported (Plain 1) (modelMethods Interface.perfect (plugged E draw m) true none (.int 100) (fun _ => true) fun _ _ => nan) .observed i u (fin s) ∧
      Reported (Plain 1) (modelMethods Interface.perfect (plugged E draw m) true none (.int 100) (fun _ => true) fun _ _ => nan) .observed i u' (fin s') := by
  obtain ⟨m, hm⟩ := Backend.poisson_accepts (exCounts.map Bin.s) (exCounts.map Bin.b) (exCounts.map Bin.d) (by simp)
  refine ⟨m, hm, exCounts_sigma, fun v h0 h1 => ?_, ?_⟩
  · simp only [information, seen, exCounts, reduceCtorEq, if_false, List.map_cons, List.map_nil, List.sum_cons, List.sum_nil]
    have h2 : (1e-9 : ℝ) ≤ 55 * 5 ^ 2 / (v * 5 + 50) ^ 2 := by
      rw [le_div_iff₀ (by positivity)]
      nlinarith
    have h3 : (0 : ℝ) ≤ 58 * 2 ^ 2 / (v * 2 + 60) ^ 2 := by positivity
    linarith
  · obtain ⟨r, hr⟩ := (reported_mono Interface.perfect_free perfect_exact perfect_finds Interface.perfect_constrained (E := E) draw (.poisson hm exCounts_sigma) exCounts_valid true (.int 100) (fun _ => true) rfl
      (fun _ _ => nan) .observed (i := 0) (by simp)).1 1 (by norm_num)
    refine ⟨r, fun i hi => ?_⟩
    simp only [Entries, List.mem_singleton] at hi
    subst hi
    exact ⟨1, 1, r, r, by norm_num, by norm_num, by norm_num, le_rfl, le_rfl, hr, hr⟩

end Verif.Uncorrelated
