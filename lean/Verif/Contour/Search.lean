import Verif.Contour.Model
import Mathlib.Data.List.Sort
import Mathlib.Algebra.Order.Floor.Semiring
import Mathlib.Data.Real.Archimedean

/-!
# Model of the search for contour points along rays

`/repo/src/spey/multiparameter/contour.py` L745-759 and L1209-1539.
-/

namespace Verif.Contour

noncomputable section

/-- A direction in whitened space becomes a step in parameter space, contour.py L738-743: `anchor + M @ phi`. -/
def toTheta {k : ℕ} (anchor : Vec k) (M : Matrix (Fin k) (Fin k) ℝ) (φ : Vec k) : Vec k := anchor + M.mulVec φ

/-- The smaller of two radii; `none` is infinity. -/
def minR : Option ℝ → ℝ → Option ℝ
  | none, b => some b
  | some a, b => some (min a b)

/-- One round of the loop of `_max_r_for_dir_basin`, contour.py L755-758. -/
def capAt {k : ℕ} (b : Bounds k) (anchor step : Vec k) (r : Option ℝ) (i : Fin k) : Option ℝ :=
  let r1 := match (b i).2 with
    | some hi => if 1e-30 < step i then minR r ((hi - anchor i) / step i) else r
    | none => r
  match (b i).1 with
  | some lo => if step i < -1e-30 then minR r1 ((lo - anchor i) / step i) else r1
  | none => r1

/-- `_max_r_for_dir_basin`, contour.py L745-759; `none` is infinity. -/
def maxR {k : ℕ} (b : Bounds k) (anchor : Vec k) (M : Matrix (Fin k) (Fin k) ℝ) (e : Vec k) : Option ℝ :=
  (List.finRange k).foldl (capAt b anchor (M.mulVec e)) none

/-- `min(max_bracket, r_max)`. -/
def effectiveMax (maxBracket : ℝ) : Option ℝ → ℝ
  | none => maxBracket
  | some r => min maxBracket r

/-- The function along a ray, contour.py L1287-1288 and L1460-1461: `nll_scalar(to_theta(r * e)) - threshold`. -/
def along {k : ℕ} (F : Target k) (anchor : Vec k) (M : Matrix (Fin k) (Fin k) ℝ) (T : ℝ) (e : Vec k) (r : ℝ) : Except Err Num :=
  match F.nll (some (toTheta anchor M (r • e))) with
  | .error err => .error err
  | .ok v => .ok (v.map fun x => x - T)

/-- The loop that widens the bracket, contour.py L1308-1309 and L1465-1466, for at most the given number of rounds; `none` if that is
not enough, which does not happen, see `grow_ends`. -/
def grow (f : ℝ → Except Err Num) (eff : ℝ) : ℕ → ℝ → Except Err (Option ℝ)
  | 0, _ => .ok none
  | n + 1, r =>
    match f r with
    | .error e => .error e
    | .ok v => if Num.Le v (some 0) ∧ r < eff then grow f eff n (min (r * 2) eff) else .ok (some r)

/-- Enough rounds: the radius doubles, and the loop ends at `eff`. -/
def rounds (r eff : ℝ) : ℕ := ⌈eff / r⌉₊ + 1

/-- `root_scalar(f, bracket=[lo, hi], method="brentq")`: the root, and whether it has converged. -/
abbrev Brent := (ℝ → Except Err Num) → ℝ → ℝ → Except Err (ℝ × Bool)

/-- One direction of `_radial_search`, contour.py L1293-1330: the radius of the point found. -/
def ray (brent : Brent) (f : ℝ → Except Err Num) (rInit eff : ℝ) : Except Err (Option ℝ) :=
  if eff < 1e-10 then .ok none
  else
    match f 1e-8 with
    | .error _ => .ok none
    | .ok v =>
      if Num.Le (some 0) v then .ok none
      else
        match grow f eff (rounds (min rInit eff) eff) (min rInit eff) with
        | .error _ => .ok none
        | .ok none => .ok none
        | .ok (some hi) =>
          match f hi with
          | .error _ => .ok none
          | .ok w =>
            if Num.Le w (some 0) then .ok none
            else
              match brent f 1e-8 hi with
              | .error .value => .ok none
              | .error e => .error e
              | .ok (r, converged) => if converged then .ok (some r) else .ok none

/-- `r_init`, contour.py L1274 and L1445. -/
def rInit (T v : ℝ) : ℝ := Real.sqrt (max (T - v) 1 * 2)

/-- `nll_scalar(theta_mle)`. The value at a minimum that has been found before is a number; `nan` is taken as an exception. -/
def atAnchor {k : ℕ} (F : Target k) (anchor : Vec k) : Except Err ℝ :=
  match F.nll (some anchor) with
  | .error e => .error e
  | .ok none => .error .other
  | .ok (some v) => .ok v

/-- What the searches along rays have in common: the function, the anchor, the whitening matrix, the level, the largest radius and
the bounds. -/
structure Rays (k : ℕ) where
  F : Target k
  anchor : Vec k
  M : Matrix (Fin k) (Fin k) ℝ
  T : ℝ
  maxBracket : ℝ
  bounds : Bounds k
  brent : Brent

/-- The largest radius in a direction, contour.py L1291-1292 and L1450-1451. -/
def Rays.eff {k : ℕ} (R : Rays k) (e : Vec k) : ℝ := effectiveMax R.maxBracket (maxR R.bounds R.anchor R.M e)

/-- The function along a direction. -/
def Rays.f {k : ℕ} (R : Rays k) (e : Vec k) : ℝ → Except Err Num := along R.F R.anchor R.M R.T e

/-- The point at a radius in a direction. -/
def Rays.at {k : ℕ} (R : Rays k) (e : Vec k) (r : ℝ) : Vec k := toTheta R.anchor R.M (r • e)

/-- The loop of `_radial_search`, contour.py L1279-1330: the points and their directions. -/
def radialLoop {k : ℕ} (G : Gen k) (R : Rays k) (r0 : ℝ) : ℕ → G.State → Except Err (List (Vec k × Vec k) × G.State)
  | 0, s => .ok ([], s)
  | n + 1, s =>
    match G.normal s with
    | (z, s) =>
      if norm z < 1e-15 then radialLoop G R r0 n s
      else
        match ray R.brent (R.f ((norm z)⁻¹ • z)) r0 (R.eff ((norm z)⁻¹ • z)) with
        | .error e => .error e
        | .ok none => radialLoop G R r0 n s
        | .ok (some r) =>
          match radialLoop G R r0 n s with
          | .error e => .error e
          | .ok (l, s) => .ok ((R.at ((norm z)⁻¹ • z) r, (norm z)⁻¹ • z) :: l, s)

/-- `_radial_search`, contour.py L1262-1334. -/
def radialSearch {k : ℕ} (G : Gen k) (R : Rays k) (n : ℕ) (s : G.State) : Except Err (List (Vec k × Vec k) × G.State) :=
  match atAnchor R.F R.anchor with
  | .error e => .error e
  | .ok v => if R.T ≤ v then .ok ([], s) else radialLoop G R (rInit R.T v) n s

/-- The smallest scores come first: the contract of `np.argsort`, which is not stable. -/
structure IsArgsort (argsort : List ℝ → List ℕ) : Prop where
  perm : ∀ l, (argsort l).Perm (List.range l.length)
  sorted : ∀ l, (argsort l).Pairwise fun i j => l.getD i 0 ≤ l.getD j 0

/-- Gaussian vectors, divided by their norms or by `1e-15`, contour.py L1376-1378. -/
def candidates {k : ℕ} (G : Gen k) : ℕ → G.State → List (Vec k) × G.State
  | 0, s => ([], s)
  | n + 1, s =>
    (((max (norm (G.normal s).1) 1e-15)⁻¹ • (G.normal s).1) :: (candidates G n (G.normal s).2).1, (candidates G n (G.normal s).2).2)

/-- The largest cosine of a candidate with the directions found; the list is not empty. -/
def coverage {k : ℕ} (c : Vec k) : List (Vec k) → ℝ
  | [] => 0
  | [d] => c ⬝ᵥ d
  | d :: l => max (c ⬝ᵥ d) (coverage c l)

/-- `_detect_gap_directions`, contour.py L1376-1389, after the candidates are drawn. `n_gaps` is not negative here. -/
def gapDirections {k : ℕ} (argsort : List ℝ → List ℕ) (found : List (Vec k)) (cands : List (Vec k)) (nGaps : ℕ) : List (Vec k) :=
  match found with
  | [] => cands.take nGaps
  | _ => ((argsort (cands.map fun c => coverage c found)).take nGaps).filterMap fun i => cands[i]?

/-- One direction of `_find_gap_starts`, contour.py L1450-1479: the radius of the point found. Every exception is caught. -/
def gapRay (brent : Brent) (f : ℝ → Except Err Num) (rInit eff : ℝ) : Option ℝ :=
  if 1e-10 < eff then
    match f 1e-8 with
    | .error _ => none
    | .ok v =>
      if Num.Lt v (some 0) then
        match grow f eff (rounds (min rInit eff) eff) (min rInit eff) with
        | .error _ => none
        | .ok none => none
        | .ok (some hi) =>
          match f hi with
          | .error _ => none
          | .ok w =>
            if Num.Lt (some 0) w then
              match brent f 1e-8 hi with
              | .error _ => none
              | .ok (r, converged) => if converged then some r else none
            else none
      else none
  else none

/-- `np.argmax`: the first of the largest. -/
def argmax : List ℝ → ℕ
  | [] => 0
  | [_] => 0
  | a :: l => if (l.getD (argmax l) 0) ≤ a then 0 else argmax l + 1

/-- `_find_gap_starts`, contour.py L1444-1487. -/
def gapStarts {k : ℕ} (R : Rays k) (r0 : ℝ) (radial : List (Vec k × Vec k)) : List (Vec k) → List (Vec k)
  | [] => []
  | e :: l =>
    match gapRay R.brent (R.f e) r0 (R.eff e) with
    | some r => R.at e r :: gapStarts R r0 radial l
    | none =>
      match radial[argmax (radial.map fun x => x.2 ⬝ᵥ e)]? with
      | some x => x.1 :: gapStarts R r0 radial l
      | none => gapStarts R r0 radial l

/-- `l[-n:]`: for `n = 0` the whole list. -/
def lastSlice {α : Type} (n : ℕ) (l : List α) : List α := if n = 0 then l else l.drop (l.length - n)

/-- The distance to the `j`-th nearest neighbour among the points, contour.py L1532-1535; the point itself has index 0. -/
def neighbourDistance {k : ℕ} (points : List (Vec k)) (j : ℕ) (p : Vec k) : ℝ :=
  ((points.map fun q => norm (p - q)).mergeSort fun a b => decide (a ≤ b)).getD j 0

/-- The points of a list that has no `nan`. -/
def allSome {α : Type} : List (Option α) → Option (List α)
  | [] => some []
  | none :: _ => none
  | some a :: l =>
    match allSome l with
    | none => none
    | some r => some (a :: r)

/-- `_find_sparse_seeds`, contour.py L1527-1539. `cKDTree` raises `ValueError` for points with `nan`. -/
def sparseSeeds {k : ℕ} (argsort : List ℝ → List ℕ) (points : List (Option (Vec k))) (nSeeds knn : ℕ) :
    Except Err (Option (List (Vec k))) :=
  if points.length < 2 then .ok none
  else
    match allSome points with
    | none => .error .value
    | some ps =>
      .ok (some ((lastSlice (min nSeeds ps.length)
        (argsort (ps.map (neighbourDistance ps (min knn (ps.length - 1)))))).filterMap fun i => ps[i]?))

end

end Verif.Contour
