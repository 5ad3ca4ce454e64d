import Verif.Contour.Search
import Verif.Contour.Basins

/-!
# Model of `find_contour`

`/repo/src/spey/multiparameter/contour.py` L658-927, from the functions `nll_scalar` and `grad_nll` on.
-/

namespace Verif.Contour

noncomputable section

/-- The settings of the search and the functions of other libraries that it uses. `whiten` is `_build_whitener` at a basin, see
`Whiten.lean`; `schedule` gives a schedule for the pool of each run of chains. -/
structure Setup (k : ℕ) where
  F : Target k
  bounds : Bounds k
  quantile : ℝ
  nRadial : ℕ
  nChains : ℕ
  nCandidates : ℕ
  maxBracket : ℝ
  nPasses : ℕ
  knn : ℕ
  nMultistart : ℕ
  dedupTol : ℝ
  nSteps : ℕ
  stepSize : ℝ
  newtonTol : ℝ
  newtonMaxIter : ℕ
  brent : Brent
  argsort : List ℝ → List ℕ
  minimise : Minimiser k
  whiten : Vec k → Except Err (Matrix (Fin k) (Fin k) ℝ)
  stream : ℕ → ℕ → Vec k
  schedule : ℕ → Option (List ℕ)

/-- The settings of the walks. -/
def Setup.walk {k : ℕ} (S : Setup k) (T : ℝ) : Walk k := ⟨T, S.nSteps, S.stepSize, S.newtonTol, S.newtonMaxIter, S.bounds⟩

/-- The rays from a basin. -/
def Setup.rays {k : ℕ} (S : Setup k) (T : ℝ) (anchor : Vec k) (M : Matrix (Fin k) (Fin k) ℝ) : Rays k :=
  ⟨S.F, anchor, M, T, S.maxBracket, S.bounds, S.brent⟩

/-- The further passes, contour.py L840-870: the points collected by them. The number counts the runs of chains. -/
def passes {k : ℕ} (G : Gen k) (S : Setup k) (T : ℝ) :
    ℕ → ℕ → List (Option (Vec k)) → G.State → Except Err (List (Option (Vec k)) × ℕ × G.State)
  | 0, c, _, s => .ok ([], c, s)
  | n + 1, c, collected, s =>
    match sparseSeeds S.argsort collected S.nChains (max 1 S.knn) with
    | .error e => .error e
    | .ok none => .ok ([], c, s)
    | .ok (some []) => .ok ([], c, s)
    | .ok (some starts) =>
      match runChains G S.F (S.walk T) S.stream (S.schedule c) (starts.map some) s with
      | .error e => .error e
      | .ok (new, s) =>
        match passes G S T n (c + 1) (collected ++ new) s with
        | .error e => .error e
        | .ok (l, c, s) => .ok (new ++ l, c, s)

/-- What one basin contributes: the points of the radial search and those of the chains. -/
structure Part (k : ℕ) where
  radial : List (Vec k)
  chain : List (Option (Vec k))

/-- One round of the loop over the basins, contour.py L716-873. -/
def basin {k : ℕ} (G : Gen k) (S : Setup k) (T : ℝ) (anchor : Vec k) (c : ℕ) (s : G.State) : Except Err (Part k × ℕ × G.State) :=
  match S.whiten anchor with
  | .error e => .error e
  | .ok M =>
    match radialSearch G (S.rays T anchor M) S.nRadial s with
    | .error e => .error e
    | .ok (radial, s) =>
      if k = 1 ∨ radial.length = 0 then .ok (⟨radial.map Prod.fst, []⟩, c, s)
      else
        match candidates G S.nCandidates s with
        | (cands, s) =>
          match atAnchor S.F anchor with
          | .error e => .error e
          | .ok v =>
            let starts := gapStarts (S.rays T anchor M) (rInit T v) radial
              (gapDirections S.argsort (radial.map Prod.snd) cands S.nChains)
            match runChains G S.F (S.walk T) S.stream (S.schedule c) (starts.map some) s with
            | .error e => .error e
            | .ok (pts, s) =>
              match passes G S T (S.nPasses - 1) (c + 1) (radial.map (fun x => some x.1) ++ pts) s with
              | .error e => .error e
              | .ok (more, c, s) => .ok (⟨radial.map Prod.fst, pts ++ more⟩, c, s)

/-- The loop over the basins. -/
def allBasins {k : ℕ} (G : Gen k) (S : Setup k) (T : ℝ) : List (Vec k × ℝ) → ℕ → G.State → Except Err (List (Part k))
  | [], _, _ => .ok []
  | b :: l, c, s =>
    match basin G S T b.1 c s with
    | .error e => .error e
    | .ok (p, c, s) =>
      match allBasins G S T l c s with
      | .error e => .error e
      | .ok ps => .ok (p :: ps)

/-- `ContourResult`, contour.py L219-227, without names and settings. -/
structure Result (k : ℕ) where
  thetaMle : Vec k
  nllMin : ℝ
  threshold : ℝ
  delta : ℝ
  points : List (Option (Vec k))
  fromRadial : List Bool

/-- `find_contour`, contour.py L658-927, for the primary fit `primary`. -/
def findContour {k : ℕ} (G : Gen k) (S : Setup k) (primary : Vec k × ℝ) (s : G.State) : Except Err (Result k) :=
  match startPoints G S.bounds primary.1 5 (max 1 S.nMultistart - 1) s with
  | (starts, s) =>
    match basins S.minimise S.dedupTol primary starts with
    | [] => .error .index
    | best :: rest =>
      let T := threshold best.2 S.quantile
      match allBasins G S T (activeBasins T best (best :: rest)) 0 s with
      | .error e => .error e
      | .ok parts =>
        let radial := (parts.map Part.radial).flatten
        let chain := (parts.map Part.chain).flatten
        .ok ⟨best.1, best.2, T, S.quantile, radial.map some ++ chain,
          List.replicate radial.length true ++ List.replicate chain.length false⟩

end

end Verif.Contour
