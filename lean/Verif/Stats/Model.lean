import Verif.Py.Float

/-!
# Model of the hypothesis tests

`hypothesis_testing/test_statistics.py`, `distributions.py`, `utils.py`, `asymptotic_calculator.py`,
`toy_calculator.py` and `HypothesisTestingBase.exclusion_confidence_level` / `significance`
(`base/hypotest_base.py`) under `/repo/src/spey`. Likelihood values and fit results are arbitrary parameters, also
nan and infinite.
-/

namespace Verif.Stats
open Verif.Py F
open Classical

/-- Errors of this part: `UnknownTestStatistics`, `AsimovTestStatZero`, `CalculatorNotAvailable`. -/
inductive Err
  | unknownTestStatistics | asimovTestStatZero | calculatorNotAvailable
  deriving DecidableEq

/-- A test statistic function `(mu, muhat, max_logpdf, logpdf) -> float`. -/
abbrev TestStat := F → F → F → (F → F) → F

/-- `qmu_tilde`, test_statistics.py L18-57. -/
noncomputable def qmuTilde : TestStat := fun mu muhat maxLogpdf logpdf =>
  if lt mu muhat then fin 0
  else clip0 (scale (-2) (sub (logpdf mu) (if le (fin 0) muhat then maxLogpdf else logpdf (fin 0))))

/-- `qmu`, L60-83. -/
noncomputable def qmu : TestStat := fun mu muhat maxLogpdf logpdf =>
  if lt mu muhat then fin 0 else clip0 (scale (-2) (sub (logpdf mu) maxLogpdf))

/-- `qmu_left`, L86-117. -/
noncomputable def qmuLeft : TestStat := fun mu muhat maxLogpdf logpdf =>
  if lt muhat mu then fin 0 else clip0 (scale (-2) (sub (logpdf mu) maxLogpdf))

/-- `q0`, L120-149 (`mu` is not used). -/
noncomputable def q0 : TestStat := fun _ muhat maxLogpdf logpdf =>
  if lt muhat (fin 0) then fin 0 else clip0 (scale (-2) (sub (logpdf (fin 0)) maxLogpdf))

/-- `_options`, L152, as `_options.get`. -/
noncomputable def options : String → Option TestStat
  | "qmutilde" => some qmuTilde
  | "q" => some qmu
  | "q0" => some q0
  | "qmu_left" => some qmuLeft
  | _ => none

/-- `get_test_statistic`, L155-200. -/
noncomputable def getTestStatistic (testStat : String) : Except Err TestStat :=
  let name := if testStat ∈ ["qmu", "q"] then "q"
    else if testStat ∈ ["qtilde", "qmutilde"] then "qmutilde" else testStat
  match options name with
  | none => .error .unknownTestStatistics
  | some f => .ok f

/-- The last part of `compute_teststatistics`, L251-270: from `q`, `q_A` to
`(sqrt(q), sqrt(q_A), delta)`. -/
noncomputable def shiftOf (teststat : String) (q qA : F) : Except Err (F × F × F) :=
  let sq := sqrt q
  let sqA := sqrt qA
  if teststat ∈ ["q", "q0", "qmu"] then .ok (sq, sqA, sub sq sqA)
  else if le sq sqA then .ok (sq, sqA, sub sq sqA)
  else
    let delta := div (sub q qA) (scale 2 sqA)
    if eq sqA (fin 0) then .error .asimovTestStatZero else .ok (sq, sqA, delta)

/-- `compute_teststatistics`, L203-270. The pairs are `(muhat, min_nll)`. -/
noncomputable def computeTeststatistics (mu : F) (maxLik : F × F) (logpdf : F → F) (maxLikA : F × F)
    (logpdfA : F → F) (teststat : String) : Except Err (F × F × F) :=
  match getTestStatistic teststat with
  | .error e => .error e
  | .ok f =>
    let q := f mu maxLik.1 (neg maxLik.2) logpdf
    let qA := f mu maxLikA.1 (neg maxLikA.2) logpdfA
    shiftOf teststat q qA

/-! ### distributions.py -/

/-- A distribution of a test statistic: `pvalue` and `expected_value`. -/
structure Dist where
  pvalue : F → F
  expected : F → F

/-- `AsymptoticTestStatisticsDistribution`, distributions.py L17-71, `cutoff` default `-inf`. -/
noncomputable def asymptoticDist (shift : F) (cutoff : F := ninf) : Dist where
  pvalue value :=
    let p := cdf (sub shift value)
    if le cutoff p then p else nan
  expected nsigma :=
    let tot := add nsigma shift
    if lt cutoff tot then tot else cutoff

/-- `np.sum(self.samples >= value) / self.samples.shape[0]`, distributions.py L85-98. -/
noncomputable def tailFraction (samples : List F) (value : F) : F :=
  div (fin (samples.countP (fun s => decide (le value s)) : ℝ)) (fin (samples.length : ℝ))

/-- `EmpricTestStatisticsDistribution`, distributions.py L74-112. `percentile` stands for
`numpy.percentile(samples, 100 * norm.cdf(nsigma), method="linear")`: any function of the samples and `nsigma`. -/
noncomputable def empiricDist (percentile : List F → F → F) (samples : List F) : Dist where
  pvalue := tailFraction samples
  expected := percentile samples

/-! ### utils.py -/

/-- `pvalues`, utils.py L24-72: `(p_sb, p_b, p_s)`. -/
noncomputable def pvalues (delta : F) (sb b : Dist) : F × F × F :=
  let psb := sb.pvalue delta
  let pb := b.pvalue delta
  (psb, pb, if eq pb (fin 0) then fin 0 else div psb pb)

/-- The list of `nsigma`, utils.py L120. -/
def nsigmas : List ℝ := [2, 1, 0, -1, -2]

/-- `expected_pvalues`, utils.py L75-128: the lists of `p_sb`, `p_b` and `p_s`. -/
noncomputable def expectedPvalues (sb b : Dist) : List F × List F × List F :=
  let r := nsigmas.map (fun n => pvalues (b.expected (fin n)) sb b)
  (r.map (·.1), r.map (·.2.1), r.map (·.2.2))

/-- `compute_asymptotic_confidence_level`, asymptotic_calculator.py L75-89: observed and expected p-values. -/
noncomputable def asymptoticLevel (sqrtQA delta : F) (testStat : String) : List F × List F :=
  let sb := asymptoticDist (neg sqrtQA)
  let b := asymptoticDist (fin 0)
  let obs := pvalues delta sb b
  let exp := expectedPvalues sb b
  if testStat = "q0" then ([obs.1], exp.1) else ([obs.2.2], exp.2.2)

/-- `compute_toy_confidence_level`, toy_calculator.py L53-67. -/
noncomputable def toyLevel (percentile : List F → F → F) (sig bkg : List F) (value : F) (testStat : String) :
    List F × List F :=
  let sb := empiricDist percentile sig
  let b := empiricDist percentile bkg
  let obs := pvalues value sb b
  let exp := expectedPvalues sb b
  if testStat = "q0" then ([obs.1], exp.1) else ([obs.2.2], exp.2.2)

/-! ### base/hypotest_base.py -/

/-- The argument `expected`: an `ExpectationType` or the string `"all"`. -/
inductive Expect
  | observed | aposteriori | apriori | all
  deriving DecidableEq

/-- The argument `calculator`. -/
inductive Calc
  | asymptotic | toy | chiSquare
  deriving DecidableEq

/-- What a fit gives: `(muhat, min_nll)` and the profiled `logpdf`. -/
structure Fit where
  muhat : F
  nll : F
  logpdf : F → F

/-- Everything that the backend contributes to `exclusion_confidence_level`: the fit to the data, the fit to the
Asimov data, one fit per signal and per background toy, `numpy.percentile`. -/
structure Backend where
  data : Fit
  asimov : Fit
  sigToys : List Fit
  bkgToys : List Fit
  percentile : List F → F → F
  available : Calc → Bool

/-- The test statistic of a fit. -/
noncomputable def Fit.stat (f : Fit) (t : TestStat) (mu : F) : F := t mu f.muhat (neg f.nll) f.logpdf

/-- Branch `calculator == "asymptotic"`, hypotest_base.py L1007-1041. -/
noncomputable def asymptoticPvalues (B : Backend) (mu : F) (testStat : String) : Except Err (List F × List F) :=
  match computeTeststatistics mu (B.data.muhat, B.data.nll) B.data.logpdf (B.asimov.muhat, B.asimov.nll)
      B.asimov.logpdf testStat with
  | .ok (_, sqrtQA, delta) => .ok (asymptoticLevel sqrtQA delta testStat)
  | .error .asimovTestStatZero => .ok ([fin 1], List.replicate 5 (fin 1))
  | .error e => .error e

/-- Branch `calculator == "toy"`, L1043-1092. The list of signal-like statistics comes from
`zip(signal_samples, bkg_samples)`; both samples have the same size `ntoys`. -/
noncomputable def toyPvalues (B : Backend) (mu : F) (testStat : String) : Except Err (List F × List F) :=
  match getTestStatistic testStat with
  | .error e => .error e
  | .ok t =>
    let r := toyLevel B.percentile (B.sigToys.map (·.stat t mu)) (B.bkgToys.map (·.stat t mu))
      (B.data.stat t mu) testStat
    .ok (r.1.map clip01, r.2.map clip01)

/-- The statistic of the null hypothesis in branch `calculator == "chi_square"`, L1098-1102. -/
noncomputable def chiNullStat (D : Fit) (testStat : String) : F :=
  let nullLogpdf := D.logpdf (fin 0)
  let maxLogpdf := if le (fin 0) D.muhat ∨ testStat = "q" then neg D.nll else nullLogpdf
  clip0 (scale (-2) (sub nullLogpdf maxLogpdf))

/-- `delta_ts` in the same branch, L1107-1123. The `ZeroDivisionError` of L1114 cannot be raised by numpy scalars; the
division is `numpy`'s. -/
noncomputable def chiShift (testStat : String) (tsSB tsB : F) : F :=
  if testStat = "q" ∨ le (sqrt tsSB) (sqrt tsB) then sub (sqrt tsB) (sqrt tsSB)
  else div (sub tsB tsSB) (scale 2 (sqrt tsSB))

/-- Branch `calculator == "chi_square"`, L1094-1123. -/
noncomputable def chiSquarePvalues (B : Backend) (mu : F) (testStat : String) : Except Err (List F × List F) :=
  match getTestStatistic testStat with
  | .error e => .error e
  | .ok t =>
    let tsSB := B.data.stat t mu
    .ok (asymptoticLevel (sqrt tsSB) (chiShift testStat tsSB (chiNullStat B.data testStat)) testStat)

/-- The branches on `calculator`, L1007, L1043, L1094. -/
noncomputable def calculatorPvalues (B : Backend) (mu : F) (testStat : String) :
    Calc → Except Err (List F × List F)
  | .asymptotic => asymptoticPvalues B mu testStat
  | .toy => toyPvalues B mu testStat
  | .chiSquare => chiSquarePvalues B mu testStat

/-- What `exclusion_confidence_level` returns: a list, or two lists for `expected="all"`. -/
inductive Levels
  | one (l : List F)
  | both (observed expected : List F)

/-- `exclusion_confidence_level`, L902-1133. -/
noncomputable def exclusionConfidenceLevel (B : Backend) (mu : F) (expected : Expect) (allowNegative : Bool)
    (kind : Calc) : Except Err Levels :=
  if B.available kind then
    let testStat := if allowNegative then "q" else "qtilde"
    match calculatorPvalues B mu testStat kind with
    | .error e => .error e
    | .ok (obs, exp) =>
      match expected with
      | .all => .ok (.both (obs.map (sub (fin 1))) (exp.map (sub (fin 1))))
      | .observed => .ok (.one (obs.map (fun x => if isNan x then fin 0 else sub (fin 1) x)))
      | _ => .ok (.one (exp.map (fun x => if isNan x then fin 0 else sub (fin 1) x)))
  else .error .calculatorNotAvailable

/-- `significance`, L1135-1196: `(sqrt_q0A, sqrt_q0, pvalues, expected_pvalues)`. -/
noncomputable def significance (data asimov : Fit) : Except Err (F × F × List F × List F) :=
  match computeTeststatistics (fin 0) (data.muhat, data.nll) data.logpdf (asimov.muhat, asimov.nll)
      asimov.logpdf "q0" with
  | .error e => .error e
  | .ok (sq, sqA, delta) =>
    let r := asymptoticLevel sqA delta "q0"
    .ok (sqA, sq, r.1, r.2)

end Verif.Stats
