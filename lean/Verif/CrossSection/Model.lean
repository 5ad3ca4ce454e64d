import Verif.Hypotest.Limit
import Verif.Py.Arith

/-!
# Model of the excluded cross section

`StatisticalModel.excluded_cross_section`, `s95exp`, `s95obs` (interface/statistical_model.py L288-360), on top of `poi_upper_limit` (`Verif.Hypotest.Limit`).
-/

namespace Verif.CrossSection
open Verif.Py F Verif.Hypotest
open Verif.Stats (Expect)
open Verif.UpperLimit (Expected Band Limit)

/-- What `excluded_cross_section` raises: `UnknownCrossSection` (system/exceptions.py L60-64), what `poi_upper_limit` raises, or `TypeError`. -/
inductive Err
  | unknown | limit (e : Hypotest.Err) | type

/-- `limit * self.xsection`, interface/statistical_model.py L318-320: a list cannot be multiplied by a float. -/
noncomputable def times (xsection : F) : Limit → Except Err F
  | .one x => .ok (mul x xsection)
  | .many _ => .error .type

/-- `excluded_cross_section`, interface/statistical_model.py L288-320. `poi_upper_limit` is called with its default values `low_init = hig_init = 1.0` and `expected_pvalue = "nominal"`
(base/hypotest_base.py L1200-1209). `none`: the loops of `find_poi_upper_limit` do not end within `fuel` steps. -/
noncomputable def excludedCrossSection {σ : Type} (fuel : ℕ) (T : Finder) (M : Methods σ) (sigma : Expect → ℝ → Comp σ F) (alive : Bool) (xsection : F) (e : Expected) (s : σ) :
    Except Err (Option F) × σ :=
  match xsection with
  | nan => (.error .unknown, s)
  | xsection =>
    match poiUpperLimit fuel T M sigma alive e 0.95 (some 1) (some 1) .nominal s with
    | (.error err, s) => (.error (.limit err), s)
    | (.ok none, s) => (.ok none, s)
    | (.ok (some L), s) => ((times xsection L).map some, s)

/-- `s95exp`, interface/statistical_model.py L322-340. -/
noncomputable def s95exp {σ : Type} (fuel : ℕ) (T : Finder) (M : Methods σ) (sigma : Expect → ℝ → Comp σ F) (alive : Bool) (xsection : F) (s : σ) : Except Err (Option F) × σ :=
  excludedCrossSection fuel T M sigma alive xsection .apriori s

/-- `s95obs`, interface/statistical_model.py L342-360. -/
noncomputable def s95obs {σ : Type} (fuel : ℕ) (T : Finder) (M : Methods σ) (sigma : Expect → ℝ → Comp σ F) (alive : Bool) (xsection : F) (s : σ) : Except Err (Option F) × σ :=
  excludedCrossSection fuel T M sigma alive xsection .observed s

end Verif.CrossSection
