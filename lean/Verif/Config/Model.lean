import Verif.Py.Float
import Verif.Py.Seq

/-!
# Model of the model configuration

`ModelConfig` (`/repo/src/spey/base/model_config.py`) and `resolve_parameter_index` (`/repo/src/spey/base/utils.py` L10-49).
Parameter values are real numbers; bounds may be infinite, nan or `None`. Names are strings.
-/

namespace Verif.Config
open Verif.Py F
open Classical

/-- Exceptions. -/
inductive Err
  | value | index | type
  deriving DecidableEq

/-- Bounds of one parameter. -/
abbrev Bound := Option F × Option F

/-- `ModelConfig`, model_config.py L9-55. -/
structure ModelConfig where
  poiIndex : ℤ
  minimumPoi : F
  init : List ℝ
  bounds : List Bound
  names : Option (List String)
  fixed : Option (List Bool)

/-- `npar`, L57-60. -/
def ModelConfig.npar (c : ModelConfig) : ℕ := c.init.length

/-- Whether the returned list is the list of the configuration itself, or a copy. -/
inductive Owner
  | config | caller
  deriving DecidableEq

/-- `poi_value` replaces the bounds `b` unless it lies strictly between them, L80-85 and L147-151 (`upper` differs). -/
noncomputable def adjust (minimumPoi : F) (upper : ℝ → F → F) (b : Bound) (v : ℝ) : Bound :=
  match b with
  | (some lo, some hi) =>
    if lt lo (fin v) ∧ lt (fin v) hi then b
    else
      let low := if v < 0 then minimumPoi else fin 0
      (some low, some (upper v low))
  | _ => b

/-- `max([a, b])` of Python: the second only if it is larger. -/
noncomputable def pyMax (a b : F) : F := if lt a b then b else a

/-- `fixed_poi_bounds`, L62-86. -/
noncomputable def fixedPoiBounds (c : ModelConfig) (poi : Option ℝ) : Except Err (Owner × List Bound) :=
  match poi with
  | none => .ok (.config, c.bounds)
  | some v =>
    match slot c.bounds.length c.poiIndex with
    | none => .error .index
    | some k => .ok (.caller, c.bounds.modify k (fun b => adjust c.minimumPoi (fun v low => pyMax (fin (v + 1)) low) b v))

/-- The loop of `fixed_poi_bounds_multi`, L144-151. -/
noncomputable def fixedLoop (minimumPoi : F) : List Bound → List (ℤ × ℝ) → Except Err (List Bound)
  | b, [] => .ok b
  | b, (i, v) :: l =>
    match slot b.length i with
    | none => .error .index
    | some k => fixedLoop minimumPoi (b.modify k (fun b => adjust minimumPoi (fun v _ => fin (v + 1)) b v)) l

/-- `fixed_poi_bounds_multi`, L126-152; a dictionary is a list of pairs with distinct keys. -/
noncomputable def fixedPoiBoundsMulti (c : ModelConfig) (poi : Option (List (ℤ × ℝ))) : Except Err (Owner × List Bound) :=
  match poi with
  | none => .ok (.config, c.bounds)
  | some [] => .ok (.config, c.bounds)
  | some l => (fixedLoop c.minimumPoi c.bounds l).map (fun b => (.caller, b))

/-- A key of `poi_test`. -/
inductive Key
  | name (s : String) | index (i : ℤ)
  deriving DecidableEq

/-- The argument `poi_test`. -/
inductive PoiTest
  | value (v : ℝ) | dict (l : List (Key × ℝ))

/-- One key, L111-123. -/
def resolveKey (names : Option (List String)) : Key → Except Err ℤ
  | .index i => .ok i
  | .name s =>
    match names with
    | none => .error .value
    | some l => if s ∈ l then .ok (l.idxOf s : ℕ) else .error .value

/-- The loop of `resolve_poi_indices`, L110-123. -/
def resolveLoop (names : Option (List String)) : List (ℤ × ℝ) → List (Key × ℝ) → Except Err (List (ℤ × ℝ))
  | d, [] => .ok d
  | d, (k, v) :: l =>
    match resolveKey names k with
    | .error e => .error e
    | .ok i => resolveLoop names (dictSet i v d) l

/-- `resolve_poi_indices`, L88-124. -/
def resolvePoiIndices (c : ModelConfig) : PoiTest → Except Err (List (ℤ × ℝ))
  | .value v => .ok [(c.poiIndex, v)]
  | .dict l => resolveLoop c.names [] l

/-- The loop of `change_parameter_names`, L156-163, with the list as it stands when it ends or raises. -/
def renameLoop : List String → List String → List (String × String) → List String × Except Err Unit
  | names, _, [] => (names, .ok ())
  | names, seen, (old, new) :: l =>
    if old ∉ names then (names, .error .value)
    else if new ∈ seen then (names, .error .value)
    else renameLoop (names.set (names.idxOf old) new) (seen ++ [new]) l

/-- `change_parameter_names`, L154-163: the configuration afterwards and the outcome (`in None` is a `TypeError`). -/
def changeParameterNames (c : ModelConfig) (map : List (String × String)) : ModelConfig × Except Err Unit :=
  match c.names with
  | none => (c, if map = [] then .ok () else .error .type)
  | some names =>
    let r := renameLoop names [] map
    ({ c with names := some r.1 }, r.2)

/-- An entry of a tuple. -/
inductive Val
  | none | num (x : F) | pair (a b : Val)

/-- A stored bound as a value. -/
def Val.ofOption : Option F → Val
  | .none => .none
  | some x => .num x

/-- `if poi_upper_bound`: neither `None` nor zero (nan is true). -/
noncomputable def truthy : Option F → Bool
  | none => false
  | some (fin x) => decide (x ≠ 0)
  | some _ => true

/-- `rescale_poi_bounds`, L165-192. -/
noncomputable def rescalePoiBounds (c : ModelConfig) (allowNegative : Bool) (upper : Option F) : Except Err (List (Val × Val)) :=
  match slot c.bounds.length c.poiIndex with
  | none => .error .index
  | some k =>
    let low := Val.num (if allowNegative then c.minimumPoi else fin 0)
    .ok ((c.bounds.map (fun b => (Val.ofOption b.1, Val.ofOption b.2))).modify k (fun b =>
      if truthy upper then (low, Val.ofOption upper) else (low, .pair b.1 b.2)))

/-- `resolve_parameter_index`, utils.py L10-49. -/
def resolveParameterIndex (c : ModelConfig) (k : Key) : Except Err ℤ :=
  if c.npar < 2 then .error .value
  else
    match k with
    | .name s =>
      match c.names with
      | none => .error .value
      | some l => if s ∈ l then .ok (l.idxOf s : ℕ) else .error .value
    | .index i => if 0 ≤ i ∧ i < c.npar then (if i = c.poiIndex then .error .value else .ok i) else .error .value

end Verif.Config
