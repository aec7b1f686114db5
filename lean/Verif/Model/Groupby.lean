import Verif.Model.Agg
import Mathlib.Data.List.Dedup
import Mathlib.Order.Defs.LinearOrder
import Mathlib.Data.List.Lex
import Mathlib.Data.String.Basic

/-!
# Grouping (`core/pandas.py:16-36,387-446`), dense backend
-/

namespace CL

/-- Differences of consecutive entries, `np.diff`. -/
def npDiff : List Int → List Int
  | a :: b :: l => (b - a) :: npDiff (b :: l)
  | _ => []

/-- `_get_grain(dates, trailing=False)` (`core/base.py:266-293`) together with the renaming
`{"A": "Y", "2Q": "S"}`. -/
def getGrain (dates : List Int) : Grain :=
  let months := ((dates.map (· % 12)).dedup).insertionSort (· ≤ ·)
  if dates.dedup.length = 1 then .Y
  else if months.length = 1 then .Y
  else if (npDiff months).all (· == 6) then .S
  else if (npDiff months).all (· == 3) then .Q
  else .M

/-- The groups of `pandas.groupby(by)`: distinct keys in ascending order. -/
def groupKeys {κ : Type} [LinearOrder κ] (keys : List κ) : List κ :=
  keys.dedup.insertionSort (· ≤ ·)

/-- `groups.indices[g]`: positions holding key `g`. -/
def groupIndices {κ : Type} [LinearOrder κ] (keys : List κ) (g : κ) : List Nat :=
  (List.range keys.length).filter fun i => keys[i]? = some g

namespace Tri
variable {K : Type} [Field K] [LinearOrder K] [IsStrictOrderedRing K]

/-- `concat(objs, axis, ignore_index=True)` (`utils/utility_functions.py:274-351`). -/
def concatIgnore (ax : Axis) (objs : List (Tri K)) : Except Err (Tri K) := do
  match objs with
  | [] => .error .valueError
  | _ =>
    let objs ← alignColumns ax objs
    match objs with
    | [] => .error .valueError
    | t0 :: rest =>
      if ax ≠ .index ∧ objs.any (fun t => decide (t.kdims ≠ t0.kdims)) then .error .assertionError
      else if ax ≠ .origin ∧ objs.any (fun t => decide (t.odims ≠ t0.odims)) then
        .error .assertionError
      else if ax ≠ .development ∧
          objs.any (fun t => decide (t.ddims ≠ t0.ddims) || t.isVal != t0.isVal) then
        .error .assertionError
      else
        let values ← rest.foldlM (fun a t => Arr.cat2 ax a t.values) t0.values
        let out := { t0 with values := values, vd := (rest.map Tri.vd).foldl max t0.vd }
        match ax with
        | .index => .ok { out with
            kdims := (List.range (objs.flatMap Tri.kdims).length).map fun i => [toString i]
            keyLabels := ["Index"] }
        | .columns => .ok { out with
            vdims := (List.range (objs.flatMap Tri.vdims).length).map toString }
        | .origin => .ok { out with
            odims := (List.range (objs.flatMap Tri.odims).length).map fun i : Nat => (i : Int) }
        | .development => .ok { out with
            ddims := (List.range (objs.flatMap Tri.ddims).length).map fun i : Nat => (i : Int)
            isVal := false }

/-- `tri.iloc[..., k]` with `k` in the position of axis `ax`. -/
def ilocAx (t : Tri K) (ax : Axis) (k : Key) : Except Err (Tri K) :=
  match ax with
  | .index => t.iloc k (.slc .all) (.slc .all) (.slc .all)
  | .columns => t.iloc (.slc .all) k (.slc .all) (.slc .all)
  | .origin => t.iloc (.slc .all) (.slc .all) k (.slc .all)
  | .development => t.iloc (.slc .all) (.slc .all) (.slc .all) k

/-- The aggregation of the groups before relabelling (`core/pandas.py:406-414`). -/
def groupParts {κ : Type} [LinearOrder κ] (t : Tri K) (ax : Axis) (keys : List κ) :
    Except Err (Tri K) := do
  let parts ← (groupKeys keys).mapM fun g => do
    let u ← t.ilocAx ax (.lst ((groupIndices keys g).map fun i : Nat => (i : Int)))
    pure (u.sumKeep ax)
  concatIgnore ax parts

/-- `tri.groupby(by).sum()` on the index axis, `rows` being the key of each index row
(`core/pandas.py:415-428`). -/
def groupbyIndexSum (t : Tri K) (labels : List String) (rows : List (List String)) :
    Except Err (Tri K) := do
  let obj ← t.groupParts .index rows
  .ok { obj with
    kdims := groupKeys rows
    keyLabels := labels }

/-- `tri.groupby(by, axis=1).sum()` (`core/pandas.py:429-430`). -/
def groupbyColumnsSum (t : Tri K) (by_ : List String) : Except Err (Tri K) := do
  let obj ← t.groupParts .columns by_
  .ok { obj with vdims := groupKeys by_ }

/-- `tri.groupby(by, axis=2).sum()` with the key of each origin given as the first month of its
group (`core/pandas.py:431-438`). -/
def groupbyOriginSum (t : Tri K) (by_ : List Int) : Except Err (Tri K) := do
  let obj ← t.groupParts .origin by_
  .ok { obj with
    odims := groupKeys by_
    ograin := getGrain (groupKeys by_) }

/-- `tri.groupby(by, axis=3).sum()`: the new axis keeps the labels 0, 1, ... of `concat`. -/
def groupbyDevelopmentSum {κ : Type} [LinearOrder κ] (t : Tri K) (by_ : List κ) :
    Except Err (Tri K) := t.groupParts .development by_

end Tri
end CL
