import Verif.Model.Arith

/-!
# Concatenation (`utils/utility_functions.py:274-351`), dense backend
-/

namespace CL
namespace Arr
variable {K : Type}

/-- `np.concatenate((a, b), axis)`: all other dimensions must agree. -/
def cat2 (ax : Tri.Axis) (a b : Arr K) : Except Err (Arr K) :=
  match ax with
  | .index =>
    if a.d1 = b.d1 ∧ a.d2 = b.d2 ∧ a.d3 = b.d3 then
      .ok { a with d0 := a.d0 + b.d0, get := fun i c o d =>
        if i < a.d0 then a.get i c o d else b.get (i - a.d0) c o d }
    else .error .valueError
  | .columns =>
    if a.d0 = b.d0 ∧ a.d2 = b.d2 ∧ a.d3 = b.d3 then
      .ok { a with d1 := a.d1 + b.d1, get := fun i c o d =>
        if c < a.d1 then a.get i c o d else b.get i (c - a.d1) o d }
    else .error .valueError
  | .origin =>
    if a.d0 = b.d0 ∧ a.d1 = b.d1 ∧ a.d3 = b.d3 then
      .ok { a with d2 := a.d2 + b.d2, get := fun i c o d =>
        if o < a.d2 then a.get i c o d else b.get i c (o - a.d2) d }
    else .error .valueError
  | .development =>
    if a.d0 = b.d0 ∧ a.d1 = b.d1 ∧ a.d2 = b.d2 then
      .ok { a with d3 := a.d3 + b.d3, get := fun i c o d =>
        if d < a.d3 then a.get i c o d else b.get i c o (d - a.d3) }
    else .error .valueError

end Arr

namespace Tri
variable {K : Type} [Field K] [LinearOrder K] [IsStrictOrderedRing K]

/-- All column names in order of first appearance (`utility_functions.py:309-313`). -/
def allColumns (objs : List (Tri K)) : List String :=
  objs.foldl (fun acc t => t.vdims.foldl
    (fun acc c => if acc.contains c then acc else acc ++ [c]) acc) []

/-- Adding the missing columns, filled with NaN (`utility_functions.py:314-319`). -/
def fillColumns (cols : List String) (t : Tri K) : Except Err (Tri K) :=
  cols.foldlM (fun t c => if t.vdims.contains c then .ok t else t.appendScalarCol c .nan) t

/-- The checks on labels (`utility_functions.py:322-338`), `ignore_index = False`.
Simplification: label arrays of different lengths (numpy refuses to stack them) count as the
same `AssertionError` as different labels. -/
def concatCheck (ax : Axis) (t0 : Tri K) (objs : List (Tri K)) : Except Err Unit :=
  if ax ≠ .index ∧ objs.any (fun t => decide (t.kdims ≠ t0.kdims)) then .error .assertionError
  else if ax ≠ .origin ∧ objs.any (fun t => decide (t.odims ≠ t0.odims)) then
    .error .assertionError
  else if ax ≠ .development ∧
      objs.any (fun t => decide (t.ddims ≠ t0.ddims) || t.isVal != t0.isVal) then
    .error .assertionError
  else
    match ax with
    | .index => if (objs.flatMap Tri.kdims).Nodup then .ok () else .error .assertionError
    | .columns => if (objs.flatMap Tri.vdims).Nodup then .ok () else .error .assertionError
    | .origin => if (objs.flatMap Tri.odims).Nodup then .ok () else .error .assertionError
    | .development =>
      if objs.any (fun t => t.isVal != t0.isVal) then .error .typeError
      else if (objs.flatMap Tri.ddims).Nodup then .ok () else .error .assertionError

/-- Adding missing columns to all triangles (`utility_functions.py:308-319`). -/
def alignColumns (ax : Axis) (objs : List (Tri K)) : Except Err (List (Tri K)) :=
  if ax = .columns then .ok objs else objs.mapM (fillColumns (allColumns objs))

/-- `concat(objs, axis)` (`utility_functions.py:274-351`), with `ignore_index = False`,
`sort = False`, dense backend. -/
def concat (ax : Axis) (objs : List (Tri K)) : Except Err (Tri K) := do
  match objs with
  | [] => .error .valueError
  | _ =>
    let objs ← alignColumns ax objs
    match objs with
    | [] => .error .valueError
    | t0 :: rest =>
      concatCheck ax t0 objs
      let values ← rest.foldlM (fun a t => Arr.cat2 ax a t.values) t0.values
      let out := { t0 with values := values, vd := (rest.map Tri.vd).foldl max t0.vd }
      match ax with
      | .index => .ok { out with kdims := objs.flatMap Tri.kdims }
      | .columns => .ok { out with vdims := objs.flatMap Tri.vdims }
      | .origin => .ok { out with odims := objs.flatMap Tri.odims }
      | .development => .ok { out with ddims := objs.flatMap Tri.ddims }

end Tri
end CL
