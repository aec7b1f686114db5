import Verif.Model.Methods
import Verif.Model.Groupby
import Verif.Model.Concat

/-!
# Arithmetic between triangles with different index labels (`core/dunders.py:62-99,211-241,291-334`),
dense backend
-/

namespace CL
namespace Tri
variable {K : Type} [Field K] [LinearOrder K] [IsStrictOrderedRing K]

/-- The key of each row in `tri.groupby(labels)` (`core/pandas.py:16-27`): the entries of the row
under `labels`. -/
def rowKeys (t : Tri K) (labels : List String) : List (List String) :=
  t.kdims.map fun r => labels.map fun l => r.getD (t.keyLabels.idxOf l) ""

/-- `_slice_or_nan(t, other, k)` (`core/dunders.py:211-226`).  Without the key in `t` it is the first row of
`t` times zero, under the key of the last row of `other` in the group; `.iloc[-1:]` after a left join of the
indexes on the common labels `labels`.  When `t` has labels that `other` does not have, the join leaves
them missing; this is not modelled. -/
def sliceOrNan (t other : Tri K) (labels k : List String) : Except Err (Tri K) :=
  if k ∈ t.rowKeys labels then
    t.ilocAx .index (.lst ((groupIndices (t.rowKeys labels) k).map fun i : Nat => (i : Int)))
  else if t.keyLabels.all fun l => other.keyLabels.contains l then do
    let u ← t.ilocAx .index (.upto 1)
    let u ← u.mulArr (Arr.scalar 0)
    let r := other.kdims.getD ((groupIndices (other.rowKeys labels) k).getLast?.getD 0) []
    .ok { u with kdims := [t.keyLabels.map fun l => r.getD (other.keyLabels.idxOf l) ""] }
  else .error .unmodelled

/-- `_arithmetic_mapper` (`core/dunders.py:233-241`), without Dask.  `keys` lists the set of
`_get_key_union` (228-231) in the order in which Python iterates over it. -/
def groupOp (op : Tri K → Tri K → Except Err (Tri K)) (labels : List String)
    (keys : List (List String)) (x y : Tri K) : Except Err (Tri K) := do
  let parts ← keys.mapM fun k => do
    let a ← x.sliceOrNan y labels k
    let b ← y.sliceOrNan x labels k
    op a b
  let u ← concat .index parts
  u.sortIndex

/-- `_validate_arithmetic` (`core/dunders.py:20-29`) up to `_prep_index`. -/
def prepare (x y : Tri K) : Except Err (Tri K × Tri K) :=
  if x.ograin ≠ y.ograin ∨ (x.dgrain ≠ y.dgrain ∧ min x.values.d3 y.values.d3 > 1) then
    .error .valueError
  else do
    let p := x.isPattern && y.isPattern
    let x' : Tri K := { x with isPattern := p, vd := max x.vd y.vd }
    let y' : Tri K := { y with isPattern := p }
    let (x1, y1) ← prepColumns x' y'
    prepOriginDev x.values.d0 x.values.d1 x1 y1

/-- `_prep_index` groups both triangles by the common labels (`core/dunders.py:63-84`): neither has a
single row, the labels of one are among those of the other, and the labels or the numbers of rows
differ. -/
def groupsIndex (x y : Tri K) : Bool :=
  let xy := x.keyLabels.all fun l => y.keyLabels.contains l
  let yx := y.keyLabels.all fun l => x.keyLabels.contains l
  !decide (x.kdims.length = 1 ∧ y.kdims.length > 1) && !decide (x.kdims.length > 1 ∧ y.kdims.length = 1) &&
  !decide (x.kdims.length = 1 ∧ y.kdims.length = 1 ∧ x.keyLabels ≠ y.keyLabels) &&
  (xy || yx) && (!(xy && yx) || decide (x.kdims.length ≠ y.kdims.length))

/-- The operators `+`, `-`, `*` and `/`. -/
inductive BinOp
  | add
  | sub
  | mul
  | div

/-- The operator between triangles whose indexes need no grouping or sorting. -/
def BinOp.tri : BinOp → Tri K → Tri K → Except Err (Tri K)
  | .add => Tri.add
  | .sub => Tri.sub
  | .mul => Tri.mul
  | .div => Tri.div

/-- The operator on the values, the last lines of `__add__` and the others. -/
def BinOp.arr : BinOp → Tri K → Arr K → Except Err (Tri K)
  | .add => Tri.addArr
  | .sub => Tri.subArr
  | .mul => Tri.mulArr
  | .div => Tri.divArr

/-- `_arithmetic_cleanup` of `+` and `-` (`core/dunders.py:252`, `:267`). -/
def BinOp.finish : BinOp → Tri K → Tri K
  | .add, t => t.cleanup
  | .sub, t => t.cleanup
  | .mul, t => t
  | .div, t => t

/-- `_prep_index` sorts `x` and looks its rows up in `y` (`core/dunders.py:85-87`): the same labels, here in
the same order, as many rows, more than one, and other keys or another order. -/
def sortsIndex (x y : Tri K) : Bool :=
  decide (x.keyLabels = y.keyLabels ∧ x.kdims.length = y.kdims.length ∧ x.kdims.length > 1 ∧ x.kdims ≠ y.kdims)

/-- `x + y`, `x - y`, `x * y` and `x / y` (`core/dunders.py:20-32,62-99,242-334`) with all branches of
`_prep_index`.  `labels` is `list(common)` and `keys` the set of keys, both in the order of the set.  `y.loc[x.index]`
(`core/slice.py:138-140`) takes the rows of `y` in the order of `x`; if one is missing, both are grouped
(`core/dunders.py:88-91`).  It may also drop a constant first label of `y` (`core/slice.py:111-112`), of which only the
values are used. -/
def arithAny (op : BinOp) (labels : List String) (keys : List (List String)) (x y : Tri K) :
    Except Err (Tri K) := do
  let (a, b) ← prepare x y
  if a.groupsIndex b then do
    let r ← groupOp op.tri labels keys a b
    .ok (op.finish r)
  else if a.sortsIndex b then do
    let a ← a.sortIndex
    if a.kdims.all fun k => decide (k ∈ b.kdims) then do
      let b ← b.ilocAx .index (.lst (a.kdims.map fun k => (b.kdims.idxOf k : Int)))
      op.arr a b.values
    else do
      let r ← groupOp op.tri labels keys a b
      .ok (op.finish r)
  else op.tri x y

end Tri
end CL
