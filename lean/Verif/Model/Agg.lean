import Verif.Model.Concat
import Verif.Lemmas.Num

/-!
# Aggregation along an axis (`core/pandas.py`), dense backend
-/

namespace CL
namespace Arr
variable {K : Type} [Field K] [LinearOrder K] [IsStrictOrderedRing K]

/-- `np.nansum(values, axis, keepdims=True)`. -/
def nansum (ax : Tri.Axis) (a : Arr K) : Arr K :=
  match ax with
  | .index => { a with
      d0 := 1
      get := fun _ c o d => ∑ i ∈ Finset.range a.d0, (a.get i c o d).nan0 }
  | .columns => { a with
      d1 := 1
      get := fun i _ o d => ∑ c ∈ Finset.range a.d1, (a.get i c o d).nan0 }
  | .origin => { a with
      d2 := 1
      get := fun i c _ d => ∑ o ∈ Finset.range a.d2, (a.get i c o d).nan0 }
  | .development => { a with
      d3 := 1
      get := fun i c o _ => ∑ d ∈ Finset.range a.d3, (a.get i c o d).nan0 }

end Arr

/-- What an aggregation returns: a triangle, or a number when the result has a single cell. -/
inductive Agg (K : Type) where
  | tri : Tri K → Agg K
  | scalar : Num K → Agg K

namespace Tri
variable {K : Type} [Field K] [LinearOrder K] [IsStrictOrderedRing K]

/-- The relabelling of the collapsed axis (`core/pandas.py:365-374`); labels are kept when the axis
had a single label already. The new column label is the integer 0, here `"0"`. -/
def relabelAgg (t : Tri K) (ax : Axis) : Tri K :=
  match ax with
  | .index =>
    if t.kdims.length > 1 then { t with kdims := [List.replicate t.keyLabels.length "(All)"] } else t
  | .columns => if t.vdims.length > 1 then { t with vdims := ["0"] } else t
  | .origin => if t.odims.length > 1 then { t with odims := t.odims.take 1 } else t
  | .development =>
    if t.ddims.length > 1 then
      { t with
        ddims := [t.vd]
        isVal := true }
    else t

/-- `tri.sum(axis, keepdims=True)` (`core/pandas.py:347-384`). -/
def sumKeep (t : Tri K) (ax : Axis) : Tri K :=
  { t.relabelAgg ax with values := (t.values.nansum ax).map Num.numToNan }

/-- The end of `agg_func` (`core/pandas.py:379-382`). -/
def toAgg (t : Tri K) : Agg K :=
  if t.values.d0 = 1 ∧ t.values.d1 = 1 ∧ t.values.d2 = 1 ∧ t.values.d3 = 1 then
    .scalar (t.values.get 0 0 0 0)
  else .tri t

/-- `tri.sum(axis)`. -/
def sum (t : Tri K) (ax : Axis) : Agg K := (t.sumKeep ax).toAgg

/-- The axis used by `tri.sum()` (`core/pandas.py:354-358`). -/
def defaultAxis (t : Tri K) : Axis :=
  if t.values.d0 ≠ 1 then .index
  else if t.values.d1 ≠ 1 then .columns
  else if t.values.d2 ≠ 1 then .origin
  else if t.values.d3 ≠ 1 then .development
  else .index

end Tri
end CL
