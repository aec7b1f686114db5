import Verif.Model.Concat
import Verif.Lemmas.Num

/-!
# Cumulative / incremental conversion, link ratios (`core/triangle.py`), dense backend
-/

namespace CL
namespace Tri
variable {K : Type} [Field K] [LinearOrder K] [IsStrictOrderedRing K]

/-- Multiplicative pattern branch of `incr_to_cum` (`core/triangle.py:449-454`): missing factors
become one, then a reversed cumulative product, then the NaN triangle. -/
def cumProdVals (t : Tri K) : Arr K :=
  { t.values with
    get := fun i c o d =>
      (∏ j ∈ Finset.Ico d t.values.d3, ((t.values.get i c o j).nanToNum).numToValue 1) *
        t.nanTri o d }

/-- Additive pattern branch (`core/triangle.py:442-448`). -/
def cumSumRevVals (t : Tri K) : Arr K :=
  { t.values with
    get := fun i c o d =>
      (∑ j ∈ Finset.Ico d t.values.d3, ((t.values.get i c o j).nanToNum).numToValue 0) *
        t.nanTri o d }

/-- Ordinary branch, dense backend (`core/triangle.py:457-461,475`). -/
def cumSumVals (t : Tri K) : Arr K :=
  { t.values with
    get := fun i c o d =>
      ((∑ j ∈ Finset.range (d + 1), (t.values.get i c o j).nanToNum) * t.nanTri o d).numToNan }

/-- `incr_to_cum` (`core/triangle.py:427-480`), dense backend. `is_cumulative` may be `None`,
which counts as not cumulative.  An additive pattern whose `is_additive` is `False` is only
flagged, not accumulated. -/
def incrToCum (t : Tri K) : Tri K :=
  if t.isCum = some true then t
  else
    let v :=
      if t.isPattern then
        match t.isAdditive with
        | some true => t.cumSumRevVals
        | some false => t.values
        | none => t.cumProdVals
      else t.cumSumVals
    { t with values := v, isCum := some true }

/-- `cum_to_incr` (`core/triangle.py:482-518`), dense backend: the returned triangle.  In the
pattern branch `num_to_value(self.values, 1)` overwrites the zeros of `self.values` in place, so
the slices below see ones. -/
def cumToIncr (t : Tri K) : Except Err (Tri K) :=
  if t.isCum = some false then .ok t
  else do
    let r ← if t.isPattern then do
        let s : Tri K := { t with values := t.values.map fun x => x.nanToNum.numToValue 1 }
        let a ← s.ilocD (.upto (-1))
        let b ← s.ilocD (.from 1)
        let diff ← a.divArr b.values
        let last ← s.ilocD (.int (-1))
        let r ← concat .development [diff, last]
        pure { r with values := { r.values with
          get := fun i c o d => r.values.get i c o d * r.nanTri o d } }
      else do
        let b ← t.ilocD (.from 1)
        let a ← t.ilocD (.upto (-1))
        let diff ← b.subArr a.values
        let first ← t.ilocD (.int 0)
        concat .development [first, diff]
    .ok { r with isCum := some false, vd := t.vd }

end Tri
end CL
