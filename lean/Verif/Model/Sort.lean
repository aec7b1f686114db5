import Verif.Model.Methods

/-!
# Sorting an axis (`core/triangle.py:950-983`), dense backend
-/

namespace CL
namespace Tri
variable {K : Type} [Field K] [LinearOrder K] [IsStrictOrderedRing K]

/-- `pd.Series(keys).sort_values().index`.  Simplification: equal keys keep their order; labels are
distinct. -/
def sortBy {α : Type} [LinearOrder α] (key : Nat → α) (n : Nat) : List Nat :=
  (List.range n).insertionSort fun i j => key i ≤ key j

/-- The labels of the developments of a pattern (`core/triangle.py:365-375`): `'12-24'`, or `'12-Ult'` if it is
cumulative. -/
def patternLabel (t : Tri K) (d : Nat) : String :=
  let n := t.ddims.length
  let a := if t.ddims.getLast? = some 9999 ∧ d + 1 = n then t.ddims.getD (n - 2) 0 + t.dgrain.months
    else t.ddims.getD d 0
  if t.isCum = some true then toString a ++ "-Ult"
  else toString a ++ "-" ++ toString (a + t.dgrain.months)

/-- The order of the developments in `sort_axis` (`core/triangle.py:978-979`).  Of a valuation triangle the
labels are years, quarters or months as strings with four-digit years, ordered as the dates; of a pattern
they are the strings of `patternLabel`. -/
def sortDev (t : Tri K) : List Nat :=
  if ¬ t.isVal ∧ t.isPattern then sortBy t.patternLabel t.ddims.length
  else sortBy (t.ddims.getD · 0) t.ddims.length

/-- `sort_axis` (`core/triangle.py:950-983`). -/
def sortAxis (t : Tri K) : Axis → Except Err (Tri K)
  | .index => t.sortIndex
  | .columns =>
    let s := sortBy (t.vdims.getD · "") t.vdims.length
    .ok { t with
      vdims := s.map (t.vdims.getD · "")
      values := t.values.take (List.range t.values.d0) s (List.range t.values.d2) (List.range t.values.d3) }
  | .origin =>
    let s := sortBy (t.odims.getD · 0) t.odims.length
    .ok { t with
      odims := s.map (t.odims.getD · 0)
      values := t.values.take (List.range t.values.d0) (List.range t.values.d1) s (List.range t.values.d3) }
  | .development =>
    .ok { t with
      ddims := t.sortDev.map (t.ddims.getD · 0)
      values := t.values.take (List.range t.values.d0) (List.range t.values.d1) (List.range t.values.d2)
        t.sortDev }

/-- `concat(objs, axis, sort=True)` (`utils/utility_functions.py:348-349`). -/
def concatSort (ax : Axis) (objs : List (Tri K)) : Except Err (Tri K) := do
  let u ← concat ax objs
  u.sortAxis ax

end Tri
end CL
