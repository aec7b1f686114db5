import Verif.Model.Agg

/-!
# Valuation filters, latest diagonal, link ratios, dense backend
-/

namespace CL
namespace Tri
variable {K : Type} [Field K] [LinearOrder K] [IsStrictOrderedRing K]

/-- Valuations of the cells selected by `key`. -/
def keptValuations (t : Tri K) (key : Nat → Nat → Bool) : List Int :=
  (List.range t.ddims.length).flatMap fun d =>
    ((List.range t.odims.length).filter fun o => key o d).map fun o => t.valuation o d

/-- Rows with a selected cell, `np.arange(shape[2])[np.sum(~key, 1) != shape[3]]`. -/
def keyRows (n m : Nat) (key : Nat → Nat → Bool) : List Nat :=
  (List.range n).filter fun o => (List.range m).any fun d => key o d

/-- Columns with a selected cell. -/
def keyCols (n m : Nat) (key : Nat → Nat → Bool) : List Nat :=
  (List.range m).filter fun d => (List.range n).any fun o => key o d

/-- `_slice_valuation` (`core/slice.py:245-254`).  When no cell is selected the valuation date is
`NaT`, but then `_contig_slice` raises. -/
def filterMask (t : Tri K) (key : Nat → Nat → Bool) : Except Err (Tri K) :=
  let obj : Tri K :=
    { t with
      vd := match (t.keptValuations key).max? with
        | none => t.vd
        | some m => min m t.vd
      values := { t.values with
        get := fun i c o d => (t.values.get i c o d * Num.ofBool (key o d)).numToNan } }
  obj.getIdx (.slc .all) (.slc .all)
    (.lst ((keyRows t.values.d2 t.values.d3 key).map fun i : Nat => (i : Int)))
    (.lst ((keyCols t.values.d2 t.values.d3 key).map fun i : Nat => (i : Int)))

/-- `tri[P(tri.valuation)]` (`core/slice.py:183-191`): with a single development column the mask
has the length of the origin axis and is taken as an origin mask. -/
def getVal (t : Tri K) (P : Int → Bool) : Except Err (Tri K) :=
  if t.values.d3 > 1 then t.filterMask fun o d => P (t.valuation o d)
  else t.sliceOrigin ((List.range t.odims.length).map fun o => P (t.valuation o 0))

/-- `latest_diagonal` (`core/triangle.py:404-406`). -/
def latestDiagonal (t : Tri K) : Except Err (Agg K) := do
  let u ← t.getVal (· == t.vd)
  .ok (u.sum .development)

/-- `is_full` (`core/triangle.py:396-398`): the sum of the NaN triangle equals the number of
cells, i.e. no cell is after the valuation date (or an axis has length one).
Simplification: the code sums in half precision. -/
def isFull (t : Tri K) : Bool :=
  (List.range t.values.d2).all fun o => (List.range t.values.d3).all fun d =>
    t.nanTri o d == 1

/-- `link_ratio` (`core/triangle.py:408-425`), for a triangle without `w_`. -/
def linkRatio (t : Tri K) : Except Err (Tri K) :=
  if t.isPattern then .ok t
  else do
    let a ← t.ilocD (.upto (-1))
    let b ← t.ilocD (.from 1)
    let obj ← (rdiv 1 a).mulArr b.values
    let obj ← if obj.isFull then pure obj else obj.getVal (fun v => v < obj.vd)
    .ok { obj with
      isPattern := true
      isCum := some false
      values := obj.values.map Num.numToNan }

end Tri
end CL
