import Verif.Model.Construct
import Verif.Model.ValDev
import Verif.Model.Calendar

/-!
# `to_json` and `read_json` (`core/io.py`, `utils/utility_functions.py`), dense backend

`enc` is what writing a finite amount as text and reading it does to it: pandas writes 10 decimals.
Not modelled: `sub_tris` and `dfs` (fitted attributes), virtual columns, patterns, keys and column
names that pandas reads back as numbers or dates, duplicate index keys, and triangles without a stored
cell.
-/

namespace CL
namespace Json
variable {K : Type} [Field K] [LinearOrder K] [IsStrictOrderedRing K]

/-- An amount after `fillna(0)`, written and read: infinities are written as `null`. -/
def text (enc : K → K) (x : Num K) : Num K :=
  match x.nan0 with
  | .fin a => .fin (enc a)
  | _ => .nan

/-- Rows of `to_frame(keepdims=True)` in the order of `pivot_table` (`core/pandas.py:65-83`): index,
origin and age of the stored cells, a row for all columns. -/
def stored (t : Tri K) : List (Nat × Nat × Nat) :=
  (Tri.sortPositions t.kdims).flatMap fun i => (List.range t.values.d2).flatMap fun o =>
    ((List.range t.values.d3).filter fun d =>
      (List.range t.values.d1).any fun c => !(t.values.get i c o d).isNan).map fun d => (i, o, d)

/-- A row, with the start of the origin period and the valuation of the cell
(`core/pandas.py:70-101`), after `fillna(0)`, `to_json` and `pandas.read_json`. -/
def row (enc : K → K) (t : Tri K) (p : Nat × Nat × Nat) : Con.Rec K where
  key := t.kdims.getD p.1 []
  origin := ⟨t.odims.getD p.2.1 0, 1⟩
  dev := ⟨t.valuation p.2.1 p.2.2, Cal.monthDays (t.valuation p.2.1 p.2.2).toNat⟩
  amount := fun c => text enc (t.values.get p.1 c p.2.1 p.2.2)

/-- What `to_json` writes. -/
structure Doc (K : Type) where
  isVal : Bool
  isCum : Option Bool
  isPattern : Bool
  columns : List String
  keyLabels : List String
  rows : List (Con.Rec K)

/-- `to_json` (`core/io.py:28-55`), with the data frame as it is read. -/
def toJson (enc : K → K) (x : Tri K) : Except Err (Doc K) := do
  let u ← x.cumToIncr
  let v ← u.devToVal
  let w ← v.valToDev
  if w.kdims.Nodup ∧ stored w ≠ [] then
    .ok {
      isVal := x.isVal
      isCum := x.isCum
      isPattern := x.isPattern
      columns := x.vdims
      keyLabels := x.keyLabels
      rows := (stored w).map (row enc w) }
  else .error .unmodelled

/-- `read_json` of a triangle (`utils/utility_functions.py:118-145`). -/
def readJson (j : Doc K) : Except Err (Tri K) :=
  if j.isPattern then .error .unmodelled
  else do
    let t ← Con.construct j.columns j.keyLabels (some false) true j.rows
    let t ← if j.isVal then t.devToVal else pure t
    let t := if j.isCum = some true then t.incrToCum else t
    let t ← t.getCols j.columns
    t.sortIndex

end Json
end CL
