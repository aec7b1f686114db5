import Verif.Model.Slice
import Mathlib.Data.List.Sort

/-!
# Arrays and triangles

Dates are month numbers `12*year + month - 1`.  An entry of `odims` is the first instant of its
month, a valuation date the last instant of its month.
-/

namespace CL

/-- Origin / development grain: yearly, semi-annual, quarterly, monthly. -/
inductive Grain where
  | Y | S | Q | M
  deriving DecidableEq, Repr

/-- Months in a period, `_dstep()["M"]` (`core/triangle.py:520-526`). -/
def Grain.months : Grain → Nat
  | .Y => 12 | .S => 6 | .Q => 3 | .M => 1

/-- A 4-D numpy array: shape and content. -/
structure Arr (K : Type) where
  d0 : Nat
  d1 : Nat
  d2 : Nat
  d3 : Nat
  get : Nat → Nat → Nat → Nat → Num K

namespace Arr
variable {K : Type}

/-- Elementwise function. -/
def map (f : Num K → Num K) (a : Arr K) : Arr K :=
  { a with get := fun i c o d => f (a.get i c o d) }

/-- numpy broadcasting of one dimension. -/
def bdim (m n : Nat) : Option Nat :=
  if m = n then some m else if m = 1 then some n else if n = 1 then some m else none

/-- Index into a possibly broadcast dimension of length `m` when the result has length `n`. -/
def bix (m n i : Nat) : Nat := if m = n then i else 0

/-- Elementwise binary operation with numpy broadcasting. -/
def zip (f : Num K → Num K → Num K) (a b : Arr K) : Except Err (Arr K) :=
  match bdim a.d0 b.d0, bdim a.d1 b.d1, bdim a.d2 b.d2, bdim a.d3 b.d3 with
  | some n0, some n1, some n2, some n3 =>
    .ok { d0 := n0, d1 := n1, d2 := n2, d3 := n3
          get := fun i c o d =>
            f (a.get (bix a.d0 n0 i) (bix a.d1 n1 c) (bix a.d2 n2 o) (bix a.d3 n3 d))
              (b.get (bix b.d0 n0 i) (bix b.d1 n1 c) (bix b.d2 n2 o) (bix b.d3 n3 d)) }
  | _, _, _, _ => .error .valueError

/-- `values[i_idx, c_idx, o_idx, d_idx]` for lists of positions. -/
def take (a : Arr K) (pi pc po pd : List Nat) : Arr K :=
  { d0 := pi.length, d1 := pc.length, d2 := po.length, d3 := pd.length
    get := fun i c o d => a.get (pi.getD i 0) (pc.getD c 0) (po.getD o 0) (pd.getD d 0) }

/-- Same shape. -/
def SameShape (a b : Arr K) : Prop := a.d0 = b.d0 ∧ a.d1 = b.d1 ∧ a.d2 = b.d2 ∧ a.d3 = b.d3

/-- Index quadruple inside the shape. -/
def In (a : Arr K) (i c o d : Nat) : Prop := i < a.d0 ∧ c < a.d1 ∧ o < a.d2 ∧ d < a.d3

end Arr

/-- A triangle: the attributes of `Triangle` (`core/triangle.py:109-278`) that the modelled
methods read or write.  `isVal` is `is_val_tri` (whether `ddims` is a `DatetimeIndex`);
`ddims` holds ages in months or valuation months accordingly. -/
structure Tri (K : Type) where
  kdims : List (List String)
  keyLabels : List String
  vdims : List String
  odims : List Int
  ddims : List Int
  isVal : Bool
  ograin : Grain
  dgrain : Grain
  vd : Int
  isCum : Option Bool
  isPattern : Bool
  isAdditive : Option Bool
  values : Arr K

/-- Month number of `options.ULT_VAL` = 2261-12-31 (`__init__.py:7`). -/
def ultVal : Int := 12 * 2261 + 11

namespace Tri
variable {K : Type} [Field K] [LinearOrder K] [IsStrictOrderedRing K]

/-- `valuation` as a function of the attributes it reads. -/
def valuationOf (isVal : Bool) (odims ddims : List Int) (vd : Int) (o d : Nat) : Int :=
  if isVal then ddims.getD d 0
  else if ddims.getLast? = some 9999 ∧ d + 1 = ddims.length then ultVal
  else min (odims.getD o 0) vd + ddims.getD d 0 - 1

/-- `valuation`, at origin position `o` and development position `d`
(`core/base.py:367-391`). -/
def valuation (t : Tri K) (o d : Nat) : Int := valuationOf t.isVal t.odims t.ddims t.vd o d

/-- `nan_triangle` (`core/base.py:207-219`): all ones if an axis has length one, else NaN after
the valuation date. -/
def nanTri (t : Tri K) (o d : Nat) : Num K :=
  if min t.values.d2 t.values.d3 = 1 then 1
  else if t.valuation o d > t.vd then .nan else 1

/-- All cell valuations of a triangle. -/
def valuations (t : Tri K) : List Int :=
  (List.range t.ddims.length).flatMap fun d =>
    (List.range t.odims.length).map fun o => t.valuation o d

/-- Labels and array shape agree. -/
def WF (t : Tri K) : Prop :=
  t.values.d0 = t.kdims.length ∧ t.values.d1 = t.vdims.length ∧
  t.values.d2 = t.odims.length ∧ t.values.d3 = t.ddims.length

/-- Axis of a triangle. -/
inductive Axis where
  | index | columns | origin | development
  deriving DecidableEq, Repr

/-- Second half of `_LocBase.get_idx` (`core/slice.py:25-33`): array and labels at the given
positions, and the new valuation date. -/
def pick (t : Tri K) (pi pc po pd : List Nat) : Except Err (Tri K) :=
  let obj : Tri K :=
    { t with
      values := t.values.take pi pc po pd
      kdims := pi.map (t.kdims.getD · [])
      vdims := pc.map (t.vdims.getD · "")
      odims := po.map (t.odims.getD · 0)
      ddims := pd.map (t.ddims.getD · 0) }
  if !t.isVal && pd.isEmpty then .error .indexError
  else match obj.valuations.max? with
    | none => .ok obj
    | some m => .ok { obj with vd := min m t.vd }

/-- `_LocBase.get_idx` (`core/slice.py:15-33`) for keys that went through `_normalize_index`.
An empty development selection of an age triangle raises (`ddims[0]` in `valuation`); otherwise an
empty selection has no latest valuation (`NaT`) and `np.minimum` keeps the valuation date. -/
def getIdx (t : Tri K) (ki kc ko kd : Key) : Except Err (Tri K) := do
  let ki ← contigSlice ki
  let kc ← contigSlice kc
  let ko ← contigSlice ko
  let kd ← contigSlice kd
  if !ko.isSlice || !kd.isSlice then .error .valueError
  else
    let pi ← ki.positions t.values.d0
    let pc ← kc.positions t.values.d1
    let po ← ko.positions t.values.d2
    let pd ← kd.positions t.values.d3
    t.pick pi pc po pd

/-- `tri.iloc[i, c, o, d]` (`core/slice.py:172-176`). -/
def iloc (t : Tri K) (i c o d : Key) : Except Err (Tri K) := do
  let i ← normalizeKey t.values.d0 i
  let c ← normalizeKey t.values.d1 c
  let o ← normalizeKey t.values.d2 o
  let d ← normalizeKey t.values.d3 d
  t.getIdx i c o d

/-- `tri.iloc[..., d]` -/
def ilocD (t : Tri K) (d : Key) : Except Err (Tri K) :=
  t.iloc (.slc .all) (.slc .all) (.slc .all) d

/-- `tri.iloc[..., o, :]` -/
def ilocO (t : Tri K) (o : Key) : Except Err (Tri K) :=
  t.iloc (.slc .all) (.slc .all) o (.slc .all)

/-- `np.arange(len(mask))[mask]` -/
def maskPositions (m : List Bool) : List Int :=
  ((List.range m.length).filter fun i => m.getD i false).map fun i : Nat => (i : Int)

/-- `arr[mask]` for a label array. -/
def maskLabels {α : Type} (l : List α) (m : List Bool) : List α :=
  ((l.zip m).filter Prod.snd).map Prod.fst

/-- `tri[mask]` on the origin axis (`core/slice.py:188-191,256-264`); a mask of the wrong length is
an `IndexError` of numpy. The valuation date is kept. -/
def sliceOrigin (t : Tri K) (m : List Bool) : Except Err (Tri K) :=
  if m.length ≠ t.odims.length then .error .indexError
  else do
    let k ← contigSlice (.lst (maskPositions m))
    let po ← k.positions t.values.d2
    .ok { t with
      odims := maskLabels t.odims m
      values := t.values.take (List.range t.values.d0) (List.range t.values.d1) po
        (List.range t.values.d3) }

/-- `tri[mask]` on the development axis (`core/slice.py:186-187,256-264`). -/
def sliceDev (t : Tri K) (m : List Bool) : Except Err (Tri K) :=
  if m.length ≠ t.ddims.length then .error .indexError
  else do
    let k ← contigSlice (.lst (maskPositions m))
    let pd ← k.positions t.values.d3
    .ok { t with
      ddims := maskLabels t.ddims m
      values := t.values.take (List.range t.values.d0) (List.range t.values.d1)
        (List.range t.values.d2) pd }

end Tri

/-- `slice(a, None)` -/
def Key.«from» (a : Int) : Key := .slc ⟨some a, none, none⟩
/-- `slice(None, b)` -/
def Key.upto (b : Int) : Key := .slc ⟨none, some b, none⟩

end CL
