import Verif.Model.Tri

/-!
# Triangle arithmetic (`core/dunders.py`), dense backend
-/

namespace CL
namespace Arr
variable {K : Type} [Field K] [LinearOrder K] [IsStrictOrderedRing K]

/-- An array with the same number everywhere. -/
def const (d0 d1 d2 d3 : Nat) (x : Num K) : Arr K := ⟨d0, d1, d2, d3, fun _ _ _ _ => x⟩

/-- A Python scalar as an array that broadcasts against everything. -/
def scalar (x : Num K) : Arr K := const 1 1 1 1 x

/-- `dst = full((n0,n1,n2,n3), nan); dst[:, :, ol:oh, dl:dh] = src` with numpy's rule that each
dimension of `src` equals the target's or is one. -/
def place (n0 n1 n2 n3 ol oh dl dh : Nat) (src : Arr K) : Except Err (Arr K) :=
  if (src.d0 = n0 ∨ src.d0 = 1) ∧ (src.d1 = n1 ∨ src.d1 = 1) ∧
     (src.d2 = oh - ol ∨ src.d2 = 1) ∧ (src.d3 = dh - dl ∨ src.d3 = 1) then
    .ok { d0 := n0, d1 := n1, d2 := n2, d3 := n3
          get := fun i c o d =>
            if ol ≤ o ∧ o < oh ∧ dl ≤ d ∧ d < dh then
              src.get (bix src.d0 n0 i) (bix src.d1 n1 c) (bix src.d2 (oh - ol) (o - ol))
                (bix src.d3 (dh - dl) (d - dl))
            else .nan }
  else .error .valueError

end Arr

/-- Sorted union of two label lists without repetition: the index of
`pd.concat((a, b), axis=1).sort_index()`. -/
def unionSorted (a b : List Int) : List Int := ((a ++ b).dedup).insertionSort (· ≤ ·)

/-- Smallest position of `u` whose label is in `a` (`np.where(~isna)[0].min()`). -/
def lowPos (u a : List Int) : Nat := u.findIdx fun x => a.contains x

/-- One more than the largest position of `u` whose label is in `a`. -/
def highPos (u a : List Int) : Nat :=
  u.length - (u.reverse.findIdx fun x => a.contains x)

namespace Tri
variable {K : Type} [Field K] [LinearOrder K] [IsStrictOrderedRing K]

/-- `_arithmetic_cleanup` (`core/dunders.py:42-46`). -/
def cleanup (t : Tri K) : Tri K :=
  { t with values := { t.values with
      get := fun i c o d => (t.values.get i c o d * (t.nanTri o d).nanToNum).numToNan } }

/-- `obj.values = f(obj.values, arr)` with broadcasting. -/
def zipArr (f : Num K → Num K → Num K) (t : Tri K) (a : Arr K) : Except Err (Tri K) := do
  let v ← Arr.zip f t.values a
  .ok { t with values := v }

/-- Addition of an ndarray or scalar (`core/dunders.py:33-40,242-252`). -/
def addArr (t : Tri K) (a : Arr K) : Except Err (Tri K) := do
  let u ← t.zipArr (fun x y => x.nanToNum + y.nanToNum) a
  .ok u.cleanup

/-- Subtraction of an ndarray or scalar (`core/dunders.py:257-267`). -/
def subArr (t : Tri K) (a : Arr K) : Except Err (Tri K) := do
  let u ← t.zipArr (fun x y => x.nanToNum - y.nanToNum) a
  .ok u.cleanup

/-- Multiplication by an ndarray or scalar (`core/dunders.py:291-300`). -/
def mulArr (t : Tri K) (a : Arr K) : Except Err (Tri K) := t.zipArr (· * ·) a

/-- Division by an ndarray or scalar (`core/dunders.py:324-334`). -/
def divArr (t : Tri K) (a : Arr K) : Except Err (Tri K) := t.zipArr (· / ·) a

/-- `other / tri` for a scalar (`core/dunders.py:336-340`). -/
def rdiv (x : Num K) (t : Tri K) : Tri K :=
  { t with values := t.values.map fun y => (x / y).numToNan }

/-- `tri[[...]]` for a list of column names (`core/slice.py:200-202`): positions by first
occurrence, a missing name is a `ValueError` of `list.index`. -/
def getCols (t : Tri K) (cols : List String) : Except Err (Tri K) :=
  if cols.all fun c => t.vdims.contains c then
    t.iloc (.slc .all) (.lst (cols.map fun c => (t.vdims.idxOf c : Int))) (.slc .all) (.slc .all)
  else .error .valueError

/-- `tri[key] = x` for a scalar and a column not present yet (`core/slice.py:204-243`,
the `except` branch): the new column is `(self.iloc[:, 0] * 0 + x).values`. -/
def appendScalarCol (t : Tri K) (key : String) (x : Num K) : Except Err (Tri K) := do
  let c0 ← t.iloc (.slc .all) (.int 0) (.slc .all) (.slc .all)
  let c0 ← c0.mulArr (Arr.scalar 0)
  let c0 ← c0.addArr (Arr.scalar x)
  .ok { t with
    vdims := t.vdims ++ [key]
    values := { t.values with
      d1 := t.values.d1 + 1
      get := fun i c o d =>
        if c < t.values.d1 then t.values.get i c o d else c0.values.get i 0 o d } }

/-- `reindex(columns, fill_value)` (`core/triangle.py:985-990`). -/
def reindex (t : Tri K) (cols : List String) (x : Num K) : Except Err (Tri K) :=
  cols.foldlM (fun t c => if t.vdims.contains c then .ok t else t.appendScalarCol c x) t

/-- `_prep_columns` (`core/dunders.py:101-136`), dense backend.  `new_x_cols` is only bound when
a column has to be added to `x`; using it otherwise raises `UnboundLocalError`. -/
def prepColumns (x y : Tri K) : Except Err (Tri K × Tri K) :=
  if x.vdims.length = 1 ∧ y.vdims.length > 1 then .ok ({ x with vdims := y.vdims }, y)
  else if y.vdims.length = 1 ∧ x.vdims.length > 1 then .ok (x, { y with vdims := x.vdims })
  else if y.vdims.length = 1 ∧ x.vdims.length = 1 ∧ x.vdims ≠ y.vdims then
    .ok (x, { y with vdims := x.vdims })
  else if x.values.d1 = y.values.d1 ∧ x.vdims = y.vdims then .ok (x, y)
  else do
    let addX := y.vdims.filter fun c => !x.vdims.contains c
    let addY := x.vdims.filter fun c => !y.vdims.contains c
    let newX := x.vdims ++ addX
    let x' ← if addX = [] then pure x else x.reindex newX 0
    let y' ← if addY = [] then pure y else y.reindex (y.vdims ++ addY) 0
    if addX = [] then .error .unboundLocalError
    else
      let x'' ← x'.getCols newX
      let y'' ← y'.getCols newX
      .ok (x'', y'')

/-- `np.all(a != b)` for label arrays of the same length; an age axis and a valuation axis have
no equal labels. -/
def allDiffer (a b : List Int) : Bool := (a.zip b).all fun p => p.1 != p.2

/-- `is_broadcastable` of `_prep_origin_development` (`core/dunders.py:140-147`). -/
def broadcastable (x y : Tri K) : Bool :=
  let ok (m n : Nat) : Bool := m == n || m == 1 || n == 1
  let b0 := ok x.values.d3 y.values.d3 && ok x.values.d2 y.values.d2
  if x.odims.length = y.odims.length ∧ x.ddims.length = y.ddims.length then
    let dd := (x.isVal != y.isVal || allDiffer x.ddims y.ddims) && decide (x.ddims.length > 1)
    let oo := allDiffer x.odims y.odims && decide (x.odims.length > 1)
    b0 && !dd && !oo
  else b0

/-- The relabelling of length-one axes (`core/dunders.py:148-159`). -/
def relabelOnes (x y : Tri K) : Tri K × Tri K :=
  let (x, y) :=
    if y.odims.length = 1 ∧ x.odims.length > 1 then
      (x, { y with odims := x.odims, ograin := x.ograin })
    else if x.odims.length = 1 ∧ y.odims.length > 1 then
      ({ x with odims := y.odims, ograin := y.ograin }, y)
    else (x, y)
  if y.ddims.length = 1 ∧ x.ddims.length > 1 then
    (x, { y with ddims := x.ddims, isVal := x.isVal, dgrain := x.dgrain })
  else if x.ddims.length = 1 ∧ y.ddims.length > 1 then
    ({ x with ddims := y.ddims, isVal := y.isVal, dgrain := y.dgrain }, y)
  else (x, y)

/-- `_prep_origin_development` (`core/dunders.py:138-209`), dense backend.  `s0 s1` are
`self.shape[0]`, `self.shape[1]`.  Repeated labels (pandas raises) and mixing ages with
valuations (unsortable union) are errors. -/
def prepOriginDev (s0 s1 : Nat) (x y : Tri K) : Except Err (Tri K × Tri K) :=
  let bc := x.broadcastable y
  let (x, y) := relabelOnes x y
  if bc then .ok (x, y)
  else if x.isVal ≠ y.isVal then .error .typeError
  else if ¬ (x.odims.Nodup ∧ y.odims.Nodup ∧ x.ddims.Nodup ∧ y.ddims.Nodup) then
    .error .valueError
  else do
    let ou := unionSorted x.odims y.odims
    let du := unionSorted x.ddims y.ddims
    let ya ← Arr.place y.values.d0 y.values.d1 ou.length du.length
      (lowPos ou y.odims) (highPos ou y.odims) (lowPos du y.ddims) (highPos du y.ddims) y.values
    let xa ← Arr.place s0 s1 ou.length du.length
      (lowPos ou x.odims) (highPos ou x.odims) (lowPos du x.ddims) (highPos du x.ddims) x.values
    .ok ({ x with odims := ou, ddims := du, values := xa }, { y with values := ya })

/-- `_prep_index` (`core/dunders.py:62-99`).  The two branches that go through `groupby` or
`loc` are not modelled (`.unmodelled`). -/
def prepIndex (x y : Tri K) : Except Err (Tri K × Tri K) :=
  if x.kdims.length = 1 ∧ y.kdims.length > 1 then
    .ok ({ x with kdims := y.kdims, keyLabels := y.keyLabels }, y)
  else if x.kdims.length > 1 ∧ y.kdims.length = 1 then
    .ok (x, { y with kdims := x.kdims, keyLabels := x.keyLabels })
  else if x.kdims.length = 1 ∧ y.kdims.length = 1 ∧ x.keyLabels ≠ y.keyLabels then
    let k := if x.keyLabels.length > y.keyLabels.length then x else y
    .ok ({ x with kdims := k.kdims, keyLabels := k.keyLabels },
         { y with kdims := k.kdims, keyLabels := k.keyLabels })
  else
    let xy := x.keyLabels.all fun l => y.keyLabels.contains l
    let yx := y.keyLabels.all fun l => x.keyLabels.contains l
    if xy || yx then
      if !(xy && yx) || x.kdims.length ≠ y.kdims.length then .error .unmodelled
      else if x.kdims.length > 1 ∧ x.kdims ≠ y.kdims then .error .unmodelled
      else .ok (x, y)
    else .error .valueError

/-- `_validate_arithmetic` between triangles (`core/dunders.py:20-32`), with
`_compatibility_check` (48-60). -/
def validate (x y : Tri K) : Except Err (Tri K × Arr K) :=
  if x.ograin ≠ y.ograin ∨ (x.dgrain ≠ y.dgrain ∧ min x.values.d3 y.values.d3 > 1) then
    .error .valueError
  else do
    let p := x.isPattern && y.isPattern
    let x' : Tri K := { x with isPattern := p, vd := max x.vd y.vd }
    let y' : Tri K := { y with isPattern := p }
    let (x1, y1) ← prepColumns x' y'
    let (x2, y2) ← prepOriginDev x.values.d0 x.values.d1 x1 y1
    let (x3, y3) ← prepIndex x2 y2
    .ok (x3, y3.values)

/-- `x + y` (`core/dunders.py:242-252`). -/
def add (x y : Tri K) : Except Err (Tri K) := do
  let (o, a) ← validate x y
  o.addArr a

/-- `x - y` (`core/dunders.py:257-267`). -/
def sub (x y : Tri K) : Except Err (Tri K) := do
  let (o, a) ← validate x y
  o.subArr a

/-- `x * y` (`core/dunders.py:291-300`). -/
def mul (x y : Tri K) : Except Err (Tri K) := do
  let (o, a) ← validate x y
  o.mulArr a

/-- `x / y` (`core/dunders.py:324-334`). -/
def div (x y : Tri K) : Except Err (Tri K) := do
  let (o, a) ← validate x y
  o.divArr a

/-- `-x` (`core/dunders.py:279-282`). -/
def neg (x : Tri K) : Tri K := { x with values := x.values.map (- ·) }

/-- `sum(objs)` of Python: `0 + x1` is `x1` (`__radd__`, `core/dunders.py:254-255`), then `+`.
The empty sum is the integer 0 and not a triangle. -/
def pySum : List (Tri K) → Except Err (Tri K)
  | [] => .error .typeError
  | x :: l => l.foldlM add x

/-- `x == y` (`core/dunders.py:342-357`), dense backend: all cells equal after `nan_to_num`, with
numpy broadcasting; shapes that do not broadcast raise. -/
def eq (x y : Tri K) : Except Err Bool := do
  let r ← Arr.zip (fun a b => Num.ofBool (a.nanToNum.eqb b.nanToNum)) x.values y.values
  .ok ((List.range r.d0).all fun i => (List.range r.d1).all fun c => (List.range r.d2).all fun o =>
    (List.range r.d3).all fun d => r.get i c o d == Num.ofBool true)

/-- `x < v` for a scalar (`core/dunders.py:362-366`); the cells are booleans, as 0 and 1. -/
def lt (x : Tri K) (v : Num K) : Tri K :=
  { x with values := x.values.map fun a => Num.ofBool (a.nanToNum.ltb v.nanToNum) }

/-- `x <= v` for a scalar (`core/dunders.py:368-372`): the body is the one of `<`. -/
def le (x : Tri K) (v : Num K) : Tri K :=
  { x with values := x.values.map fun a => Num.ofBool (a.nanToNum.ltb v.nanToNum) }

end Tri
end CL
