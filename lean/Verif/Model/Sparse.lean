import Verif.Model.Agg
import Verif.Model.Convert

/-!
# The sparse backend (`utils/sparse.py`, `sparse.COO`)

A `sparse.COO` is the list of its stored cells and a fill value for all others.  Of the `sparse` library
we assume: arithmetic gives `f(x, y)` at every cell, stores the cells at which one operand has a stored
cell and the result differs from the result of the fill values, and broadcasts like numpy; a sum adds
the stored cells; `todense` and the constructor from an array copy every cell.  Arrays of four axes.
-/

namespace CL

/-- A position in an array. -/
structure Ix where
  i : Nat
  c : Nat
  o : Nat
  d : Nat
  deriving DecidableEq

namespace Ix

/-- All positions of a shape. -/
def all (d0 d1 d2 d3 : Nat) : List Ix :=
  (List.range d0).flatMap fun i => (List.range d1).flatMap fun c => (List.range d2).flatMap fun o =>
    (List.range d3).map fun d => ⟨i, c, o, d⟩

/-- The coordinate along an axis. -/
def at' (ax : Tri.Axis) (p : Ix) : Nat :=
  match ax with
  | .index => p.i
  | .columns => p.c
  | .origin => p.o
  | .development => p.d

/-- The position with another coordinate along an axis. -/
def set (ax : Tri.Axis) (p : Ix) (j : Nat) : Ix :=
  match ax with
  | .index => { p with i := j }
  | .columns => { p with c := j }
  | .origin => { p with o := j }
  | .development => { p with d := j }

end Ix

/-- `sparse.COO`. -/
structure Coo (K : Type) where
  d0 : Nat
  d1 : Nat
  d2 : Nat
  d3 : Nat
  cells : List (Ix × Num K)
  fill : Num K

namespace Coo
variable {K : Type} [Field K] [LinearOrder K] [IsStrictOrderedRing K]

/-- The stored value at a position. -/
def stored (s : Coo K) (p : Ix) : Option (Num K) := (s.cells.find? fun e => e.1 = p).map (·.2)

/-- The value at a position. -/
def get (s : Coo K) (p : Ix) : Num K := (s.stored p).getD s.fill

/-- `x.todense()`. -/
def todense (s : Coo K) : Arr K := ⟨s.d0, s.d1, s.d2, s.d3, fun i c o d => s.get ⟨i, c, o, d⟩⟩

/-- A value that is not stored: the fill value, or a NaN when that is NaN. -/
def same (x fill : Num K) : Bool := x.eqb fill || (x.isNan && fill.isNan)

/-- The cells at which `g` has something other than the fill value. -/
def build (ps : List Ix) (g : Ix → Option (Num K)) (fill : Num K) : List (Ix × Num K) :=
  ps.filterMap fun p => match g p with
    | some x => if same x fill then none else some (p, x)
    | none => none

/-- `sp(np.array(a), fill_value=fill)`. -/
def ofArr (a : Arr K) (fill : Num K) : Coo K :=
  ⟨a.d0, a.d1, a.d2, a.d3, build (Ix.all a.d0 a.d1 a.d2 a.d3) (fun p => some (a.get p.i p.c p.o p.d)) fill, fill⟩

/-- `sp.array(a)` (`utils/sparse.py:57-65`), the conversion of `set_backend` (`core/common.py:174-175`). -/
def array (a : Arr K) : Coo K := ofArr a .nan

/-- `sp.nan_to_num` (`utils/sparse.py:28-34`): of the stored values only NaN is replaced, and the fill
value is 0 whatever it was. -/
def nanToNum (s : Coo K) : Coo K :=
  { s with
    cells := s.cells.map fun e => (e.1, if e.2.isNan then .fin 0 else e.2)
    fill := .fin 0 }

/-- `num_to_value(arr, value)` (`utils/utility_functions.py:356-366`). -/
def numToValue (s : Coo K) (value : Num K) : Coo K :=
  if s.fill.eqb 0 || s.fill.isNan then
    { s with
      cells := s.cells.filter fun e => !e.2.eqb 0
      fill := .nan }
  else ofArr (s.todense.map fun x => x.nanToNum.numToNan) value

/-- `num_to_nan(arr)` (`utils/utility_functions.py:372-378`). -/
def numToNan (s : Coo K) : Coo K := s.numToValue .nan

/-- A binary operation with broadcasting. -/
def zip (f : Num K → Num K → Num K) (a b : Coo K) : Except Err (Coo K) :=
  match Arr.bdim a.d0 b.d0, Arr.bdim a.d1 b.d1, Arr.bdim a.d2 b.d2, Arr.bdim a.d3 b.d3 with
  | some n0, some n1, some n2, some n3 =>
    let pa := fun p : Ix => (⟨Arr.bix a.d0 n0 p.i, Arr.bix a.d1 n1 p.c, Arr.bix a.d2 n2 p.o, Arr.bix a.d3 n3 p.d⟩ : Ix)
    let pb := fun p : Ix => (⟨Arr.bix b.d0 n0 p.i, Arr.bix b.d1 n1 p.c, Arr.bix b.d2 n2 p.o, Arr.bix b.d3 n3 p.d⟩ : Ix)
    let fill := f a.fill b.fill
    .ok ⟨n0, n1, n2, n3, build (Ix.all n0 n1 n2 n3) (fun p =>
      if (a.stored (pa p)).isSome || (b.stored (pb p)).isSome then some (f (a.get (pa p)) (b.get (pb p)))
      else none) fill, fill⟩
  | _, _, _, _ => .error .valueError

/-- An operation on every cell. -/
def map (f : Num K → Num K) (s : Coo K) : Coo K :=
  { s with
    cells := (s.cells.map fun e => (e.1, f e.2)).filter fun e => !same e.2 (f s.fill)
    fill := f s.fill }

/-- The shape with one cell along an axis. -/
def shape1 (s : Coo K) (ax : Tri.Axis) : Nat × Nat × Nat × Nat :=
  match ax with
  | .index => (1, s.d1, s.d2, s.d3)
  | .columns => (s.d0, 1, s.d2, s.d3)
  | .origin => (s.d0, s.d1, 1, s.d3)
  | .development => (s.d0, s.d1, s.d2, 1)

/-- `x.sum(axis, keepdims=True)` of an array with fill value 0. -/
def sum (ax : Tri.Axis) (s : Coo K) : Coo K :=
  let n := s.shape1 ax
  ⟨n.1, n.2.1, n.2.2.1, n.2.2.2, build (Ix.all n.1 n.2.1 n.2.2.1 n.2.2.2) (fun p =>
    some ((s.cells.filter fun e => e.1.set ax 0 = p).map (·.2)).sum) (.fin 0), .fin 0⟩

/-- `sp.nansum(x, axis, keepdims=True)` (`utils/sparse.py:41-44`): the stored cells are added as they are. -/
def nansum (ax : Tri.Axis) (s : Coo K) : Coo K := sum ax { s with fill := .fin 0 }

/-- `x[..., 0 : n]`. -/
def upto (s : Coo K) (n : Nat) : Coo K :=
  { s with
    d3 := min n s.d3
    cells := s.cells.filter fun e => e.1.d < n }

/-- `sp.concatenate` along the last axis of arrays with one cell there and fill value 0; the `n` arrays
are `f 0`, `f 1`, ... -/
def columns (d0 d1 d2 n : Nat) (f : Nat → Coo K) : Coo K :=
  ⟨d0, d1, d2, n, (List.range n).flatMap fun j => (f j).cells.map fun e => (e.1.set .development j, e.2), .fin 0⟩

/-- `_sparse_setitem` (`core/slice.py:83-100`); the maximum of no comparisons raises. -/
def setItem (s : Coo K) (p : Ix) (x : Num K) : Except Err (Coo K) :=
  if s.cells = [] then .error .valueError
  else if s.cells.any fun e => e.1 = p then
    .ok { s with cells := s.cells.map fun e => if e.1 = p then (e.1, x) else e }
  else .ok { s with cells := (s.cells ++ [(p, x)]).filter fun e => !same e.2 s.fill }

end Coo

namespace Tri
variable {K : Type} [Field K] [LinearOrder K] [IsStrictOrderedRing K]

/-- The NaN triangle of `t` with a shape of one index and one column. -/
def nanPlane (t : Tri K) : Arr K := ⟨1, 1, t.values.d2, t.values.d3, fun _ _ o d => t.nanTri o d⟩

/-- `_arithmetic_cleanup` (`core/dunders.py:42-46`) with the sparse array `s` and the labels of `t`. -/
def cleanupSparse (t : Tri K) (s : Coo K) : Except Err (Coo K) := do
  let v ← s.zip (· * ·) (Coo.array t.nanPlane).nanToNum
  .ok v.numToNan

/-- The steps of an analysis whose result does not depend on the backend: arithmetic with an array,
powers, cumulation and sums. -/
inductive Step (K : Type) where
  | add (b : Arr K)
  | sub (b : Arr K)
  | mul (b : Arr K)
  | div (b : Arr K)
  | neg
  | pow (n : Nat)
  | cum
  | sum (ax : Axis)

/-- A step with the dense backend; powers are `__pow__` (`core/dunders.py:302-313`) with a number and
`neg` is `__neg__` (`core/dunders.py:279-282`). -/
def Step.dense (t : Tri K) : Step K → Except Err (Tri K)
  | .add b => t.addArr b
  | .sub b => t.subArr b
  | .mul b => t.mulArr b
  | .div b => t.divArr b
  | .neg => .ok { t with values := t.values.map (- ·) }
  | .pow n => .ok { t with values := t.values.map fun x => x.nanToNum.npow n }
  | .cum => .ok t.incrToCum
  | .sum ax => .ok (t.sumKeep ax)

/-- The values of `incr_to_cum` for a triangle of amounts, sparse backend (`core/triangle.py:463-475`). -/
def cumSparse (t : Tri K) (s : Coo K) : Except Err (Coo K) := do
  let values := s.nanToNum
  let out ← (List.range s.d3).mapM fun j => do
    let v ← (values.upto (j + 1)).zip (· * ·)
      (Coo.array ⟨1, 1, t.values.d2, 1, fun _ _ o _ => t.nanTri o j⟩).nanToNum
    .ok (v.sum .development)
  .ok (Coo.columns s.d0 s.d1 s.d2 s.d3 fun j => out.getD j s).numToNan

/-- The values of `incr_to_cum` for a multiplicative pattern, sparse backend
(`core/triangle.py:451-454`, `utils/sparse.py:77-78`). -/
def cumProdSparse (t : Tri K) (s : Coo K) : Except Err (Coo K) :=
  let v := (s.nanToNum.numToValue 1).todense
  (Coo.array { v with get := fun i c o d => ∏ j ∈ Finset.Ico d v.d3, v.get i c o j }).zip (· * ·)
    (Coo.array t.nanPlane)

/-- A step with the sparse backend: the values are `s`, the labels those of `t` (whose values are not
used).  The other operand is converted as in `_validate_arithmetic` (`core/dunders.py:33-36`). -/
def Step.sparse (t : Tri K) (s : Coo K) : Step K → Except Err (Coo K)
  | .add b => do
    let v ← s.nanToNum.zip (· + ·) (Coo.array b).nanToNum
    cleanupSparse { t with values := v.todense } v
  | .sub b => do
    let v ← s.nanToNum.zip (· - ·) (Coo.array b).nanToNum
    cleanupSparse { t with values := v.todense } v
  | .mul b => s.zip (· * ·) (Coo.array b)
  | .div b => s.zip (· / ·) (Coo.array b)
  | .neg => .ok (s.map (- ·))
  | .pow n => .ok (s.nanToNum.map (·.npow n))
  | .cum =>
    if t.isCum = some true then .ok s
    else if t.isPattern then
      match t.isAdditive with
      | some true => .error .unmodelled
      | some false => .ok s
      | none => cumProdSparse t s
    else cumSparse t s
  | .sum ax => .ok (s.nansum ax).numToNan

/-- A sequence of steps, dense. -/
def runDense (t : Tri K) : List (Step K) → Except Err (Tri K)
  | [] => .ok t
  | x :: xs => do
    let u ← x.dense t
    runDense u xs

/-- A sequence of steps, sparse; the labels do not depend on the values and are those of the dense run. -/
def runSparse (t : Tri K) (s : Coo K) : List (Step K) → Except Err (Coo K)
  | [] => .ok s
  | x :: xs => do
    let v ← x.sparse t s
    let u ← x.dense t
    runSparse u v xs

end Tri
end CL
