import Verif.Model.Trend
import Verif.Model.Agg
import Verif.Model.Filter
import Verif.Model.Regression
import Verif.Model.Memory

/-!
# Berquist-Sherman adjustment (`adjustments/berqsherm.py`), dense backend

`np.log` and `np.exp` are parameters, `fac m` is `(1 / (1 + trend)) ** (m / 12)`, and `est` is fitting
`reported_count_estimator` and reading its `ultimate_`.  No column is virtual and no column has the name
of an index label.
-/

namespace CL
namespace Berq
variable {K : Type} [Field K] [LinearOrder K] [IsStrictOrderedRing K]

/-- The column names of the constructor (`adjustments/berqsherm.py:47-61`). -/
structure Names where
  paid : String
  incurred : String
  reported : String
  closed : String

/-- `tri.mean("origin", keepdims=True)` (`core/pandas.py:347-384`). -/
def meanOrigin (t : Tri K) : Tri K :=
  { t.relabelAgg .origin with
    values := { t.values with
      d2 := 1
      get := fun i c _ d => (Reg.nanmean t.values.d2 fun o => t.values.get i c o d).numToNan } }

/-- `tri * tri.sum(...)`, where the aggregate can be a number. -/
def mulAgg (t : Tri K) : Agg K → Except Err (Tri K)
  | .tri u => t.mul u
  | .scalar s => t.mulArr (Arr.scalar s)

/-- `open_count` (line 85). -/
def openCount (n : Names) (x : Tri K) : Except Err (Tri K) := do
  let r ← x.getCols [n.reported]
  let c ← x.getCols [n.closed]
  r.sub c

/-- `avg_case` (line 86). -/
def avgCase (n : Names) (x : Tri K) : Except Err (Tri K) := do
  let i ← x.getCols [n.incurred]
  let p ← x.getCols [n.paid]
  let r ← i.sub p
  let o ← openCount n x
  r.div o

/-- `adj_avg_case` (lines 87-91). -/
def adjAvgCase (fac : Int → K) (n : Names) (x : Tri K) : Except Err (Tri K) := do
  let c ← avgCase n x
  let t ← c.trend fac .valuation none none none
  let q ← t.div c
  let l ← c.getVal (· == c.vd)
  mulAgg q (l.sum .origin)

/-- `adj_incurred_amount` (line 92). -/
def adjIncurred (fac : Int → K) (n : Names) (x : Tri K) : Except Err (Tri K) := do
  let c ← adjAvgCase fac n x
  let o ← openCount n x
  let m ← c.mul o
  let p ← x.getCols [n.paid]
  m.add p

/-- `disposal_rate` (line 104). -/
def disposal (n : Names) (x ult : Tri K) : Except Err (Tri K) := do
  let c ← x.getCols [n.closed]
  c.div ult

/-- `adj_closed_clm` (lines 105-110). -/
def adjClosed (n : Names) (x ult : Tri K) : Except Err (Tri K) := do
  let r ← disposal n x ult
  let z ← r.mulArr (Arr.scalar 0)
  let one ← z.addArr (Arr.scalar 1)
  let l ← r.getVal (· == x.vd)
  let s ← mulAgg one (meanOrigin l).toAgg
  let s ← s.mul ult
  .ok { s with vd := x.vd }

/-- Slope of the exponential through two points (lines 119-121). -/
def slope (x0 x1 y0 y1 : Num K) : Num K :=
  ((x0 * y0 + x1 * y1) / .fin 2 - (x0 + x1) / .fin 2 * (y0 + y1) / .fin 2) /
    ((x0 * x0 + x1 * x1) / .fin 2 - (x0 + x1) / .fin 2 * ((x0 + x1) / .fin 2))

/-- `b` (lines 113-121), by closed counts `x` and payments `y`. -/
def slopes (log : Num K → Num K) (x y : Arr K) : Arr K :=
  { x with
    d3 := x.d3 - 1
    get := fun i c o d => slope (x.get i c o d) (x.get i c o (d + 1)) (log (y.get i c o d))
      (log (y.get i c o (d + 1))) }

/-- `a` (line 122). -/
def levels (log exp : Num K → Num K) (x y : Arr K) : Arr K :=
  { x with
    d3 := x.d3 - 1
    get := fun i c o d => exp
      ((log (y.get i c o d) + log (y.get i c o (d + 1))) / .fin 2 -
        (slopes log x y).get i c o d * (x.get i c o d + x.get i c o (d + 1)) / .fin 2) }

/-- `lookup` before clipping (lines 127-142): how many closed counts of the origin are smaller than the
adjusted one, at least one, minus one. -/
def lookup0 (adj closed : Arr K) (i o d : Nat) : Nat :=
  max ((List.range closed.d3).filter fun e => (closed.get i 0 o e).ltb (adj.get i 0 o d)).length 1 - 1

/-- `lookup` (lines 127-147). -/
def lookup (adj closed : Arr K) (i o d : Nat) : Nat :=
  let n := min adj.d3 adj.d2
  if o + 1 < n then min (lookup0 adj closed i o d) (n - o - 2) else lookup0 adj closed i o d

/-- `a[j, ..., i, lookup[j, 0, i]]` for all `j`, `i`, times the NaN triangle (lines 149-168); an index
past the end raises. -/
def pickAt (adj : Tri K) (look : Nat → Nat → Nat → Nat) (a : Arr K) : Except Err (Arr K) :=
  if (List.range a.d0).all fun i => (List.range adj.values.d2).all fun o =>
      (List.range adj.values.d3).all fun d => decide (look i o d < a.d3) then
    .ok { a with
      d3 := adj.values.d3
      get := fun i c o d => a.get i c o (look i o d) * adj.nanTri o d }
  else .error .indexError

/-- `adj_paid_claims` of line 170. -/
def modelPaid (log exp : Num K → Num K) (n : Names) (x adj : Tri K) : Except Err (Tri K) := do
  let y ← x.getCols [n.paid]
  let c ← x.getCols [n.closed]
  let look := lookup adj.values c.values
  let a ← pickAt adj look (levels log exp c.values y.values)
  let b ← pickAt adj look (slopes log c.values y.values)
  let z ← adj.mulArr (Arr.scalar 0)
  let e ← Arr.zip (· * ·) adj.values b
  let v ← Arr.zip (· * ·) (e.map exp) a
  z.addArr v

/-- `adj_paid_claims` (lines 170-176). -/
def adjPaid (log exp : Num K → Num K) (n : Names) (x adj : Tri K) : Except Err (Tri K) := do
  let y ← x.getCols [n.paid]
  let m ← modelPaid log exp n x adj
  let l ← y.getVal (· == y.vd)
  let r ← m.getVal (· < m.vd)
  l.add r

/-- `tri[key] = value` for a column that exists (`core/slice.py:205-237`). -/
def setCol (t : Tri K) (key : String) (v : Tri K) : Except Err (Tri K) :=
  if t.vdims.contains key then do
    let a ← Mem.assignCol t.values (t.vdims.idxOf key) v.values
    .ok { t with values := a }
  else .error .unmodelled

/-- `fit` (`adjustments/berqsherm.py:63-189`): `adjusted_triangle_`. -/
def fit (log exp : Num K → Num K) (fac : Int → K) (est : Tri K → Except Err (Tri K)) (n : Names)
    (x : Tri K) : Except Err (Tri K) :=
  if x.vdims.contains n.paid && x.vdims.contains n.incurred && x.vdims.contains n.reported &&
      x.vdims.contains n.closed then do
    let inc ← adjIncurred fac n x
    let rep ← x.getCols [n.reported]
    let ult ← est rep
    let clo ← adjClosed n x ult
    let paid ← adjPaid log exp n x clo
    let t ← setCol x n.paid paid
    let t ← setCol t n.incurred inc
    let t ← setCol t n.closed clo
    t.getVal (· ≤ x.vd)
  else .error .valueError

/-- `transform` (`adjustments/berqsherm.py:191-211`), with the adjusted triangle of `fit`. -/
def transform (n : Names) (adjusted x : Tri K) : Except Err (Tri K) := do
  let p ← adjusted.getCols [n.paid]
  let t ← setCol x n.paid p
  let i ← adjusted.getCols [n.incurred]
  let t ← setCol t n.incurred i
  let r ← adjusted.getCols [n.reported]
  let t ← setCol t n.reported r
  let c ← adjusted.getCols [n.closed]
  setCol t n.closed c

end Berq
end CL
