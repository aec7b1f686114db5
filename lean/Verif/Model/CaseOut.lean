import Verif.Model.Berquist
import Verif.Model.ValDev

/-!
# Case outstanding method (`development/outstanding.py`), dense backend

Not modelled: `groupby`; triangles with one origin, index and column, whose latest diagonal is a number.
-/

namespace CL
namespace CaseOut
variable {K : Type} [Field K] [LinearOrder K] [IsStrictOrderedRing K]

/-- `incurred_tri - paid_tri` (`development/outstanding.py:104-106`). -/
def caseTri (p q : String) (x : Tri K) : Except Err (Tri K) := do
  let paid ← x.getCols [p]
  let inc ← x.getCols [q]
  inc.sub paid

/-- `Development(n_periods).fit(X.sum(0).sum(1)).w_` (`development/outstanding.py:80-85`). -/
def periodWeights (n : Int) (x : Tri K) : Except Err (Arr K) :=
  match x.sum .index with
  | .scalar _ => .error .unmodelled
  | .tri y =>
    match y.sum .columns with
    | .scalar _ => .error .unmodelled
    | .tri z => do
      let _ ← Dev.fit z { nPeriods := fun _ => n }
      Dev.weights z { nPeriods := fun _ => n }

/-- `num_to_nan` of `case_to_prior_case_` (`development/outstanding.py:87-88,181-198`). -/
def caseToPrior (p q : String) (w : Arr K) (x : Tri K) : Except Err (Tri K) := do
  let c ← caseTri p q x
  let a ← c.ilocD (.from 1)
  let a ← a.mulArr w
  let b ← c.ilocD (.upto (-1))
  let r ← a.divArr b.values
  .ok { r with
    isPattern := true
    isCum := some false
    values := r.values.map Num.numToNan }

/-- `num_to_nan` of `paid_to_prior_case_` (`development/outstanding.py:93-94,200-216`). -/
def paidToPrior (p q : String) (w : Arr K) (x : Tri K) : Except Err (Tri K) := do
  let c ← caseTri p q x
  let paid ← x.getCols [p]
  let a ← paid.cumToIncr
  let a ← a.ilocD (.from 1)
  let a ← a.mulArr w
  let b ← c.ilocD (.upto (-1))
  let r ← a.divArr b.values
  .ok { r with
    isPattern := true
    values := r.values.map Num.numToNan }

/-- `mean(2)` (`development/outstanding.py:90-91,96-97`); a number has no `values`. -/
def averaged (t : Tri K) : Except Err (Tri K) :=
  match (Berq.meanOrigin t).toAgg with
  | .tri u => .ok u
  | .scalar _ => .error .attributeError

/-- `latest_diagonal` when it is a triangle. -/
def latest (t : Tri K) : Except Err (Tri K) := do
  match ← t.latestDiagonal with
  | .tri u => .ok u
  | .scalar _ => .error .unmodelled

/-- The factors of every origin at every valuation (`development/outstanding.py:110-123`). -/
def spread (c f : Tri K) : Except Err (Tri K) := do
  let l ← latest c
  let a ← ({ f with vd := ultVal } : Tri K).mul l
  let a ← a.div l
  let v ← Arr.cat2 .development ⟨a.values.d0, a.values.d1, a.values.d2, 1, fun _ _ _ _ => 1⟩ a.values
  let b : Tri K := { a with
    odims := c.odims
    isPattern := false
    values := v
    ddims := c.ddims }
  let b : Tri K := { b with vd := (b.valuations.max?).getD b.vd }
  b.devToVal

/-- `forward` (`development/outstanding.py:126-128`). -/
def forward (a : Arr K) : Arr K :=
  { a with get := fun i c o d => ∏ j ∈ Finset.range (d + 1),
      (if (a.get i c o j).isNan then 1 else a.get i c o j) }

/-- `backward` (`development/outstanding.py:131-133`). -/
def backward (a : Arr K) : Arr K :=
  { a with
    d3 := a.d3 - 1
    get := fun i c o d => ∏ j ∈ Finset.Ico (d + 1) a.d3,
      (if ((1 : Num K) / a.get i c o j).isNan then 1 else 1 / a.get i c o j) }

/-- The completed case reserves (`development/outstanding.py:103-142`). -/
def completeCase (c f : Tri K) : Except Err (Tri K) := do
  let s ← spread c f
  let fw ← s.getVal (fun v => decide (c.vd < v))
  let bw ← s.getVal (fun v => decide (v ≤ c.vd))
  let nans ← s.div s
  let l ← latest c
  let z ← l.mulArr (Arr.scalar 0)
  let one ← z.addArr (Arr.scalar 1)
  let v ← Arr.cat2 .development (backward bw.values) one.values
  let v ← Arr.cat2 .development v (forward fw.values)
  let r ← ({ s with values := v } : Tri K).mulArr nans.values
  let r ← r.mulArr l.values
  let r ← r.valToDev
  r.ilocD (.upto c.ddims.length)

/-- `ld` (`development/outstanding.py:143-148`). -/
def unit (c : Tri K) (vd : Int) : Except Err (Agg K) := do
  let l ← c.getVal (· == vd)
  match l.sum .development with
  | .scalar _ => .error .unmodelled
  | .tri u =>
    match u.sum .origin with
    | .scalar x => .ok (.scalar (x / x))
    | .tri y => do
      let r ← y.div y
      .ok (.tri r)

/-- The future payments (`development/outstanding.py:149-154`). -/
def futurePaid (x c f : Tri K) : Except Err (Tri K) := do
  let ld ← unit c x.vd
  let m ← Berq.mulAgg f ld
  let pat ← Arr.zip (· * ·) ⟨1, 1, x.values.d2, x.values.d3 - 1, fun _ _ o d =>
    1 - (x.nanTri o (d + 1)).nanToNum⟩ m.values
  let a ← c.ilocD (.upto (-1))
  let a ← a.mulArr pat
  .ok { a with
    ddims := c.ddims.drop 1
    vd := ultVal }

/-- The completed triangles of paid and incurred amounts (`development/outstanding.py:155-169`). -/
def complete (p q : String) (x cf pf : Tri K) : Except Err (Tri K) := do
  let paid0 ← x.getCols [p]
  let inc0 ← x.getCols [q]
  let c0 ← inc0.sub paid0
  let c ← completeCase c0 cf
  let future ← futurePaid x c pf
  let a ← paid0.cumToIncr
  let a ← a.add future
  let paid := a.incrToCum
  let c1 ← c.getVal (fun v => decide (x.vd < v))
  let p1 ← paid.getVal (fun v => decide (x.vd < v))
  let i ← c1.add p1
  let i ← i.add inc0
  let d ← Tri.concat .columns [{ paid with vdims := [p] }, { i with vdims := [q] }]
  d.getCols (x.vdims.filter fun n => n == p || n == q)

/-- `_set_ldf` (`development/outstanding.py:103-179`). -/
def setLdf (p q : String) (x cf pf : Tri K) : Except Err (Tri K) := do
  let d ← complete p q x cf pf
  let u ← d.ilocD (.int (-1))
  let r ← u.div d
  let r ← r.ilocD (.upto (-1))
  let lr ← x.linkRatio
  let r : Tri K := { r with
    vd := ultVal
    ddims := lr.ddims
    isPattern := true
    isCum := some true }
  r.cumToIncr

/-- `CaseOutstanding.fit` (`development/outstanding.py:62-101`): `case_ldf_`, `paid_ldf_` and `ldf_`. -/
def fit (p q : String) (np nc : Int) (x : Tri K) : Except Err (Tri K × Tri K × Tri K) := do
  let pw ← periodWeights np x
  let cw ← periodWeights nc x
  let c ← caseToPrior p q cw x
  let cf ← averaged c
  let r ← paidToPrior p q pw x
  let pf ← averaged r
  let g ← setLdf p q x cf pf
  .ok (cf, pf, g)

end CaseOut
end CL
