import Verif.Model.Development
import Verif.Model.Trend
import Verif.Model.Convert

/-!
# IncrementalAdditive (`development/incremental.py`), dense backend

Not modelled: triangles that carry `trend_` or `w_`, exposures that are not a
single column of developments.
-/

namespace CL
namespace Additive
variable {K : Type} [Field K] [LinearOrder K] [IsStrictOrderedRing K]

/-- Parameters (`development/incremental.py:74-89`).  `trend m` is `(1 + trend) ** (m / 12)`, and the same
for `future`, with `none` for 0.  `none` stands for `np.inf` and `0.0`: the default of `drop_below` is
`-np.inf`. -/
structure Params (K : Type) where
  trend : Int → K
  future : Option (Int → K) := none
  average : Nat → Avg := fun _ => .volume
  nPeriods : Nat → Int := fun _ => -1
  drop : Option (List (Int × Int)) := none
  dropVal : Option (List Int) := none
  dropHigh : Option (Nat → Int) := none
  dropLow : Option (Nat → Int) := none
  dropAbove : Option (Nat → Num K) := none
  dropBelow : Option (Nat → Num K) := some fun _ => .ninf
  preserve : Int := 1

/-- `_set_weight_func` (`development/base.py:359-375`) for the factors `f`, ties broken by `s`. -/
def weights (p : Params K) (f s : Tri K) : Except Err (Arr K) := do
  let a ← Dev.nPeriodsWeightFunc f p.nPeriods
  let b ← Dev.optWeight (p.drop.map (Dev.dropFunc f))
  let v ← Dev.optWeight (p.dropVal.map (Dev.dropValuationFunc f))
  let w1 := fun i c o d => Num.ofBool (!(f.values.get i c o d).isNan) * Dev.bget a i c o d *
    Dev.bget b i c o d * Dev.bget v i c o d
  let w2 := fun i c o d =>
    if p.dropAbove.isSome || p.dropBelow.isSome then
      w1 i c o d * Num.ofBool (Dev.dropX ((p.dropAbove.getD fun _ => .pinf) d)
        ((p.dropBelow.getD fun _ => 0) d) p.preserve f.values.d2 (fun o => f.values.get i c o d) o)
    else w1 i c o d
  let w3 := fun i c o d =>
    if p.dropHigh.isSome || p.dropLow.isSome then
      w2 i c o d * Num.ofBool (Dev.dropN f.values.d2 ((p.dropHigh.getD fun _ => 0) d)
        ((p.dropLow.getD fun _ => 0) d) (-1) p.preserve f.values.d2
        (fun o => f.values.get i c o d * (w2 i c o d).numToNan) (fun o => s.values.get i c o d) o)
    else w2 i c o d
  .ok { f.values with get := fun i c o d => (w3 i c o d).numToNan }

/-- The fitted factors (`development/base.py:15-27` and `utils/weighted_regression.py:72-92`): increments `y`
on exposures `e`. -/
def zetaArr (p : Params K) (y e w : Arr K) : Arr K :=
  ⟨y.d0, y.d1, 1, y.d3, fun i c _ d => Dev.factor (p.average d) y.d2 (fun o => w.get i c o d)
    (fun o => Dev.bget e i c o d) (fun o => y.get i c o d)⟩

/-- `_param_property` (`development/incremental.py:196-208`). -/
def paramTri (f : Tri K) (a : Arr K) : Tri K :=
  { f with
    odims := f.odims.filter fun o => o == (f.odims.min?).getD 0
    vd := ultVal
    isPattern := true
    isAdditive := some true
    isCum := some false
    values := a }

/-- The NaN triangle with 0 for 1 and 1 for NaN (`development/incremental.py:151,159`). -/
def future (t : Tri K) : Arr K :=
  ⟨1, 1, t.values.d2, t.values.d3, fun _ _ o d => 1 - (t.nanTri o d).nanToNum⟩

/-- Attributes of the fitted estimator. -/
structure Fitted (K : Type) where
  w : Arr K
  triZeta : Tri K
  fitZeta : Tri K
  zeta : Tri K
  incremental : Tri K
  ldf : Tri K

/-- `fit` (`development/incremental.py:91-175`) with exposures `s`. -/
def fit (p : Params K) (t s : Tri K) : Except Err (Fitted K) :=
  let e := s.values
  if t.isVal then .error .valueError
  else if ¬ ((e.d0 = t.values.d0 ∨ e.d0 = 1) ∧ (e.d1 = t.values.d1 ∨ e.d1 = 1) ∧ e.d2 = t.values.d2 ∧
      e.d3 = 1) then .error .unmodelled
  else do
    let u ← t.cumToIncr
    let y ← u.trend p.trend .valuation none none none
    let x ← y.divArr e
    let w ← weights p x y
    let fz ← x.mulArr w
    let zeta := paramTri x (zetaArr p y.values e w)
    let l ← x.getVal (· == x.vd)
    let keep ← Arr.zip (· + ·) (future x) ⟨1, 1, l.values.d2, l.values.d3, fun _ _ o d =>
      (l.values.get 0 0 o d * 0 + 1).nanToNum⟩
    let v ← Arr.zip (· * ·) { zeta.values with
      d2 := x.odims.length
      get := fun i c _ d => zeta.values.get i c 0 d } keep
    let v ← Arr.zip (· * ·) v (future x)
    let r ← Arr.zip (· / ·) u.values e
    let v ← Arr.zip (· + ·) v (r.map Num.nanToNum)
    let obj : Tri K := { x with
      vd := (x.valuations.max?).getD x.vd
      values := v.map Dev.zeroToNan }
    let inc ← obj.mulArr e
    let inc ← inc.trend (fun m => (p.future.getD p.trend) (-m)) .valuation (some t.vd) (some inc.vd) none
    let ldf ← obj.incrToCum.linkRatio
    .ok {
      w := w
      triZeta := x
      fitZeta := fz
      zeta := zeta
      incremental := inc
      ldf := ldf }

end Additive
end CL
