import Verif.Model.Methods

/-!
# Full expectation and full triangle (`core/common.py`), dense backend
-/

namespace CL
namespace Tri
variable {K : Type} [Field K] [LinearOrder K] [IsStrictOrderedRing K]

/-- `rename("development", [9999])` (`core/pandas.py:273-297`, `core/triangle.py:377-380`): the new
labels are ages, also for a valuation triangle. -/
def renameUlt (t : Tri K) : Except Err (Tri K) :=
  if t.ddims.length ≠ 1 then .error .valueError
  else .ok { t with ddims := [9999], isVal := false }

/-- `_get_full_expectation` (`core/common.py:14-26`); `cdf` is `cdf_`, `u` is `ultimate_` and `cum`
is `X_.is_cumulative`. -/
def fullExpectation (cdf u : Tri K) (cum : Bool) : Except Err (Tri K) := do
  let full ← u.div cdf
  if cum then
    let tail ← u.renameUlt
    concat .development [full, tail]
  else
    let last ← full.ilocD (.int (-1))
    let tail ← last.sub u
    let incr ← full.cumToIncr
    let tail ← tail.renameUlt
    concat .development [incr, tail]

/-- The emergence of each origin (`core/common.py:33-49`): the age-to-age factors of `f` for all
origins of `u`, ones before the valuation date `vd`, then their cumulative product minus one, relative
to its last column; the ages move by one period and the last one becomes 9999.  `ddims + months` is
only defined for ages. -/
def emergence (f u : Tri K) (vd : Int) : Except Err (Tri K) := do
  let r ← u.div u
  let e ← f.mul r
  let known ← e.getVal (fun v => v < vd)
  let known ← known.mulArr (Arr.scalar 0)
  let known ← known.addArr (Arr.scalar 1)
  let rest ← e.getVal (fun v => v ≥ vd)
  let e ← known.add rest
  if e.isVal then .error .typeError
  else if e.ddims = [] then .error .indexError
  else
    let cum : Nat → Nat → Nat → Nat → Num K := fun i c o d =>
      (∏ j ∈ Finset.range (d + 1), e.values.get i c o j) - 1
    .ok { e with
      vd := ultVal
      ddims := (e.ddims.map (· + (e.dgrain.months : Int))).dropLast ++ [9999]
      values := { e.values with
        get := fun i c o d => cum i c o d / (cum i c o (e.values.d3 - 1)).numToNan } }

/-- `_get_full_triangle` (`core/common.py:29-58`); `f` is `X.ldf_`, `t` is `X`, `u` the ultimate and
`cum` is `X.is_cumulative`.  A latest diagonal of a single cell is a number, for which the sum goes
through numpy and is not modelled. -/
def fullTriangle (t f u : Tri K) (cum : Bool) : Except Err (Tri K) := do
  let e ← emergence f u t.vd
  let ld ← t.incrToCum.latestDiagonal
  match ld with
  | .scalar _ => .error .unmodelled
  | .tri ld => do
    let g ← u.sub ld
    let p ← e.mul g
    let run ← ld.add p
    let run ← run.getVal (fun v => v > t.vd)
    let run : Tri K := { run with isCum := some true }
    if cum then t.add run
    else
      let r ← t.incrToCum.add run
      r.cumToIncr

end Tri
end CL
