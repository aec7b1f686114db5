import Verif.Model.Full
import Verif.Model.ValDev
import Verif.Model.Grain

/-!
# `model_diagnostics` (`utils/utility_functions.py:428-512`), dense backend

The vectors of all columns at once; the code writes them, one column of the triangle after the other, as the
columns of a new triangle and concatenates those (C20, C22).
-/

namespace CL
namespace Diagn
variable {K : Type} [Field K] [LinearOrder K] [IsStrictOrderedRing K]

/-- `obj.X_` (`utils/utility_functions.py:453-459`): `t` is `X_` and `g` is `X_.groupby(groupby).sum()`, if
`groupby` is given. -/
def base (t : Tri K) (g : Option (Tri K)) : Except Err (Tri K) :=
  match g with
  | some g => g.cumToIncr
  | none => .ok t.incrToCum

/-- `Latest` (`:461`, `:474`). -/
def latest (x : Tri K) : Agg K := x.sum .development

/-- `(obj.X_ - obj.X_[val < start]).sum("development")`. -/
def since (x : Tri K) (start : Int) : Except Err (Agg K) := do
  let b ← x.getVal (fun v => v < start)
  let r ← x.sub b
  .ok (r.sum .development)

/-- `val.min()` is before the month. -/
def startsBefore (x : Tri K) (start : Int) : Bool :=
  match x.valuations.min? with
  | some v => decide (v < start)
  | none => false

/-- `Month Incremental` (`:475-478`); the column is there for monthly triangles only. -/
def month (x : Tri K) : Except Err (Option (Agg K)) :=
  if x.dgrain = .M then do
    let u ← x.getVal (· == x.vd)
    .ok (some (u.sum .development))
  else .ok none

/-- `Quarter Incremental` (`:479-493`): `pd.Period(valuation_date, freq="Q").to_timestamp(how="s")` is the
first month of the quarter. -/
def quarter (x : Tri K) : Except Err (Agg K) :=
  if (x.dgrain = .M ∨ x.dgrain = .Q) ∧ startsBefore x (Tri.periodStart .Q x.vd) = true then
    since x (Tri.periodStart .Q x.vd)
  else .ok (.scalar 0)

/-- `Year Incremental` (`:494-499`): `val < str(year)` compares with the first of January. -/
def year (x : Tri K) : Except Err (Agg K) :=
  if startsBefore x (Tri.periodStart .Y x.vd) then since x (Tri.periodStart .Y x.vd) else .ok (.scalar 0)

/-- `run_off.development > str(valuation_date)` (`:463`), a comparison of strings: `'1981'`, `'1981Q4'` or
`'1981-12'` with `'1981-12-31 23:59:59.999999999'`.  A year and a month come after the date if they are later; a
quarter of the year of the date comes after it, since `Q` comes after `-`. -/
def labelAfter (g : Grain) (v vd : Int) : Bool :=
  match g with
  | .Y => decide (v / 12 > vd / 12)
  | .S | .Q => decide (v / 12 ≥ vd / 12)
  | .M => decide (v > vd)

/-- The number of columns of the run-off (`:464-466`). -/
def runOffCols : Grain → Nat
  | .M => 12
  | .S => 6
  | .Q => 4
  | .Y => 1

/-- The columns `Run Off 1`, ... (`:462-466`); `x` is `X_`, `cdf` and `u` are `cdf_` and `ultimate_`. -/
def runOff (x cdf u : Tri K) : Except Err (Tri K) := do
  let f ← Tri.fullExpectation cdf u (x.isCum == some true)
  let f ← f.ilocD (.upto (-1))
  let v ← f.devToVal
  let r ← v.cumToIncr
  let r ← r.sliceDev (r.ddims.map fun d => labelAfter r.dgrain d x.vd)
  r.ilocD (.upto (runOffCols x.dgrain))

end Diagn
end CL
