import Verif.Model.Arith
import Verif.Model.ValDev

/-!
# Trending (`core/triangle.py:759-827`), dense backend

Dates only enter through their year and month, and clamping keeps the order of months, so that a date
is represented by its month number.
-/

namespace CL
namespace Tri
variable {K : Type} [Field K] [LinearOrder K] [IsStrictOrderedRing K]

/-- The values of `axis`: `"origin"`, `2` and `-2`; `"valuation"`; anything else. -/
inductive TrendAxis where
  | origin | valuation | other
  deriving DecidableEq, Repr

/-- Whether `origin` is the series `["(All)"]` instead of periods (`core/triangle.py:330-331`). -/
def allOrigins (t : Tri K) : Bool := t.isPattern && t.odims.length == 1

/-- `vector` before clamping (`core/triangle.py:803-811`): the last month of the origin period, whose
first month is in `odims`, or the valuation. -/
def trendDate (t : Tri K) (ax : TrendAxis) (o d : Nat) : Int :=
  match ax with
  | .valuation => t.valuation o d
  | _ => t.odims.getD o 0 + t.ograin.months - 1

/-- `vector` (`core/triangle.py:812-822`): the months from the clamped date to `start`. -/
def trendMonths (t : Tri K) (ax : TrendAxis) (start stop : Int) (lag : Option Int) (o d : Nat) : Int :=
  let lower := if stop > start then stop else start
  let upper := if stop > start then start else stop
  let vector (d : Nat) : Int := start - max (min lower (t.trendDate ax o d)) upper
  match lag with
  | none => vector d
  | some l =>
    if t.isUltimate = true ∧ t.values.d3 > 1 ∧ d + 1 = t.values.d3 then vector (d - 1) + l
    else vector d

/-- `trend` (`core/triangle.py:759-827`); `fac m` is `(1 + trend) ** (m / 12)`.  The origins of a
pattern with a single origin have no dates. -/
def trend (fac : Int → K) (t : Tri K) (ax : TrendAxis) (start stop lag : Option Int) :
    Except Err (Tri K) :=
  if ax = .other then .error .valueError
  else if stop = none ∧ t.allOrigins = true then .error .attributeError
  else if stop = none ∧ t.odims = [] then .error .indexError
  else if ax = .origin ∧ t.allOrigins = true then .error .typeError
  else
    let start := start.getD t.vd
    let stop := stop.getD (t.odims.getD 0 0)
    .ok { t with values := { t.values with
      get := fun i c o d => t.values.get i c o d *
        (.fin (fac (t.trendMonths ax start stop lag o d)) * t.nanTri o d) } }

end Tri
end CL
