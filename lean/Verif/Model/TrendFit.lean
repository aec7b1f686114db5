import Verif.Model.Trend
import Verif.Model.CapeCod

/-!
# The `Trend` estimator (`adjustments/trend.py:40-69`), dense backend

A single trend or a single pair of dates is a list of one (`adjustments/trend.py:55-57`).  Dates are month
numbers as in `Model/Trend`.
-/

namespace CL
namespace Tri
variable {K : Type} [Field K] [LinearOrder K] [IsStrictOrderedRing K]

/-- The loop of `Trend.fit` (`adjustments/trend.py:63-66`); `fac m` is `(1 + trend) ** (m / 12)`, `none` an entry
of `dates` that is not a tuple. -/
def trendLoop (ax : TrendAxis) : List (Int → K) → List (Option (Option Int × Option Int)) → Tri K →
    Except Err (Tri K)
  | [], _, t => .ok t
  | _ :: _, [], _ => .error .indexError
  | _ :: _, none :: _, _ => .error .unmodelled
  | f :: fs, some (s, e) :: ds, t => do
    let u ← t.trend f ax s e none
    trendLoop ax fs ds u

/-- `Trend.fit(X).trend_` (`adjustments/trend.py:55-68`). -/
def trendFit (trends : List (Int → K)) (dates : Option (List (Option (Option Int × Option Int)))) (ax : TrendAxis)
    (t : Tri K) : Except Err (Tri K) :=
  match dates.getD [some (none, none)] with
  | [] => .error .indexError
  | none :: _ => .error .attributeError
  | d :: ds => do
    let u ← trendLoop ax trends (d :: ds) t
    u.div t

/-- `CapeCod.fit` (`methods/capecod.py:69-96,161-168`) of a triangle with `trend_` and an exposure without
`olf_`: the a-priori, the detrended a-priori, the expectation and the ultimate. -/
def capecodTrended (y t f : Tri K) (w : Option (Tri K)) (decay : K) (n : Nat) :
    Except Err (Tri K × Tri K × Tri K × Tri K) :=
  match w with
  | none => .error .valueError
  | some w => do
    let l ← y.latestDiagonal
    match l with
    | .scalar _ => .error .attributeError
    | .tri l => do
      let (a, d) ← t.capecodAprioris f w decay l.values (Arr.scalar 1) (Arr.scalar 1)
      let e ← w.mul d
      let u ← t.benktander f (some e) 1 n
      .ok (a, d, e, u)

end Tri
end CL
