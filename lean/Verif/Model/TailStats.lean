import Verif.Model.Sigma
import Verif.Model.Workflow

set_option linter.unusedSectionVars false

/-! # `sigma_` and `std_err_` of the tail estimators (`tails/base.py`), dense backend

For a pattern with one row of factors per index and column. -/

namespace CL
namespace Tail
open Classical

/-- `slope_` of `WeightedRegression(axis=3).fit(None, y, None)` for a row of length `n`
(`utils/weighted_regression.py:22-68`): the weights are all one, whether or not there is a value. -/
noncomputable def lineSlope (n : Nat) (y : Nat → Num ℝ) : Num ℝ :=
  Reg.slope n (fun _ => 1) (fun j => .fin ((j : ℝ) + 1)) y

/-- `intercept_` of the same regression (`utils/weighted_regression.py:69`). -/
noncomputable def lineIntercept (n : Nat) (y : Nat → Num ℝ) : Num ℝ :=
  Reg.intercept n (fun _ => 1) (fun j => .fin ((j : ℝ) + 1)) y

/-- The logarithms of the factors less one; factors up to one are missing (`tails/base.py:142-145`). -/
noncomputable def logExcess (x : Num ℝ) : Num ℝ :=
  log ((if x.ltb 1 || x.eqb 1 then .nan else x) - 1)

/-- The product of the factors after the last age of the triangle (`tails/base.py:146-148`); `m` is the number of
the added periods. -/
noncomputable def tailProd (g : Tri ℝ) (m i c : Nat) : Num ℝ :=
  ∏ d ∈ Finset.Ico (g.values.d3 - (m + 1)) g.values.d3, g.values.get i c 0 d

/-- `tail.max() > 1` (`tails/base.py:150`): the largest number of an array with a NaN is NaN. -/
def AboveOne (g : Tri ℝ) (m : Nat) : Prop :=
  (∀ i < g.values.d0, ∀ c < g.values.d1, (tailProd g m i c).isNan = false) ∧
    ∃ i < g.values.d0, ∃ c < g.values.d1, (Num.ltb 1 (tailProd g m i c)) = true

/-- `_get_tail_weighted_time_period` (`tails/base.py:136-152`) for one index and column: `f` is the pattern of
`X` and `g` that of the tail estimator. -/
noncomputable def timePeriod (f g : Tri ℝ) (m i c : Nat) : Num ℝ :=
  let y := fun k => logExcess (f.values.get i c 0 k)
  let tail := if AboveOne g m then tailProd g m i c else .fin (1001 / 1000)
  (log (tail - 1) - lineIntercept f.values.d3 y) / lineSlope f.values.d3 y

/-- The mean of `tail_` is one (`tails/base.py:125,154-166`): the age-to-ultimate factors at the last age of the
triangle.  Simplification: `tail_` is the array of these factors, not a data frame. -/
def NoTail (g : Tri ℝ) (m : Nat) : Prop :=
  (∑ i ∈ Finset.range g.values.d0, ∑ c ∈ Finset.range g.values.d1,
    g.incrToCum.values.get i c 0 (g.values.d3 - 1 - m)) / .fin ((g.values.d0 * g.values.d1 : Nat) : ℝ) = .fin 1

/-- A statistic of the tail (`tails/base.py:117-128`): `x` are those of the ages. -/
noncomputable def tailStat (f g : Tri ℝ) (m i c n : Nat) (x : Nat → Num ℝ) : Num ℝ :=
  let y := fun k => log (x k)
  let v := exp (timePeriod f g m i c * lineSlope n y + lineIntercept n y)
  if NoTail g m then v * 0 else v

/-- `sigma_` of the tail estimator (`tails/base.py:32-35,108-131`): the statistics of the ages and that of the
tail. -/
noncomputable def tailSigma (f g : Tri ℝ) (m : Nat) (s : Arr ℝ) : Arr ℝ :=
  { s with
    d3 := s.d3 + 1
    get := fun i c o d => if d < s.d3 then s.get i c o d
      else tailStat f g m i c s.d3 (fun k => s.get i c o k) }

/-- `std_err_` of the tail estimator (`tails/base.py:36-37,121-134`). -/
noncomputable def tailStdErr (f g : Tri ℝ) (m : Nat) (e : Arr ℝ) : Arr ℝ :=
  { e with
    d3 := e.d3 + 1
    get := fun i c o d => if d < e.d3 then e.get i c o d
      else tailStat f g m i c e.d3 (fun k => (e.get i c o k).numToNan) }

end Tail
end CL
