import Verif.Lemmas.Num

/-!
# WeightedRegression

`utils/weighted_regression.py`, dense backend, one column of an array at a time: `n` observations
along the axis of the fit.
-/

namespace CL
namespace Reg
variable {K : Type} [Field K] [LinearOrder K] [IsStrictOrderedRing K]

/-- `xp.nansum` over an axis of length `n`. -/
def nansum (n : Nat) (f : Nat → Num K) : Num K := ∑ j ∈ Finset.range n, (f j).nan0

/-- Number of entries that are not NaN. -/
def count (n : Nat) (f : Nat → Num K) : K := ∑ j ∈ Finset.range n, if (f j).isNan then 0 else 1

/-- `xp.nanmean` over an axis of length `n` (NaN when there is nothing to average). -/
def nanmean (n : Nat) (f : Nat → Num K) : Num K := nansum n f / .fin (count n f)

/-- `d` of `_fit_OLS_thru_orig` (`utils/weighted_regression.py:80`). -/
def origDen (n : Nat) (w x y : Nat → Num K) : Num K :=
  (nansum n fun j => (y j * 0 + 1) * w j * x j * x j).numToNan

/-- `slope_` of `_fit_OLS_thru_orig` (`utils/weighted_regression.py:75-81`). -/
def origSlope (n : Nat) (w x y : Nat → Num K) : Num K :=
  (nansum n fun j => w j * x j * y j).numToNan / origDen n w x y

/-- One squared residual `((y - fitted_value) * sqrt(w)) ** 2`
(`utils/weighted_regression.py:82-85`).  The square root of a negative weight is NaN. -/
def sqResidual (b w x y : Num K) : Num K :=
  if w.ltb 0 then .nan else (y - b * x * (y * 0 + 1)) * (y - b * x * (y * 0 + 1)) * w

/-- `mse` (`utils/weighted_regression.py:84-88`), the square of `sigma_`. -/
def origMse (n : Nat) (w x y : Nat → Num K) : Num K :=
  (nansum n fun j => sqResidual (origSlope n w x y) (w j) (x j) (y j)) /
    ((nansum n fun j => (y j * 0 + 1) * Num.ofBool (!(w j).nanToNum.eqb 0)) - 1).numToNan

/-- The square of `std_err_` (`utils/weighted_regression.py:89`). -/
def origVar (n : Nat) (w x y : Nat → Num K) : Num K := origMse n w x y / origDen n w x y

/-- `x[w == 0] = nan`. -/
def dropZeroWeight (w x : Num K) : Num K := if w.eqb 0 then .nan else x

/-- `slope_` of `_fit_OLS` (`utils/weighted_regression.py:41-68`). -/
def slope (n : Nat) (w x y : Nat → Num K) : Num K :=
  let x := fun j => dropZeroWeight (w j) (x j)
  let y := fun j => dropZeroWeight (w j) (y j)
  ((nansum n fun j => w j * x j * y j) - (nansum n fun j => x j * w j) * nanmean n y).numToNan /
    ((nansum n fun j => w j * x j * x j) - nanmean n x * (nansum n fun j => w j * x j)).numToNan

/-- `intercept_` of `_fit_OLS` (`utils/weighted_regression.py:69`). -/
def intercept (n : Nat) (w x y : Nat → Num K) : Num K :=
  nanmean n (fun j => dropZeroWeight (w j) (y j)) -
    slope n w x y * nanmean n (fun j => dropZeroWeight (w j) (x j))

end Reg
end CL
