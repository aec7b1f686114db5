import Verif.Model.Development
import Verif.Model.Munich

/-!
# `sigma_` and `std_err_` of `Development` (`development/development.py:167-192`), dense backend

Over the reals, with their square root, logarithm and exponential.  `average_` is not
modelled; `std_residuals_` is in `Model/Residuals`.
-/

namespace CL
namespace Dev

/-- `sigma_` of the regression of one age (`utils/weighted_regression.py:75-94`); arguments as for `factor`. -/
noncomputable def rawSigma (a : Avg) (n : Nat) (w x y : Nat → Num ℝ) : Num ℝ :=
  Tail.sqrt (Reg.origMse n (fun j => regWeight a (w j) (x j) (y j)) x y)

/-- `std_err_` of the regression of one age (`utils/weighted_regression.py:75-95`). -/
noncomputable def rawStdErr (a : Avg) (n : Nat) (w x y : Nat → Num ℝ) : Num ℝ :=
  Tail.sqrt (Reg.origVar n (fun j => regWeight a (w j) (x j) (y j)) x y)

/-- `sigma_` of all ages (`development/development.py:168-177`): `m` is `sigma_interpolation`, `one` says that
`n_periods` is the number 1. -/
noncomputable def sigmaArr (t : Tri ℝ) (p : Params ℝ) (m : Munich.Interp) (one : Bool) (w : Arr ℝ) : Arr ℝ :=
  ⟨t.values.d0, t.values.d1, 1, t.values.d3 - 1, fun i c _ d =>
    let raw := fun d => rawSigma (p.average d) t.values.d2 (fun o => w.get i c o d)
      (fun o => (t.values.get i c o d).numToNan) (fun o => (t.values.get i c o (d + 1)).numToNan)
    if one then raw d else m.fill (t.values.d3 - 1) raw d⟩

/-- `std_err_` of all ages (`development/development.py:179-183`): a missing one is `sigma_` over the square root
of the amount of the first origin, to the power of two less the exponent. -/
noncomputable def stdErrArr (t : Tri ℝ) (p : Params ℝ) (m : Munich.Interp) (one : Bool) (w : Arr ℝ) : Arr ℝ :=
  ⟨t.values.d0, t.values.d1, 1, t.values.d3 - 1, fun i c _ d =>
    let x := fun o => (t.values.get i c o d).numToNan
    let y := fun o => (t.values.get i c o (d + 1)).numToNan
    let e := rawStdErr (p.average d) t.values.d2 (fun o => w.get i c o d) x y
    e.nanToNum + ((1 - (e * 0 + 1).nanToNum) * (sigmaArr t p m one w).get i c 0 d /
      Tail.sqrt ((x 0).npow (2 - expo (p.average d) (y 0)))).nanToNum⟩

/-- `Development.fit(X)` with `ldf_`, `sigma_` and `std_err_` (`development/development.py:103-187`). -/
noncomputable def fitStats (t : Tri ℝ) (p : Params ℝ) (m : Munich.Interp) (one : Bool) :
    Except Err (Tri ℝ × Tri ℝ × Tri ℝ) := do
  let f ← fit t p
  let w ← weights t p
  let s ← paramTri t (sigmaArr t p m one w)
  let e ← paramTri t (stdErrArr t p m one w)
  .ok (f, s, e)

end Dev
end CL
