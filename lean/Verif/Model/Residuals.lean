import Verif.Model.Sigma

set_option linter.unusedSectionVars false

/-! # `std_residuals_` of `Development` -/

namespace CL
namespace Dev

/-- `num_to_nan(std)` (`development/development.py:182-183`): the standard deviations of the residuals. -/
noncomputable def residStd (t : Tri ℝ) (p : Params ℝ) (w s : Arr ℝ) : Arr ℝ :=
  ⟨t.values.d0, t.values.d1, t.values.d2, t.values.d3 - 1, fun i c o d =>
    (Tail.sqrt (1 / (regWeight (p.average d) (w.get i c o d) (t.values.get i c o d).numToNan
      (t.values.get i c o (d + 1)).numToNan).numToNan * (s.get i c 0 d).npow 2)).numToNan⟩

/-- `std_residuals_` (`development/development.py:181-184`); parameters as for `fitStats`. -/
noncomputable def stdResiduals (t : Tri ℝ) (p : Params ℝ) (m : Munich.Interp) (one : Bool) :
    Except Err (Tri ℝ) := do
  let (f, s, _) ← fitStats t p m one
  let w ← weights t p
  let x ← t.ilocD (.upto (-1))
  let y ← t.ilocD (.from 1)
  let r ← (Tri.neg x).mulArr f.values
  let r ← r.addArr y.values
  let r ← r.divArr (residStd t p w s.values)
  r.getVal (fun v => v < t.vd)

end Dev
end CL
