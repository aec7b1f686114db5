import Verif.Model.MackFit
import Verif.Model.Predict

set_option linter.unusedSectionVars false

/-! # `MackChainladder.predict` -/

namespace CL
namespace Work

/-- The statistics the recursions read: the values of `sigma_`, `std_err_` and `w_`, and the exponents of
`average_`. -/
structure MackStats where
  sigma : Arr ℝ
  stdErr : Arr ℝ
  w : Arr ℝ
  avg : List Nat

/-- `X_` after `Development` and the tail that `validate_X` adds (`methods/base.py:18-24`): the pattern and the
statistics.  The same steps as in `mackFit`. -/
noncomputable def mackStats (t : Tri ℝ) (p : Dev.Params ℝ) (m : Munich.Interp) : Except Err (Tri ℝ × MackStats) := do
  let (f, s, e) ← Dev.fitStats t p m false
  let w ← Dev.weights t p
  let g ← Tail.constant t f 1 (1 / 2) none 12
  let k := (Tail.avePeriod 12 t.dgrain).1
  .ok (g, ⟨Tail.tailSigma f g k s.values, Tail.tailStdErr f g k e.values, w,
    (List.range (t.values.d3 - 1)).map fun d => (p.average d).exponent⟩)

/-- The statistics of `Development(...).fit_transform(x)`, without a tail (`development/development.py:200-216`). -/
noncomputable def devStats (x : Tri ℝ) (p : Dev.Params ℝ) (m : Munich.Interp) : Except Err MackStats := do
  let (_, s, e) ← Dev.fitStats x p m false
  let w ← Dev.weights x p
  .ok ⟨s.values, e.values, w, (List.range (x.values.d3 - 1)).map fun d => (p.average d).exponent⟩

/-- The risks of a triangle with pattern `g` and statistics `c` (`methods/mack.py:78-90`). -/
noncomputable def mackRisks (x g : Tri ℝ) (c : MackStats) : Except Err MackOut := do
  let u ← x.chainladder g none
  let full ← Tri.fullTriangle x g u true
  let parameter ← Tri.mackRisk Real.sqrt x g full c.stdErr
  let se ← Tri.fullStdErr Real.sqrt x full c.sigma c.w c.avg
  let process ← Tri.mackRisk Real.sqrt x g full se
  let totalProcess ← Tri.totalProcess Real.sqrt process
  let totalParameter ← Tri.mackTotalParameter Real.sqrt x g full c.stdErr
  let total ← Tri.totalMackStdErr Real.sqrt process totalParameter 0 0
  let err ← Tri.mackStdErr Real.sqrt parameter process
  .ok ⟨u, full, parameter, process, err, totalProcess, totalParameter, total⟩

/-- `MackChainladder().fit(Development(...).fit_transform(t)).predict(x)` (`methods/mack.py:71-92`).  `own` are the
statistics of `x`, when it has any: `val_to_dev`, `+` and the copies they make keep the attributes of `x`
(`core/triangle.py:837-842`), and `getattr(X_new, "sigma_", ...)` prefers them to those of the fit.
Simplification: `x` has all four attributes or none. -/
noncomputable def mackPredict (t : Tri ℝ) (p : Dev.Params ℝ) (m : Munich.Interp) (x : Tri ℝ) (own : Option MackStats) :
    Except Err MackOut := do
  let _ ← mackFit t p m
  let (g, c) ← mackStats t p m
  let (y, g') ← Tri.predictBase t g x
  mackRisks y g' (own.getD c)

end Work
end CL
