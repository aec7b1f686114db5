import Verif.Model.Mack
import Verif.Model.Full
import Verif.Model.TailStats

set_option linter.unusedSectionVars false

/-! # `MackChainladder.fit` after `Development` -/

namespace CL
namespace Work

/-- What `MackChainladder` keeps. -/
structure MackOut where
  /-- `ultimate_` -/
  ultimate : Tri ℝ
  /-- `full_triangle_` -/
  full : Tri ℝ
  /-- `parameter_risk_` -/
  parameter : Tri ℝ
  /-- `process_risk_` -/
  process : Tri ℝ
  /-- `mack_std_err_` -/
  stdErr : Tri ℝ
  /-- `total_process_risk_` -/
  totalProcess : Tri ℝ
  /-- `total_parameter_risk_` -/
  totalParameter : Tri ℝ
  /-- `total_mack_std_err_` of the first index and column -/
  total : Num ℝ

/-- `MackChainladder().fit(Development(...).fit_transform(X))` (`methods/mack.py:43-69`,
`methods/chainladder.py:44-74`, `methods/base.py:18-24`): `p` and `m` are the parameters of `Development`;
`validate_X` adds `TailConstant()` (tail 1, decay 1/2, 12 months), which extends `sigma_` and `std_err_` as well
(`tails/constant.py:53-79`, `tails/base.py:108-134`).  The exponents of the averages are those of
`methods/mack.py:104-106`. -/
noncomputable def mackFit (t : Tri ℝ) (p : Dev.Params ℝ) (m : Munich.Interp) : Except Err MackOut := do
  let (f, s, e) ← Dev.fitStats t p m false
  let w ← Dev.weights t p
  let g ← Tail.constant t f 1 (1 / 2) none 12
  let k := (Tail.avePeriod 12 t.dgrain).1
  let sigma := Tail.tailSigma f g k s.values
  let stdErr := Tail.tailStdErr f g k e.values
  let u ← t.chainladder g none
  let full ← Tri.fullTriangle t g u true
  let parameter ← Tri.mackRisk Real.sqrt t g full stdErr
  let avg := (List.range (t.values.d3 - 1)).map fun d => (p.average d).exponent
  let se ← Tri.fullStdErr Real.sqrt t full sigma w avg
  let process ← Tri.mackRisk Real.sqrt t g full se
  let totalParameter ← Tri.mackTotalParameter Real.sqrt t g full stdErr
  let err ← Tri.mackStdErr Real.sqrt parameter process
  let totalProcess ← Tri.totalProcess Real.sqrt process
  let total ← Tri.totalMackStdErr Real.sqrt process totalParameter 0 0
  .ok ⟨u, full, parameter, process, err, totalProcess, totalParameter, total⟩

/-- The values of `summary_` (`methods/mack.py:175-188`): latest amount, IBNR, ultimate and standard error.  A latest
diagonal of one cell is a number without `values`.  Simplification: the labels of the four columns are left out. -/
noncomputable def mackSummary (t : Tri ℝ) (out : MackOut) : Except Err (Arr ℝ) := do
  match ← t.latestDiagonal with
  | .scalar _ => .error .attributeError
  | .tri l => do
    let b ← Tri.ibnr out.ultimate t
    let e ← out.stdErr.values.sliceD (some (-1)) none
    let a ← Arr.cat2 .development l.values b.values
    let a ← Arr.cat2 .development a out.ultimate.values
    Arr.cat2 .development a e

end Work
end CL
