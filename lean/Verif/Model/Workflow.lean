import Verif.Model.Development
import Verif.Model.Methods
import Verif.Model.Tails

set_option linter.unusedSectionVars false

/-! # Estimators in sequence -/

namespace CL
namespace Work

/-- What `MethodBase.validate_X` (`methods/base.py:18-24`) attaches to a development triangle: the
pattern `ldf_` of the triangle if it has one, else that of `Development()`; when it has one age less
than the triangle, `TailConstant()` (`tails/constant.py:48-52`: tail 1, decay 1/2, no attachment age,
12 months of projection) extends it.  The triangle itself is not changed. -/
noncomputable def validateX (t : Tri ℝ) (ldf : Option (Tri ℝ)) : Except Err (Tri ℝ) := do
  let f ← match ldf with
    | some f => pure f
    | none => Dev.fit t {}
  if (t.ddims.length : Int) - f.ddims.length = 1 then Tail.constant t f 1 (1 / 2) none 12 else pure f

/-- `Chainladder().fit(X).ultimate_` (`methods/chainladder.py:44-74`). -/
noncomputable def chainladderFit (t : Tri ℝ) (ldf : Option (Tri ℝ)) : Except Err (Tri ℝ) := do
  let f ← validateX t ldf
  t.chainladder f none

end Work
end CL
