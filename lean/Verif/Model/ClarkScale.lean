import Verif.Model.Clark
import Verif.Model.Mack
import Verif.Model.Tails

set_option linter.unusedSectionVars false

/-! # `scale_` and `norm_resid_` of `ClarkLDF`, dense backend -/

namespace CL
namespace Clark

/-- `df` of `scale_` (`development/clark.py:269-273`): the known cells, less two parameters of the curve and, for the
LDF method, one for each origin, for the Cape Cod method the loss ratio. -/
noncomputable def freedom (capeCod : Bool) (t : Tri ℝ) : Num ℝ :=
  (∑ o ∈ Finset.range t.odims.length, ∑ d ∈ Finset.range t.ddims.length, (t.nanTri o d).nan0) - .fin 2 -
    .fin (if capeCod then 1 else t.odims.length)

/-- `scale_` (`development/clark.py:258-284`) by index and column: `f` are the values of `incremental_fits_`.
A number has no `sum("development")`.  Simplification: the data frame is a function of the positions. -/
noncomputable def scale (capeCod : Bool) (t : Tri ℝ) (f : Arr ℝ) : Except Err (Nat → Nat → Num ℝ) := do
  let fit : Tri ℝ := { t with
    values := f
    isCum := some false }
  let act ← t.cumToIncr
  let r ← fit.sub act
  let r ← (r.pow 2).div fit
  match r.sum .origin with
  | .scalar _ => .error .typeError
  | .tri u =>
    match u.sum .development with
    | .scalar x => .ok fun _ _ => x / freedom capeCod t
    | .tri v => .ok fun i c => v.values.get i c 0 0 / freedom capeCod t

/-- The values of `norm_resid_` (`development/clark.py:286-293`). -/
noncomputable def normResid (capeCod : Bool) (t : Tri ℝ) (f : Arr ℝ) : Except Err (Arr ℝ) := do
  let act ← t.cumToIncr
  let s ← scale capeCod t f
  let a ← act.values.zip (· - ·) f
  a.zip (· / ·) { f with get := fun i c o d => Tail.sqrt (s i c * f.get i c o d) }

end Clark
end CL
