import Verif.Model.Tails
import Verif.Model.Mack

/-!
# `exp`, `log` and `sqrt` (`core/pandas.py:328-332,340-341`, `core/base.py:411-418`), dense backend

numpy hands `np.exp(triangle)` to `__array_ufunc__` of the triangle.  Powers are `pow` in `Model/Mack`.
-/

namespace CL
namespace Tri

/-- `__array_ufunc__` (`core/base.py:411-418`) for one input. -/
def ufunc1 {K : Type} (f : Num K → Num K) (t : Tri K) : Tri K :=
  { t with values := { t.values with get := fun i c o d => f (t.values.get i c o d) } }

/-- `exp()` (`core/pandas.py:328-329`). -/
noncomputable def npExp (t : Tri ℝ) : Tri ℝ := t.ufunc1 Tail.exp

/-- `log()` (`core/pandas.py:331-332`). -/
noncomputable def npLog (t : Tri ℝ) : Tri ℝ := t.ufunc1 Tail.log

/-- `sqrt()` (`core/pandas.py:340-341`). -/
noncomputable def npSqrt (t : Tri ℝ) : Tri ℝ := t.ufunc1 Tail.sqrt

end Tri
end CL
