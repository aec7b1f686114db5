import Verif.Model.Bootstrap
import Verif.Model.Tails
import Mathlib.LinearAlgebra.Matrix.NonsingularInverse

set_option linter.unusedSectionVars false

/-!
# The hat matrix adjustment of `BootstrapODPSample`, dense backend

Simplification: the origins are in order, so the known cells of an age are those of the first origins, and every first
amount is known; a matrix with NaN is not modelled.  `np.linalg.inv` is the inverse of a matrix with a determinant other
than zero and raises otherwise.
-/

namespace CL
namespace Boot
open Matrix

/-- The number of known cells of age `d` (`adjustments/bootstrap.py:187`, `:219`). -/
noncomputable def known (t : Tri ℝ) (d : Nat) : Nat :=
  ((List.range t.values.d2).filter fun o => t.nanTri o d ≠ .nan).length

/-- The known cells, age by age (`adjustments/bootstrap.py:183-192`; the same order in `unstack`, `:199`). -/
noncomputable def cells (t : Tri ℝ) : List (Nat × Nat) :=
  (List.range t.values.d3).flatMap fun d => (List.range (known t d)).map fun o => (o, d)

/-- `_get_design_matrix` (`adjustments/bootstrap.py:178-193`): a column for each origin, then one for each age but the
first; `intra_beta` keeps the ones of the earlier ages. -/
noncomputable def design (t : Tri ℝ) :
    Matrix (Fin (cells t).length) (Fin (t.values.d2 + (t.values.d3 - 1))) ℝ := fun k j =>
  if (j : Nat) < t.values.d2 then (if (j : Nat) = (cells t)[k].1 then 1 else 0)
  else if (j : Nat) - t.values.d2 < (cells t)[k].2 then 1 else 0

/-- `weight_matrix` (`adjustments/bootstrap.py:198-200`) for the expected increments `m`. -/
noncomputable def weightMatrix (t : Tri ℝ) (m : Nat → Nat → Num ℝ) :
    Matrix (Fin (cells t).length) (Fin (cells t).length) ℝ :=
  Matrix.diagonal fun k => (m (cells t)[k].1 (cells t)[k].2).amt

/-- `hat` before its diagonal is taken (`adjustments/bootstrap.py:201-215`). -/
noncomputable def hatMatrix (t : Tri ℝ) (m : Nat → Nat → Num ℝ) :
    Matrix (Fin (cells t).length) (Fin (cells t).length) ℝ :=
  design t * ((design t)ᵀ * (weightMatrix t m * design t))⁻¹ * (design t)ᵀ * weightMatrix t m

/-- The diagonal (`adjustments/bootstrap.py:216`): where `1 - hat` is zero, `np.divide` leaves what was in memory,
`junk`. -/
noncomputable def hatDiagonal (junk : Nat → Num ℝ) (t : Tri ℝ) (m : Nat → Nat → Num ℝ) (k : Nat) : Num ℝ :=
  if hk : k < (cells t).length then
    let h := hatMatrix t m ⟨k, hk⟩ ⟨k, hk⟩
    if 1 - h ≠ 0 then Tail.sqrt (.fin 1 / .fin |1 - h|) else Tail.sqrt (junk k)
  else .nan

/-- `hat_` (`adjustments/bootstrap.py:107-116,195-230`) for `hat_adj=True`: the diagonal cut into ages and filled up with
NaN; `none` if the matrix cannot be inverted. -/
noncomputable def hat (junk : Nat → Num ℝ) (t : Tri ℝ) (m : Nat → Nat → Num ℝ) : Option (Nat → Nat → Num ℝ) :=
  if ((design t)ᵀ * (weightMatrix t m * design t)).det = 0 then none
  else some fun o d =>
    if d = 0 then hatDiagonal junk t m o
    else if o < known t d then hatDiagonal junk t m ((∑ e ∈ Finset.range d, known t e) + o)
    else .nan

end Boot
end CL
