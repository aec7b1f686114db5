import Verif.Model.Filter
import Mathlib.Analysis.SpecialFunctions.Pow.Real

/-!
# Clark's growth curves

The curve, the age-to-age factors and the fitted increments of `development/clark.py`, over the
reals, for the parameters found by the optimiser (`scipy.optimize.minimize`, not modelled;
its bounds make them positive).  Not modelled: groupby, the Cape Cod variant's loss ratio; `scale_`
and the residuals are in `Model/ClarkScale`.
-/

namespace CL
namespace Clark

/-- `ClarkLDF._G` at one age (`development/clark.py:56-71`): the reciprocal of the growth curve,
infinite at age 0, where the code puts NaN.  Only for the curves and ages accepted by `check`. -/
noncomputable def recip (growth : String) (theta omega age : ℝ) : Num ℝ :=
  if age = 0 then .pinf
  else if growth = "loglogistic" then .fin (1 + theta ^ omega * age ^ (-omega))
  else 1 / .fin (1 - Real.exp (-((age / theta) ^ omega)))

/-- The cases of `_G` without a value (`development/clark.py:65-71`): the `ValueError` for an unknown
curve is built but not raised, and the next line reads the unbound `out`.  A power of a negative
age is outside the model. -/
noncomputable def check (growth : String) (ages : List ℝ) : Except Err Unit :=
  if growth ≠ "loglogistic" ∧ growth ≠ "weibull" then .error .unboundLocalError
  else if ∃ a ∈ ages, a < 0 then .error .unmodelled
  else .ok ()

/-- The curve `G_` (`development/clark.py:73-95`) at one age. -/
noncomputable def curve (growth : String) (theta omega age : ℝ) : Num ℝ :=
  1 / recip growth theta omega age

/-- `age_interval` (`development/clark.py:128`). -/
def interval : Grain → ℝ
  | .Y => 12 | .S => 6 | .Q => 3 | .M => 1

/-- `age_offset` (`development/clark.py:127`). -/
noncomputable def offset : Grain → ℝ
  | .Y => 6 | .S => 3 | .Q => 1.5 | .M => 0.5

/-- `latest_age - age_offset` (`development/clark.py:134-135`): the ages of the latest diagonal. -/
noncomputable def latestAges (t : Tri ℝ) : Except Err (List ℝ) := do
  let l ← t.getVal (· == t.vd)
  .ok (l.ddims.map fun a : Int => (a : ℝ) - offset t.dgrain)

/-- `ldf_` (`development/clark.py:185-195`) for the parameters `theta i c`, `omega i c` that the
optimiser returned, with the labels of the link ratios. -/
noncomputable def ldf (growth : String) (theta omega : Nat → Nat → ℝ) (t : Tri ℝ) :
    Except Err (Tri ℝ) := do
  let lr ← t.linkRatio
  let ages ← latestAges t
  check growth ages
  .ok { t with
    values :=
      { d0 := t.values.d0
        d1 := t.values.d1
        d2 := 1
        d3 := ages.length - 1
        get := fun i c _ d => recip growth (theta i c) (omega i c) (ages.getD d 0) /
          recip growth (theta i c) (omega i c) (ages.getD (d + 1) 0) }
    ddims := lr.ddims
    odims := t.odims.take 1
    isPattern := true
    isCum := some false
    vd := ultVal }

/-- `incremental_fits_` (`development/clark.py:203-218`), a numpy array: ultimates from the curve at the
latest age of each origin, times the increments of the curve, on the known cells. -/
noncomputable def fits (growth : String) (theta omega : Nat → Nat → ℝ) (t : Tri ℝ) :
    Except Err (Arr ℝ) := do
  let ld ← t.latestDiagonal
  match ld with
  | .scalar _ => .error .attributeError
  | .tri ld => do
    let ages ← latestAges t
    let ends := t.ddims.map fun a : Int => (a : ℝ) - offset t.dgrain
    let starts := ends.map fun a => max (a - interval t.dgrain) 0
    check growth (ages ++ ends ++ starts)
    let g : Arr ℝ :=
      { d0 := t.values.d0
        d1 := t.values.d1
        d2 := ages.length
        d3 := 1
        get := fun i c o _ => recip growth (theta i c) (omega i c) (ages.reverse.getD o 0) }
    let ultimate ← g.zip (· * ·) ld.values
    let incr : Arr ℝ :=
      { d0 := t.values.d0
        d1 := t.values.d1
        d2 := 1
        d3 := ends.length
        get := fun i c _ d => 1 / recip growth (theta i c) (omega i c) (ends.getD d 0) -
          1 / recip growth (theta i c) (omega i c) (starts.getD d 0) }
    let u ← incr.zip (· * ·) ultimate
    u.zip (· * ·)
      { d0 := 1
        d1 := 1
        d2 := t.odims.length
        d3 := t.ddims.length
        get := fun _ _ o d => t.nanTri o d }

end Clark
end CL
