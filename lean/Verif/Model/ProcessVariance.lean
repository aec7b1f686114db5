import Verif.Model.Full
import Verif.Model.Mack

set_option linter.unusedSectionVars false

/-!
# Process variance of bootstrap samples (`adjustments/bootstrap.py:256-270`, `methods/base.py:143-151`), dense backend

A standard gamma draw for the cell `(i, c, o, d)` is `draw i c o d shape`, an arbitrary function: the generator is not
modelled.  `scale_` is a number for one column and an array of one number per column otherwise
(`adjustments/bootstrap.py:80`); both are lists here.
-/

namespace CL
namespace Boot
variable {K : Type} [Field K] [LinearOrder K] [IsStrictOrderedRing K]

/-- `random_state` of the estimator. -/
inductive Seed
  | unset
  | int (k : Int)
  | generator

/-- The seed of the draws (`adjustments/bootstrap.py:262-264`); adding one to a generator is a `TypeError`. -/
def Seed.process : Seed → Except Err (Option Int)
  | .unset => .ok none
  | .int k => .ok (if k = 0 then none else some (k + 1))
  | .generator => .error .typeError

/-- `gamma(shape=abs(x) / scale, scale=scale) * sign(nan_to_num(x))` (`adjustments/bootstrap.py:265-267`); a shape of zero draws
zero, and one that is not a number draws NaN.  Simplification: so does an infinite shape. -/
def noise (std : K → K) (scale : K) : Num K → Num K
  | .fin a => .fin (if a = 0 then 0 else scale * std (|a| / scale) * if 0 < a then 1 else -1)
  | _ => .nan

/-- The scale that `abs(lower_tri.values) / self.scale_` divides age `d` by: numpy aligns the array with the last axis. -/
def scaleAt (scales : List K) (d : Nat) : K := scales.getD (if scales.length = 1 then 0 else d) 0

/-- `_get_process_variance` (`adjustments/bootstrap.py:256-270`) of the triangle `x` with `scale_` for the full triangle `full`.
Scales that are not positive are not modelled. -/
def processVariance (x full : Tri K) (scales : List K) (draw : Nat → Nat → Nat → Nat → K → K) : Except Err (Tri K) := do
  let a ← full.cumToIncr
  let b ← x.cumToIncr
  let lower ← a.sub b
  if scales.length ≠ 1 ∧ scales.length ≠ lower.values.d3 then .error .valueError
  else if scales.any (decide <| · ≤ 0) then .error .unmodelled
  else
    let lower : Tri K := { lower with values := { lower.values with
      get := fun i c o d => noise (draw i c o d) (scaleAt scales d) (lower.values.get i c o d) } }
    let r ← lower.add b
    .ok r.incrToCum

/-- What a method keeps. -/
structure Varied (K : Type) where
  /-- `ultimate_` -/
  ultimate : Tri K
  /-- the full triangle with process variance -/
  noisy : Tri K
  /-- `process_variance_` -/
  variance : Tri K

/-- `_include_process_variance` (`methods/base.py:143-151`) of a method fitted to the cumulative triangle `t` with the pattern `f` and
the ultimate `u`; `x` is the triangle the process variance was attached to (`adjustments/bootstrap.py:252`). -/
def includeVariance (t f u x : Tri K) (scales : List K) (seed : Seed)
    (gen : Option Int → Nat → Nat → Nat → Nat → K → K) : Except Err (Varied K) := do
  let full ← Tri.fullTriangle t f u true
  let s ← seed.process
  let obj ← processVariance x full scales (gen s)
  let last ← obj.values.sliceD (some (-1)) none
  let v ← obj.sub full
  .ok ⟨{ u with values := last }, obj, v⟩

end Boot
end CL
