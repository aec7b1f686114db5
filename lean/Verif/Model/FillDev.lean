import Verif.Model.Development

/-!
# `fillna` of `Development` (`development/development.py:125-128`), dense backend

Only without `drop_high`, `drop_low`, `drop_above` and `drop_below`, which look at the link ratios of the filled array.
-/

namespace CL
namespace Dev
variable {K : Type} [Field K] [LinearOrder K] [IsStrictOrderedRing K]

/-- The triangle whose array is `tri_array` before `num_to_nan` (`development/development.py:125-128`). -/
def filled (t : Tri K) (v : Option K) : Except Err (Tri K) :=
  match v with
  | none => .ok t
  | some v => if v = 0 then .ok t else t.addArr (Arr.scalar (.fin v))

/-- `Development(fillna=v).fit(X).ldf_` (`development/development.py:103-192`): the factors are those of the filled array, the
weights and labels those of the triangle. -/
def fitFilled (t : Tri K) (p : Params K) (v : Option K) : Except Err (Tri K) :=
  if p.dropHigh.isSome || p.dropLow.isSome || p.dropAbove.isSome || p.dropBelow.isSome then .error .unmodelled
  else do
    let u ← filled t v
    let lr ← t.linkRatio
    let _ ← nPeriodsWeightFunc lr p.nPeriods
    let _ ← optWeight (p.drop.map (dropFunc lr))
    let _ ← optWeight (p.dropVal.map (dropValuationFunc lr))
    let w ← weights t p
    paramTri t (ldfArr u p w)

end Dev
end CL
