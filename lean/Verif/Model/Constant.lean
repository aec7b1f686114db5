import Verif.Model.ValDev

/-!
# External patterns (`development/constant.py`), dense backend

`patterns` is a dictionary; the callable form is not modelled.
-/

namespace CL
namespace Tri
variable {K : Type} [Field K] [LinearOrder K] [IsStrictOrderedRing K]

/-- `[float(self.patterns[item]) for item in obj.ddims]` (`development/constant.py:66`). -/
def lookupAll (patterns : Int → Option K) : List Int → Except Err (List K)
  | [] => .ok []
  | a :: l => match patterns a with
    | none => .error .keyError
    | some x => do
      let r ← lookupAll patterns l
      .ok (x :: r)

/-- The row of age-to-age factors (`development/constant.py:66-69`). -/
def constantRow (cdf : Bool) (l : List K) : Arr K :=
  ⟨1, 1, 1, l.length, fun _ _ _ d =>
    if cdf = true ∧ d + 1 < l.length then .fin (l.getD d 0) / .fin (l.getD (d + 1) 0)
    else .fin (l.getD d 0)⟩

/-- `DevelopmentConstant.fit` (`development/constant.py:42-75`) without grouping; `cdf` says whether
`style == "cdf"`. -/
def developmentConstant (t : Tri K) (patterns : Int → Option K) (cdf : Bool) :
    Except Err (Tri K) := do
  let x ← (if t.isCum = some false then t.incrToCum else t).valToDev
  let obj ← x.iloc (.slc .all) (.slc .all) (.upto 1) (.upto (-1))
  let obj ← obj.mulArr (Arr.scalar 0)
  let obj ← obj.addArr (Arr.scalar 1)
  let l ← lookupAll patterns obj.ddims
  let obj ← obj.mulArr (constantRow cdf l)
  .ok { obj with
    isPattern := true
    isCum := some false
    vd := ultVal }

end Tri
end CL
