import Verif.Model.ValDev
import Verif.Model.Groupby

/-!
# Changing the grain (`core/triangle.py:639-757`)

Only `trailing=False` and periods that close in December.
-/

namespace CL
namespace Tri
variable {K : Type} [Field K] [LinearOrder K] [IsStrictOrderedRing K]

/-- The letters of the grains. -/
def grainOf : Char → Option Grain
  | 'Y' => some .Y | 'S' => some .S | 'Q' => some .Q | 'M' => some .M | _ => none

/-- The table `valid` (`core/triangle.py:662-667`). -/
def validGrain : Grain → List Grain
  | .Y => [.Y]
  | .Q => [.Q, .S, .Y]
  | .M => [.Y, .S, .Q, .M]
  | .S => [.S, .Y]

/-- `valid["M"].index(g)`. -/
def grainRank : Grain → Nat
  | .Y => 0 | .S => 1 | .Q => 2 | .M => 3

/-- The group of each origin, as the first month of its period: `resample` of the origins to the
frequency of the new grain (`core/triangle.py:692-709`).  Years and quarters are those of the
calendar; half years are pairs of quarters counted from the quarter of the first origin. -/
def coarseOrigins (new : Grain) (odims : List Int) : List Int :=
  let a := odims.getD 0 0
  let anchor := match new with
    | .Y => a - a % 12
    | .S | .Q => a - a % 3
    | .M => a
  odims.map fun o => anchor + new.months * ((o - anchor) / new.months)

/-- First month of the period of the grain that contains the month, `to_period(freq)`; the frequency
of half years is `2Q`, whose periods start in any quarter. -/
def periodStart (g : Grain) (m : Int) : Int :=
  match g with
  | .Y => m - m % 12
  | .S | .Q => m - m % 3
  | .M => m

/-- The columns put before the first valuation when the new first origin starts before the old one
(`core/triangle.py:711-735`).  `S-DEC` is not a frequency of pandas and raises, and so does the
frequency built when the new origins are taken for months.  The new columns are labelled by the
starts of their periods. -/
def prependZeros (dgrain : Grain) (obj : Tri K) : Except Err (Tri K) :=
  if dgrain = .S ∨ (dgrain ≠ .M ∧ obj.ograin = .M) then .error .valueError
  else
    let v0 := obj.ddims.getD 0 0
    let o0 := obj.odims.getD 0 0
    if 1 < obj.ddims.length ∧ periodStart obj.ograin o0 ≠ periodStart dgrain v0 then do
      let w : Int := dgrain.months
      let k := (v0 / w - o0 / w).toNat
      let addl ← obj.ilocD (.from (-(k : Int)))
      let addl : Tri K := { addl with
        ddims := (List.range k).map fun j : Nat => w * (o0 / w + j)
        values := addl.values.map (· * 0) }
      let out ← concat .development [addl, obj]
      .ok { out with values := out.values.map Num.numToNan }
    else .ok obj

/-- The positions kept on the development axis: every `step`-th one counted back from the last
(`core/triangle.py:738-742`). -/
def keptColumns (len step : Nat) : List Nat :=
  ((List.range ((len + step - 1) / step)).map fun j => len - 1 - j * step).reverse

/-- The group of each development: the kept position at or after it (`core/triangle.py:748`). -/
def columnGroups (len step : Nat) : List Nat :=
  match keptColumns len step with
  | [] => []
  | d0 :: ds => List.replicate (d0 + 1) d0 ++ ds.flatMap fun d => List.replicate step d

/-- The development axis to a coarser grain (`core/triangle.py:737-752`). -/
def coarsenDev (old new : Grain) (obj : Tri K) : Except Err (Tri K) :=
  if old ≠ new ∧ 1 < obj.values.d3 then
    match Dev.valOffset old new with
    | none => .error .keyError
    | some step => do
      let len := obj.ddims.length
      let d := keptColumns len step
      let obj ←
        if obj.isCum = some true then obj.ilocD (.lst (d.map fun j : Nat => (j : Int)))
        else do
          let g ← obj.groupbyDevelopmentSum (columnGroups len step)
          pure { g with
            ddims := d.map (obj.ddims.getD · 0)
            isVal := true }
      .ok { obj with dgrain := new }
  else .ok obj

/-- `grain` with the two letters already read (`core/triangle.py:669-757`). -/
def grainTo (t : Tri K) (og dg : Grain) : Except Err (Tri K) :=
  if og ∉ validGrain t.ograin ∨ dg ∉ validGrain t.dgrain then .error .valueError
  else if t.isCum = none ∧ t.dgrain ≠ dg ∧ 1 < t.values.d3 then .error .attributeError
  else if grainRank dg < grainRank og then .error .valueError
  else do
    let obj ← t.devToVal
    let obj ←
      if og ≠ t.ograin then do
        let g ← obj.groupbyOriginSum (coarseOrigins og t.odims)
        prependZeros t.dgrain g
      else pure obj
    let obj ← coarsenDev t.dgrain dg obj
    if t.isVal then obj.devToVal else obj.valToDev

/-- `tri.grain(grain)` (`core/triangle.py:639-757`): the origin grain is the second character, `H`
standing for `S`, and the development grain the last one. -/
def grain (t : Tri K) (s : List Char) : Except Err (Tri K) :=
  match s.getLast? with
  | none => .error .indexError
  | some c =>
    match (s[1]?).bind fun x => grainOf (if x = 'H' then 'S' else x), grainOf c with
    | some og, some dg => t.grainTo og dg
    | _, _ => .error .valueError

end Tri
end CL
