import Verif.Model.Development
import Verif.Model.Convert

/-!
# Development and valuation axes (`core/triangle.py:520-637`)

The code shifts the coordinates of a sparse array; here the same on the dense array, its coordinates
being those of the cells that are not NaN.
-/

namespace CL
namespace Tri
variable {K : Type} [Field K] [LinearOrder K] [IsStrictOrderedRing K]

/-- `is_ultimate` (`core/triangle.py:400-402`): a valuation in or after 2261. -/
def isUltimate (t : Tri K) : Bool := t.valuations.any fun v => decide (12 * 2261 ≤ v)

/-- Origin and development coordinates of the cells stored by the sparse array. -/
def coords (t : Tri K) : List (Nat × Nat) :=
  (List.range t.values.d2).flatMap fun o => ((List.range t.values.d3).filter fun d =>
    (List.range t.values.d0).any fun i => (List.range t.values.d1).any fun c =>
      !(t.values.get i c o d).isNan).map fun d => (o, d)

/-- `_val_dev` (`core/triangle.py:528-555`), `_dstep` being the table `valOffset`.  Coordinates
outside the new shape raise when the array is made dense. -/
def valDev (t : Tri K) (sign : Int) : Except Err (Tri K) :=
  match Dev.valOffset t.dgrain t.ograin with
  | none => .error .keyError
  | some scale =>
    if t.values.d2 = 0 then .error .valueError
    else
      let cs := t.coords
      let top : Int := ((t.values.d2 - 1 : Nat) : Int) * scale
      let off := fun o : Nat => if cs.all (fun p => p.1 == 0) then top else (o : Int) * scale * sign
      let xs := cs.map fun p => (p.2 : Int) + off p.1
      let nv := (Dev.knownValuations t).length
      let nd := if nv = 1 ∧ sign = -1 then t.odims.length else nv
      let slide : Int := match xs.min? with
        | some m => if m < 0 then - min m (-top) else 0
        | none => 0
      let nd : Nat := match xs.min?, xs.max? with
        | some m, some x => if m < 0 then max (x + slide + 1).toNat nd else nd
        | _, _ => nd
      if xs.any fun x => decide ((nd : Int) ≤ x + slide) then .error .indexError
      else .ok { t with
        values := ⟨t.values.d0, t.values.d1, t.values.d2, nd, fun i c o k =>
          let d := (k : Int) - off o - slide
          if 0 ≤ d ∧ d < t.values.d3 then t.values.get i c o d.toNat else .nan⟩ }

/-- `dev_to_val` (`core/triangle.py:557-598`). -/
def devToVal (t : Tri K) : Except Err (Tri K) :=
  if t.isVal then .ok t
  else if t.isFull then do
    let obj ← if t.isCum = some true then t.cumToIncr else pure t
    let obj ← if t.isUltimate then do
        let ult ← obj.ilocD (.from (-1))
        let obj ← obj.ilocD (.upto (-1))
        let w ← obj.valDev 1
        let w : Tri K := { w with ddims := Dev.knownValuations w, isVal := true }
        concat .development [w, { ult with ddims := [ult.valuation 0 0], isVal := true }]
      else do
        let w ← obj.valDev 1
        pure { w with ddims := Dev.knownValuations w, isVal := true }
    pure (if t.isCum = some true then obj.incrToCum else obj)
  else do
    let w ← t.valDev 1
    .ok { w with ddims := Dev.knownValuations w, isVal := true }

/-- `val_to_dev` (`core/triangle.py:600-637`). -/
def valToDev (t : Tri K) : Except Err (Tri K) :=
  if t.isVal = false then .ok t
  else do
    let ult := t.isUltimate && decide (1 < t.values.d3)
    let src ← if ult then t.ilocD (.upto (-1)) else pure t
    let obj ← src.valDev (-1)
    let o0 := if t.ddims.length = 1 ∧ t.ddims.getD 0 0 = t.vd then
      (obj.odims.getLast?).getD 0 else obj.odims.getD 0 0
    let lag := obj.valuation 0 0 - o0 + 1
    let obj : Tri K := { obj with
      ddims := (List.range obj.values.d3).map fun k : Nat => (k : Int) * t.dgrain.months + lag
      isVal := false }
    if ult then do
      let last ← obj.sliceOrigin (obj.odims.map fun o => decide (some o = obj.odims.max?))
      let k := ((List.range last.ddims.length).filter fun d =>
        decide (last.valuation 0 d ≤ last.vd)).length
      let obj ← obj.ilocD (.upto k)
      let u ← t.ilocD (.from (-1))
      concat .development [obj, { u with ddims := [9999], isVal := false }]
    else .ok obj

end Tri
end CL
