import Verif.Model.Groupby
import Verif.Model.Filter

/-!
# shift, fillna, dropna, dense backend
-/

namespace CL
namespace Tri
variable {K : Type} [Field K] [LinearOrder K] [IsStrictOrderedRing K]

/-- `rename("origin" | "development", labels)` (`core/pandas.py:273-297`,
`core/triangle.py:345-354,377-380`): new labels of the same number.
Simplification: origin labels are periods whose first instant is the entry of `odims`. -/
def relabelAxis (t : Tri K) (ax : Axis) (l : List Int) : Except Err (Tri K) :=
  match ax with
  | .origin => if l.length = t.odims.length then .ok { t with odims := l } else .error .valueError
  | .development =>
    if l.length = t.ddims.length then .ok { t with ddims := l } else .error .valueError
  | _ => .error .unmodelled

/-- Origin or development labels. -/
def dateLabels (t : Tri K) (ax : Axis) : List Int :=
  match ax with
  | .origin => t.odims
  | _ => t.ddims

/-- One step towards the start (`core/triangle.py:911-927`): all but the first slice under the
labels of all but the last, followed by the last slice times 0. -/
def shiftLeft (t : Tri K) (ax : Axis) : Except Err (Tri K) := do
  let a ← t.ilocAx ax (.from 1)
  let a ← a.relabelAxis ax (t.dateLabels ax).dropLast
  let b ← t.ilocAx ax (.from (-1))
  let b ← b.mulArr (Arr.scalar 0)
  concat ax [a, b]

/-- One step towards the end (`core/triangle.py:928-945`). -/
def shiftRight (t : Tri K) (ax : Axis) : Except Err (Tri K) := do
  let a ← t.ilocAx ax (.upto 1)
  let a ← a.mulArr (Arr.scalar 0)
  let b ← t.ilocAx ax (.upto (-1))
  let b ← b.relabelAxis ax (t.dateLabels ax).tail
  concat ax [a, b]

/-- The recursion of `shift` (`core/triangle.py:946-949`). -/
def shiftSteps (step : Tri K → Except Err (Tri K)) : Nat → Tri K → Except Err (Tri K)
  | 0, t => .ok t
  | n + 1, t => do
    let u ← step t
    shiftSteps step n u

/-- `shift(periods, axis)` (`core/triangle.py:885-949`).  The development labels of valuation
triangles and patterns are strings, which `rename` stores as they are; this is not modelled. -/
def shift (t : Tri K) (periods : Int) (ax : Axis) : Except Err (Tri K) :=
  if ax = .index ∨ ax = .columns then .error .attributeError
  else if periods = 0 then .ok t
  else if ax = .development ∧ (t.isVal || t.isPattern) = true then .error .unmodelled
  else if periods > 0 then shiftSteps (fun t => t.shiftLeft ax) periods.natAbs t
  else shiftSteps (fun t => t.shiftRight ax) periods.natAbs t

/-- `fillna(v)` for a number (`core/pandas.py:186-214`): `frame = self + v*0`, the fill is
`(nan_to_num(frame) == 0) * (self*0 + v)`, the result `frame + fill`. -/
def fillna (t : Tri K) (v : K) : Except Err (Tri K) := do
  let frame ← t.addArr (Arr.scalar (Num.fin v * 0))
  let z ← t.mulArr (Arr.scalar 0)
  let z ← z.addArr (Arr.scalar (.fin v))
  let m := frame.values.map fun x => Num.ofBool (x.nanToNum.eqb 0)
  let fill ← z.mulArr m
  let s ← frame.add fill
  .ok { t with values := s.values }

/-- The triangle summed over index and columns, `self.sum(axis=0).sum(axis=1)`; a triangle with a
single cell gives a number, which has no `sum(axis=1)`. -/
def grandSum (t : Tri K) : Except Err (Tri K) :=
  match t.sum .index with
  | .scalar _ => .error .valueError
  | .tri u =>
    match u.sum .columns with
    | .scalar _ => .error .valueError
    | .tri v => .ok v

/-- Origins between the first and the last one whose mask is set
(`(self.origin >= min_odim) & (self.origin <= max_odim)`). -/
def spanMask (l : List Int) (m : List Bool) : List Bool :=
  let a := l.getD (m.findIdx id) 0
  let b := l.getD (m.length - 1 - m.reverse.findIdx id) 0
  l.map fun x => decide (a ≤ x) && decide (x ≤ b)

/-- Labels between the smallest and the largest one whose mask is set
(`(self.development >= ddim.min()) & (self.development <= ddim.max())`); without such a label
the comparisons are with `NaN`. -/
def labelMask (l : List Int) (m : List Bool) : List Bool :=
  match (maskLabels l m).min?, (maskLabels l m).max? with
  | some a, some b => l.map fun x => decide (a ≤ x) && decide (x ≤ b)
  | _, _ => l.map fun _ => false

/-- `dropna` (`core/pandas.py:163-184`), for triangles that are not patterns.  Origins are compared
as periods, developments as labels. -/
def dropna (t : Tri K) : Except Err (Tri K) := do
  let s ← t.grandSum
  let orig := (List.range s.values.d2).map fun o =>
    !(∑ d ∈ Finset.range s.values.d3, (s.values.get 0 0 o d).nan0).eqb 0
  if orig.contains true = false then .error .valueError
  else
    let om := spanMask s.odims orig
    if s.values.d3 ≠ 1 then
      let dev := (List.range s.values.d3).map fun d =>
        !(∑ o ∈ Finset.range s.values.d2, (s.values.get 0 0 o d).nan0).eqb 0
      let u ← t.sliceDev (labelMask s.ddims dev)
      u.sliceOrigin om
    else t.sliceOrigin om

end Tri
end CL
