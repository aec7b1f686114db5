import Verif.Model.Tri

set_option linter.unusedSectionVars false

/-!
# Assignment to a block of cells: `iloc[…] = v`, `loc[…] = v`, `at[…] = v` (`core/slice.py`), dense backend

`a[k0, k1, k2, k3] = v` of numpy with slices and lists of positions (external library, assumed): every
slice is an axis of the selection; all lists together are a single axis of it, in the place of the first
list when the lists are next to each other and in front otherwise.  The value is broadcast to the shape of
the selection, leading axes of length one being removed when it has too many; of two values for one cell
the later one stays.
-/

namespace CL
variable {K : Type} [Field K] [LinearOrder K] [IsStrictOrderedRing K]

/-- The value of an assignment: a number or the values of a triangle. -/
inductive SetVal (K : Type) where
  | num (x : Num K)
  | arr (a : Arr K)

/-- One axis of the selection: the axes of the array it runs through, with their positions. -/
structure Slot where
  axes : List (Nat × List Nat)
  len : Nat

/-- The number of an array axis that belongs to the `k`-th place of the slot; a list of one is repeated. -/
def Slot.pos (ps : List Nat) (k : Nat) : Nat := ps.getD (if ps.length = 1 then 0 else k) 0

/-- The last place of the slot that is at the cell `x`. -/
def Slot.find (s : Slot) (x : Nat → Nat) : Option Nat :=
  (List.range s.len).reverse.find? fun k => s.axes.all fun p => decide (Slot.pos p.2 k = x p.1)

/-- The length lists are broadcast to; lists of different lengths do not go together (`IndexError`). -/
def commonLen (ls : List (List Nat)) : Except Err Nat :=
  let n := ((ls.map List.length).find? fun n => n ≠ 1).getD 1
  if ls.all fun l => decide (l.length = 1 ∨ l.length = n) then .ok n else .error .indexError

/-- The axes of the selection: `sl` the slices, `ls` the lists, each with the axis of the array. -/
def slots (sl ls : List (Nat × List Nat)) : Except Err (List Slot) :=
  let single := fun p : Nat × List Nat => (⟨[p], p.2.length⟩ : Slot)
  match ls with
  | [] => .ok (sl.map single)
  | (a, p) :: ls' => do
    let n ← commonLen (((a, p) :: ls').map Prod.snd)
    let g : Slot := ⟨(a, p) :: ls', n⟩
    let last := (((a, p) :: ls').map Prod.fst).getLast?.getD a
    if last = a + ls'.length then
      .ok ((sl.filter fun q => decide (q.1 < a)).map single ++ [g] ++
        (sl.filter fun q => decide (a < q.1)).map single)
    else .ok (g :: sl.map single)

/-- The value at place `ks` of a selection of shape `ns`, when the shapes go together. -/
def SetVal.fits (v : SetVal K) (ns : List Nat) : Bool :=
  match v with
  | .num _ => true
  | .arr a =>
    let lead := 4 - ns.length
    ([a.d0, a.d1, a.d2, a.d3].take lead).all (fun d => decide (d = 1)) &&
      (([a.d0, a.d1, a.d2, a.d3].drop lead).zip ns).all fun p => decide (p.1 = p.2 ∨ p.1 = 1)

/-- The value at place `ks` of the selection. -/
def SetVal.cell (v : SetVal K) (ks : List Nat) : Num K :=
  match v with
  | .num x => x
  | .arr a =>
    let js := List.replicate (4 - ks.length) 0 ++ ks
    let at' := fun d k => if d = 1 then 0 else js.getD k 0
    a.get (at' a.d0 0) (at' a.d1 1) (at' a.d2 2) (at' a.d3 3)

/-- The number of axis `k` of a cell. -/
def cellAt (i c o d : Nat) : Nat → Nat
  | 0 => i
  | 1 => c
  | 2 => o
  | _ => d

/-- Writing `v` through the slots. -/
def writeSlots (a : Arr K) (ss : List Slot) (v : SetVal K) : Except Err (Arr K) :=
  if v.fits (ss.map Slot.len) then
    .ok { a with
      get := fun i c o d =>
        match ss.mapM fun s => s.find (cellAt i c o d) with
        | some ks => v.cell ks
        | none => a.get i c o d }
  else .error .valueError

/-- The positions of a key on its axis, as a slice or as a list. -/
def Key.split (ax n : Nat) (k : Key) : Except Err (List (Nat × List Nat) × List (Nat × List Nat)) := do
  let ps ← k.positions n
  if k.isSlice then .ok ([(ax, ps)], []) else .ok ([], [(ax, ps)])

/-- `a[k0, k1, k2, k3] = v`. -/
def Arr.setItem (a : Arr K) (k0 k1 k2 k3 : Key) (v : SetVal K) : Except Err (Arr K) := do
  let p0 ← k0.split 0 a.d0
  let p1 ← k1.split 1 a.d1
  let p2 ← k2.split 2 a.d2
  let p3 ← k3.split 3 a.d3
  let ss ← slots (p0.1 ++ p1.1 ++ p2.1 ++ p3.1) (p0.2 ++ p1.2 ++ p2.2 ++ p3.2)
  writeSlots a ss v

namespace Tri

/-- `slice(item, item + 1) if type(item) is int else item` (`core/slice.py:63-65`). -/
def intToSlice : Key → Key
  | .int i => .slc ⟨some i, some (i + 1), none⟩
  | k => k

/-- `_LocBase.__setitem__` (`core/slice.py:58-66`). -/
def baseSet (t : Tri K) (ki kc ko kd : Key) (v : SetVal K) : Except Err (Tri K) := do
  let ki ← normalizeKey t.values.d0 (intToSlice ki)
  let kc ← normalizeKey t.values.d1 (intToSlice kc)
  let ko ← normalizeKey t.values.d2 (intToSlice ko)
  let kd ← normalizeKey t.values.d3 (intToSlice kd)
  let a ← t.values.setItem ki kc ko kd v
  .ok { t with values := a }

/-- `tri.iloc[i, c, o, d] = v` (`core/slice.py:178-179`): the key is normalised here and again in the base
class. -/
def ilocSet (t : Tri K) (ki kc ko kd : Key) (v : SetVal K) : Except Err (Tri K) := do
  let ki ← normalizeKey t.values.d0 ki
  let kc ← normalizeKey t.values.d1 kc
  let ko ← normalizeKey t.values.d2 ko
  let kd ← normalizeKey t.values.d3 kd
  t.baseSet ki kc ko kd v

/-- An element of a key of `loc`: `:` or labels. -/
inductive LocKey (α : Type) where
  | all
  | labels (l : List α)

/-- `other_key` (`core/slice.py:146-157`): `:` is left as it is, labels become the list of their positions;
a missing label is a `KeyError`.  A label occurs once in an axis. -/
def otherKey {α : Type} [DecidableEq α] (axis : List α) : LocKey α → Except Err Key
  | .all => .ok (.slc .all)
  | .labels l =>
    if l.all fun x => decide (x ∈ axis) then .ok (.lst (l.map fun x => (axis.idxOf x : Int))) else .error .keyError

/-- `index_key` (`core/slice.py:129-144`) for `:` and for lists of rows: always a list of positions. -/
def indexKey {α : Type} [DecidableEq α] (axis : List α) : LocKey α → Except Err Key
  | .all => .ok (.lst ((List.range axis.length).map fun i : Nat => (i : Int)))
  | .labels l =>
    if l.all fun x => decide (x ∈ axis) then .ok (.lst (l.map fun x => (axis.idxOf x : Int))) else .error .keyError

/-- `tri.loc[i, c, o, d] = v` (`core/slice.py:160-170`). -/
def locSet (t : Tri K) (ki : LocKey (List String)) (kc : LocKey String) (ko kd : LocKey Int) (v : SetVal K) :
    Except Err (Tri K) := do
  let ki ← indexKey t.kdims ki
  let kc ← otherKey t.vdims kc
  let ko ← otherKey t.odims ko
  let kd ← otherKey t.ddims kd
  t.baseSet ki kc ko kd v

/-- `tri.at[i, c, o, d] = v` (`core/slice.py:273-286,295-306`): a list of one position on every axis, `:` is a slice
without ends (`TypeError`). -/
def atSet (t : Tri K) (ki : LocKey (List String)) (kc : LocKey String) (ko kd : LocKey Int) (x : Num K) :
    Except Err (Tri K) := do
  let ki ← indexKey t.kdims ki
  let kc ← otherKey t.vdims kc
  let ko ← otherKey t.odims ko
  let kd ← otherKey t.ddims kd
  let one : Key → Except Err Unit := fun k =>
    match k with
    | .lst l => if l.length = 1 then .ok () else .error .valueError
    | _ => .error .typeError
  one ki
  one kc
  one ko
  one kd
  t.baseSet ki kc ko kd (.num x)

end Tri
end CL
