import Verif.Model.Grain
import Verif.Model.Reshape

set_option linter.unusedSectionVars false

/-!
# Triangle objects: identity, copies and assignment (`core/triangle.py`, `core/slice.py`), dense backend

The other modules model what a method returns.  Here a triangle is an object on a heap: it has labels
and flags of its own, a reference to the numpy array with its values and a reference to the dictionary
of its virtual columns.  A method may rebind the references, write into the array or the dictionary, or
only rebind the local name `self`.
-/

namespace CL
namespace Mem
variable {K : Type} [Field K] [LinearOrder K] [IsStrictOrderedRing K]

/-- A virtual column: a function of the triangle. -/
abbrev VFun (K : Type) := Tri K → Except Err (Tri K)

/-- The dictionary `virtual_columns.columns` (`core/slice.py:340-360`). -/
abbrev VDict (K : Type) := List (String × VFun K)

/-- A triangle object: `__dict__` with references.  The field `values` of `labels` is not used. -/
structure Obj (K : Type) where
  labels : Tri K
  buf : Nat
  dict : Nat

/-- The heap: objects, arrays and dictionaries by address; addresses from the counters on are free. -/
structure Heap (K : Type) where
  obj : Nat → Obj K
  buf : Nat → Arr K
  dict : Nat → VDict K
  nobj : Nat
  nbuf : Nat
  ndict : Nat

/-- The triangle an object is, with the current content of its array. -/
def Heap.view (h : Heap K) (r : Nat) : Tri K := { (h.obj r).labels with values := h.buf (h.obj r).buf }

/-- The virtual columns of an object. -/
def Heap.vcols (h : Heap K) (r : Nat) : VDict K := h.dict (h.obj r).dict

/-- `d[k] = f`. -/
def VDict.set : VDict K → String → VFun K → VDict K
  | [], k, f => [(k, f)]
  | p :: d, k, f => if p.1 = k then (k, f) :: d else p :: VDict.set d k f

/-- `virtual_columns.pop(k)` (`core/slice.py:355-357`). -/
def VDict.pop (d : VDict K) (k : String) : VDict K := d.filter fun p => p.1 ≠ k

/-- `x[key]` for a column name (`core/slice.py:193-203`): a virtual column is computed from the triangle
and renamed, otherwise the column is sliced out. -/
def Heap.column (h : Heap K) (r : Nat) (key : String) : Except Err (Tri K) :=
  match (h.vcols r).find? fun p => p.1 == key with
  | some p => do
    let t ← p.2 (h.view r)
    if t.vdims.length = 1 then .ok { t with vdims := [key] } else .error .valueError
  | none =>
    let t := h.view r
    if t.vdims.contains key then
      t.iloc (.slc .all) (.lst [(t.vdims.idxOf key : Int)]) (.slc .all) (.slc .all)
    else .error .valueError

/-- `obj.attr = …` on the object at `r`. -/
def Heap.setObj (h : Heap K) (r : Nat) (o : Obj K) : Heap K :=
  { h with obj := fun q => if q = r then o else h.obj q }

/-- Writing into an array in place. -/
def Heap.write (h : Heap K) (b : Nat) (a : Arr K) : Heap K :=
  { h with buf := fun q => if q = b then a else h.buf q }

/-- Writing into a dictionary in place. -/
def Heap.writeDict (h : Heap K) (e : Nat) (d : VDict K) : Heap K :=
  { h with dict := fun q => if q = e then d else h.dict q }

/-- `obj.values = a` with a new array. -/
def Heap.setValues (h : Heap K) (r : Nat) (a : Arr K) : Heap K :=
  let o := h.obj r
  ({ (h.write h.nbuf a) with nbuf := h.nbuf + 1 } : Heap K).setObj r { o with buf := h.nbuf }

/-- `VirtualColumns(self, columns)` in `_set_slicers` (`core/slice.py:266-270,341-343`): an empty
dictionary is replaced by a new one, another is kept and thereby shared. -/
def Heap.setSlicers (h : Heap K) (r : Nat) : Heap K :=
  if (h.vcols r).isEmpty then
    ({ (h.writeDict h.ndict []) with ndict := h.ndict + 1 } : Heap K).setObj r
      { h.obj r with dict := h.ndict }
  else h

/-- `copy` (`core/triangle.py:837-842`): a new object with the attributes of the old one, its own
slicers and its own array.  The new object is at the address `nobj`. -/
def Heap.copy (h : Heap K) (r : Nat) : Heap K :=
  let n := h.nobj
  let h1 : Heap K := ({ h with nobj := h.nobj + 1 } : Heap K).setObj n (h.obj r)
  let h2 := h1.setSlicers n
  h2.setValues n (h2.buf (h2.obj n).buf)

/-- A new object that descends from `r` by copies and slices: labels and values are those of `t`. -/
def Heap.derive (h : Heap K) (r : Nat) (t : Tri K) : Heap K :=
  let n := h.nobj
  let h1 := h.copy r
  (h1.setObj n { h1.obj n with labels := t }).setValues n t.values

/-- The value assigned to a column. -/
inductive ColVal (K : Type) where
  | tri (t : Tri K)
  | num (x : Num K)

/-- The array of an assigned value, as it broadcasts. -/
def ColVal.arr : ColVal K → Arr K
  | .tri t => t.values
  | .num x => Arr.scalar x

/-- `self.values[:, i:i+1] = value` with numpy's rule of assignment. -/
def assignCol (a : Arr K) (j : Nat) (v : Arr K) : Except Err (Arr K) :=
  if (v.d0 = a.d0 ∨ v.d0 = 1) ∧ v.d1 = 1 ∧ (v.d2 = a.d2 ∨ v.d2 = 1) ∧ (v.d3 = a.d3 ∨ v.d3 = 1) then
    .ok { a with
      get := fun i c o d =>
        if c = j then v.get (Arr.bix v.d0 a.d0 i) 0 (Arr.bix v.d2 a.d2 o) (Arr.bix v.d3 a.d3 d)
        else a.get i c o d }
  else .error .valueError

/-- The array after appending a column (`core/slice.py:239-245`): the columns of a triangle of the same
shape, otherwise those of `self.iloc[:, 0] * 0 + value`. -/
def appendCol (t : Tri K) (v : ColVal K) : Except Err (Arr K) :=
  let fallback : Except Err (Arr K) := do
    let z ← t.iloc (.slc .all) (.int 0) (.slc .all) (.slc .all)
    let z ← z.mulArr (Arr.scalar 0)
    let s ← match v with
      | .tri u => z.add u
      | .num x => z.addArr (Arr.scalar x)
    Arr.cat2 .columns t.values s.values
  match v with
  | .num _ => fallback
  | .tri u =>
    match Arr.cat2 .columns t.values u.values with
    | .ok a => .ok a
    | .error _ => fallback

/-- The part of `__setitem__` after the virtual columns were dealt with (`core/slice.py:219-245`).  The
name of a new column is appended to `vdims` before the values are looked at. -/
def Heap.storeCol (h : Heap K) (r : Nat) (key : String) (v : ColVal K) : Heap K × Except Err Nat :=
  let t := h.view r
  if t.vdims.contains key then
    match assignCol t.values (t.vdims.idxOf key) v.arr with
    | .ok a => (h.write (h.obj r).buf a, .ok r)
    | .error e => (h, .error e)
  else
    let o := h.obj r
    let h1 := h.setObj r { o with labels := { o.labels with vdims := o.labels.vdims ++ [key] } }
    match appendCol (h1.view r) v with
    | .ok a => (h1.setValues r a, .ok r)
    | .error e => (h1, .error e)

/-- `a[i, c, o, d] = v`. -/
def setCell (a : Arr K) (i c o d : Nat) (v : Num K) : Arr K :=
  { a with
    get := fun i' c' o' d' => if i' = i ∧ c' = c ∧ o' = o ∧ d' = d then v else a.get i' c' o' d' }

/-- A statement of a program that works on triangle objects. -/
inductive Cmd (K : Type) where
  /-- `x.copy()` -/
  | copy (r : Nat)
  /-- `x.iloc[i, c, o, d] = v`, `x.iat[i, c, o, d] = v` -/
  | cell (r i c o d : Nat) (v : Num K)
  /-- `x[key] = value` -/
  | column (r : Nat) (key : String) (v : ColVal K)
  /-- `x[key] = f` with a callable -/
  | virtual (r : Nat) (key : String) (f : VFun K)
  /-- `x.columns = names`, `x.rename("columns", names)` -/
  | rename (r : Nat) (names : List String)
  /-- `x.incr_to_cum(inplace=…)` -/
  | incrToCum (r : Nat) (inplace : Bool)
  /-- `x.cum_to_incr(inplace=…)` -/
  | cumToIncr (r : Nat) (inplace : Bool)
  /-- `x.fillna(v, inplace=…)` -/
  | fillna (r : Nat) (v : K) (inplace : Bool)
  /-- `x.grain(g, inplace=…)` -/
  | grain (r : Nat) (g : List Char) (inplace : Bool)

/-- `incr_to_cum(inplace=True)` (`core/triangle.py:439-476`): the values and the flag of `self` are
replaced. -/
def Heap.incrToCum (h : Heap K) (r : Nat) : Heap K × Except Err Nat :=
  let t := h.view r
  if t.isCum = some true then (h, .ok r)
  else
    let u := t.incrToCum
    let h1 := h.setValues r u.values
    (h1.setObj r { h1.obj r with labels := { (h1.obj r).labels with isCum := some true } }, .ok r)

/-- `cum_to_incr(inplace=True)` (`core/triangle.py:494-515`): for a pattern the values of `self` are
first replaced by their filled version; then the name `self` is rebound to the result of `concat`, and
the flag and the date are set on that. -/
def Heap.cumToIncr (h : Heap K) (r : Nat) : Heap K × Except Err Nat :=
  let t := h.view r
  if t.isCum = some false then (h, .ok r)
  else
    let h1 := if t.isPattern then h.setValues r (t.values.map fun x => x.nanToNum.numToValue 1) else h
    match t.cumToIncr with
    | .ok u => (h1.derive r u, .ok h1.nobj)
    | .error e => (h1, .error e)

/-- `fillna(v, inplace=True)` (`core/pandas.py:206-211`). -/
def Heap.fillna (h : Heap K) (r : Nat) (v : K) : Heap K × Except Err Nat :=
  match (h.view r).fillna v with
  | .ok u => (h.setValues r u.values, .ok r)
  | .error e => (h, .error e)

/-- One statement: the heap afterwards, also when it raises, and the object it returns. -/
def exec (h : Heap K) : Cmd K → Heap K × Except Err Nat
  | .copy r => (h.copy r, .ok h.nobj)
  | .cell r i c o d v =>
    let a := h.buf (h.obj r).buf
    if i < a.d0 ∧ c < a.d1 ∧ o < a.d2 ∧ d < a.d3 then
      (h.write (h.obj r).buf (setCell a i c o d v), .ok r)
    else (h, .error .indexError)
  | .column r key v =>
    (h.writeDict (h.obj r).dict (VDict.pop (h.vcols r) key)).storeCol r key v
  | .virtual r key f =>
    let a := h.buf (h.obj r).buf
    let nans : Tri K := { h.view r with
      vdims := (h.view r).vdims.take 1
      values := Arr.const a.d0 1 a.d2 a.d3 .nan }
    (h.writeDict (h.obj r).dict (VDict.set (h.vcols r) key f)).storeCol r key (.tri nans)
  | .rename r names =>
    if names.length = (h.obj r).labels.vdims.length then
      ((h.setObj r { h.obj r with labels := { (h.obj r).labels with vdims := names } }).setSlicers r, .ok r)
    else (h, .error .valueError)
  | .incrToCum r inplace => if inplace then h.incrToCum r else (h.copy r).incrToCum h.nobj
  | .cumToIncr r inplace => if inplace then h.cumToIncr r else (h.copy r).cumToIncr h.nobj
  | .fillna r v inplace => if inplace then h.fillna r v else (h.copy r).fillna h.nobj v
  | .grain r g _ =>
    -- both ways a new object is returned: `self = obj` only rebinds the local name
    match (h.view r).grain g with
    | .ok u => (h.derive r u, .ok h.nobj)
    | .error e => (h, .error e)

/-- The object a statement is applied to. -/
def Cmd.target : Cmd K → Nat
  | .copy r | .cell r .. | .column r .. | .virtual r .. | .rename r .. | .incrToCum r .. | .cumToIncr r ..
  | .fillna r .. | .grain r .. => r

/-- A program: a list of statements; an exception is caught and the program goes on. -/
def run (h : Heap K) (p : List (Cmd K)) : Heap K := p.foldl (fun h c => (exec h c).1) h

end Mem
end CL
