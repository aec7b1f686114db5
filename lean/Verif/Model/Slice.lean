import Verif.Model.Num

/-!
# Positional indexing of one axis

Python slices, `sparse._slicing.normalize_index` (external) and the two index rewriting steps of
`core/slice.py`.
-/

namespace CL

/-- A Python `slice(start, stop, step)` object. -/
structure PySlice where
  start : Option Int
  stop : Option Int
  step : Option Int
  deriving DecidableEq, Repr

/-- `slice(None)` -/
def PySlice.all : PySlice := ⟨none, none, none⟩

/-- The list `range(a, b, c)` of Python (`c ≠ 0`). -/
def pyRange (a b c : Int) : List Int :=
  let n : Int := if c > 0 then (b - a + c - 1) / c else (a - b + (-c) - 1) / (-c)
  (List.range n.toNat).map fun i : Nat => a + (i : Int) * c

/-- CPython's `slice.indices(n)`; a zero step is a `ValueError`. -/
def PySlice.indices (s : PySlice) (n : Nat) : Except Err (Int × Int × Int) :=
  let c := s.step.getD 1
  if c = 0 then .error .valueError
  else
    let lower : Int := if c < 0 then -1 else 0
    let upper : Int := if c < 0 then n - 1 else n
    let norm : Int → Int := fun v => if v < 0 then max (v + n) lower else min v upper
    let a := match s.start with
      | none => if c < 0 then upper else lower
      | some v => norm v
    let b := match s.stop with
      | none => if c < 0 then lower else upper
      | some v => norm v
    .ok (a, b, c)

/-- Positions selected by a Python slice on an axis of length `n` (numpy basic indexing). -/
def PySlice.positions (s : PySlice) (n : Nat) : Except Err (List Nat) :=
  match s.indices n with
  | .error e => .error e
  | .ok (a, b, c) => .ok ((pyRange a b c).map Int.toNat)

/-- One element of an index key. -/
inductive Key where
  | int (i : Int)
  | slc (s : PySlice)
  | lst (l : List Int)
  deriving DecidableEq, Repr

/-- `sparse._slicing.replace_none` (external library, assumed). -/
def replaceNone (s : PySlice) (n : Nat) : Int × Int × Int :=
  let c := s.step.getD 1
  if c > 0 then (s.start.getD 0, s.stop.getD n, c)
  else (s.start.getD ((n : Int) - 1), s.stop.getD (-1), c)

/-- `sparse._slicing.posify_index` on slices (external library, assumed). -/
def posifySlice (n : Nat) : Int × Int × Int → Int × Int × Int
  | (a, b, c) =>
    let a := if a < 0 then a + n else a
    let b := if ¬ (0 > b ∧ b ≥ c) ∧ b < 0 then b + n else b
    (a, b, c)

/-- `sparse._slicing.clip_slice` (external library, assumed). -/
def clipSlice (n : Nat) : Int × Int × Int → Int × Int × Int
  | (a, b, c) =>
    if c > 0 then
      let a := max a 0
      let b := min b n
      let a := if a > b then b else a
      (a, b, c)
    else
      let a := min a ((n : Int) - 1)
      let b := max b (-1)
      let a := if a < b then b else a
      (a, b, c)

/-- `sparse._slicing.normalize_index` for one axis of length `n` (external library, assumed):
integers and integer lists are bounds checked and made nonnegative, slices made explicit. -/
def sparseNormalize (n : Nat) : Key → Except Err Key
  | .int i =>
    if i ≥ n ∨ i < -(n : Int) then .error .indexError
    else .ok (.int (if i < 0 then i + n else i))
  | .lst l =>
    if l.any fun i => decide (i ≥ n ∨ i < -(n : Int)) then .error .indexError
    else .ok (.lst (l.map fun i => if i < 0 then i + n else i))
  | .slc s =>
    match clipSlice n (posifySlice n (replaceNone s n)) with
    | (a, b, c) => .ok (.slc ⟨some a, some b, some c⟩)

/-- `_LocBase._normalize_index`, body of the loop for one axis (`core/slice.py:68-81`). -/
def normalizeKey (n : Nat) (k : Key) : Except Err Key :=
  match sparseNormalize n k with
  | .error e => .error e
  | .ok (.slc s) =>
    let start := match s.start with
      | some a => if a > 0 then some a else none
      | none => none
    let stop := match s.stop with
      | some b => if b > -1 then some b else none
      | none => none
    let stop := if stop = some (n : Int) then none else stop
    let step := if start = none ∧ stop = none then none else s.step
    .ok (.slc ⟨start, stop, step⟩)
  | .ok k' => .ok k'

/-- Consecutive differences, `np.diff`. -/
def diffs : List Int → List Int
  | a :: b :: l => (b - a) :: diffs (b :: l)
  | _ => []

/-- `_LocBase._contig_slice` (`core/slice.py:35-56`): a list of positions becomes a slice when
it is an arithmetic progression. -/
def contigSlice : Key → Except Err Key
  | .slc s => .ok (.slc s)
  | .int i => .ok (.slc ⟨some i, some (i + 1), none⟩)
  | .lst [] => .error .valueError
  | .lst [a] => .ok (.slc ⟨some a, some (a + 1), none⟩)
  | .lst (a :: b :: l) =>
    let arr := a :: b :: l
    let d := diffs arr
    let dmax := d.foldl max (b - a)
    let dmin := d.foldl min (b - a)
    if dmax = dmin then
      let step : Option Int := if dmax = 1 then none else some dmax
      let amin := arr.foldl min a
      let amax := arr.foldl max a
      let minArr : Option Int := if amin = 0 then none else some amin
      let maxArr : Int := amax + 1
      if dmax < 0 then
        -- `min_arr, max_arr = max_arr - 1, min_arr - 1 if min_arr else min_arr`
        .ok (.slc ⟨some (maxArr - 1), minArr.map (· - 1), step⟩)
      else .ok (.slc ⟨minArr, some maxArr, step⟩)
    else .ok (.lst arr)

/-- Positions a numpy axis of length `n` yields for an already rewritten key: a slice, or a list
of integers (fancy indexing, bounds checked, negative positions count from the end). -/
def Key.positions (n : Nat) : Key → Except Err (List Nat)
  | .slc s => s.positions n
  | .int i =>
    if i ≥ n ∨ i < -(n : Int) then .error .indexError
    else .ok [Int.toNat (if i < 0 then i + (n : Int) else i)]
  | .lst l =>
    if l.any fun i => decide (i ≥ n ∨ i < -(n : Int)) then .error .indexError
    else .ok (l.map fun i => Int.toNat (if i < 0 then i + (n : Int) else i))

/-- Whether the rewritten key is a slice (`type(o_idx) != slice` test in `get_idx`). -/
def Key.isSlice : Key → Bool
  | .slc _ => true
  | _ => false

end CL
