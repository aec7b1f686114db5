import Verif.Model.Full

/-!
# `MackChainladder` (`methods/mack.py`), dense backend

The square root is a parameter `s` of the functions.  `sigma_`, `std_err_` and `w_` are arrays given
from outside.
-/

namespace CL

/-- `np.sqrt`: a negative number gives NaN. -/
def Num.sqrt {K : Type} [Field K] [LinearOrder K] (s : K → K) : Num K → Num K
  | .fin x => if x < 0 then .nan else .fin (s x)
  | .pinf => .pinf
  | _ => .nan

namespace Arr
variable {K : Type} [Field K] [LinearOrder K] [IsStrictOrderedRing K]

/-- `a[..., start:stop]`. -/
def sliceD (a : Arr K) (start stop : Option Int) : Except Err (Arr K) := do
  let ps ← PySlice.positions ⟨start, stop, none⟩ a.d3
  .ok { a with
    d3 := ps.length
    get := fun i c o d => a.get i c o (ps.getD d 0) }

/-- An array of zeros. -/
def zeros (n0 n1 n2 n3 : Nat) : Arr K := ⟨n0, n1, n2, n3, fun _ _ _ _ => .fin 0⟩

/-- The risk is reset where the triangle has data (`methods/mack.py:150-151`). -/
def mackMask (nans : Option (Arr K)) (tot : Arr K) (i : Nat) : Except Err (Arr K) :=
  match nans with
  | none => .ok tot
  | some n => do
    let m ← n.sliceD (some (i + 1)) (some (i + 2))
    zip (· * ·) tot m

/-- One round of the recursion (`methods/mack.py:147-152`): the column `i` of `t1` and the column `i` of
`risk` times that of `ldf`, added in quadrature, times the column `i + 1` of `nans`. -/
def mackStep (s : K → K) (t1 ldf : Arr K) (nans : Option (Arr K)) (risk : Arr K) (i : Nat) :
    Except Err (Arr K) := do
  let a ← t1.sliceD (some i) (some (i + 1))
  let l ← ldf.sliceD (some i) (some (i + 1))
  let r ← risk.sliceD (some i) (some (i + 1))
  let b ← zip (· * ·) l r
  let tot ← zip (· + ·) (a.map fun x => x.npow 2) (b.map fun x => x.npow 2)
  let tot := tot.map (Num.sqrt s)
  let tot ← mackMask nans tot i
  cat2 .development risk (tot.map Num.nanToNum)

/-- The loop of `_mack_recursion` (`methods/mack.py:146-152`). -/
def mackLoop (s : K → K) (t1 ldf : Arr K) (nans : Option (Arr K)) (risk : Arr K) :
    Except Err (Arr K) :=
  (List.range t1.d3).foldlM (mackStep s t1 ldf nans) risk

end Arr

namespace Tri
variable {K : Type} [Field K] [LinearOrder K] [IsStrictOrderedRing K]

/-- `1 - concatenate((nan_to_num(X.nan_triangle), zeros), 3)` (`methods/mack.py:134-135`). -/
def mackNans (t : Tri K) : Arr K where
  d0 := 1
  d1 := 1
  d2 := t.values.d2
  d3 := t.values.d3 + 1
  get := fun _ _ o d => 1 - if d < t.values.d3 then (t.nanTri o d).nanToNum else 0

/-- The factors of the recursion (`methods/mack.py:141-144`): the age-to-age factors up to the last age
of the triangle and the age-to-ultimate factor at that age.  With `extend = 1` the slice
`[-1 : 0]` is empty. -/
def mackLdf (t f : Tri K) : Except Err (Arr K) := do
  let extend : Int := f.values.d3 - t.values.d3 + 1
  let l ← f.values.sliceD none (some ((t.ddims.length : Int) - 1))
  let tail ← f.incrToCum.values.sliceD (some (-extend)) (some (-extend + 1))
  Arr.cat2 .development l tail

/-- The labels of the result of `_mack_recursion` (`methods/mack.py:153-156`); `full` is the full
triangle.  An age beyond its end is an `IndexError`. -/
def mackLabels (t full : Tri K) (v : Arr K) (odims : List Int) : Except Err (Tri K) :=
  if full.ddims = [] ∨ full.ddims.length < t.values.d3 then .error .indexError
  else .ok { t with
    values := v
    odims := odims
    ddims := (full.ddims.take t.values.d3) ++ [full.ddims.getLastD 0]
    vd := full.vd }

/-- `_mack_recursion` for `parameter_risk_` (with `se` the values of `std_err_`) and for
`process_risk_` (with `se` the values of `_get_full_std_err_`) (`methods/mack.py:121-157`). -/
def mackRisk (s : K → K) (t f full : Tri K) (se : Arr K) : Except Err (Tri K) := do
  let fullTri ← full.values.sliceD none (some t.ddims.length)
  let t1 ← Arr.zip (· * ·) (fullTri.map Num.nanToNum) se
  let ldf ← t.mackLdf f
  let risk ← Arr.mackLoop s t1 ldf (some t.mackNans)
    (Arr.zeros t.values.d0 t.values.d1 t.values.d2 1)
  t.mackLabels full risk t.odims

/-- `_mack_recursion` for `total_parameter_risk_` (`methods/mack.py:125-132,141-157`). -/
def mackTotalParameter (s : K → K) (t f full : Tri K) (se : Arr K) : Except Err (Tri K) := do
  let known ← t.getVal (fun v => v < t.vd)
  let future ← full.sub known
  let future ← future.ilocD (.slc ⟨none, some t.values.d3, none⟩)
  let future ← future.mulArr se
  match future.sum .origin with
  | .scalar _ => .error .attributeError
  | .tri r => do
    let ldf ← t.mackLdf f
    let risk ← Arr.mackLoop s (r.values.map Num.nanToNum) ldf none
      (Arr.zeros t.values.d0 t.values.d1 (min t.values.d2 1) 1)
    t.mackLabels full risk (t.odims.take 1)

/-- `_get_full_std_err_` (`methods/mack.py:98-112`): `avg` holds the exponents of the averages (0, 1 or
2), `sigma` the values of `sigma_` and `w` those of `w_`. -/
def fullStdErr (s : K → K) (t full : Tri K) (sigma w : Arr K) (avg : List Nat) : Except Err (Arr K) := do
  if avg = [] then .error .indexError
  else if avg.length + 1 ≠ t.values.d3 then .error .valueError
  else
    let fullTri ← full.values.sliceD none (some t.ddims.length)
    let weight : Arr K := { fullTri with
      get := fun i c o d => (Num.sqrt s ((fullTri.get i c o d).npow (2 - (avg ++ [avg.getLastD 0]).getD d 0))) }
    let q ← Arr.zip (· / ·) sigma (weight.map Num.numToNan)
    let w ← Arr.cat2 .development w ⟨1, 1, t.values.d2, 1, fun _ _ _ _ => .fin 1⟩
    Arr.zip (· * ·) (q.map Num.nanToNum) (w.map fun x => if x.isNan then .fin 1 else x)

/-- `tri ** n` (`core/dunders.py:306-316`) for a natural number. -/
def pow (t : Tri K) (n : Nat) : Tri K :=
  { t with values := t.values.map fun x => x.nanToNum.npow n }

/-- `tri.sqrt()` (`core/pandas.py:340-341`, `core/base.py:411-418`). -/
def sqrt (s : K → K) (t : Tri K) : Tri K := { t with values := t.values.map (Num.sqrt s) }

/-- `mack_std_err_` (`methods/mack.py:159-161`). -/
def mackStdErr (s : K → K) (param proc : Tri K) : Except Err (Tri K) := do
  let v ← (param.pow 2).add (proc.pow 2)
  .ok (v.sqrt s)

/-- `total_process_risk_` (`methods/mack.py:117-119`). -/
def totalProcess (s : K → K) (proc : Tri K) : Except Err (Tri K) :=
  match (proc.pow 2).sum .origin with
  | .scalar _ => .error .attributeError
  | .tri r => .ok (r.sqrt s)

/-- The last column of `_get_total_mack_std_err_` (`methods/mack.py:167-173`), for index `i` and column
`c`. -/
def totalMackStdErr (s : K → K) (proc param : Tri K) (i c : Nat) : Except Err (Num K) := do
  let p ← totalProcess s proc
  let v ← (p.pow 2).add (param.pow 2)
  let r := v.sqrt s
  .ok (r.values.get i c 0 (r.values.d3 - 1))

end Tri
end CL
