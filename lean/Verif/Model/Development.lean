import Verif.Model.Filter
import Verif.Model.Regression

/-!
# Development

`development/base.py` and `development/development.py`, dense backend, without `groupby` and
`fillna`.  Assumptions given as a scalar, list, dictionary or function are modelled as functions of
the position of the age (`_validate_assumption`, `core/common.py:202-215`).
-/

namespace CL

/-- The `average` choices. -/
inductive Avg where
  | regression | volume | simple
  deriving DecidableEq, Repr

/-- `{"regression": 0, "volume": 1, "simple": 2}` (`development/development.py:147-149`). -/
def Avg.exponent : Avg → Nat
  | .regression => 0
  | .volume => 1
  | .simple => 2

namespace Dev
variable {K : Type} [Field K] [LinearOrder K] [IsStrictOrderedRing K]

/-- `nan_to_num(exponent * (y * 0 + 1))` (`development/development.py:150`). -/
def expo (a : Avg) : Num K → Nat
  | .fin _ => a.exponent
  | _ => 0

/-- `w = num_to_nan(w_ / (x ** exponent))` (`development/development.py:167`). -/
def regWeight (a : Avg) (w x y : Num K) : Num K := (w / x.npow (expo a y)).numToNan

/-- The fitted factor of one age (`development/development.py:145-168`): `x` and `y` are the
amounts at the age and the next one, after `num_to_nan`, `w` the weights `w_`. -/
def factor (a : Avg) (n : Nat) (w x y : Nat → Num K) : Num K :=
  Reg.origSlope n (fun j => regWeight a (w j) (x j) (y j)) x y

/-- The distinct valuations up to the valuation date, in increasing order
(`development/base.py:66-67`). -/
def knownValuations (t : Tri K) : List Int :=
  ((t.valuations.filter fun v => decide (v ≤ t.vd)).dedup).insertionSort (· ≤ ·)

/-- `l[z]` of a python list. -/
def pyGet (l : List Int) (z : Int) : Except Err Int :=
  let k := if z < 0 then z + l.length else z
  if 0 ≤ k ∧ k < l.length then .ok (l.getD k.toNat 0) else .error .indexError

/-- `val_offset` of `_assign_n_periods_weight` (`development/base.py:56-61`). -/
def valOffset : Grain → Grain → Option Nat
  | .Y, .Y => some 1
  | .S, .Y => some 2 | .S, .S => some 1
  | .Q, .Y => some 4 | .Q, .S => some 2 | .Q, .Q => some 1
  | .M, .Y => some 12 | .M, .S => some 6 | .M, .Q => some 3 | .M, .M => some 1
  | _, _ => none

/-- `val_offset` of `_assign_n_periods_weight_func` (`development/base.py:386-391`). -/
def valOffsetFunc : Grain → Grain → Option Nat
  | .Y, .Y => some 1
  | .S, .Y => some 2 | .S, .S => some 1
  | .Q, .Y => some 4 | .Q, .Q => some 1
  | .M, .Y => some 12 | .M, .Q => some 3 | .M, .M => some 1
  | _, _ => none

/-- The NaN triangle as an array. -/
def nanArr (t : Tri K) : Arr K :=
  ⟨1, 1, t.values.d2, t.values.d3, fun _ _ o d => t.nanTri o d⟩

/-- The common part of the two functions: weight 1 from the valuation date `valuations[z]` on. -/
def recent (t : Tri K) (z : Int) : Except Err (Arr K) := do
  let v ← pyGet (knownValuations t) z
  let w ← t.getVal (fun x => decide (v ≤ x))
  let r ← w.div w
  Arr.zip (· * ·) (r.values.map Num.nanToNum) (nanArr t)

/-- `_assign_n_periods_weight_int` (`development/base.py:53-71`). -/
def nPeriodsInt (t : Tri K) (n : Int) : Except Err (Arr K) :=
  if n < 1 ∨ n ≥ (t.values.d2 : Int) - 1 then .ok (t.values.map fun x => x * 0 + 1)
  else match valOffset t.dgrain t.ograin with
    | none => .error .keyError
    | some k => recent t (-n * k - 1)

/-- `_assign_n_periods_weight_int` inside `_assign_n_periods_weight_func`
(`development/base.py:384-402`). -/
def nPeriodsFuncInt (t : Tri K) (n : Int) : Except Err (Arr K) :=
  if n < 1 ∨ n ≥ (t.values.d2 : Int) then .ok (t.values.map fun x => x * 0 + 1)
  else match valOffsetFunc t.dgrain t.ograin with
    | none => .error .keyError
    | some k => recent t (-n * k)

/-- Columns of arrays of the same shape put side by side (`development/base.py:75-84`). -/
def columns : List (Arr K) → Arr K
  | [] => ⟨0, 0, 0, 0, fun _ _ _ _ => .nan⟩
  | a :: l => ⟨a.d0, a.d1, a.d2, l.length + 1, fun i c o d => ((a :: l).getD d a).get i c o d⟩

/-- `_assign_n_periods_weight` (`development/base.py:50-84`) for `m` ages. -/
def nPeriodsWeight (t : Tri K) (m : Nat) (ns : Nat → Int) : Except Err (Arr K) := do
  let l ← (List.range m).mapM fun d => nPeriodsInt t (ns d)
  .ok (columns l)

/-- `_assign_n_periods_weight_func` (`development/base.py:377-412`) for all ages of a triangle of
factors. -/
def nPeriodsWeightFunc (f : Tri K) (ns : Nat → Int) : Except Err (Arr K) := do
  let l ← (List.range f.values.d3).mapM fun d => nPeriodsFuncInt f (ns d)
  .ok (columns l)

/-- Order of `np.lexsort((X.values[..., :-1], link_ratio), axis=2)` (`development/base.py:176`):
by link ratio, then by amount, then by position, NaN last. -/
def numLt : Num K → Num K → Bool
  | .nan, _ => false
  | _, .nan => true
  | a, b => a.ltb b

/-- `o'` comes before `o`. -/
def before (r x : Nat → Num K) (o' o : Nat) : Bool :=
  numLt (r o') (r o) || (!numLt (r o) (r o') && (numLt (x o') (x o) ||
    (!numLt (x o) (x o') && decide (o' < o))))

/-- The rank of a link ratio within its age: the number of link ratios before it. -/
def rank (n : Nat) (r x : Nat → Num K) (o : Nat) : Nat :=
  ((List.range n).filter fun o' => before r x o' o).length

/-- `_drop_n` (`development/base.py:126-239`) for one age with `n` origins in a triangle with `m`
link ratio columns: the link ratios kept. -/
def dropN (m : Nat) (high low nper preserve : Int) (n : Nat) (r x : Nat → Num K) (o : Nat) :
    Bool :=
  let nper : Int := if nper = -1 then m else nper
  let count : Int := ((List.range n).filter fun o => !(r o).isNan).length
  let count := if count > nper then nper else count
  let maxU := count - high
  let big := decide (maxU - low < preserve)
  let maxR := if big then count else maxU
  let minR := if big then 0 else low
  decide ((rank n r x o : Int) < maxR) && decide ((rank n r x o : Int) > minR - 1)

/-- `_drop_x` (`development/base.py:242-303`) for one age: the link ratios kept. -/
def dropX (above below : Num K) (preserve : Int) (n : Nat) (r : Nat → Num K) (o : Nat) : Bool :=
  let inside := fun o => (r o).ltb above && below.ltb (r o)
  let count : Int := ((List.range n).filter inside).length
  if count < preserve then !(r o).isNan else inside o

/-- `_drop_valuation` (`development/base.py:305-325`): the array before the last column is cut.
The parameter is the list of valuation dates to drop. -/
def dropValuation (t : Tri K) (vs : List Int) : Except Err (Arr K) := do
  let f ← t.getVal (fun v => vs.contains v)
  .ok ⟨1, 1, max t.values.d2 f.values.d2, max t.values.d3 f.values.d3, fun _ _ o d =>
    if o < f.values.d2 ∧ d < f.values.d3 then 1 - (f.values.get 0 0 o d * 0 + 1).nanToNum else 1⟩

/-- `_drop` (`development/base.py:327-337`): the array before the last column is cut; items are
pairs of an origin and a development label. -/
def drop (t : Tri K) (items : List (Int × Int)) : Except Err (Arr K) :=
  if items.all fun p => t.odims.contains p.1 && t.ddims.contains p.2 then
    .ok ⟨1, 1, t.values.d2, t.values.d3, fun _ _ o d =>
      if items.any fun p => decide (o = t.odims.idxOf p.1) && decide (d = t.ddims.idxOf p.2)
      then 0 else t.nanTri o d⟩
  else .error .indexError

/-- The positions of the labels that match the items, item by item (`np.where(...)[1]`). -/
def matchesOf (l items : List Int) : List Nat :=
  items.flatMap fun a => (List.range l.length).filter fun k => decide (l.getD k 0 = a)

/-- `_drop_func` (`development/base.py:414-436`) for a triangle of factors: items are pairs of an origin
and a development label (of link ratios: the first age), given as strings.  The two index arrays are
broadcast against each other. -/
def dropFunc (f : Tri K) (items : List (Int × Int)) : Except Err (Arr K) :=
  let os := matchesOf f.odims (items.map Prod.fst)
  let ds := matchesOf f.ddims (items.map Prod.snd)
  if os.length ≠ ds.length ∧ os.length ≠ 1 ∧ ds.length ≠ 1 then .error .indexError
  else
    let n := if os.length = 1 then ds.length else os.length
    .ok ⟨1, 1, f.values.d2, f.values.d3, fun _ _ o d =>
      if (List.range n).any fun k => decide (o = os.getD (if os.length = 1 then 0 else k) 0) &&
          decide (d = ds.getD (if ds.length = 1 then 0 else k) 0)
      then 0 else (f.nanTri o d).nanToNum⟩

/-- `_drop_valuation_func` (`development/base.py:438-458`), followed by the check of the shape in
`w * b`; the parameter is the list of the valuation dates to drop (`v`). -/
def dropValuationFunc (f : Tri K) (vs : List Int) : Except Err (Arr K) := do
  let g ← f.iloc (.int 0) (.int 0) (.slc .all) (.slc .all)
  let h ← if g.values.d3 > 1 then g.filterMask fun o d => !vs.contains (f.valuation o d)
    else g.sliceOrigin ((List.range g.odims.length).map fun o => !vs.contains (f.valuation o 0))
  let b := h.values.map fun x => (x * 0 + 1).nanToNum
  if (List.range b.d2).all fun o => (List.range b.d3).all fun d => (b.get 0 0 o d).eqb 0
  then .error .exception
  else do
    let _ ← Arr.zip (· * ·) f.values b
    .ok b

/-- Parameters of `Development`.  `none` for `drop_above`/`drop_below` stands for the defaults
`np.inf` and `0.0`. -/
structure Params (K : Type) where
  average : Nat → Avg := fun _ => .volume
  nPeriods : Nat → Int := fun _ => -1
  drop : Option (List (Int × Int)) := none
  dropVal : Option (List Int) := none
  dropHigh : Option (Nat → Int) := none
  dropLow : Option (Nat → Int) := none
  dropAbove : Option (Nat → Num K) := none
  dropBelow : Option (Nat → Num K) := none
  preserve : Int := 1

/-- Link ratios `y / x` of the cleaned array (`development/development.py:146,151`). -/
def ratio (t : Tri K) (i c o d : Nat) : Num K :=
  (t.values.get i c o (d + 1)).numToNan / (t.values.get i c o d).numToNan

/-- `w_[w_ == 0] = np.nan` (`development/base.py:102`). -/
def zeroToNan (x : Num K) : Num K := if x.eqb 0 then .nan else x

/-- One optional array of weights. -/
def optWeight (f : Option (Except Err (Arr K))) : Except Err (Arr K) :=
  match f with
  | none => .ok ⟨1, 1, 1, 1, fun _ _ _ _ => 1⟩
  | some r => r

/-- Broadcast reading of a weight array. -/
def bget (a : Arr K) (i c o d : Nat) : Num K :=
  a.get (if a.d0 = 1 then 0 else i) (if a.d1 = 1 then 0 else c) (if a.d2 = 1 then 0 else o)
    (if a.d3 = 1 then 0 else d)

/-- `_drop_adjustment` (`development/base.py:86-123`).
Simplification: the shapes of the intermediate arrays are not checked again. -/
def dropAdjustment (t : Tri K) (p : Params K) : Except Err (Arr K) := do
  let m := t.values.d3 - 1
  let a ← optWeight (p.drop.map (drop t))
  let b ← optWeight (p.dropVal.map (dropValuation t))
  let np ← if p.dropHigh.isSome || p.dropLow.isSome then nPeriodsWeight t m p.nPeriods
    else .ok ⟨1, 1, 1, 1, fun _ _ _ _ => 1⟩
  .ok ⟨t.values.d0, t.values.d1, t.values.d2, m, fun i c o d =>
    let w := t.nanTri o d * bget a i c o d * bget b i c o d
    let w := if p.dropHigh.isSome || p.dropLow.isSome then
        w * Num.ofBool (dropN m ((p.dropHigh.getD fun _ => 0) d) ((p.dropLow.getD fun _ => 0) d)
          (p.nPeriods d) p.preserve t.values.d2
          (fun o => ratio t i c o d * zeroToNan (bget np i c o d)) (fun o => t.values.get i c o d) o)
      else w
    if p.dropAbove.isSome || p.dropBelow.isSome then
      w * Num.ofBool (dropX ((p.dropAbove.getD fun _ => .pinf) d)
        ((p.dropBelow.getD fun _ => 0) d) p.preserve t.values.d2 (fun o => ratio t i c o d) o)
    else w⟩

/-- `w_` (`development/development.py:164-166`). -/
def weights (t : Tri K) (p : Params K) : Except Err (Arr K) := do
  let a ← nPeriodsWeight t (t.values.d3 - 1) p.nPeriods
  let b ← dropAdjustment t p
  .ok ⟨t.values.d0, t.values.d1, t.values.d2, t.values.d3 - 1, fun i c o d =>
    bget a i c o d * b.get i c o d⟩

/-- The fitted factors (`development/development.py:145-168`). -/
def ldfArr (t : Tri K) (p : Params K) (w : Arr K) : Arr K :=
  ⟨t.values.d0, t.values.d1, 1, t.values.d3 - 1, fun i c _ d =>
    factor (p.average d) t.values.d2 (fun o => w.get i c o d)
      (fun o => (t.values.get i c o d).numToNan) (fun o => (t.values.get i c o (d + 1)).numToNan)⟩

/-- `_param_property` (`development/development.py:235-249`). -/
def paramTri (t : Tri K) (a : Arr K) : Except Err (Tri K) := do
  let lr ← t.linkRatio
  let o0 := (t.odims.min?).getD 0
  .ok { t with
    odims := t.odims.filter fun o => o == o0
    ddims := lr.ddims
    vd := ultVal
    isPattern := true
    isCum := some false
    values := a }

/-- `Development.fit(X).ldf_` (`development/development.py:103-192`) for a cumulative development
triangle; other triangles are converted first (`Model/Convert`).
The weights `w_v2_` are not used for the factors; of `_set_weight_func` (`development/base.py:359-375`) the
steps that can raise are modelled.  There `drop_valuation` is resolved at the development grain instead of
the origin grain; the dates are taken to be the same, as for dates in the last month of an origin period.
`sigma_` and `std_err_` are in `Model/Sigma`, `std_residuals_` in `Model/Residuals`. -/
def fit (t : Tri K) (p : Params K) : Except Err (Tri K) := do
  let lr ← t.linkRatio
  let _ ← nPeriodsWeightFunc lr p.nPeriods
  let _ ← optWeight (p.drop.map (dropFunc lr))
  let _ ← optWeight (p.dropVal.map (dropValuationFunc lr))
  let w ← weights t p
  paramTri t (ldfArr t p w)

end Dev
end CL
