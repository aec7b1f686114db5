import Verif.Model.Groupby
import Verif.Model.Methods
import Verif.Lemmas.Num
import Mathlib.Data.Prod.Lex

/-!
# The constructor (`core/triangle.py:109-278`)

Dates are given as month number and day of the month.  The development lag in months is that of
`Model/Calendar` (C17).  Not modelled: semi-annual grains, missing `development`, records valued within
a year of the ultimate date 2261-12-31 (`_split_ult`), `pattern=True`, parsing of dates
(`_to_datetime`), dask data frames, missing index keys.
-/

namespace CL
namespace Con

/-- A date: month number and day of the month. -/
structure Date where
  month : Int
  day : Nat
  deriving DecidableEq, Repr

/-- A row of the data frame: index key, origin and development date, one amount per column. -/
structure Rec (K : Type) where
  key : List String
  origin : Date
  dev : Date
  amount : Nat → Num K

/-- Month of `dates.min() - 1 day`, as month of the year counted from 0
(`core/base.py:295,308-312`; adding a year does not change it). -/
def beforeMin (dates : List Date) : Int :=
  let m := ((dates.map Date.month).min?).getD 0
  if dates.any fun x => x.month == m && x.day == 1 then (m - 1) % 12 else m % 12

/-- The closing month of origin periods, `_get_grain(origin_date, trailing, "origin")`
(`core/base.py:293-302`). -/
def originEnd (g : Grain) (trailing : Bool) (dates : List Date) : Int :=
  if trailing = true ∧ g ≠ .M then
    let e := beforeMin dates
    if g = .Q ∧ e % 3 = 2 then 11
    else if g = .S ∧ e % 6 = 5 then 11
    else e
  else 11

/-- The closing month of development periods, `_get_grain(development_date, trailing, "development")`
(`core/base.py:303-316`). -/
def devEnd (g : Grain) (trailing : Bool) (dates : List Date) : Int :=
  if trailing = true ∧ g ≠ .M then
    if dates.any fun x => x.day == 1 && x.month % 3 == 0 then beforeMin dates
    else ((dates.map Date.month).max?).getD 0 % 12
  else 11

/-- `to_period(g).to_timestamp(how="s")`: first month of the period of month `m`, for periods closing
in month `e` of the year. -/
def toStart (g : Grain) (e m : Int) : Int := m - (m - (e + 1)) % g.months

/-- `to_period(g).to_timestamp(how="e")`: last month of the period. -/
def toEnd (g : Grain) (e m : Int) : Int := m + (e - m) % g.months

/-- `period_range(start, end, freq)`, first months of the periods from that of `a` to that of `b`. -/
def periods (g : Grain) (a b : Int) : List Int :=
  (List.range ((b - a) / g.months + 1).toNat).map fun k : Nat => a + k * g.months

/-- Distinct elements in order of first appearance (`drop_duplicates`). -/
def firstSeen {α : Type} [DecidableEq α] (l : List α) : List α := l.reverse.dedup.reverse

/-- The finer of two grains (`core/triangle.py:203-210`). -/
def finer : Grain → Grain → Grain
  | .M, _ => .M
  | _, .M => .M
  | .Q, _ => .Q
  | _, .Q => .Q
  | .S, _ => .S
  | _, .S => .S
  | .Y, .Y => .Y

variable {K : Type} [Field K] [LinearOrder K] [IsStrictOrderedRing K]

/-- Origin, development and index key of a row of the aggregated data. -/
abbrev RowKey := Int ×ₗ Int ×ₗ List String

/-- Grain of the origin dates, without its closing month. -/
def oGrain (recs : List (Rec K)) : Grain := getGrain (recs.map fun r => r.origin.month)

/-- Grain of the development dates, without its closing month. -/
def dGrain (recs : List (Rec K)) : Grain := getGrain (recs.map fun r => r.dev.month)

/-- First month of the origin period of a row (`core/triangle.py:155-157`). -/
def startOf (trailing : Bool) (recs : List (Rec K)) (r : Rec K) : Int :=
  toStart (oGrain recs) (originEnd (oGrain recs) trailing (recs.map Rec.origin)) r.origin.month

/-- Last month of the development period of a row (`core/triangle.py:159-161`). -/
def endOf (trailing : Bool) (recs : List (Rec K)) (r : Rec K) : Int :=
  toEnd (dGrain recs) (devEnd (dGrain recs) trailing (recs.map Rec.dev)) r.dev.month

/-- The grouping key of a row. -/
def rowKey (trailing : Bool) (recs : List (Rec K)) (r : Rec K) : RowKey :=
  toLex (startOf trailing recs r, toLex (endOf trailing recs r, r.key))

/-- The rows of the aggregated data in order, `_aggregate_data` (`core/base.py:84-113`). -/
def rows (trailing : Bool) (recs : List (Rec K)) : List RowKey :=
  (groupKeys (recs.map (rowKey trailing recs))).filter fun k => decide (k.1 ≤ k.2.1)

/-- The aggregated amount of column `c` in a row of the aggregated data. -/
def total (trailing : Bool) (recs : List (Rec K)) (k : RowKey) (c : Nat) : Num K :=
  ((recs.filter fun r => rowKey trailing recs r == k).map fun r => (r.amount c).nan0).sum

/-- `_get_date_axes` (`core/base.py:178-205`). -/
def dateAxes (og dg : Grain) (omin omax dmin dmax : Int) : List (Int × Int) :=
  ((periods og omin omax).flatMap fun o =>
    (periods dg dmin dmax).map fun d => (o, d)).filter fun p => decide (p.1 ≤ p.2)

/-- `_set_index`, `_set_values` and `num_to_nan` (`core/base.py:115-165`, `core/triangle.py:233-249`):
the sparse array from its coordinates. -/
def cellOf (rows : List RowKey) (total : RowKey → Nat → Num K) (kdims : List (List String))
    (odims ddims : List Int) (isVal : Bool) (i c o d : Nat) : Num K :=
  ((rows.filter fun k =>
    decide (kdims.findIdx? (· == k.2.2) = some i ∧ odims.findIdx? (· == k.1) = some o ∧
      (if isVal then d = 0 else ddims.findIdx? (· == k.2.1 - k.1 + 1) = some d))).map
    fun k => total k c).sum.numToNan

/-- `Triangle(data, origin, development, columns, index, cumulative=cum, trailing=trailing)`
(`core/triangle.py:129-257`). -/
def construct (cols keyLabels : List String) (cum : Option Bool) (trailing : Bool)
    (recs : List (Rec K)) : Except Err (Tri K) :=
  let og := oGrain recs
  let dg := dGrain recs
  if og = .S ∨ dg = .S ∨ recs.any (fun r => decide (ultVal - 12 ≤ r.dev.month)) then
    .error .unmodelled
  else
    let rows := rows trailing recs
    match (rows.map fun k => k.1).min?, (rows.map fun k => k.1).max?,
      (rows.map fun k => k.2.1).min?, (rows.map fun k => k.2.1).max? with
    | some omin, some omax, some dmin, some dmax =>
      let axes := dateAxes og dg omin omax dmin dmax
      let kdims := firstSeen (rows.map fun k => k.2.2)
      let odims := groupKeys (axes.map fun p => p.1)
      let isVal := decide (¬ 1 < (axes.map fun p => p.2).dedup.length)
      let ddims := if isVal then [dmax] else groupKeys (axes.map fun p => p.2 - p.1 + 1)
      -- coercion of malformed triangles (`core/triangle.py:213-230`)
      let check := periods og (toStart og 11 omin) (toStart og 11 dmax)
      let odims' := if check.length ≠ odims.length then check else odims
      .ok {
        kdims := kdims
        keyLabels := keyLabels
        vdims := cols
        odims := odims'
        ddims := ddims
        isVal := isVal
        ograin := og
        dgrain := finer og dg
        vd := dmax
        isCum := cum
        isPattern := false
        isAdditive := none
        values := ⟨kdims.length, cols.length, odims'.length, ddims.length,
          cellOf rows (total trailing recs) kdims odims ddims isVal⟩ }
    | _, _, _, _ => .error .valueError

end Con
end CL
