import Verif.Model.Calendar
import Verif.Lemmas.Num

/-!
# Parallelogram on-level factors (`utils/utility_functions.py:155-265`)

The start date is the first day of month `s`, the end date the last day of month `e`, as they are in
`ParallelogramOLF.fit` (`adjustments/parallelogram.py:78-84`).  `daily` is
`approximation_grain == "D"`, otherwise it is `"M"`.
-/

namespace CL
namespace Olf
open Cal

/-- A date: month number and day of the month. -/
structure Date where
  month : Nat
  day : Nat
  deriving DecidableEq, Repr

variable {K : Type} [Field K] [LinearOrder K] [IsStrictOrderedRing K]

/-- Day of the month of `start_date` less one day and one year (lines 170-181), which is in month
`s - 13`: pandas cuts 29 February to 28. -/
def firstDay (s : Nat) : Nat := min (monthDays (s - 1)) (monthDays (s - 13))

/-- The days of month `m`. -/
def daysOf (m : Nat) : List Date := (List.range (monthDays m)).map fun k => ⟨m, k + 1⟩

/-- `date_idx` (lines 173-184): first days of months, or days, from a year before the start to the
end. -/
def dateIdx (daily : Bool) (s e : Nat) : List Date :=
  if daily then
    (daysOf (s - 13)).drop (firstDay s - 1) ++
      (List.range (e + 13 - s)).flatMap fun j => daysOf (s - 12 + j)
  else (List.range (e + 13 - s)).map fun j => ⟨s - 12 + j, 1⟩

/-- `rate_changes.reindex(date_idx, fill_value=0)` (lines 186-187); duplicate dates raise. -/
def reindex (idx : List Date) (changes : List (Date × K)) : Except Err (List K) :=
  if (changes.map Prod.fst).Nodup then
    .ok (idx.map fun d => ((changes.find? fun x => x.1 = d).map Prod.snd).getD 0)
  else .error .valueError

/-- `np.cumprod(1 + rate_changes)` (line 189). -/
def cum (r : List K) (p : Nat) : K := ∏ j ∈ Finset.range (p + 1), (1 + r.getD j 0)

/-- `rolling(w).mean()`. -/
def rolling (w : Nat) (x : Nat → K) (p : Nat) : Num K :=
  if p + 1 < w then .nan else .fin ((∑ j ∈ Finset.Ico (p + 1 - w) (p + 1), x j) / w)

/-- Mean of the rolling mean and of the one before (lines 202-214). -/
def averaged (w : Nat) (x : Nat → K) (p : Nat) : Num K :=
  (rolling w x p + if p = 0 then .nan else rolling w x (p - 1)) / .fin 2

/-- `cum_avg_rate` (lines 193-214). -/
def level (vertical : Bool) (w : Nat) (r : List K) (p : Nat) : Num K :=
  if vertical then .fin (cum r p) else averaged w (cum r) p

/-- `index.to_period(grain)` for years and months; the other grains do not get that far. -/
def period (g : Grain) (d : Date) : Nat :=
  match g with
  | .Y => d.month / 12
  | _ => d.month

/-- Positions from `k` on in period `l`. -/
def members (g : Grain) (idx : List Date) (k l : Nat) : Finset Nat :=
  (Finset.range idx.length).filter fun p => k ≤ p ∧ period g (idx.getD p ⟨0, 0⟩) = l

/-- `groupby(…).mean()`, skipping NaN. -/
def groupMean (x : Nat → Num K) (ps : Finset Nat) : Num K :=
  (∑ p ∈ ps, (x p).nan0) / .fin ((ps.filter fun p => (x p).isNan = false).card : K)

/-- `fcrl_non_leaps`, `fcrl_leaps` (lines 228-246): one row for each period from position `k` on;
dates ascend, so the sorted periods are in order of appearance. -/
def table (g : Grain) (idx : List Date) (k : Nat) (crl : K) (x : Nat → Num K) : List (Nat × Num K) :=
  ((idx.drop k).map (period g)).dedup.map fun l => (l, .fin crl / groupMean x (members g idx k l))

/-- Year of a period. -/
def year (g : Grain) (l : Nat) : Nat :=
  match g with
  | .Y => l
  | _ => l / 12

/-- `parallelogram_olf` (lines 155-265).  The labels of quarters and half-years (which pandas takes
for seconds) do not have the format `%Y`, and `pd.to_datetime` raises (lines 249-251).  The two tables
are joined by row number. -/
def olf (g : Grain) (daily vertical : Bool) (s e : Nat) (changes : List (Date × K)) :
    Except Err (List (Nat × Num K)) := do
  let idx := dateIdx daily s e
  let r ← reindex idx changes
  let crl := cum r (idx.length - 1)
  let w := if daily then 365 else 12
  let k := if daily then 366 else 12
  let non := table g idx k crl (level vertical w r)
  let leaps := table g idx (k + 1) crl (level vertical (w + 1) r)
  match g with
  | .Q => .error .valueError
  | .S => .error .valueError
  | _ =>
    if daily then
      .ok (non.mapIdx fun n row =>
        if isLeap (year g row.1) then (row.1, ((leaps[n]?).map Prod.snd).getD .nan) else row)
    else .ok non

end Olf
end CL
