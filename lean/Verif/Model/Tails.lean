import Verif.Model.Development
import Mathlib.Analysis.SpecialFunctions.Pow.Real
import Mathlib.Analysis.SpecialFunctions.Log.Basic

/-!
# Tails (`tails/`), dense backend

The argument `f` is `X.ldf_` (or the `ldf_` of a default `Development`), `t` is `X`.  Not modelled:
`sigma_` and `std_err_` (`tails/base.py:30-38,112-141`).  `TailBondy` and `TailClark` are in `Model/TailFit`.
-/

namespace CL
namespace Tail

section
variable {K : Type} [Field K] [LinearOrder K] [IsStrictOrderedRing K]

/-- `_ave_period` (`tails/base.py:18-21`) for a projection period in months: number and length of the
added periods. -/
def avePeriod (p : Nat) : Grain → Nat × Nat
  | .Y => (1 * (p / 12), 12)
  | .Q => (4 * (p / 12), 3)
  | .M => (12 * (p / 12), 1)
  | .S => (2 * (p / 12), 6)

/-- `TailBase.fit` (`tails/base.py:13-44`): `ldf_` extended by factors of one.  An empty `ldf_` has no
last age. -/
def extend (g : Grain) (p : Nat) (f : Tri K) : Except Err (Tri K) :=
  match f.ddims.getLast? with
  | none => .error .indexError
  | some last =>
    .ok { f with
      ddims := f.ddims ++ (List.range ((avePeriod p g).1 + 1)).map fun j : Nat =>
        ((j + 1) * (avePeriod p g).2 + last : Int)
      values := { f.values with
        d3 := f.values.d3 + ((avePeriod p g).1 + 1)
        get := fun i c o d => if d < f.values.d3 then f.values.get i c o d else 1 } }

/-- The position of the attachment age (`tails/constant.py:71-75`, `tails/curve.py:166-169`). -/
def attachIdx (t : Tri K) (age : Option Int) : Except Err Nat :=
  match age with
  | none => .ok (t.ddims.length - 1)
  | some 0 => .ok (t.ddims.length - 1)
  | some a => match t.ddims.findIdx? fun d => decide (a ≤ d) with
    | none => .error .valueError
    | some i => .ok i

/-- The vector `ldfs` of `_apply_decay` (`tails/base.py:97-103`), of length `r ≤ 1000`; `seed` is the
value of `_get_initial_ldf`. -/
def decayed (seed : Num K) (decay tail : K) (r j : Nat) : Num K :=
  let l : Nat → Num K := fun j =>
    if tail = 1 then 1 + 0 * .fin (decay ^ j) else 1 + seed * .fin (decay ^ j)
  if j + 1 < r then l j else .fin tail / (∏ k ∈ Finset.range (r - 1), l k)

/-- `_apply_decay` (`tails/base.py:90-110`) on the extended `ldf_`; `n` is the number of ages of `X`.
More than 1000 factors cannot be broadcast against the vector of 1000. -/
def applyDecay (f : Tri K) (n : Nat) (seed : Num K) (decay tail : K) (attach : Nat) :
    Except Err (Tri K) :=
  let r := if attach ≠ 0 then f.values.d3 - attach else f.values.d3 - n + 1
  if r > 1000 then .error .valueError
  else if r = 0 ∨ f.values.d3 < r then .error .unmodelled
  else .ok { f with
    values := { f.values with
      get := fun i c o d =>
        if d < f.values.d3 - r then f.values.get i c o d
        else ((f.values.get i c o d).nanToNum * 0 + 1) *
          decayed seed decay tail r (d - (f.values.d3 - r)) } }

/-- `TailConstant.fit(X).ldf_` (`tails/constant.py:53-79`) as a function of the seed factor. -/
def constantSeed (t f : Tri K) (seed : Num K) (tail decay : K) (age : Option Int) (p : Nat) :
    Except Err (Tri K) :=
  if t.isVal then .error .unmodelled
  else do
    let g ← extend t.dgrain p f
    let a ← attachIdx t age
    applyDecay g t.ddims.length seed decay tail a

end

/-- `xp.log`. -/
noncomputable def log : Num ℝ → Num ℝ
  | .nan => .nan
  | .ninf => .nan
  | .pinf => .pinf
  | .fin x => if x < 0 then .nan else if x = 0 then .ninf else .fin (Real.log x)

/-- `xp.exp`. -/
noncomputable def exp : Num ℝ → Num ℝ
  | .nan => .nan
  | .ninf => 0
  | .pinf => .pinf
  | .fin x => .fin (Real.exp x)

/-- `xp.sqrt`. -/
noncomputable def sqrt : Num ℝ → Num ℝ
  | .nan => .nan
  | .ninf => .nan
  | .pinf => .pinf
  | .fin x => if x < 0 then .nan else .fin (Real.sqrt x)

/-- `_get_initial_ldf` (`tails/base.py:82-88`). -/
noncomputable def initialLdf (decay tail : ℝ) : Num ℝ :=
  let a := ∑ k ∈ Finset.range 1000, (decay ^ k) ^ 2
  let b := ∑ k ∈ Finset.range 1000, decay ^ k
  let c : Num ℝ := 0 - log (.fin tail)
  (.fin (-b) + sqrt (.fin (b ^ 2) - .fin (4 * a) * c)) / .fin (2 * a)

/-- `TailConstant.fit(X).ldf_` (`tails/constant.py:53-79`). -/
noncomputable def constant (t f : Tri ℝ) (tail decay : ℝ) (age : Option Int) (p : Nat) :
    Except Err (Tri ℝ) :=
  constantSeed t f (initialLdf decay tail) tail decay age p

/-- The curves of `TailCurve` (`tails/curve.py:44-47`). -/
inductive Curve where
  | exponential | inversePower
  deriving DecidableEq, Repr

/-- Age `k + 1` on the scale of the regression (`tails/curve.py:177-184`). -/
noncomputable def Curve.x : Curve → Nat → Num ℝ
  | .exponential, k => .fin ((k : ℝ) + 1)
  | .inversePower, k => .fin (Real.log ((k : ℝ) + 1))

/-- `tail_ldf` at age `k + 1` (`tails/curve.py:186-192`); `k ** slope` is computed for a finite
slope. -/
noncomputable def Curve.value (cv : Curve) (slope intercept : Num ℝ) (k : Nat) : Num ℝ :=
  match cv with
  | .exponential => exp (slope * .fin ((k : ℝ) + 1) + intercept)
  | .inversePower => exp intercept * match slope with
    | .fin s => .fin (((k : ℝ) + 1) ^ s)
    | _ => .nan

/-- Parameters of `TailCurve` with `errors="ignore"` and `fit_period` a tuple; `lower` and `upper` are
the thresholds after `tails/curve.py:124-144`. -/
structure CurveParams where
  curve : Curve := .exponential
  start : Option Int := none
  stop : Option Int := none
  extrap : Nat := 100
  lower : ℝ := 1.00001
  upper : Option ℝ := none
  age : Option Int := none
  projection : Nat := 12

/-- A factor outside the thresholds (`tails/curve.py:145-151`). -/
noncomputable def CurveParams.out (p : CurveParams) (y : Num ℝ) : Bool :=
  (!y.isNan && !(Num.fin p.lower).ltb y) || match p.upper with
    | none => false
    | some u => (Num.fin u).ltb y

/-- The positions selected by `slice(start, end)` with the ages in periods
(`tails/curve.py:101-112`); `int` cuts towards zero. -/
def fitSlice (g : Grain) (start stop : Option Int) (n : Nat) : List Nat :=
  let idx := fun a : Int => (a - (g.months : Int)).tdiv g.months
  (List.range n).filter fun k =>
    let lo := match start with
      | none => 0
      | some a => if idx a < 0 then max 0 (n + idx a) else idx a
    let hi := match stop with
      | none => (n : Int)
      | some a => if idx a < 0 then max 0 (n + idx a) else idx a
    decide (lo ≤ (k : Int) ∧ (k : Int) < hi)

/-- The slope and the intercept fitted to one row of `n` factors (`tails/curve.py:114-160`). -/
noncomputable def CurveParams.coef (p : CurveParams) (g : Grain) (n : Nat) (y : Nat → Num ℝ) :
    Num ℝ × Num ℝ :=
  let w : Nat → Num ℝ := fun k =>
    if (fitSlice g p.start p.stop n).contains k && !p.out (y k) then 1 else 0
  let ly : Nat → Num ℝ := fun k => log ((if p.out (y k) then .fin 1.01 else y k) - 1)
  (Reg.slope n w (p.curve.x) ly, Reg.intercept n w (p.curve.x) ly)

/-- `_get_tail_prediction` (`tails/base.py:74-80`) at position `k`, for `accum` factors before the
last and `m` extrapolated ages. -/
noncomputable def tailPrediction (l : Nat → Num ℝ) (accum m k : Nat) : Num ℝ :=
  if k < min accum m then 1 + l k else ∏ j ∈ Finset.Ico accum m, (1 + l j)

/-- `TailCurve.fit(X).ldf_` (`tails/curve.py:81-175`), for a pattern with one factor less than `X` has
ages. -/
noncomputable def curve (t f : Tri ℝ) (p : CurveParams) : Except Err (Tri ℝ) :=
  if t.isVal ∨ f.values.d3 + 1 ≠ t.ddims.length then .error .unmodelled
  else do
    let g ← extend t.dgrain p.projection f
    let a ← attachIdx t p.age
    let n := t.ddims.length - 1
    let accum := g.values.d3 - 1
    let m := p.extrap + n
    .ok { g with
      values := { g.values with
        d3 := min a g.values.d3 + (min accum m + 1 - a)
        get := fun i c o d =>
          if d < a then g.values.get i c o d
          else
            let k := p.coef t.dgrain n fun k => f.values.get i c o k
            tailPrediction (p.curve.value k.1 k.2) accum m d } }

end Tail
end CL
