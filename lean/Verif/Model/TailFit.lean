import Verif.Model.Tails
import Verif.Model.Clark
import Verif.Model.Arith

set_option linter.unusedSectionVars false

/-!
# Fitted tails (`tails/bondy.py`, `tails/clark.py`), dense backend

The argument `f` is `X.ldf_` (or the `ldf_` of a default `Development`), `t` is `X`.  The parameters found by
`scipy.optimize` are arguments.  Not modelled: `sigma_` and `std_err_`.
-/

namespace CL
namespace Tail

/-- numpy's `x ** y` for a positive `x`. -/
noncomputable def pow (x : ℝ) : Num ℝ → Num ℝ
  | .fin y => .fin (x ^ y)
  | .nan => if x = 1 then 1 else .nan
  | .pinf => if x = 1 then 1 else if 1 < x then .pinf else 0
  | .ninf => if x = 1 then 1 else if 1 < x then 0 else .pinf

/-- The position of the earliest age (`tails/bondy.py:79-91`): `int` cuts towards zero, a negative position
counts from the end.  At the last age nothing is left to fit; what `least_squares` does with it is outside the
model. -/
def earliestIdx (t : Tri ℝ) (earliest : Option Int) : Except Err Nat :=
  match earliest with
  | none => if t.ddims.length < 2 then .error .indexError else .ok (t.ddims.length - 2)
  | some e =>
    let i := e.tdiv t.dgrain.months - 1
    if (t.ddims.length : Int) ≤ i ∨ i < -(t.ddims.length : Int) then .error .indexError
    else
      let j := (if i < 0 then t.ddims.length + i else i).toNat
      if j + 1 = t.ddims.length then .error .unmodelled else .ok j

/-- `attachment_age` (`tails/bondy.py:88`, `tails/clark.py:92`). -/
def attachAge (t : Tri ℝ) (attach : Option Int) : Int :=
  match attach with
  | none => t.ddims.getD (t.ddims.length - 2) 0
  | some a => if a = 0 then t.ddims.getD (t.ddims.length - 2) 0 else a

/-- The check of the two ages (`tails/bondy.py:69-70`); a number is not compared with `None`. -/
def checkAges (earliest attach : Option Int) : Except Err Unit :=
  match attach with
  | none => .ok ()
  | some a =>
    if a = 0 then .ok ()
    else match earliest with
      | none => .error .typeError
      | some e => if a < e then .error .valueError else .ok ()

/-- `fitted` (`tails/bondy.py:114-121`) for a first factor `x`, a decay `b` and `m` ages: powers of the first
factor, then all that would follow. -/
noncomputable def bondyFitted (x b : ℝ) (m k : Nat) : Num ℝ :=
  if k < m then pow x (.fin (b ^ k))
  else pow (x ^ (b ^ (m - 1))) (.fin b / .fin (1 - b))

open Classical in
/-- `TailBondy.fit(X).ldf_` (`tails/bondy.py:54-137`) for the decays `b i c` found by `least_squares`, and
positive factors at the earliest age.  The values are replaced without regard to the ages put there by
`TailBase.fit`. -/
noncomputable def bondy (b : Nat → Nat → ℝ) (t f : Tri ℝ) (earliest attach : Option Int) (p : Nat) :
    Except Err (Tri ℝ) :=
  if t.isVal ∨ f.values.d3 + 1 ≠ t.ddims.length then .error .unmodelled
  else do
    checkAges earliest attach
    let g ← extend t.dgrain p f
    let e ← earliestIdx t earliest
    let age := t.ddims.getD e 0
    let a := attachAge t attach
    let m := (t.ddims.filter fun d => decide (age ≤ d)).length
    let keep := (t.ddims.filter fun d => decide (d ≤ a)).length
    let r := (t.ddims.filter fun d => decide (a ≤ d)).length
    let start := if r = 0 then 0 else m + 1 - r
    if ∃ i < f.values.d0, ∃ c < f.values.d1, ¬ ∃ x, 0 < x ∧ f.values.get i c 0 e = .fin x then .error .unmodelled
    else .ok { g with
      values := { g.values with
        d3 := keep + (m + 1 - start)
        get := fun i c o d =>
          if d < keep then g.values.get i c o d
          else bondyFitted (f.values.get i c 0 e).amt (b i c) m (start + (d - keep)) } }

/-- `fitted` (`tails/clark.py:82-91`) at position `d` of `n` ages, with `u` the values of `1 / G_`. -/
noncomputable def clarkFitted (u : Nat → Num ℝ) (n d : Nat) : Num ℝ :=
  if d + 1 < n then u d / u (d + 1) else u d

/-- `TailClark.fit(X).ldf_` (`tails/clark.py:57-111`) for the parameters `theta i c`, `omega i c` found by
`ClarkLDF`. -/
noncomputable def clark (growth : String) (theta omega : Nat → Nat → ℝ) (t f : Tri ℝ) (attach : Option Int)
    (trunc : Option ℝ) (p : Nat) : Except Err (Tri ℝ) :=
  if t.isVal ∨ f.values.d3 + 1 ≠ t.ddims.length then .error .unmodelled
  else do
    let g ← extend t.dgrain p f
    let ages := g.ddims.map fun a : Int => (a : ℝ) - Clark.offset t.dgrain
    Clark.check growth ages
    let a := attachAge t attach
    let keep := (g.ddims.filter fun d => decide (d < a)).length
    let r := (g.ddims.filter fun d => decide (a ≤ d)).length
    let start := if r = 0 then 0 else g.ddims.length - r
    if f.values.d0 ≠ t.values.d0 ∨ f.values.d1 ≠ t.values.d1 then .error .valueError
    else
      let get := fun i c o d =>
        if d < keep then g.values.get i c o d
        else clarkFitted (fun k => (1 / Clark.curve growth (theta i c) (omega i c) (ages.getD k 0)).numToNan)
          g.ddims.length (start + (d - keep))
      let d3 := keep + (g.ddims.length - start)
      let l : Tri ℝ := { g with values := { g.values with d3 := d3, get := get } }
      match trunc with
      | none => .ok l
      | some x =>
        if x = 0 then .ok l
        else do
          Clark.check growth [x]
          .ok { l with
            values := { l.values with
              get := fun i c o d =>
                if d + 1 < d3 then get i c o d
                else get i c o d * Clark.curve growth (theta i c) (omega i c) x } }

end Tail
end CL
