import Mathlib.Algebra.BigOperators.Intervals
import Mathlib.Algebra.Order.Field.Basic
import Mathlib.Data.Rat.Defs
import Mathlib.Algebra.Order.Ring.Rat
import Mathlib.Algebra.Field.Rat
import Mathlib.Tactic.Ring
import Mathlib.Tactic.Linarith
import Mathlib.Tactic.FieldSimp
import Mathlib.Tactic.Positivity
import Mathlib.Tactic.SplitIfs

/-!
# Floating point numbers as used by numpy, without rounding

`Num K` is what a float64 cell of `Triangle.values` can hold: NaN, an infinity, or a finite
number.  Simplifications: finite arithmetic is exact (an arbitrary linearly ordered field `K`
instead of the doubles) and the sign of zero is ignored.
-/

namespace CL

/-- A numpy float64 cell. -/
inductive Num (K : Type) where
  | nan : Num K
  | ninf : Num K
  | fin : K → Num K
  | pinf : Num K
  deriving DecidableEq, Repr

/-- Python exceptions raised (or let through) by the modelled code. -/
inductive Err where
  | valueError | attributeError | indexError | keyError | typeError | assertionError
  | unboundLocalError | notImplementedError | zeroDivisionError
  /-- `raise Exception(...)` -/
  | exception
  /-- not an exception: the code path is outside the model -/
  | unmodelled
  deriving DecidableEq, Repr

namespace Num

variable {K : Type} [Field K] [LinearOrder K] [IsStrictOrderedRing K]

instance : Zero (Num K) := ⟨fin 0⟩
instance : One (Num K) := ⟨fin 1⟩

/-- IEEE negation. -/
def neg : Num K → Num K
  | nan => nan
  | ninf => pinf
  | pinf => ninf
  | fin a => fin (-a)

/-- IEEE addition. -/
def add : Num K → Num K → Num K
  | nan, _ => nan
  | _, nan => nan
  | fin a, fin b => fin (a + b)
  | fin _, y => y
  | x, fin _ => x
  | pinf, pinf => pinf
  | ninf, ninf => ninf
  | _, _ => nan

/-- Product of an infinity of the given sign with a finite number. -/
def infMul (pos : Bool) (b : K) : Num K :=
  if b = 0 then nan else if 0 < b then (if pos then pinf else ninf)
  else (if pos then ninf else pinf)

/-- IEEE multiplication. -/
def mul : Num K → Num K → Num K
  | nan, _ => nan
  | _, nan => nan
  | fin a, fin b => fin (a * b)
  | pinf, fin b => infMul true b
  | ninf, fin b => infMul false b
  | fin a, pinf => infMul true a
  | fin a, ninf => infMul false a
  | pinf, pinf => pinf
  | ninf, ninf => pinf
  | _, _ => ninf

/-- IEEE division (a zero divisor counts as `+0`). -/
def div : Num K → Num K → Num K
  | nan, _ => nan
  | _, nan => nan
  | fin a, fin b =>
      if b = 0 then (if a = 0 then nan else if 0 < a then pinf else ninf) else fin (a / b)
  | fin _, pinf => fin 0
  | fin _, ninf => fin 0
  | pinf, fin b => if b < 0 then ninf else pinf
  | ninf, fin b => if b < 0 then pinf else ninf
  | _, _ => nan

instance : Neg (Num K) := ⟨neg⟩
instance : Add (Num K) := ⟨add⟩
instance : Sub (Num K) := ⟨fun a b => add a (neg b)⟩
instance : Mul (Num K) := ⟨mul⟩
instance : Div (Num K) := ⟨div⟩

/-- The IEEE comparison `a < b` (false whenever a NaN is involved). -/
def ltb : Num K → Num K → Bool
  | nan, _ => false
  | _, nan => false
  | fin a, fin b => decide (a < b)
  | ninf, ninf => false
  | ninf, _ => true
  | _, ninf => false
  | pinf, _ => false
  | _, pinf => true

/-- The IEEE comparison `a == b` (false whenever a NaN is involved). -/
def eqb : Num K → Num K → Bool
  | nan, _ => false
  | _, nan => false
  | fin a, fin b => decide (a = b)
  | pinf, pinf => true
  | ninf, ninf => true
  | _, _ => false

/-- The largest finite double, `2^1024 - 2^971`. -/
def maxFloat : K := 2 ^ 1024 - 2 ^ 971

/-- `np.nan_to_num`: NaN to 0, infinities to the largest finite doubles.
(The sparse version in `utils/sparse.py:28-34` leaves infinities alone; see `Model/Sparse`.) -/
def nanToNum : Num K → Num K
  | nan => fin 0
  | pinf => fin maxFloat
  | ninf => fin (-maxFloat)
  | fin a => fin a

/-- `num_to_nan` (`utils/utility_functions.py:354-378`): zeros become NaN. -/
def numToNan : Num K → Num K
  | fin a => if a = 0 then nan else fin a
  | x => x

/-- `num_to_value(arr, value)` on a dense array (`utils/utility_functions.py:354-369`). -/
def numToValue : Num K → Num K → Num K
  | fin a, v => if a = 0 then v else fin a
  | x, _ => x

/-- A NaN replaced by `0`, as `np.nansum` does before summing (infinities are kept). -/
def nan0 : Num K → Num K
  | nan => fin 0
  | x => x

/-- `np.isfinite`. -/
def isFinite : Num K → Bool
  | fin _ => true
  | _ => false

/-- `np.isnan`. -/
def isNan : Num K → Bool
  | nan => true
  | _ => false

/-- `x ** n` for a natural exponent (`nan ** 0 = 1`, as in C `pow`). -/
def npow : Num K → ℕ → Num K
  | _, 0 => fin 1
  | x, n + 1 => npow x n * x

/-- A boolean used as a number. -/
def ofBool (b : Bool) : Num K := if b then fin 1 else fin 0

/-! ### Specification-level reading of a cell -/

/-- The amount a cell stands for: missing counts as zero.  (Infinite cells have no amount; the
value `0` given to them is never used, since every statement assumes `NoInf`.) -/
def amt : Num K → K
  | fin a => a
  | _ => 0

/-- A cell that is missing or a finite number. -/
def NoInf : Num K → Prop
  | pinf => False
  | ninf => False
  | _ => True

instance (x : Num K) : Decidable (NoInf x) := by
  cases x <;> simp only [NoInf] <;> infer_instance

end Num
end CL
