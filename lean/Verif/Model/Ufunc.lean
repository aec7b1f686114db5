import Verif.Model.Arith

/-!
# `minimum` and `maximum` (`core/pandas.py:334-338`, `core/base.py:411-418`, `utils/utility_functions.py`), dense backend

numpy hands `np.minimum(triangle, other)` to `__array_ufunc__` of the triangle.
-/

namespace CL
namespace Num
variable {K : Type} [Field K] [LinearOrder K] [IsStrictOrderedRing K]

/-- `np.minimum` of two numbers (external library, assumed). -/
def least (a b : Num K) : Num K := if a.isNan || b.isNan then .nan else if b.ltb a then b else a

/-- `np.maximum` of two numbers (external library, assumed). -/
def greatest (a b : Num K) : Num K := if a.isNan || b.isNan then .nan else if a.ltb b then b else a

end Num

namespace Tri
variable {K : Type} [Field K] [LinearOrder K] [IsStrictOrderedRing K]

/-- `__array_ufunc__` (`core/base.py:411-418`) for two inputs, of which the first is the triangle; the second is
a number, an array or the values of a triangle. -/
def ufunc (f : Num K → Num K → Num K) (t : Tri K) (a : Arr K) : Except Err (Tri K) := do
  let v ← Arr.zip f t.values a
  .ok { t with values := v }

/-- `minimum(other)` (`core/pandas.py:334-335`). -/
def minimum (t : Tri K) (a : Arr K) : Except Err (Tri K) := t.ufunc Num.least a

/-- `maximum(other)` (`core/pandas.py:337-338`). -/
def maximum (t : Tri K) (a : Arr K) : Except Err (Tri K) := t.ufunc Num.greatest a

end Tri
end CL
