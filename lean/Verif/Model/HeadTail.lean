import Verif.Model.Concat
import Verif.Model.Groupby

/-!
# `head`, `tail` and `append` (`core/pandas.py:257-271,318-322`)
-/

namespace CL
namespace Tri
variable {K : Type} [Field K] [LinearOrder K] [IsStrictOrderedRing K]

/-- `head(n)` (`core/pandas.py:318-319`). -/
def head (t : Tri K) (n : Int) : Except Err (Tri K) := t.ilocAx .index (.upto n)

/-- `tail(n)` (`core/pandas.py:321-322`). -/
def tail (t : Tri K) (n : Int) : Except Err (Tri K) := t.ilocAx .index (.from (-n))

/-- `append(other)` (`core/pandas.py:257-271`). -/
def append (t s : Tri K) : Except Err (Tri K) := concat .index [t, s]

end Tri
end CL
