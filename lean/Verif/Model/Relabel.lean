import Verif.Model.Arith

/-!
# Assignment of labels (`core/triangle.py:306-389`, `core/pandas.py:273-299`)

The setter of `origin`, which goes through pandas periods, is not modelled.
-/

namespace CL
namespace Tri
variable {K : Type} [Field K] [LinearOrder K] [IsStrictOrderedRing K]

/-- New names of columns: a string or a list of strings. -/
inductive Names
  | str (s : String)
  | lst (l : List String)

/-- Python's `len`. -/
def Names.len : Names → Nat
  | .str s => s.length
  | .lst l => l.length

/-- `[value] if type(value) is str else value`. -/
def Names.toList : Names → List String
  | .str s => [s]
  | .lst l => l

/-- The setter of `columns` (`core/triangle.py:320-326`) with `_len_check` (`core/base.py:170-176`). -/
def setColumns (t : Tri K) (v : Names) : Except Err (Tri K) :=
  if t.vdims.length ≠ v.len then .error .valueError else .ok { t with vdims := v.toList }

/-- The setter of `index` (`core/triangle.py:306-314`) for a data frame with the given labels and rows. -/
def setIndex (t : Tri K) (labels : List String) (rows : List (List String)) : Except Err (Tri K) :=
  if t.kdims.length ≠ rows.length then .error .valueError
  else .ok { t with kdims := rows, keyLabels := labels }

/-- The setter of `index` (`core/triangle.py:306-314`) for a list of `n` items. -/
def setIndexList (t : Tri K) (n : Nat) : Except Err (Tri K) :=
  if t.kdims.length ≠ n then .error .valueError else .error .typeError

/-- The setter of `development` (`core/triangle.py:377-380`) for a list: `np.array(value)` is not a `DatetimeIndex`, so
that `is_val_tri` (391-394) is false afterwards. -/
def setDevelopment (t : Tri K) (value : List Int) : Except Err (Tri K) :=
  if t.ddims.length ≠ value.length then .error .valueError
  else .ok { t with ddims := value, isVal := false }

/-- `rename("columns", value)` (`core/pandas.py:290-294`). -/
def renameColumns (t : Tri K) (v : Names) : Except Err (Tri K) := t.setColumns (.lst v.toList)

end Tri
end CL
