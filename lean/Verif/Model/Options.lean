import Verif.Model.Num
import Mathlib.Data.List.Basic

/-!
# Global options (`chainladder/__init__.py`)

The options are attributes of the class `Options`; its methods are attributes of the same class, so
`set_option` can overwrite a method.  Simplifications: attributes inherited from `object` (dunder
names) are not modelled, and values are immutable (the default list `ARRAY_PRIORITY` is returned by
reference in the code).
-/

namespace CL.Options

/-- Values of class attributes. -/
inductive Val where
  | str (s : String)
  | bool (b : Bool)
  | strs (l : List String)
  /-- any other object passed by the user -/
  | other (n : Nat)
  /-- a method defined in the class body -/
  | method
  deriving DecidableEq

/-- The class dictionary. -/
abbrev Store := String → Option Val

/-- The class body (`__init__.py:3-28`). -/
def initial : Store := fun k =>
  if k = "ARRAY_BACKEND" then some (.str "numpy")
  else if k = "AUTO_SPARSE" then some (.bool true)
  else if k = "ARRAY_PRIORITY" then some (.strs ["dask", "sparse", "cupy", "numpy"])
  else if k = "ULT_VAL" then some (.str "2261-12-31 23:59:59.999999999")
  else if k = "get_option" ∨ k = "set_option" ∨ k = "reset_option" ∨ k = "describe_option" then
    some .method
  else none

inductive Err where
  /-- `AttributeError`: no such option -/
  | attribute
  /-- `TypeError`: the method was overwritten by a value that is not callable -/
  | type
  deriving DecidableEq

/-- `setattr(cls, option, value)`. -/
def setattr (s : Store) (k : String) (v : Val) : Store := fun k' => if k' = k then some v else s k'

/-- Calls of the public interface. -/
inductive Call where
  | get (k : String)
  | set (k : String) (v : Val)
  | reset

/-- Looking up a method before calling it. -/
def callable (s : Store) (m : String) : Except Err Unit :=
  match s m with
  | some .method => .ok ()
  | some _ => .error .type
  | none => .error .attribute

/-- `options.set_option(k, v)` (`__init__.py:13-15`). -/
def setOption (s : Store) (k : String) (v : Val) : Except Err Store := do
  callable s "set_option"
  .ok (setattr s k v)

/-- `options.get_option(k)` (`__init__.py:9-11`). -/
def getOption (s : Store) (k : String) : Except Err Val := do
  callable s "get_option"
  match s k with
  | some v => .ok v
  | none => .error .attribute

/-- `options.reset_option()` (`__init__.py:17-21`). -/
def resetOption (s : Store) : Except Err Store := do
  callable s "reset_option"
  let s ← setOption s "ARRAY_BACKEND" (.str "numpy")
  let s ← setOption s "AUTO_SPARSE" (.bool true)
  let s ← setOption s "ARRAY_PRIORITY" (.strs ["dask", "sparse", "cupy", "numpy"])
  setOption s "ULT_VAL" (.str "2261-12-31 23:59:59.999999999")

/-- The state after a call; a call that raises leaves the state. -/
def step (s : Store) : Call → Store
  | .get _ => s
  | .set k v => match setOption s k v with
    | .ok s' => s'
    | .error _ => s
  | .reset => match resetOption s with
    | .ok s' => s'
    | .error _ => s

/-- The state after a sequence of calls. -/
def run (calls : List Call) : Store := calls.foldl step initial

end CL.Options
