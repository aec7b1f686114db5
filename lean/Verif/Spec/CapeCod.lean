import Verif.Spec.Methods
import Verif.Model.CapeCod

set_option linter.unusedSectionVars false

/-! # What the Cape Cod method has to return -/

namespace CL
variable {K : Type} [Field K] [LinearOrder K] [IsStrictOrderedRing K]

/-- The entry of an array with one development for index `i`, column `c` and origin `o`; an axis of
length one holds the entry of all positions. -/
def Arr.entry (a : Arr K) (i c o : Nat) : Num K :=
  a.get (if a.d0 = 1 then 0 else i) (if a.d1 = 1 then 0 else c) (if a.d2 = 1 then 0 else o) 0

/-- `a` holds one positive factor for every index, column and origin of `t` (or one for all). -/
structure FactorsFor (t : Tri K) (a : Arr K) : Prop where
  index : a.d0 = t.kdims.length ∨ a.d0 = 1
  columns : a.d1 = t.vdims.length ∨ a.d1 = 1
  origins : a.d2 = t.odims.length ∨ a.d2 = 1
  one : a.d3 = 1
  positive : ∀ i < t.kdims.length, ∀ c < t.vdims.length, ∀ o < t.odims.length,
    ∃ x, 0 < x ∧ a.entry i c o = .fin x

namespace Tri

/-- Used-up exposure of origin `o`, whose latest cell is at development `age o`. -/
def usedUp (f w : Tri K) (age : Nat → Nat) (i c o : Nat) : K :=
  w.exposure i c o / f.toUlt i c (age o)

/-- Trended on-level ratio of the latest amount to the used-up exposure. -/
def lossRatio (t f w : Tri K) (age : Nat → Nat) (trend xolf swolf : Arr K) (i c o : Nat) : K :=
  (t.values.get i c o (age o)).amt * (trend.entry i c o).amt * (xolf.entry i c o).amt /
    (f.usedUp w age i c o * (swolf.entry i c o).amt)

/-- The average of `r` with weights `w` over the first `n` numbers. -/
def wavg (n : Nat) (w r : Nat → K) : K :=
  (∑ p ∈ Finset.range n, w p * r p) / ∑ p ∈ Finset.range n, w p

/-- Distance of two origins. -/
def apart (o p : Nat) : Nat := max o p - min o p

/-- The a-priori of origin `o`: the average ratio, weighted by used-up exposure and decay. -/
def capeCodRatio (t f w : Tri K) (age : Nat → Nat) (trend xolf swolf : Arr K) (decay : K)
    (i c o : Nat) : K :=
  wavg t.odims.length (fun p => f.usedUp w age i c p * decay ^ apart o p)
    (fun p => t.lossRatio f w age trend xolf swolf i c p)

end Tri
end CL
