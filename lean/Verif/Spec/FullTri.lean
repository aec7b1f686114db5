import Verif.Spec.Standard

set_option linter.unusedSectionVars false

/-! # What a full triangle is made of -/

namespace CL
namespace Tri
variable {K : Type} [Field K] [LinearOrder K] [IsStrictOrderedRing K]

/-- A pattern on the same grid of ages as the triangle, with `F` factors, the last of them being the
tail; all dates are before the sentinel for ultimates. -/
structure GridPattern (t f : Tri K) (a : Int) (n D q F : Nat) : Prop extends PatternFor t f where
  grid : f.ddims = (List.range F).map fun d : Nat => (((d + 1) * t.dgrain.months : Nat) : Int)
  covers : D ≤ F
  short : F * t.dgrain.months < 9999
  early : a + ((q * (n - 1) + F + 1) * t.dgrain.months : Nat) ≤ ultVal
  date : f.vd ≤ ultVal

/-- `u` holds the ultimate amount `U i c o` of every origin of `t`; an ultimate of zero is missing. -/
structure UltAmounts (t u : Tri K) (U : Nat → Nat → Nat → K) : Prop where
  wf : WF u
  index : u.kdims = t.kdims
  keyLabels : u.keyLabels = t.keyLabels
  columns : u.vdims = t.vdims
  origins : u.odims = t.odims
  one : u.ddims.length = 1
  ograin : u.ograin = t.ograin
  date : u.vd = ultVal
  noPattern : u.isPattern = false
  cells : ∀ i < t.kdims.length, ∀ c < t.vdims.length, ∀ o < t.odims.length,
    u.values.get i c o 0 = (Num.fin (U i c o)).numToNan

/-- The latest amount of origin `o`. -/
def latest (t : Tri K) (D q i c o : Nat) : K := (t.values.get i c o (D - 1 - q * o)).amt

/-- The factors of `f` from development `d` to before `e`, multiplied. -/
def growth (f : Tri K) (i c d e : Nat) : K := ∏ j ∈ Finset.Ico d e, f.ageFactor i c j

end Tri
end CL
