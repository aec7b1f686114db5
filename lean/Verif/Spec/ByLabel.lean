import Verif.Spec.Amounts

set_option linter.unusedSectionVars false

/-! # Amounts by label -/

namespace CL
namespace Tri
variable {K : Type} [Field K] [LinearOrder K] [IsStrictOrderedRing K]

/-- The amount of `t` at the labels: index key, column, start of the origin period and valuation.  It is
0 where `t` has no such cell. -/
def amountAt (t : Tri K) (k : List String) (col : String) (o v : Int) : K :=
  ∑ i ∈ Finset.range t.kdims.length, ∑ c ∈ Finset.range t.vdims.length,
    ∑ r ∈ Finset.range t.odims.length, ∑ d ∈ Finset.range t.ddims.length,
      if t.kdims[i]? = some k ∧ t.vdims[c]? = some col ∧ t.odims[r]? = some o ∧ t.valuation r d = v then
        (t.values.get i c r d).amt else 0

end Tri
end CL
