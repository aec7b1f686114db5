import Verif.Props.C13

set_option linter.unusedSectionVars false

/-! # What a valuation filter has to do -/

namespace CL
namespace Tri
variable {K : Type} [Field K] [LinearOrder K] [IsStrictOrderedRing K]

/-- `u` is `t` filtered by `key`: `rows` and `cols` list, in increasing order, exactly the origins
and developments with a selected cell; `u` has their labels; selected cells keep their content (a
zero becomes missing), the others are missing; cells keep their valuation; the valuation date is
the latest selected valuation, or the old one if that is earlier. -/
structure FilterSpec (t u : Tri K) (key : Nat → Nat → Bool) (rows cols : List Nat) : Prop where
  rows_inc : rows.Pairwise (· < ·)
  cols_inc : cols.Pairwise (· < ·)
  mem_rows : ∀ o, o ∈ rows ↔ o < t.odims.length ∧ ∃ d < t.ddims.length, key o d = true
  mem_cols : ∀ d, d ∈ cols ↔ d < t.ddims.length ∧ ∃ o < t.odims.length, key o d = true
  wf : WF u
  index : u.kdims = t.kdims
  columns : u.vdims = t.vdims
  origins : At t.odims u.odims rows
  developments : At t.ddims u.ddims cols
  isVal : u.isVal = t.isVal
  cells : ∀ i c o d, i < t.values.d0 → c < t.values.d1 → (ho : o < rows.length) →
    (hd : d < cols.length) → u.values.get i c o d =
      if key rows[o] cols[d] then (t.values.get i c rows[o] cols[d]).numToNan else .nan
  dates : ∀ o d, (ho : o < rows.length) → (hd : d < cols.length) →
    u.valuation o d = t.valuation rows[o] cols[d]
  vd : ∃ m, (∃ o d, o < t.odims.length ∧ d < t.ddims.length ∧ key o d = true ∧
      t.valuation o d = m) ∧
    (∀ o d, o < t.odims.length → d < t.ddims.length → key o d = true → t.valuation o d ≤ m) ∧
    u.vd = min m t.vd

end Tri
end CL
