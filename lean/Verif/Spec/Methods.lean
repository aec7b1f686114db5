import Verif.Props.C05

set_option linter.unusedSectionVars false

/-! # What a reserving method has to return -/

namespace CL
namespace Tri
variable {K : Type} [Field K] [LinearOrder K] [IsStrictOrderedRing K]

/-- `f` is a multiplicative pattern for `t`: one row of nonzero factors, whose ages start with the
ages of `t`, for the index and columns of `t` (or one index or column for all). -/
structure PatternFor (t f : Tri K) : Prop where
  wf : WF f
  pattern : f.isPattern = true
  incremental : f.isCum ≠ some true
  multiplicative : f.isAdditive = none
  ages : f.isVal = t.isVal
  ograin : t.ograin = f.ograin
  dgrain : t.dgrain = f.dgrain
  keyLabels : t.keyLabels = f.keyLabels
  index : f.kdims = t.kdims ∨ f.kdims.length = 1
  columns : f.vdims = t.vdims ∨ f.vdims.length = 1
  origin : f.odims.length = 1
  starts : f.ddims.take t.ddims.length = t.ddims
  factors : ∀ i < f.values.d0, ∀ c < f.values.d1, ∀ j < f.values.d3,
    ∃ x, x ≠ 0 ∧ f.values.get i c 0 j = .fin x

/-- The age-to-age factor of `f` for index `i`, column `c` and development `j`. -/
def ageFactor (f : Tri K) (i c j : Nat) : K :=
  (f.values.get (if f.kdims.length = 1 then 0 else i) (if f.vdims.length = 1 then 0 else c) 0 j).amt

/-- The age-to-ultimate factor at development `d`: the product of all later factors, including the
tail. -/
def toUlt (f : Tri K) (i c d : Nat) : K := ∏ j ∈ Finset.Ico d f.ddims.length, f.ageFactor i c j

/-- A cumulative development triangle with at least two ages: no axis empty, the cells of an origin
at different valuations, no infinite amount. -/
structure CumTri (t : Tri K) : Prop where
  wf : WF t
  ordered : Ordered t
  dated : Dated t
  distinct : DistinctValuations t
  finite : Finite t
  ages : t.isVal = false
  cumulative : t.isCum ≠ some false
  noPattern : t.isPattern = false
  index_pos : 1 ≤ t.kdims.length
  columns_pos : 1 ≤ t.vdims.length
  origins_pos : 1 ≤ t.odims.length
  ages_two : 2 ≤ t.ddims.length

/-- `u` holds one ultimate per origin listed in `rows` (those with a cell at the valuation date),
labelled as ultimate values; `ult i c o d` is the ultimate of an origin `o` whose latest cell is at
development `d`. -/
structure UltimateOf (t u : Tri K) (rows : List Nat) (ult : Nat → Nat → Nat → Nat → K) : Prop where
  rows_inc : rows.Pairwise (· < ·)
  mem_rows : ∀ o, o ∈ rows ↔ o < t.odims.length ∧ ∃ d < t.ddims.length, t.valuation o d = t.vd
  wf : WF u
  index : u.kdims = t.kdims ∧ u.keyLabels = t.keyLabels
  columns : u.vdims = t.vdims
  origins : At t.odims u.odims rows
  grains : u.ograin = t.ograin ∧ u.dgrain = t.dgrain
  development : u.ddims = [ultVal] ∧ u.isVal = true
  date : u.vd = ultVal
  cumulative : u.isCum = some true ∧ u.isPattern = false
  cells : ∀ i c o d, i < t.values.d0 → c < t.values.d1 → (ho : o < rows.length) →
    d < t.ddims.length → t.valuation rows[o] d = t.vd →
    u.values.get i c o 0 = (Num.fin (ult i c rows[o] d)).numToNan

/-- `w` is an exposure for `t`: one development, index, columns and origins those of `t` (or a single
one for all), no infinite amount. -/
structure ExposureFor (t w : Tri K) : Prop where
  wf : WF w
  finite : Finite w
  keyLabels : w.keyLabels = t.keyLabels
  ograin : w.ograin = t.ograin
  index : w.kdims = t.kdims ∨ w.kdims.length = 1
  columns : w.vdims = t.vdims ∨ w.vdims.length = 1
  origins : w.odims = t.odims ∨ w.odims.length = 1
  one : w.ddims.length = 1

/-- The exposure of index `i`, column `c`, origin `o`. -/
def exposure (w : Tri K) (i c o : Nat) : K :=
  (w.values.get (if w.kdims.length = 1 then 0 else i) (if w.vdims.length = 1 then 0 else c)
    (if w.odims.length = 1 then 0 else o) 0).amt

/-- Every origin has a cell at the valuation date. -/
def AllCurrent (t : Tri K) : Prop :=
  ∀ o < t.odims.length, ∃ d < t.ddims.length, t.valuation o d = t.vd

/-- The credibility iteration: `n` times replace the expected ultimate `U` by the latest amount plus
the undeveloped part `1 - 1 / cdf` of `U`. -/
def benkIter (latest cdf e : K) : Nat → K
  | 0 => e
  | n + 1 => latest + (1 - 1 / cdf) * benkIter latest cdf e n

end Tri
end CL
