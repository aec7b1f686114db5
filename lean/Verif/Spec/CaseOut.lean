import Verif.Spec.Standard
import Verif.Spec.Periods
import Verif.Model.Development

set_option linter.unusedSectionVars false

/-!
# The case outstanding method

Future reserves are the prior reserves times a factor of the age, future payments are the prior reserves
times another; both factors are averages over the origins that have reached the next age.
-/

namespace CL
namespace CaseOut
open Tri
variable {K : Type} [Field K] [LinearOrder K] [IsStrictOrderedRing K]

/-- The age reached by an origin. -/
def reached (D q o : Nat) : Nat := D - 1 - q * o

/-- The latest reserves of all origins. -/
def total (R : Nat → Nat → Nat → K) (n D q i : Nat) : K := ∑ o ∈ Finset.range n, R i o (reached D q o)

/-- The amount of a column. -/
def amount (x : Tri K) (p : String) (i o d : Nat) : K := (x.values.get i (x.vdims.idxOf p) o d).amt

/-- Incurred less paid. -/
def reserve (x : Tri K) (p r : String) (i o d : Nat) : K := amount x r i o d - amount x p i o d

/-- The amount of all index members and columns. -/
def grand (x : Tri K) (o d : Nat) : K :=
  ∑ c ∈ Finset.range x.vdims.length, ∑ i ∈ Finset.range x.kdims.length, (x.values.get i c o d).amt

/-- The mean over a set of origins. -/
def mean (S : Finset Nat) (g : Nat → K) : K := (∑ o ∈ S, g o) / S.card

/-- The `k` latest origins that have reached the age after `d` and have payments there. -/
def paying (P : Nat → Nat → Nat → K) (n D q : Nat) (k : Int) (i d : Nat) : Finset Nat :=
  (Dev.latestOf n D q k d).filter fun o => P i o (d + 1) - P i o d ≠ 0

/-- The average ratio of reserves to the prior reserves over the `k` latest origins. -/
def caseFactor (C : Nat → Nat → Nat → K) (n D q : Nat) (k : Int) (i d : Nat) : K :=
  mean (Dev.latestOf n D q k d) fun o => C i o (d + 1) / C i o d

/-- The average ratio of payments to the prior reserves. -/
def paidFactor (C P : Nat → Nat → Nat → K) (n D q : Nat) (k : Int) (i d : Nat) : K :=
  mean (paying P n D q k i d) fun o => (P i o (d + 1) - P i o d) / C i o d

/-- The amounts `F` of the paid column `p` and the incurred column `r` at every age. -/
structure Completed (x : Tri K) (p r : String) (n D q : Nat) (φ γ : Nat → Nat → K)
    (F : Nat → String → Nat → Nat → K) : Prop where
  known : ∀ i < x.kdims.length, ∀ col, col = p ∨ col = r → ∀ o < n, ∀ d < D, q * o + d < D →
    F i col o d = amount x col i o d
  reserves : ∀ i < x.kdims.length, ∀ o < n, ∀ d, d + 1 < D → D ≤ q * o + (d + 1) →
    F i r o (d + 1) - F i p o (d + 1) = (F i r o d - F i p o d) * φ i d
  payments : ∀ i < x.kdims.length, ∀ o < n, ∀ d, d + 1 < D → D ≤ q * o + (d + 1) →
    F i p o (d + 1) = F i p o d + (F i r o d - F i p o d) * γ i d

/-- The factors and completed amounts are nowhere zero; with `n_periods` the triangle reaches the current origin. -/
structure Ready (x : Tri K) (p r : String) (n D q : Nat) (np nc : Int) (F : Nat → String → Nat → Nat → K) : Prop where
  paid : p ∈ x.vdims
  incurred : r ∈ x.vdims
  distinct : p ≠ r
  columns : x.vdims.Nodup
  three_origins : 3 ≤ n
  reserves : ∀ i < x.kdims.length, ∀ o < n, ∀ d < D, q * o + d < D → reserve x p r i o d ≠ 0
  amounts : ∀ o < n, ∀ d < D, q * o + d < D → grand x o d ≠ 0
  latest : ∀ i < x.kdims.length, total (reserve x p r) n D q i ≠ 0
  caseFactors : ∀ i < x.kdims.length, ∀ d < D - 1, caseFactor (reserve x p r) n D q nc i d ≠ 0
  paidFactors : ∀ i < x.kdims.length, ∀ d < D - 1, paidFactor (reserve x p r) (amount x p) n D q np i d ≠ 0
  periods : (np < 1 ∧ nc < 1) ∨ (D ≤ q * n ∧ Dev.valOffsetFunc x.dgrain x.ograin = some q)
  completed : ∀ i < x.kdims.length, ∀ col, col = p ∨ col = r → ∀ o < n, ∀ d < D, F i col o d ≠ 0

end CaseOut
end CL
