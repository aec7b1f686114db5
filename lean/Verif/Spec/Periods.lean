import Mathlib.Data.Finset.Card
import Mathlib.Order.Interval.Finset.Nat

/-! # The latest link ratios of a regular grid

`n` origins, `D` ages, `q` ages to an origin period: origin `o` has reached age `d` if `q * o + d < D`. -/

namespace CL
namespace Dev

/-- The origins with a link ratio at age `d`. -/
def linked (n D q d : Nat) : Finset Nat := (Finset.range n).filter fun o => q * o + d + 1 < D

/-- Those of them with fewer than `k` later ones; all for `k < 1` or `k ≥ n - 1`. -/
def latestOf (n D q : Nat) (k : Int) (d : Nat) : Finset Nat := (linked n D q d).filter fun o =>
  k < 1 ∨ (n : Int) - 1 ≤ k ∨ (((linked n D q d).filter (o < ·)).card : Int) < k

end Dev
end CL
