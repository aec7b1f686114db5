import Verif.Spec.FullTri
import Mathlib.Algebra.BigOperators.Ring.Finset

set_option linter.unusedSectionVars false

/-! # Mack's formulas -/

namespace CL
variable {K : Type} [Field K] [LinearOrder K] [IsStrictOrderedRing K]

/-- `s` is the square root. -/
def IsSqrt (s : K → K) : Prop := ∀ x, 0 ≤ x → 0 ≤ s x ∧ s x ^ 2 = x

namespace Tri

/-- The factor from development `d` to the next column of the risk: the age-to-age factor, and from the
last age on the age-to-ultimate factor. -/
def riskFactor (f : Tri K) (D i c d : Nat) : K :=
  if d + 1 < D then f.ageFactor i c d else f.toUlt i c (D - 1)

end Tri

/-- The risk of one row: `r` is zero up to development `L`; afterwards its square is what was there,
times the square of the factor `φ`, plus the square of the term `T` that is added. -/
structure MackRow (T φ : Nat → K) (L D : Nat) (r : Nat → K) : Prop where
  known : ∀ d ≤ L, r d = 0
  nonneg : ∀ d ≤ D, 0 ≤ r d
  step : ∀ d, L ≤ d → d < D → r (d + 1) ^ 2 = (φ d * r d) ^ 2 + T d ^ 2

/-- The squared risk of a row in closed form. -/
theorem MackRow.closed {T φ r : Nat → K} {L D : Nat} (h : MackRow T φ L D r) :
    ∀ d, L ≤ d → d ≤ D →
      r d ^ 2 = ∑ k ∈ Finset.Ico L d, T k ^ 2 * ∏ l ∈ Finset.Ico (k + 1) d, φ l ^ 2 := by
  intro d hd
  induction d, hd using Nat.le_induction with
  | base => intro _; rw [h.known L le_rfl, Finset.Ico_self, Finset.sum_empty]; simp
  | succ d hd ih =>
    intro hD
    rw [h.step d hd (by omega), mul_pow, ih (by omega), Finset.sum_Ico_succ_top hd, Finset.Ico_self,
      Finset.prod_empty, mul_one, Finset.mul_sum]
    congr 1
    refine Finset.sum_congr rfl fun k hk => ?_
    rw [Finset.prod_Ico_succ_top (by have := Finset.mem_Ico.1 hk; omega)]
    ring

/-- The risk of a row is determined. -/
theorem MackRow.unique {T φ r r' : Nat → K} {L D : Nat} (h : MackRow T φ L D r) (h' : MackRow T φ L D r')
    {d : Nat} (hd : d ≤ D) : r d = r' d := by
  by_cases hL : d ≤ L
  · rw [h.known d hL, h'.known d hL]
  · have : r d ^ 2 = r' d ^ 2 := by rw [h.closed d (by omega) hd, h'.closed d (by omega) hd]
    exact (sq_eq_sq₀ (h.nonneg d hd) (h'.nonneg d hd)).1 this

/-- Scaling the terms scales the risk. -/
theorem MackRow.scale {T φ r : Nat → K} {L D : Nat} (h : MackRow T φ L D r) {x : K} (hx : 0 ≤ x) :
    MackRow (fun d => x * T d) φ L D fun d => x * r d where
  known d hd := by rw [h.known d hd, mul_zero]
  nonneg d hd := mul_nonneg hx (h.nonneg d hd)
  step d h1 h2 := by rw [mul_pow, h.step d h1 h2]; ring

end CL
