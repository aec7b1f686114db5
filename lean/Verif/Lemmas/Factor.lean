import Verif.Model.Development

set_option linter.unusedSectionVars false

/-! # The fitted factor as a quotient of sums -/

namespace CL
namespace Dev
variable {K : Type} [Field K] [LinearOrder K] [IsStrictOrderedRing K]

/-- Missing or a nonzero number, as after `num_to_nan`. -/
def Clean (x : Num K) : Prop := x = .nan ∨ ∃ a, a ≠ 0 ∧ x = .fin a

theorem clean_numToNan {x : Num K} (h : x.NoInf) : Clean x.numToNan := by
  rcases Num.noInf_cases h with rfl | ⟨a, rfl⟩
  · exact Or.inl rfl
  · by_cases ha : a = 0
    · left; simp [Num.numToNan, ha]
    · right; exact ⟨a, ha, by simp [Num.numToNan, ha]⟩

/-- Contribution of an origin to the numerator. -/
def numer : Avg → K → K → K → K
  | .regression, s, a, b => s * a * b
  | .volume, s, _, b => s * b
  | .simple, s, a, b => s * (b / a)

/-- Contribution of an origin to the denominator. -/
def denom : Avg → K → K → K
  | .regression, s, a => s * (a * a)
  | .volume, s, a => s * a
  | .simple, s, _ => s

private theorem mul_fin (a b : K) : (Num.fin a * Num.fin b : Num K) = .fin (a * b) := rfl
private theorem div_fin {a b : K} (h : b ≠ 0) : (Num.fin a / Num.fin b : Num K) = .fin (a / b) := by
  show Num.div _ _ = _
  simp [Num.div, h]
private theorem div_one' (a : K) : (Num.fin a / Num.fin 1 : Num K) = .fin a := by
  rw [div_fin one_ne_zero, div_one]

theorem term_numer (v : Avg) {w x y : Num K} (hw : w.NoInf) (hx : Clean x) (hy : Clean y) :
    (regWeight v w x y * x * y).nan0 =
      .fin (if x.amt ≠ 0 ∧ y.amt ≠ 0 then numer v w.amt x.amt y.amt else 0) := by
  rcases hx with rfl | ⟨a, ha, rfl⟩
  · simp [Num.nan0]
  rcases hy with rfl | ⟨b, hb, rfl⟩
  · simp [Num.nan0]
  rw [if_pos ⟨ha, hb⟩]
  rcases Num.noInf_cases hw with rfl | ⟨s, rfl⟩
  · cases v <;> simp [regWeight, expo, Num.nan0, Num.numToNan, numer, Avg.exponent]
  · unfold regWeight expo
    cases v <;> simp only [Avg.exponent, Num.npow, mul_fin, one_mul]
    · rw [div_one']
      by_cases hs : s = 0
      · subst hs; simp [Num.nan0, Num.numToNan, numer]
      · simp [Num.nan0, Num.numToNan, numer, hs]
    · rw [div_fin ha]
      by_cases hs : s = 0
      · subst hs; simp [Num.nan0, Num.numToNan, numer]
      · have : s / a ≠ 0 := div_ne_zero hs ha
        simp [Num.nan0, Num.numToNan, numer, hs, ha]
    · rw [div_fin (mul_ne_zero ha ha)]
      by_cases hs : s = 0
      · subst hs; simp [Num.nan0, Num.numToNan, numer]
      · have : s / a ≠ 0 := div_ne_zero hs ha
        simp [Num.nan0, Num.numToNan, numer, hs, ha]
        field_simp

theorem term_denom (v : Avg) {w x y : Num K} (hw : w.NoInf) (hx : Clean x) (hy : Clean y) :
    ((y * 0 + 1) * regWeight v w x y * x * x).nan0 =
      .fin (if x.amt ≠ 0 ∧ y.amt ≠ 0 then denom v w.amt x.amt else 0) := by
  rcases hx with rfl | ⟨a, ha, rfl⟩
  · simp [Num.nan0]
  rcases hy with rfl | ⟨b, hb, rfl⟩
  · simp [Num.nan0]
  rw [if_pos ⟨ha, hb⟩]
  have h1 : (Num.fin b * 0 + 1 : Num K) = .fin 1 := by simp [Num.zero_def, Num.one_def]
  rw [h1]
  rcases Num.noInf_cases hw with rfl | ⟨s, rfl⟩
  · cases v <;> simp [regWeight, expo, Num.nan0, Num.numToNan, denom, Avg.exponent]
  · unfold regWeight expo
    cases v <;> simp only [Avg.exponent, Num.npow, mul_fin, one_mul]
    · rw [div_one']
      by_cases hs : s = 0
      · subst hs; simp [Num.nan0, Num.numToNan, denom]
      · simp [Num.nan0, Num.numToNan, denom, hs, mul_assoc]
    · rw [div_fin ha]
      by_cases hs : s = 0
      · subst hs; simp [Num.nan0, Num.numToNan, denom]
      · have : s / a ≠ 0 := div_ne_zero hs ha
        simp [Num.nan0, Num.numToNan, denom, hs, ha]
    · rw [div_fin (mul_ne_zero ha ha)]
      by_cases hs : s = 0
      · subst hs; simp [Num.nan0, Num.numToNan, denom]
      · have : s / a ≠ 0 := div_ne_zero hs ha
        simp [Num.nan0, Num.numToNan, denom, hs, ha]
        field_simp

theorem quot (a b : K) :
    ((Num.fin a).numToNan / (Num.fin b).numToNan : Num K) = (Num.fin (a / b)).numToNan := by
  by_cases ha : a = 0
  · subst ha; simp [Num.numToNan]
  by_cases hb : b = 0
  · subst hb; simp [Num.numToNan]
  have : a / b ≠ 0 := div_ne_zero ha hb
  simp only [Num.numToNan, ha, hb, this, if_false]
  exact div_fin hb

theorem factor_eq (v : Avg) (n : Nat) {w x y : Nat → Num K} (hw : ∀ j < n, (w j).NoInf)
    (hx : ∀ j < n, Clean (x j)) (hy : ∀ j < n, Clean (y j)) :
    factor v n w x y = (Num.fin
      ((∑ j ∈ Finset.range n, if (x j).amt ≠ 0 ∧ (y j).amt ≠ 0 then
          numer v (w j).amt (x j).amt (y j).amt else 0) /
        ∑ j ∈ Finset.range n, if (x j).amt ≠ 0 ∧ (y j).amt ≠ 0 then
          denom v (w j).amt (x j).amt else 0)).numToNan := by
  unfold factor Reg.origSlope Reg.origDen Reg.nansum
  rw [← quot]
  congr 2
  · rw [← Num.sum_fin]
    apply Finset.sum_congr rfl
    intro j hj
    have hj : j < n := by simpa using hj
    exact term_numer v (hw j hj) (hx j hj) (hy j hj)
  · rw [← Num.sum_fin]
    apply Finset.sum_congr rfl
    intro j hj
    have hj : j < n := by simpa using hj
    exact term_denom v (hw j hj) (hx j hj) (hy j hj)

end Dev
end CL
