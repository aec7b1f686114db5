import Verif.Lemmas.Factor
import Verif.Props.C28

set_option linter.unusedSectionVars false

/-! # The mean squared residual and the denominator of the regression of one age -/

namespace CL
namespace Dev
variable {K : Type} [Field K] [LinearOrder K] [IsStrictOrderedRing K]

/-- The origins in the regression. -/
def inUse (n : Nat) (w x y : Nat → Num K) : Finset Nat :=
  (Finset.range n).filter fun j => (x j).amt ≠ 0 ∧ (y j).amt ≠ 0 ∧ (w j).amt ≠ 0

/-- A weight is missing, 0 or 1. -/
def Masked (w : Num K) : Prop := w = .nan ∨ w = 0 ∨ w = 1

theorem sum_used {n : Nat} {w x y : Nat → Num K} {f : Nat → Num K} {g : Nat → K}
    (h : ∀ j < n, (f j).nan0 = .fin (if (x j).amt ≠ 0 ∧ (y j).amt ≠ 0 ∧ (w j).amt ≠ 0 then g j else 0)) :
    Reg.nansum n f = .fin (∑ j ∈ inUse n w x y, g j) := by
  unfold Reg.nansum inUse
  rw [Finset.sum_filter, ← Num.sum_fin]
  exact Finset.sum_congr rfl fun j hj => h j (by simpa using hj)

private theorem div_fin {a b : K} (h : b ≠ 0) : (Num.fin a / Num.fin b : Num K) = .fin (a / b) := by
  show Num.div _ _ = _
  simp [Num.div, h]

/-- The weight of the regression. -/
theorem regWeight_cases (v : Avg) {w x y : Num K} (hw : Masked w) (hx : Clean x) (hy : Clean y) :
    ((x.amt ≠ 0 ∧ y.amt ≠ 0 ∧ w.amt ≠ 0) ∧ ∃ a b, a ≠ 0 ∧ b ≠ 0 ∧ x = .fin a ∧ y = .fin b ∧
      regWeight v w x y = .fin (1 / a ^ v.exponent)) ∨
    (¬ (x.amt ≠ 0 ∧ y.amt ≠ 0 ∧ w.amt ≠ 0) ∧ (regWeight v w x y = .nan ∨ y = .nan ∨
      (v = .regression ∧ x = .nan ∧ w = 1 ∧ y.amt ≠ 0))) := by
  rcases hy with rfl | ⟨b, hb, rfl⟩
  · right; simp
  rcases hx with rfl | ⟨a, ha, rfl⟩
  · right
    refine ⟨by simp, ?_⟩
    rcases hw with rfl | rfl | rfl
    · left
      unfold regWeight expo
      cases v <;> simp [Avg.exponent, Num.numToNan]
    · left
      unfold regWeight expo
      cases v <;> simp [Avg.exponent, Num.npow, Num.numToNan, Num.zero_def, Num.one_def, div_fin]
    · cases v
      · right; right; exact ⟨rfl, rfl, rfl, by simpa using hb⟩
      · left; unfold regWeight expo; simp [Avg.exponent, Num.npow, Num.numToNan]
      · left; unfold regWeight expo; simp [Avg.exponent, Num.npow, Num.numToNan]
  rcases hw with rfl | rfl | rfl
  · right
    refine ⟨by simp, Or.inl ?_⟩
    unfold regWeight
    simp [Num.numToNan]
  · right
    refine ⟨by simp [Num.zero_def], Or.inl ?_⟩
    unfold regWeight expo
    cases v <;> simp [Avg.exponent, Num.npow, Num.numToNan, Num.zero_def, Num.one_def, div_fin, ha]
  · left
    refine ⟨⟨by simpa using ha, by simpa using hb, by simp [Num.one_def]⟩, a, b, ha, hb, rfl, rfl, ?_⟩
    unfold regWeight expo
    cases v <;> simp [Avg.exponent, Num.npow, Num.numToNan, Num.one_def, div_fin, ha, pow_two]

theorem den_eq (v : Avg) {n : Nat} {w x y : Nat → Num K} (hw : ∀ j < n, Masked (w j)) (hx : ∀ j < n, Clean (x j))
    (hy : ∀ j < n, Clean (y j)) :
    Reg.origDen n (fun j => regWeight v (w j) (x j) (y j)) x y =
      (Num.fin (∑ j ∈ inUse n w x y, (x j).amt ^ (2 - v.exponent))).numToNan := by
  unfold Reg.origDen
  rw [sum_used (w := w) (x := x) (y := y) (g := fun j => (x j).amt ^ (2 - v.exponent))]
  intro j hj
  beta_reduce
  rcases regWeight_cases v (hw j hj) (hx j hj) (hy j hj) with ⟨hu, a, b, ha, hb, e1, e2, e3⟩ | ⟨hu, hc⟩
  · rw [if_pos hu, e3, e1, e2]
    cases v <;> simp [Avg.exponent, Num.nan0, Num.zero_def, Num.one_def] <;> field_simp
  · rw [if_neg hu]
    rcases hc with e | e | ⟨-, e, -, -⟩ <;> rw [e] <;> simp [Num.nan0]

theorem mse_eq (v : Avg) {n : Nat} {w x y : Nat → Num K} (hw : ∀ j < n, Masked (w j)) (hx : ∀ j < n, Clean (x j))
    (hy : ∀ j < n, Clean (y j)) (pos : v = .volume → ∀ j ∈ inUse n w x y, 0 < (x j).amt)
    (hz : v = .regression → ∀ j < n, (x j).amt = 0 → (y j).amt ≠ 0 → (w j).amt = 0) {b : K}
    (hb : factor v n w x y = .fin b) :
    Reg.origMse n (fun j => regWeight v (w j) (x j) (y j)) x y =
      Num.fin (∑ j ∈ inUse n w x y, (x j).amt ^ (2 - v.exponent) * ((y j).amt / (x j).amt - b) ^ 2) /
        (Num.fin ((inUse n w x y).card - 1 : K)).numToNan := by
  unfold Reg.origMse
  have hb' : Reg.origSlope n (fun j => regWeight v (w j) (x j) (y j)) x y = .fin b := hb
  rw [hb', sum_used (w := w) (x := x) (y := y)
      (g := fun j => (x j).amt ^ (2 - v.exponent) * ((y j).amt / (x j).amt - b) ^ 2),
    sum_used (w := w) (x := x) (y := y) (g := fun _ => 1)]
  · rw [Finset.sum_const, nsmul_eq_mul, mul_one, Num.one_def, Num.fin_sub_fin]
  · intro j hj
    beta_reduce
    rcases regWeight_cases v (hw j hj) (hx j hj) (hy j hj) with ⟨hu, a, b', ha, hb, e1, e2, e3⟩ | ⟨hu, hc⟩
    · rw [if_pos hu, e3, e2]
      have : (1 : K) / a ^ v.exponent ≠ 0 := one_div_ne_zero (pow_ne_zero _ ha)
      simp only [Num.nanToNum, Num.eqb, Num.zero_def, Num.one_def]
      simp [Num.ofBool, Num.nan0, Num.one_def, Num.eqb, ha]
    · rw [if_neg hu]
      rcases hc with e | e | ⟨e1, e2, e3, e4⟩
      · rw [e]
        rcases hy j hj with e' | ⟨c, -, e'⟩ <;> rw [e'] <;>
          simp [Num.nan0, Num.nanToNum, Num.eqb, Num.ofBool, Num.zero_def, Num.one_def]
      · rw [e]; simp [Num.nan0]
      · have := hz e1 j hj (by rw [e2]; rfl) e4
        rw [e3] at this
        simp [Num.one_def] at this
  · intro j hj
    beta_reduce
    rcases regWeight_cases v (hw j hj) (hx j hj) (hy j hj) with ⟨hu, a, b', ha, hb, e1, e2, e3⟩ | ⟨hu, hc⟩
    · rw [if_pos hu, e3, e2, e1]
      have hnn : ¬ ((1 : K) / a ^ v.exponent < 0) := by
        rw [not_lt]
        apply one_div_nonneg.mpr
        cases v with
        | regression => simp [Avg.exponent]
        | volume =>
          have := pos rfl j (by unfold inUse; rw [Finset.mem_filter, Finset.mem_range]; exact ⟨hj, hu⟩)
          rw [e1] at this
          simpa [Avg.exponent] using this.le
        | simple => exact sq_nonneg a
      unfold Reg.sqResidual
      have : (Num.fin ((1 : K) / a ^ v.exponent)).ltb 0 = false := by
        simp only [Num.ltb, Num.zero_def, decide_eq_false_iff_not]
        exact hnn
      rw [this]
      simp only [Bool.false_eq_true, if_false]
      cases v <;> simp [Avg.exponent, Num.nan0, Num.zero_def, Num.one_def] <;> field_simp
    · rw [if_neg hu]
      unfold Reg.sqResidual
      rcases hc with e | e | ⟨-, e, -, -⟩ <;> rw [e] <;> split <;> simp [Num.nan0]

end Dev
end CL
