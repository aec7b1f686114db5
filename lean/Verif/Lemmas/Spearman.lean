import Verif.Lemmas.Median
import Mathlib.Algebra.BigOperators.Ring.Finset
import Mathlib.Algebra.Order.BigOperators.Group.Finset
import Mathlib.Tactic.LinearCombination

set_option linter.unusedSectionVars false

/-! # Sums of ranks -/

namespace CL
namespace Corr
variable {K : Type} [Field K] [LinearOrder K] [IsStrictOrderedRing K]

/-- The average rank of `x o` among `x 0, …, x (m - 1)`. -/
def rankOf (m : ℕ) (x : ℕ → K) (o : ℕ) : K :=
  (((Finset.range m).filter fun o' => x o' < x o).card : K) +
    ((((Finset.range m).filter fun o' => x o' = x o).card : K) + 1) / 2

/-- The sign of a comparison. -/
def cmp' (a b : K) : K := if b < a then 1 else if a < b then -1 else 0

theorem cmp'_swap (a b : K) : cmp' a b = - cmp' b a := by
  unfold cmp'
  rcases lt_trichotomy a b with h | h | h
  · simp [h, not_lt.2 h.le]
  · simp [h]
  · simp [h, not_lt.2 h.le]

theorem cyc_le (a b c : K) :
    cmp' a b * cmp' a c + cmp' b c * cmp' b a + cmp' c a * cmp' c b ≤ 1 := by
  unfold cmp'
  rcases lt_trichotomy a b with h1 | h1 | h1 <;> rcases lt_trichotomy b c with h2 | h2 | h2 <;>
    rcases lt_trichotomy a c with h3 | h3 | h3 <;>
    first
    | (exfalso; linarith)
    | (simp [h1, h2, h3, not_lt.2 h1.le, not_lt.2 h2.le, not_lt.2 h3.le])
    | (subst_vars; simp_all [not_lt.2 (le_of_lt _)])
    | (subst_vars; simp [*, not_lt.2 (le_of_lt h1)])
    | (subst_vars; simp [*, not_lt.2 (le_of_lt h2)])
    | (subst_vars; simp)

theorem cyc_eq {a b c : K} (h : ¬ (a = b ∧ b = c)) :
    cmp' a b * cmp' a c + cmp' b c * cmp' b a + cmp' c a * cmp' c b = 1 := by
  unfold cmp'
  rcases lt_trichotomy a b with h1 | h1 | h1 <;> rcases lt_trichotomy b c with h2 | h2 | h2 <;>
    rcases lt_trichotomy a c with h3 | h3 | h3 <;>
    first
    | (refine absurd (And.intro ?_ ?_) h <;> assumption)
    | (exfalso; linarith)
    | (simp [h1, h2, h3, not_lt.2 h1.le, not_lt.2 h2.le, not_lt.2 h3.le])
    | (subst_vars; simp_all [not_lt.2 (le_of_lt _)])
    | (subst_vars; simp [*, not_lt.2 (le_of_lt h1)])
    | (subst_vars; simp [*, not_lt.2 (le_of_lt h2)])

theorem sum_cmp (m : ℕ) (x : ℕ → K) (o : ℕ) :
    2 * (rankOf m x o - ((m : K) + 1) / 2) = ∑ o' ∈ Finset.range m, cmp' (x o) (x o') := by
  unfold rankOf
  have h3 : ((((Finset.range m).filter fun o' => x o' < x o).card : K) +
      (((Finset.range m).filter fun o' => x o' = x o).card : K) +
      (((Finset.range m).filter fun o' => x o < x o').card : K)) = m := by
    have : (∑ o' ∈ Finset.range m, (1 : K)) = m := by simp
    rw [← this, Finset.card_filter, Finset.card_filter, Finset.card_filter]
    push_cast
    rw [← Finset.sum_add_distrib, ← Finset.sum_add_distrib]
    refine Finset.sum_congr rfl fun o' _ => ?_
    rcases lt_trichotomy (x o') (x o) with h | h | h
    · simp [h, h.ne, not_lt.2 h.le]
    · simp [h]
    · simp [h, h.ne', not_lt.2 h.le]
  have h4 : ∑ o' ∈ Finset.range m, cmp' (x o) (x o') =
      (((Finset.range m).filter fun o' => x o' < x o).card : K) -
      (((Finset.range m).filter fun o' => x o < x o').card : K) := by
    rw [Finset.card_filter, Finset.card_filter]
    push_cast
    rw [← Finset.sum_sub_distrib]
    refine Finset.sum_congr rfl fun o' _ => ?_
    unfold cmp'
    rcases lt_trichotomy (x o') (x o) with h | h | h
    · simp [h, not_lt.2 h.le]
    · simp [h]
    · simp [h, not_lt.2 h.le]
  rw [h4]
  linear_combination h3

/-- Ranks add up to `1 + 2 + … + m`, ties or not. -/
theorem sum_rank (m : ℕ) (x : ℕ → K) :
    ∑ o ∈ Finset.range m, (rankOf m x o - ((m : K) + 1) / 2) = 0 := by
  have h : ∑ o ∈ Finset.range m, 2 * (rankOf m x o - ((m : K) + 1) / 2) =
      - ∑ o ∈ Finset.range m, 2 * (rankOf m x o - ((m : K) + 1) / 2) := by
    simp only [sum_cmp]
    nth_rw 1 [Finset.sum_comm]
    rw [← Finset.sum_neg_distrib]
    refine Finset.sum_congr rfl fun o _ => ?_
    rw [← Finset.sum_neg_distrib]
    exact Finset.sum_congr rfl fun o' _ => cmp'_swap _ _
  rw [← Finset.mul_sum] at h
  linarith

theorem sum_sq_eq (m : ℕ) (x : ℕ → K) :
    12 * ∑ o ∈ Finset.range m, (rankOf m x o - ((m : K) + 1) / 2) ^ 2 =
      ∑ a ∈ Finset.range m, ∑ b ∈ Finset.range m, ∑ c ∈ Finset.range m,
        (cmp' (x a) (x b) * cmp' (x a) (x c) + cmp' (x b) (x c) * cmp' (x b) (x a) +
          cmp' (x c) (x a) * cmp' (x c) (x b)) := by
  have key : 4 * ∑ o ∈ Finset.range m, (rankOf m x o - ((m : K) + 1) / 2) ^ 2 =
      ∑ a ∈ Finset.range m, ∑ b ∈ Finset.range m, ∑ c ∈ Finset.range m,
        cmp' (x a) (x b) * cmp' (x a) (x c) := by
    rw [Finset.mul_sum]
    refine Finset.sum_congr rfl fun a _ => ?_
    rw [← Finset.sum_mul_sum, ← sum_cmp]
    ring
  have k2 : ∑ a ∈ Finset.range m, ∑ b ∈ Finset.range m, ∑ c ∈ Finset.range m,
        cmp' (x b) (x c) * cmp' (x b) (x a) = ∑ a ∈ Finset.range m, ∑ b ∈ Finset.range m,
        ∑ c ∈ Finset.range m, cmp' (x a) (x b) * cmp' (x a) (x c) := by
    rw [Finset.sum_comm]
    refine Finset.sum_congr rfl fun a _ => ?_
    rw [Finset.sum_comm]
  have k3 : ∑ a ∈ Finset.range m, ∑ b ∈ Finset.range m, ∑ c ∈ Finset.range m,
        cmp' (x c) (x a) * cmp' (x c) (x b) = ∑ a ∈ Finset.range m, ∑ b ∈ Finset.range m,
        ∑ c ∈ Finset.range m, cmp' (x a) (x b) * cmp' (x a) (x c) := by
    have : ∀ a, ∑ b ∈ Finset.range m, ∑ c ∈ Finset.range m, cmp' (x c) (x a) * cmp' (x c) (x b) =
        ∑ c ∈ Finset.range m, ∑ b ∈ Finset.range m, cmp' (x c) (x a) * cmp' (x c) (x b) :=
      fun a => Finset.sum_comm
    simp only [this]
    rw [Finset.sum_comm]
  simp only [Finset.sum_add_distrib]
  rw [k2, k3, ← key]
  ring

theorem sum_ones (m : ℕ) : (∑ a ∈ Finset.range m, ∑ b ∈ Finset.range m, ∑ c ∈ Finset.range m,
    (if a = b ∧ b = c then (0 : K) else 1)) = (m : K) ^ 3 - m := by
  have h : ∀ a ∈ Finset.range m, (∑ b ∈ Finset.range m, ∑ c ∈ Finset.range m,
      (if a = b ∧ b = c then (0 : K) else 1)) = (m : K) ^ 2 - 1 := by
    intro a ha
    have e : ∀ b c : ℕ, (if a = b ∧ b = c then (0 : K) else 1) =
        1 - (if a = b then (if b = c then 1 else 0) else 0) := by
      intro b c
      split_ifs <;> simp_all
    simp only [e, Finset.sum_sub_distrib, Finset.sum_const, Finset.card_range, nsmul_eq_mul, mul_one]
    have : ∑ b ∈ Finset.range m, ∑ c ∈ Finset.range m,
        (if a = b then (if b = c then (1 : K) else 0) else 0) = 1 := by
      rw [Finset.sum_eq_single a]
      · simp [ha]
      · intro b _ hb
        simp [Ne.symm hb]
      · exact fun h => absurd ha h
    rw [this]; ring
  rw [Finset.sum_congr rfl h, Finset.sum_const, Finset.card_range, nsmul_eq_mul]
  ring

/-- The squared deviations of the ranks: largest without ties. -/
theorem sum_sq_le (m : ℕ) (x : ℕ → K) :
    12 * ∑ o ∈ Finset.range m, (rankOf m x o - ((m : K) + 1) / 2) ^ 2 ≤ (m : K) ^ 3 - m := by
  rw [sum_sq_eq, ← sum_ones]
  refine Finset.sum_le_sum fun a _ => Finset.sum_le_sum fun b _ => Finset.sum_le_sum fun c _ => ?_
  split_ifs with h
  · rw [h.1, h.2]; simp [cmp']
  · exact cyc_le _ _ _

theorem sum_sq_distinct {m : ℕ} {x : ℕ → K} (h : ∀ a < m, ∀ b < m, x a = x b → a = b) :
    12 * ∑ o ∈ Finset.range m, (rankOf m x o - ((m : K) + 1) / 2) ^ 2 = (m : K) ^ 3 - m := by
  rw [sum_sq_eq, ← sum_ones]
  refine Finset.sum_congr rfl fun a ha => Finset.sum_congr rfl fun b hb =>
    Finset.sum_congr rfl fun c hc => ?_
  rw [Finset.mem_range] at ha hb hc
  split_ifs with h'
  · rw [h'.1, h'.2]; simp [cmp']
  · exact cyc_eq fun hh => h' ⟨h a ha b hb hh.1, h b hb c hc hh.2⟩

theorem rankOf_lt {m : ℕ} {x : ℕ → K} {o o' : ℕ} (ho : o < m) (h : x o < x o') :
    rankOf m x o < rankOf m x o' := by
  have := rankVal_lt (f := fun o => Num.fin (x o)) (o := o) (o' := o') ho (by simp) h
  simpa [rankVal, below, equalTo, rankOf] using this

theorem rankOf_lt_iff {m : ℕ} {x : ℕ → K} {o o' : ℕ} (ho : o < m) (ho' : o' < m) :
    rankOf m x o < rankOf m x o' ↔ x o < x o' := by
  have := rankVal_lt_iff (f := fun o => Num.fin (x o)) ho ho' (by simp) (by simp)
  simpa [rankVal, below, equalTo, rankOf] using this

end Corr
end CL
