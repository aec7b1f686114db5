import Verif.Model.Correlation
import Mathlib.Data.Nat.Choose.Sum
import Mathlib.Algebra.BigOperators.Ring.Finset
import Mathlib.Combinatorics.Enumerative.DoubleCounting
import Mathlib.Tactic.LinearCombination

set_option linter.unusedSectionVars false

/-! # Sums of binomial coefficients -/

namespace CL
namespace Corr
variable {K : Type} [Field K] [LinearOrder K] [IsStrictOrderedRing K]

open Finset

/-- Folding a binomial sum around the middle, odd case. -/
theorem fold_odd (m : ℕ) (g : ℕ → K) :
    ∑ k ∈ range (2 * m + 2), ((2 * m + 1).choose k : K) * g (min k (2 * m + 1 - k)) =
      2 * ∑ k ∈ range (m + 1), ((2 * m + 1).choose k : K) * g k := by
  have e : 2 * m + 2 = (m + 1) + (m + 1) := by ring
  rw [e, Finset.sum_range_add]
  have h1 : ∑ k ∈ range (m + 1), ((2 * m + 1).choose k : K) * g (min k (2 * m + 1 - k)) =
      ∑ k ∈ range (m + 1), ((2 * m + 1).choose k : K) * g k := by
    refine Finset.sum_congr rfl fun k hk => ?_
    have := Finset.mem_range.1 hk
    rw [min_eq_left (by omega)]
  have h2 : ∑ k ∈ range (m + 1), ((2 * m + 1).choose (m + 1 + k) : K) *
      g (min (m + 1 + k) (2 * m + 1 - (m + 1 + k))) =
      ∑ k ∈ range (m + 1), ((2 * m + 1).choose k : K) * g k := by
    rw [← Finset.sum_range_reflect]
    refine Finset.sum_congr rfl fun k hk => ?_
    have := Finset.mem_range.1 hk
    have e1 : m + 1 + (m + 1 - 1 - k) = 2 * m + 1 - k := by omega
    rw [e1, Nat.choose_symm (by omega), min_eq_right (by omega)]
    congr 2; omega
  rw [h1, h2]
  ring

/-- Folding a binomial sum around the middle, even case. -/
theorem fold_even (m : ℕ) (g : ℕ → K) :
    ∑ k ∈ range (2 * m + 1), ((2 * m).choose k : K) * g (min k (2 * m - k)) =
      2 * ∑ k ∈ range m, ((2 * m).choose k : K) * g k + ((2 * m).choose m : K) * g m := by
  have e : 2 * m + 1 = (m + 1) + m := by ring
  rw [e, Finset.sum_range_add, Finset.sum_range_succ]
  have h1 : ∑ k ∈ range m, ((2 * m).choose k : K) * g (min k (2 * m - k)) =
      ∑ k ∈ range m, ((2 * m).choose k : K) * g k := by
    refine Finset.sum_congr rfl fun k hk => ?_
    have := Finset.mem_range.1 hk
    rw [min_eq_left (by omega)]
  have h2 : ∑ k ∈ range m, ((2 * m).choose (m + 1 + k) : K) *
      g (min (m + 1 + k) (2 * m - (m + 1 + k))) = ∑ k ∈ range m, ((2 * m).choose k : K) * g k := by
    rw [← Finset.sum_range_reflect]
    refine Finset.sum_congr rfl fun k hk => ?_
    have := Finset.mem_range.1 hk
    have e1 : m + 1 + (m - 1 - k) = 2 * m - k := by omega
    rw [e1, Nat.choose_symm (by omega), min_eq_right (by omega)]
    congr 2; omega
  rw [h1, h2, min_eq_left (by omega)]
  ring

theorem half_odd (m : ℕ) : ∑ k ∈ range (m + 1), ((2 * m + 1).choose k : K) = 4 ^ m := by
  exact_mod_cast Nat.sum_range_choose_halfway m

theorem half_even (m : ℕ) :
    2 * ∑ k ∈ range m, ((2 * m).choose k : K) + ((2 * m).choose m : K) = 4 ^ m := by
  have h := fold_even (K := K) m (fun _ => 1)
  simp only [mul_one] at h
  rw [← h]
  have := Nat.sum_range_choose (2 * m)
  have e : (4 : K) ^ m = ((2 ^ (2 * m) : ℕ) : K) := by
    push_cast; rw [pow_mul]; norm_num
  rw [e, ← this]; push_cast; rfl

/-- `∑ k C(n+1,k) = (n+1) ∑ C(n,k)`. -/
theorem absorb (n j : ℕ) :
    ∑ k ∈ range (j + 1), ((n + 1).choose k : K) * k = (n + 1) * ∑ k ∈ range j, (n.choose k : K) := by
  rw [Finset.sum_range_succ', Finset.mul_sum]
  simp only [Nat.cast_zero, mul_zero, add_zero]
  refine Finset.sum_congr rfl fun k _ => ?_
  have := Nat.add_one_mul_choose_eq n k
  have h : ((n + 1 : ℕ) : K) * (n.choose k : K) = ((n + 1).choose (k + 1) : K) * ((k + 1 : ℕ) : K) := by
    exact_mod_cast this
  rw [← h]; push_cast; ring

/-- `∑ k (k-1) C(n+2,k) = (n+2)(n+1) ∑ C(n,k)`. -/
theorem absorb2 (n j : ℕ) :
    ∑ k ∈ range (j + 2), ((n + 2).choose k : K) * (k * (k - 1)) =
      (n + 2) * (n + 1) * ∑ k ∈ range j, (n.choose k : K) := by
  rw [Finset.sum_range_succ', Finset.sum_range_succ', Finset.mul_sum]
  simp only [Nat.cast_zero, zero_mul, mul_zero, add_zero, zero_add, Nat.cast_one, sub_self]
  refine Finset.sum_congr rfl fun k _ => ?_
  have h : ((n + 1 : ℕ) : K) * (n.choose k : K) = ((n + 1).choose (k + 1) : K) * ((k + 1 : ℕ) : K) := by
    exact_mod_cast Nat.add_one_mul_choose_eq n k
  have h' : ((n + 2 : ℕ) : K) * ((n + 1).choose (k + 1) : K) =
      ((n + 2).choose (k + 2) : K) * ((k + 2 : ℕ) : K) := by
    exact_mod_cast Nat.add_one_mul_choose_eq (n + 1) (k + 1)
  push_cast at *
  linear_combination (-((k : K) + 1)) * h' - ((n : K) + 2) * h

/-- The first two factorial moments of `min(k, n-k)` under the binomial distribution. -/
theorem moment1 (n : ℕ) :
    (∑ k ∈ range (n + 1), (n.choose k : K) * ((min k (n - k) : ℕ) : K)) =
      n * 2 ^ n / 2 - zComb n * n := by
  rcases Nat.even_or_odd' n with ⟨m, rfl | rfl⟩
  · rw [fold_even m (fun j => (j : K))]
    cases m with
    | zero => simp [zComb]
    | succ m =>
      have e2 : 2 * (m + 1) = (2 * m + 1) + 1 := by ring
      rw [e2, absorb (2 * m + 1) m]
      have hs := half_odd (K := K) m
      rw [Finset.sum_range_succ] at hs
      have hc : zComb (2 * m + 1 + 1) = (2 * m + 1).choose m := by
        unfold zComb; rw [if_neg (by omega)]; congr 1; omega
      have hm : ((2 * m + 1 + 1).choose (m + 1) : K) * ((m + 1 : ℕ) : K) =
          ((2 * m + 1 + 1 : ℕ) : K) * ((2 * m + 1).choose m : K) := by
        exact_mod_cast (Nat.add_one_mul_choose_eq (2 * m + 1) m).symm
      rw [hc, hm]
      have e4 : (2 : K) ^ (2 * m + 1 + 1) = 4 * 4 ^ m := by
        have : (2 * m + 1 + 1) = 2 * (m + 1) := by ring
        rw [this, pow_mul]; norm_num [pow_succ]; ring
      rw [e4]; push_cast
      linear_combination (2 * (2 * (m : K) + 1 + 1)) * hs
  · rw [fold_odd m (fun j => (j : K)), absorb (2 * m) m]
    have hs := half_even (K := K) m
    have hc : zComb (2 * m + 1) = (2 * m).choose m := by
      unfold zComb; rw [if_neg (by omega)]; congr 1; omega
    rw [hc]
    have e4 : (2 : K) ^ (2 * m + 1) = 2 * 4 ^ m := by
      rw [pow_succ, pow_mul]; norm_num; ring
    rw [e4]; push_cast
    linear_combination (2 * (m : K) + 1) * hs

theorem moment2 (n : ℕ) :
    (∑ k ∈ range (n + 1), (n.choose k : K) *
      (((min k (n - k) : ℕ) : K) * (((min k (n - k) : ℕ) : K) - 1))) =
      n * (n - 1) * 2 ^ n / 4 - zComb n * n * (n - 1) := by
  rcases Nat.even_or_odd' n with ⟨m, rfl | rfl⟩
  · rw [fold_even m (fun j => (j : K) * ((j : K) - 1))]
    match m with
    | 0 => simp [zComb]
    | 1 => simp [zComb]; norm_num
    | m + 2 =>
      have e2 : 2 * (m + 2) = (2 * m + 2) + 2 := by ring
      rw [e2, absorb2 (2 * m + 2) m]
      have hs := half_even (K := K) (m + 1)
      have e3 : 2 * (m + 1) = 2 * m + 2 := by ring
      rw [e3, Finset.sum_range_succ] at hs
      have hc : zComb (2 * m + 2 + 2) = (2 * m + 3).choose (m + 1) := by
        unfold zComb; rw [if_neg (by omega)]; congr 1; omega
      have h1 : ((2 * m + 2 + 2).choose (m + 2) : K) * ((m + 2 : ℕ) : K) =
          ((2 * m + 2 + 2 : ℕ) : K) * ((2 * m + 3).choose (m + 1) : K) := by
        exact_mod_cast (Nat.add_one_mul_choose_eq (2 * m + 3) (m + 1)).symm
      have h2 : ((2 * m + 3).choose (m + 1) : K) * ((m + 1 : ℕ) : K) =
          ((2 * m + 3 : ℕ) : K) * ((2 * m + 2).choose m : K) := by
        exact_mod_cast (Nat.add_one_mul_choose_eq (2 * m + 2) m).symm
      have h3 : ((2 * m + 3).choose (m + 1) : K) =
          ((2 * m + 2).choose m : K) + ((2 * m + 2).choose (m + 1) : K) := by
        exact_mod_cast Nat.choose_succ_succ (2 * m + 2) m
      rw [hc]
      have e4 : (2 : K) ^ (2 * m + 2 + 2) = 4 * 4 ^ (m + 1) := by
        have : (2 * m + 2 + 2) = 2 * (m + 2) := by ring
        rw [this, pow_mul]; norm_num [pow_succ]; ring
      rw [e4]; push_cast at *
      linear_combination ((m : K) + 1) * h1 + ((2 * (m : K) + 2 + 2) * (2 * m + 2 + 1)) * hs +
        (2 * (m : K) + 2 + 2) * h2 + (2 * (m : K) + 2 + 2) * (2 * m + 3) * h3
  · rw [fold_odd m (fun j => (j : K) * ((j : K) - 1))]
    match m with
    | 0 => simp [zComb]
    | m + 1 =>
      have e2 : 2 * (m + 1) + 1 = (2 * m + 1) + 2 := by ring
      rw [e2, absorb2 (2 * m + 1) m]
      have hs := half_odd (K := K) m
      rw [Finset.sum_range_succ] at hs
      have hc : zComb (2 * m + 1 + 2) = (2 * m + 2).choose (m + 1) := by
        unfold zComb; rw [if_neg (by omega)]; congr 1; omega
      have h3 : ((2 * m + 2).choose (m + 1) : K) = 2 * ((2 * m + 1).choose m : K) := by
        have : (2 * m + 2).choose (m + 1) = 2 * (2 * m + 1).choose m := by
          rw [Nat.choose_succ_succ, ← Nat.choose_symm_half m]; ring
        exact_mod_cast this
      rw [hc]
      have e4 : (2 : K) ^ (2 * m + 1 + 2) = 8 * 4 ^ m := by
        have : (2 * m + 1 + 2) = 2 * m + 3 := by ring
        rw [this, pow_add, pow_mul]; norm_num; ring
      rw [e4]; push_cast
      linear_combination 2 * (2 * (m : K) + 1 + 2) * (2 * m + 1 + 1) * hs +
        (2 * (m : K) + 1 + 2) * (2 * m + 1 + 1) * h3

end Corr
end CL
