import Verif.Model.TailStats
import Verif.Props.C68

set_option linter.unusedSectionVars false

/-! # Lines through a row with missing values, all weights being one -/

namespace CL
namespace Tail
open Reg

/-- The sum of the numbers of the ages. -/
noncomputable def ageSum (n : Nat) : ℝ := ∑ k ∈ Finset.range n, ((k : ℝ) + 1)

/-- `n` times the sum of the squared distances of the ages from their mean. -/
noncomputable def ageSpread (n : Nat) : ℝ := (∑ k ∈ Finset.range n, ((k : ℝ) + 1) * ((k : ℝ) + 1)) - ageSum n / n * ageSum n

theorem ageSpread_pos {n : Nat} (h : 2 ≤ n) : 0 < ageSpread n := by
  have hn : (0 : ℝ) < n := by exact_mod_cast (by omega : 0 < n)
  have e : ∑ k ∈ Finset.range n, (((k : ℝ) + 1) - ageSum n / n) ^ 2 = ageSpread n := by
    have h1 : ∀ k ∈ Finset.range n, (((k : ℝ) + 1) - ageSum n / n) ^ 2 =
        ((k : ℝ) + 1) * ((k : ℝ) + 1) - 2 * (ageSum n / n) * ((k : ℝ) + 1) + (ageSum n / n) ^ 2 := fun k _ => by ring
    rw [Finset.sum_congr rfl h1, Finset.sum_add_distrib, Finset.sum_sub_distrib, ← Finset.mul_sum, Finset.sum_const,
      nsmul_eq_mul, Finset.card_range]
    unfold ageSpread
    show _ - 2 * (ageSum n / n) * ageSum n + _ = _
    field_simp
    ring
  rw [← e]
  have h0 := fun k (_ : k ∈ Finset.range n) => sq_nonneg (((k : ℝ) + 1) - ageSum n / n)
  refine lt_of_le_of_ne (Finset.sum_nonneg h0) fun hz => ?_
  have hz := (Finset.sum_eq_zero_iff_of_nonneg h0).1 hz.symm
  have e0 := pow_eq_zero_iff two_ne_zero |>.1 (hz 0 (Finset.mem_range.mpr (by omega)))
  have e1 := pow_eq_zero_iff two_ne_zero |>.1 (hz 1 (Finset.mem_range.mpr (by omega)))
  norm_num at e0 e1
  linarith

/-- The values of a row: `l` on `S`, missing elsewhere. -/
structure Row (n : Nat) (y : Nat → Num ℝ) (S : Finset Nat) (l : Nat → ℝ) : Prop where
  sub : ∀ k ∈ S, k < n
  known : ∀ k ∈ S, y k = .fin (l k)
  missing : ∀ k < n, k ∉ S → y k = .nan

theorem Row.nansum {n : Nat} {y : Nat → Num ℝ} {S : Finset Nat} {l : Nat → ℝ} (h : Row n y S l) (x : Nat → ℝ) :
    nansum n (fun j => .fin (x j) * y j) = .fin (∑ k ∈ S, x k * l k) := by
  unfold Reg.nansum
  have e : ∀ j ∈ Finset.range n, (Num.fin (x j) * y j).nan0 = .fin (if j ∈ S then x j * l j else 0) := by
    intro j hj
    rw [Finset.mem_range] at hj
    by_cases hS : j ∈ S
    · rw [h.known j hS, Num.fin_mul_fin, if_pos hS]
      rfl
    · rw [h.missing j hj hS, Num.mul_nan, if_neg hS]
      rfl
  rw [Finset.sum_congr rfl e, Num.sum_fin, ← Finset.sum_filter]
  congr 1
  refine Finset.sum_congr ?_ fun _ _ => rfl
  ext k
  rw [Finset.mem_filter, Finset.mem_range]
  exact ⟨fun hk => hk.2, fun hk => ⟨h.sub k hk, hk⟩⟩

theorem Row.count {n : Nat} {y : Nat → Num ℝ} {S : Finset Nat} {l : Nat → ℝ} (h : Row n y S l) :
    count n y = S.card := by
  unfold Reg.count
  have e : ∀ j ∈ Finset.range n, (if (y j).isNan then (0 : ℝ) else 1) = if j ∈ S then 1 else 0 := by
    intro j hj
    rw [Finset.mem_range] at hj
    by_cases hS : j ∈ S
    · rw [h.known j hS, if_pos hS]
      simp [Num.isNan]
    · rw [h.missing j hj hS, if_neg hS]
      simp [Num.isNan]
  rw [Finset.sum_congr rfl e, ← Finset.sum_filter, Finset.sum_const, nsmul_eq_mul, mul_one]
  congr 2
  ext k
  rw [Finset.mem_filter, Finset.mem_range]
  exact ⟨fun hk => hk.2, fun hk => ⟨h.sub k hk, hk⟩⟩

theorem Row.mean {n : Nat} {y : Nat → Num ℝ} {S : Finset Nat} {l : Nat → ℝ} (h : Row n y S l) :
    nanmean n y = .fin (∑ k ∈ S, l k) / .fin (S.card : ℝ) := by
  unfold nanmean
  rw [h.count]
  have e := h.nansum fun _ => 1
  simp only [one_mul] at e
  have : (fun j => Num.fin (1 : ℝ) * y j) = y := by
    funext j
    cases hy : y j <;> (show Num.mul _ _ = _; simp [Num.mul, Num.infMul])
  rw [this] at e
  rw [e]

theorem ages_row (n : Nat) : Row n (fun j => .fin ((j : ℝ) + 1)) (Finset.range n) (fun j => (j : ℝ) + 1) :=
  ⟨fun _ hk => Finset.mem_range.mp hk, fun _ _ => rfl, fun _ hk hn => absurd (Finset.mem_range.mpr hk) hn⟩

theorem drop_one (x : Num ℝ) : dropZeroWeight 1 x = x := by
  unfold dropZeroWeight
  rw [if_neg (by simp [Num.eqb, Num.zero_def, Num.one_def])]

theorem one_mul_num (x : Num ℝ) : (1 : Num ℝ) * x = x := by
  rw [Num.one_def]
  cases x <;> (show Num.mul _ _ = _; simp [Num.mul, Num.infMul])

theorem mul_one_num (x : Num ℝ) : x * (1 : Num ℝ) = x := by
  rw [Num.one_def]
  cases x <;> (show Num.mul _ _ = _; simp [Num.mul, Num.infMul])

/-- The slope in terms of sums. -/
theorem Row.slope {n : Nat} {y : Nat → Num ℝ} {S : Finset Nat} {l : Nat → ℝ} (h : Row n y S l) (hn : 1 ≤ n) :
    lineSlope n y = (Num.fin (∑ k ∈ S, ((k : ℝ) + 1) * l k) -
      .fin (ageSum n) * (.fin (∑ k ∈ S, l k) / .fin (S.card : ℝ))).numToNan / (Num.fin (ageSpread n)).numToNan := by
  have hn0 : (n : ℝ) ≠ 0 := by exact_mod_cast (by omega : n ≠ 0)
  unfold lineSlope Reg.slope
  simp only [drop_one, one_mul_num, mul_one_num]
  rw [h.nansum, h.mean, (ages_row n).nansum (fun j => (j : ℝ) + 1), (ages_row n).mean]
  have e := (ages_row n).nansum fun _ => 1
  simp only [one_mul] at e
  have e1 : (fun j : Nat => Num.fin (1 : ℝ) * Num.fin ((j : ℝ) + 1)) = fun j : Nat => Num.fin ((j : ℝ) + 1) := by
    funext j
    rw [Num.fin_mul_fin, one_mul]
  rw [e1] at e
  rw [e, Finset.card_range, Num.fin_div_fin_of_ne _ hn0, Num.fin_mul_fin, Num.fin_sub_fin]
  rfl

theorem Row.intercept {n : Nat} {y : Nat → Num ℝ} {S : Finset Nat} {l : Nat → ℝ} (h : Row n y S l) (hn : 1 ≤ n) :
    lineIntercept n y = .fin (∑ k ∈ S, l k) / .fin (S.card : ℝ) - lineSlope n y * .fin (ageSum n / n) := by
  have hn0 : (n : ℝ) ≠ 0 := by exact_mod_cast (by omega : n ≠ 0)
  unfold lineIntercept Reg.intercept
  simp only [drop_one]
  rw [h.mean, (ages_row n).mean, Finset.card_range, Num.fin_div_fin_of_ne _ hn0]
  rfl

/-- A line that is not flat is fitted. -/
theorem Row.line {n : Nat} {y : Nat → Num ℝ} {S : Finset Nat} {l : Nat → ℝ} (h : Row n y S l) (hn : 2 ≤ n)
    (hS : S.Nonempty)
    (hP : (∑ k ∈ S, ((k : ℝ) + 1) * l k) * S.card ≠ ageSum n * ∑ k ∈ S, l k) :
    ∃ a b : ℝ, b ≠ 0 ∧ lineSlope n y = .fin b ∧ lineIntercept n y = .fin a ∧
      b = (∑ k ∈ S, ((k : ℝ) + 1) * l k - ageSum n * ((∑ k ∈ S, l k) / S.card)) / ageSpread n ∧
      a = (∑ k ∈ S, l k) / S.card - b * (ageSum n / n) := by
  have hc : (S.card : ℝ) ≠ 0 := by exact_mod_cast (Finset.card_pos.2 hS).ne'
  have hsp := (ageSpread_pos hn).ne'
  have hnum : ∑ k ∈ S, ((k : ℝ) + 1) * l k - ageSum n * ((∑ k ∈ S, l k) / S.card) ≠ 0 := by
    intro e
    apply hP
    field_simp at e
    linarith
  have e1 := h.slope (by omega)
  rw [Num.fin_div_fin_of_ne _ hc, Num.fin_mul_fin, Num.fin_sub_fin, Num.numToNan_fin, if_neg hnum, Num.numToNan_fin,
    if_neg hsp, Num.fin_div_fin_of_ne _ hsp] at e1
  have e2 := h.intercept (by omega)
  rw [e1, Num.fin_div_fin_of_ne _ hc, Num.fin_mul_fin, Num.fin_sub_fin] at e2
  exact ⟨_, _, div_ne_zero hnum hsp, e1, e2, rfl, rfl⟩

/-- No value, no line. -/
theorem Row.empty {n : Nat} {y : Nat → Num ℝ} {l : Nat → ℝ} (h : Row n y ∅ l) (hn : 1 ≤ n) :
    lineSlope n y = .nan ∧ lineIntercept n y = .nan := by
  have e0 : (Num.fin (∑ k ∈ (∅ : Finset Nat), l k) / Num.fin (((∅ : Finset Nat).card : ℝ)) : Num ℝ) = .nan := by
    show Num.div _ _ = _
    simp [Num.div]
  have e1 : lineSlope n y = .nan := by
    rw [h.slope hn, e0, Num.mul_nan, Num.sub_nan]
    rfl
  refine ⟨e1, ?_⟩
  rw [h.intercept hn, e0, Num.nan_sub]

/-- A line through one age or a flat one is missing. -/
theorem Row.flat {n : Nat} {y : Nat → Num ℝ} {S : Finset Nat} {l : Nat → ℝ} (h : Row n y S l) (hn : 1 ≤ n)
    (hS : S.Nonempty)
    (hP : (∑ k ∈ S, ((k : ℝ) + 1) * l k) * S.card = ageSum n * ∑ k ∈ S, l k) :
    lineSlope n y = .nan ∧ lineIntercept n y = .nan := by
  have hc : (S.card : ℝ) ≠ 0 := by exact_mod_cast (Finset.card_pos.2 hS).ne'
  have hnum : ∑ k ∈ S, ((k : ℝ) + 1) * l k - ageSum n * ((∑ k ∈ S, l k) / S.card) = 0 := by
    field_simp
    linarith
  have e1 : lineSlope n y = .nan := by
    rw [h.slope hn, Num.fin_div_fin_of_ne _ hc, Num.fin_mul_fin, Num.fin_sub_fin, hnum, Num.numToNan_fin, if_pos rfl,
      Num.nan_div]
  refine ⟨e1, ?_⟩
  rw [h.intercept hn, e1, Num.nan_mul, Num.sub_nan]

theorem log_pos {x : ℝ} (h : 0 < x) : log (.fin x) = .fin (Real.log x) := by
  unfold log
  simp only [if_neg (not_lt.mpr h.le), if_neg h.ne']

theorem logExcess_gt {x : ℝ} (h : 1 < x) : logExcess (.fin x) = .fin (Real.log (x - 1)) := by
  unfold logExcess
  rw [if_neg (by simp [Num.ltb, Num.eqb, Num.one_def, h.le, h.ne']), Num.one_def, Num.fin_sub_fin, log_pos (by linarith)]

theorem logExcess_le {x : ℝ} (h : x ≤ 1) : logExcess (.fin x) = .nan := by
  unfold logExcess
  rw [if_pos, Num.nan_sub]
  · rfl
  · rcases lt_or_eq_of_le h with h | h
    · simp [Num.ltb, Num.one_def, h]
    · simp [Num.eqb, Num.one_def, h]

end Tail
end CL
