import Verif.Model.Calendar
import Mathlib.Algebra.BigOperators.Intervals
import Mathlib.Tactic

set_option linter.unusedSectionVars false

/-! # C17: development ages in months -/

namespace CL
namespace Cal

/-- Leap years before year `y`. -/
def leaps (y : Nat) : Nat := (y + 3) / 4 - (y + 99) / 100 + (y + 399) / 400

theorem leaps_succ (y : Nat) : leaps (y + 1) = leaps y + if isLeap y then 1 else 0 := by
  unfold leaps isLeap
  by_cases h4 : y % 4 = 0
  · by_cases h100 : y % 100 = 0
    · by_cases h400 : y % 400 = 0
      · simp [h4, h100, h400]; omega
      · simp [h4, h100, h400]; omega
    · have : y % 400 ≠ 0 := by omega
      simp [h4, h100]; omega
  · simp [h4]; omega

/-- Days before the month `j` of a year. -/
def yearDays (leap : Bool) (j : Nat) : Nat :=
  [0, 31, 59, 90, 120, 151, 181, 212, 243, 273, 304, 334, 365].getD j 0 +
    if leap && decide (2 ≤ j) then 1 else 0

/-- Days before month `m`. -/
theorem days_before (y : Nat) : ∀ j ≤ 12,
    ∑ m ∈ Finset.range (12 * y + j), monthDays m = 365 * y + leaps y + yearDays (isLeap y) j := by
  induction y with
  | zero =>
    intro j hj
    interval_cases j <;> decide
  | succ y ih =>
    intro j
    induction j with
    | zero =>
      intro _
      have := ih 12 le_rfl
      rw [show 12 * (y + 1) + 0 = 12 * y + 12 by ring, this, leaps_succ]
      simp only [yearDays]
      cases isLeap y <;> simp <;> ring
    | succ j ih2 =>
      intro hj
      rw [← add_assoc, Finset.sum_range_succ, ih2 (by omega)]
      have hm : (12 * (y + 1) + j) % 12 = j := by omega
      have hd : (12 * (y + 1) + j) / 12 = y + 1 := by omega
      have : yearDays (isLeap (y + 1)) (j + 1) =
          yearDays (isLeap (y + 1)) j + monthDays (12 * (y + 1) + j) := by
        unfold monthDays
        rw [hm, hd]
        have hj' : j < 12 := by omega
        cases isLeap (y + 1) <;> interval_cases j <;> rfl
      rw [this]
      ring

/-- Century corrections before year `y`. -/
def centuries (y : Nat) : Int := ((y + 99) / 100 : Nat) - ((y + 399) / 400 : Nat)

/-- Days before a month, compared with the average month of 487 / 16 days. -/
theorem drift (m : Nat) :
    16 * (∑ k ∈ Finset.range m, (monthDays k : Int)) ≤ 487 * m + 22 - 16 * centuries (m / 12) ∧
      487 * m - 30 - 16 * centuries (m / 12) ≤ 16 * (∑ k ∈ Finset.range m, (monthDays k : Int)) := by
  have h := days_before (m / 12) (m % 12) (by omega)
  rw [show 12 * (m / 12) + m % 12 = m by omega] at h
  have h' : (∑ k ∈ Finset.range m, (monthDays k : Int)) =
      ((365 * (m / 12) + leaps (m / 12) + yearDays (isLeap (m / 12)) (m % 12) : Nat) : Int) := by
    rw [← h]; push_cast; rfl
  rw [h']
  have hj : m % 12 < 12 := by omega
  have hm : m = 12 * (m / 12) + m % 12 := by omega
  generalize m / 12 = y at *
  generalize m % 12 = j at *
  subst hm
  have hl : leaps y = (y + 3) / 4 - (y + 99) / 100 + (y + 399) / 400 := rfl
  have hy : 487 * j ≤ 16 * yearDays (isLeap y) j + 30 ∧ 16 * yearDays (isLeap y) j ≤ 487 * j + 10 := by
    cases isLeap y <;> interval_cases j <;> decide
  unfold centuries
  rw [hl]
  generalize yearDays (isLeap y) j = z at *
  omega

theorem roundDays_eq {q n : Int} (h1 : 2 * (q - n * nsDay) < nsDay)
    (h2 : -nsDay < 2 * (q - n * nsDay)) : roundDays q = n := by
  unfold roundDays
  simp only [nsDay] at *
  split_ifs <;> omega

/-- **C17**, allowing for the rounding of the division: whatever number of nanoseconds within 14
minutes of the quotient is computed, the lag is the number of calendar months from the origin month to
the valuation month, both included, for dates up to 1000 years apart. -/
theorem C17_lag_rounded {o v : Nat} (h : o ≤ v) (hv : v ≤ o + 12000) {q : Int}
    (hq : |487 * q - 16 * timedelta o v| ≤ 487 * (nsDay / 100)) : roundDays q = (v : Int) - o + 1 := by
  have hs : ∑ m ∈ Finset.Ico o (v + 1), (monthDays m : Int) =
      (∑ k ∈ Finset.range (v + 1), (monthDays k : Int)) -
        ∑ k ∈ Finset.range o, (monthDays k : Int) := by
    rw [Finset.sum_Ico_eq_sub _ (by omega)]
  obtain ⟨a1, a2⟩ := drift (v + 1)
  obtain ⟨b1, b2⟩ := drift o
  have hc : 0 ≤ centuries ((v + 1) / 12) - centuries (o / 12) ∧
      centuries ((v + 1) / 12) - centuries (o / 12) ≤ 9 := by
    unfold centuries
    omega
  obtain ⟨c1, c2⟩ := abs_le.1 hq
  unfold timedelta at c1 c2
  rw [hs] at c1 c2
  generalize (∑ k ∈ Finset.range (v + 1), (monthDays k : Int)) = x at *
  generalize (∑ k ∈ Finset.range o, (monthDays k : Int)) = y at *
  generalize centuries ((v + 1) / 12) = z at *
  generalize centuries (o / 12) = w at *
  push_cast at a1 a2
  simp only [nsDay] at *
  have e1 : (x - y) * 16 ≤ 487 * ((v : Int) - o + 1) + 52 := by linarith [hc.1]
  have e2 : 487 * ((v : Int) - o + 1) - 196 ≤ (x - y) * 16 := by linarith [hc.2]
  apply roundDays_eq <;> simp only [nsDay] <;> norm_num at c1 c2 <;> linarith

/-- **C17**: the development lag is the number of calendar months from the origin month to the
valuation month, both included, for dates up to 1000 years apart. -/
theorem C17_lag {o v : Nat} (h : o ≤ v) (hv : v ≤ o + 12000) :
    developmentLag o v = (v : Int) - o + 1 := by
  apply C17_lag_rounded h hv
  have h1 := Int.emod_add_mul_ediv (timedelta o v * 16) 487
  have h2 := Int.emod_nonneg (timedelta o v * 16) (show (487 : Int) ≠ 0 by decide)
  have h3 := Int.emod_lt_of_pos (timedelta o v * 16) (show (0 : Int) < 487 by decide)
  rw [abs_le]
  simp only [nsDay]
  constructor <;> omega

/-- January 2000 to December 2000 is 12 months; February 1999 alone is one month. -/
example : developmentLag (12 * 2000) (12 * 2000 + 11) = 12 ∧
    developmentLag (12 * 1999 + 1) (12 * 1999 + 1) = 1 ∧ monthDays (12 * 1900 + 1) = 28 := by
  refine ⟨?_, ?_, by decide⟩
  · rw [C17_lag (by omega) (by omega)]; norm_num
  · rw [C17_lag (by omega) (by omega)]; norm_num

end Cal
end CL
