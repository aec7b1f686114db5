import Verif.Model.Regression
import Mathlib.Algebra.BigOperators.Ring.Finset
import Mathlib.Algebra.Order.BigOperators.Group.Finset
import Mathlib.Tactic.LinearCombination
import Mathlib.Tactic.Linarith
import Mathlib.Tactic.FieldSimp
import Mathlib.Tactic.Ring

set_option linter.unusedSectionVars false

/-! # C29: the fitted factor minimises the weighted squared error -/

namespace CL
namespace Reg
variable {K : Type} [Field K] [LinearOrder K] [IsStrictOrderedRing K]

/-- Observations where weight, predictor and response are all present. -/
def observed (n : Nat) (w x y : Nat → Num K) : Finset Nat :=
  (Finset.range n).filter fun j => (w j).isNan = false ∧ (x j).isNan = false ∧ (y j).isNan = false

/-- Weighted squared error of the factor `b`. -/
def error (n : Nat) (w x y : Nat → Num K) (b : K) : K :=
  ∑ j ∈ observed n w x y, (w j).amt * ((y j).amt - b * (x j).amt) ^ 2

private theorem quot (a b : K) :
    ((Num.fin a).numToNan / (Num.fin b).numToNan : Num K).amt = a / b := by
  by_cases ha : a = 0
  · subst ha; simp [Num.numToNan, Num.amt]
  by_cases hb : b = 0
  · subst hb; simp [Num.numToNan, Num.amt]
  simp only [Num.numToNan, ha, hb, if_false]
  show (Num.div _ _).amt = _
  simp [Num.div, hb, Num.amt]

private theorem nansum_eq {n : Nat} {w x y : Nat → Num K} (f : Nat → Num K) (g : Nat → K)
    (h : ∀ j < n, (f j).nan0 = .fin (if (w j).isNan = false ∧ (x j).isNan = false ∧
      (y j).isNan = false then g j else 0)) :
    nansum n f = .fin (∑ j ∈ observed n w x y, g j) := by
  unfold nansum observed
  rw [Finset.sum_filter, ← Num.sum_fin]
  apply Finset.sum_congr rfl
  intro j hj
  exact h j (by simpa using hj)

private theorem slope_eq {n : Nat} {w x y : Nat → Num K} (hw : ∀ j < n, (w j).NoInf)
    (hx : ∀ j < n, (x j).NoInf) (hy : ∀ j < n, (y j).NoInf) :
    (origSlope n w x y).amt =
      (∑ j ∈ observed n w x y, (w j).amt * (x j).amt * (y j).amt) /
        ∑ j ∈ observed n w x y, (w j).amt * (x j).amt * (x j).amt := by
  unfold origSlope origDen
  rw [nansum_eq (w := w) (x := x) (y := y) (fun j => w j * x j * y j)
      (fun j => (w j).amt * (x j).amt * (y j).amt),
    nansum_eq (w := w) (x := x) (y := y) (fun j => (y j * 0 + 1) * w j * x j * x j)
      (fun j => (w j).amt * (x j).amt * (x j).amt), quot]
  all_goals
    intro j hj
    rcases Num.noInf_cases (hw j hj) with e1 | ⟨a, e1⟩ <;>
      rcases Num.noInf_cases (hx j hj) with e2 | ⟨b, e2⟩ <;>
        rcases Num.noInf_cases (hy j hj) with e3 | ⟨c, e3⟩ <;> rw [e1, e2, e3] <;>
          simp [Num.nan0, Num.isNan, Num.amt, Num.zero_def, Num.one_def]

/-- **C29**, through the origin: for nonnegative weights, no factor has a smaller weighted squared
error than the fitted one (a missing factor counts as 0). -/
theorem C29_factor {n : Nat} {w x y : Nat → Num K} (hw : ∀ j < n, (w j).NoInf)
    (hx : ∀ j < n, (x j).NoInf) (hy : ∀ j < n, (y j).NoInf) (h0 : ∀ j < n, 0 ≤ (w j).amt) (b : K) :
    error n w x y (origSlope n w x y).amt ≤ error n w x y b := by
  rw [slope_eq hw hx hy]
  have hpos : ∀ j ∈ observed n w x y, 0 ≤ (w j).amt := by
    intro j hj
    exact h0 j (by have := (Finset.mem_filter.1 hj).1; simpa using this)
  unfold error
  set S := observed n w x y
  set c := ∑ j ∈ S, (w j).amt * (x j).amt * (y j).amt with hc
  set d := ∑ j ∈ S, (w j).amt * (x j).amt * (x j).amt with hd
  have hexp : ∀ β : K, ∑ j ∈ S, (w j).amt * ((y j).amt - β * (x j).amt) ^ 2 =
      (∑ j ∈ S, (w j).amt * (y j).amt ^ 2) - 2 * β * c + β ^ 2 * d := by
    intro β
    rw [hc, hd, Finset.mul_sum, Finset.mul_sum, ← Finset.sum_sub_distrib, ← Finset.sum_add_distrib]
    apply Finset.sum_congr rfl
    intro j _; ring
  rw [hexp, hexp]
  have hd0 : 0 ≤ d := Finset.sum_nonneg fun j hj => by
    rw [mul_assoc]; exact mul_nonneg (hpos j hj) (mul_self_nonneg _)
  rcases eq_or_ne d 0 with hz | hz
  · have hc0 : c = 0 := by
      have h1 := (Finset.sum_eq_zero_iff_of_nonneg (fun j hj => by
        rw [mul_assoc]; exact mul_nonneg (hpos j hj) (mul_self_nonneg _))).1 (hd ▸ hz)
      apply Finset.sum_eq_zero
      intro j hj
      have := h1 j hj
      rw [mul_assoc] at this
      rcases mul_eq_zero.1 this with h | h
      · rw [h]; ring
      · rw [mul_self_eq_zero.1 h]; ring
    rw [hz, hc0]; simp
  · have : (∑ j ∈ S, (w j).amt * (y j).amt ^ 2) - 2 * b * c + b ^ 2 * d -
        ((∑ j ∈ S, (w j).amt * (y j).amt ^ 2) - 2 * (c / d) * c + (c / d) ^ 2 * d) =
        d * (b - c / d) ^ 2 := by
      field_simp; ring
    have h2 : 0 ≤ d * (b - c / d) ^ 2 := mul_nonneg hd0 (sq_nonneg _)
    linarith

example : (origSlope 2 (fun _ => (1 : Num ℚ)) (fun j => .fin (j + 1)) (fun j => .fin (2 * j + 1))) =
    .fin (7 / 5) := by decide +kernel

/-! ## Lines -/

/-- Squared error of the line `a + b x` over a set of observations. -/
def lineError (s : Finset Nat) (x y : Nat → K) (a b : K) : K := ∑ j ∈ s, (y j - (a + b * x j)) ^ 2

private theorem best_line {s : Finset Nat} {x y : Nat → K} (hs : (s.card : K) ≠ 0)
    (hd : ∑ j ∈ s, x j * x j - (∑ j ∈ s, x j) / s.card * ∑ j ∈ s, x j ≠ 0) {b : K}
    (hb : b = (∑ j ∈ s, x j * y j - (∑ j ∈ s, x j) * ((∑ j ∈ s, y j) / s.card)) /
      (∑ j ∈ s, x j * x j - (∑ j ∈ s, x j) / s.card * ∑ j ∈ s, x j)) {a : K}
    (ha : a = (∑ j ∈ s, y j) / s.card - b * ((∑ j ∈ s, x j) / s.card)) (a' b' : K) :
    lineError s x y a b ≤ lineError s x y a' b' := by
  set n : K := (s.card : K) with hn
  set X := ∑ j ∈ s, x j with hX
  set Y := ∑ j ∈ s, y j with hY
  set XX := ∑ j ∈ s, x j * x j with hXX
  set XY := ∑ j ∈ s, x j * y j with hXY
  have hexp : ∀ a b : K, lineError s x y a b =
      (∑ j ∈ s, y j * y j) - 2 * a * Y - 2 * b * XY + n * a ^ 2 + 2 * a * b * X + b ^ 2 * XX := by
    intro a b
    have hna : n * a ^ 2 = ∑ _j ∈ s, a ^ 2 := by simp [hn]
    unfold lineError
    rw [hna, hX, hY, hXX, hXY, Finset.mul_sum, Finset.mul_sum, Finset.mul_sum, Finset.mul_sum,
      ← Finset.sum_sub_distrib, ← Finset.sum_sub_distrib, ← Finset.sum_add_distrib,
      ← Finset.sum_add_distrib, ← Finset.sum_add_distrib]
    apply Finset.sum_congr rfl
    intro j _; ring
  -- the difference is the squared error of the difference line
  have hdiff : lineError s x y a' b' - lineError s x y a b =
      ∑ j ∈ s, ((a' - a) + (b' - b) * x j) ^ 2 := by
    have h1 : ∑ j ∈ s, ((a' - a) + (b' - b) * x j) ^ 2 =
        n * (a' - a) ^ 2 + 2 * (a' - a) * (b' - b) * X + (b' - b) ^ 2 * XX := by
      have hna : n * (a' - a) ^ 2 = ∑ _j ∈ s, (a' - a) ^ 2 := by simp [hn]
      rw [hna, hX, hXX, Finset.mul_sum, Finset.mul_sum, ← Finset.sum_add_distrib,
        ← Finset.sum_add_distrib]
      apply Finset.sum_congr rfl
      intro j _; ring
    -- normal equations
    have e1 : Y = n * a + b * X := by rw [ha]; field_simp; ring
    have e2 : XY = a * X + b * XX := by
      have hd' : XX - X / n * X ≠ 0 := hd
      have : b * (XX - X / n * X) = XY - X * (Y / n) := by rw [hb, div_mul_cancel₀ _ hd']
      rw [ha]
      have h3 : X * (Y / n) = Y / n * X := mul_comm _ _
      linear_combination -this - h3
    rw [hexp, hexp, h1, e1, e2]
    ring
  have : 0 ≤ lineError s x y a' b' - lineError s x y a b := by
    rw [hdiff]; exact Finset.sum_nonneg fun j _ => sq_nonneg _
  linarith

/-- Observations with weight 1. -/
def ones (n : Nat) (w : Nat → Num K) : Finset Nat := (Finset.range n).filter fun j => w j = 1

/-- The fitted line for 0/1 weights, in terms of sums over the observations with weight 1. -/
theorem line_eq {n : Nat} {w x y : Nat → Num K}
    (h : ∀ j < n, w j = 0 ∨ (w j = 1 ∧ (∃ a, x j = .fin a) ∧ ∃ b, y j = .fin b)) :
    nanmean n (fun j => dropZeroWeight (w j) (y j)) =
      .fin (∑ j ∈ ones n w, (y j).amt) / .fin ((ones n w).card : K) ∧
    (((ones n w).card : K) ≠ 0 →
      slope n w x y =
        (Num.fin (∑ j ∈ ones n w, (x j).amt * (y j).amt - (∑ j ∈ ones n w, (x j).amt) *
          ((∑ j ∈ ones n w, (y j).amt) / (ones n w).card))).numToNan /
        (Num.fin (∑ j ∈ ones n w, (x j).amt * (x j).amt - (∑ j ∈ ones n w, (x j).amt) /
          (ones n w).card * ∑ j ∈ ones n w, (x j).amt)).numToNan ∧
      intercept n w x y = .fin ((∑ j ∈ ones n w, (y j).amt) / (ones n w).card) -
        slope n w x y * .fin ((∑ j ∈ ones n w, (x j).amt) / (ones n w).card)) := by
  set S := ones n w with hS
  have hsum : ∀ (f : Nat → Num K) (g : Nat → K),
      (∀ j < n, (f j).nan0 = .fin (if w j = 1 then g j else 0)) →
      nansum n f = .fin (∑ j ∈ S, g j) := by
    intro f g hf
    unfold nansum
    rw [hS, ones, Finset.sum_filter, ← Num.sum_fin]
    apply Finset.sum_congr rfl
    intro j hj
    exact hf j (by simpa using hj)
  have h10 : (1 : Num K) ≠ 0 := by simp [Num.one_def, Num.zero_def]
  have hmean : ∀ z : Nat → Num K, (∀ j < n, w j = 1 → ∃ a, z j = .fin a) →
      nanmean n (fun j => dropZeroWeight (w j) (z j)) =
        .fin (∑ j ∈ S, (z j).amt) / .fin (S.card : K) := by
    intro z hz
    have hc : count n (fun j => dropZeroWeight (w j) (z j)) = (S.card : K) := by
      unfold count
      rw [hS, ones, Finset.card_filter, Nat.cast_sum]
      apply Finset.sum_congr rfl
      intro j hj
      have hj : j < n := by simpa using hj
      rcases h j hj with e | ⟨e, -, -⟩
      · simp [dropZeroWeight, e, Num.eqb, Num.zero_def, Num.one_def, Num.isNan]
      · obtain ⟨a, ea⟩ := hz j hj e
        simp [dropZeroWeight, e, ea, Num.eqb, Num.zero_def, Num.one_def, Num.isNan]
    unfold nanmean
    rw [hc, hsum _ (fun j => (z j).amt)]
    intro j hj
    rcases h j hj with e | ⟨e, -, -⟩
    · rw [if_neg (by rw [e]; exact fun h => h10 h.symm)]
      simp [dropZeroWeight, e, Num.eqb, Num.zero_def, Num.nan0]
    · obtain ⟨a, ea⟩ := hz j hj e
      simp [dropZeroWeight, e, ea, Num.eqb, Num.zero_def, Num.one_def, Num.nan0, Num.amt]
  have hxf : ∀ j < n, w j = 1 → ∃ a, x j = .fin a := by
    intro j hj e
    rcases h j hj with e' | ⟨-, e', -⟩
    · rw [e'] at e; exact absurd e.symm h10
    · exact e'
  have hyf : ∀ j < n, w j = 1 → ∃ a, y j = .fin a := by
    intro j hj e
    rcases h j hj with e' | ⟨-, -, e'⟩
    · rw [e'] at e; exact absurd e.symm h10
    · exact e'
  have mx := hmean x hxf
  have my := hmean y hyf
  have term : ∀ (f : Nat → Num K) (g : Nat → K),
      (∀ j < n, w j = 0 → (f j).nan0 = .fin 0) →
      (∀ j < n, w j = 1 → ∀ a b, x j = .fin a → y j = .fin b → f j = .fin (g j)) →
      nansum n f = .fin (∑ j ∈ S, g j) := by
    intro f g h0 h1
    apply hsum
    intro j hj
    rcases h j hj with e | ⟨e, ⟨a, ea⟩, b, eb⟩
    · rw [if_neg (by rw [e]; exact fun h => h10 h.symm), h0 j hj e]
    · rw [if_pos e, h1 j hj e a b ea eb]; rfl
  have sxy := term (fun j => w j * dropZeroWeight (w j) (x j) * dropZeroWeight (w j) (y j))
    (fun j => (x j).amt * (y j).amt)
    (by intro j hj e; simp [dropZeroWeight, e, Num.eqb, Num.zero_def, Num.nan0])
    (by
      intro j hj e a b ea eb
      simp [dropZeroWeight, e, ea, eb, Num.eqb, Num.zero_def, Num.one_def, Num.amt])
  have sx := term (fun j => dropZeroWeight (w j) (x j) * w j) (fun j => (x j).amt)
    (by intro j hj e; simp [dropZeroWeight, e, Num.eqb, Num.zero_def, Num.nan0])
    (by
      intro j hj e a b ea eb
      simp [dropZeroWeight, e, ea, Num.eqb, Num.zero_def, Num.one_def, Num.amt])
  have sx' := term (fun j => w j * dropZeroWeight (w j) (x j)) (fun j => (x j).amt)
    (by intro j hj e; simp [dropZeroWeight, e, Num.eqb, Num.zero_def, Num.nan0])
    (by
      intro j hj e a b ea eb
      simp [dropZeroWeight, e, ea, Num.eqb, Num.zero_def, Num.one_def, Num.amt])
  have sxx := term (fun j => w j * dropZeroWeight (w j) (x j) * dropZeroWeight (w j) (x j))
    (fun j => (x j).amt * (x j).amt)
    (by intro j hj e; simp [dropZeroWeight, e, Num.eqb, Num.zero_def, Num.nan0])
    (by
      intro j hj e a b ea eb
      simp [dropZeroWeight, e, ea, Num.eqb, Num.zero_def, Num.one_def, Num.amt])
  refine ⟨my, fun hcard => ?_⟩
  have div_fin : ∀ {p q : K}, q ≠ 0 → (Num.fin p / Num.fin q : Num K) = .fin (p / q) := by
    intro p q hq
    show Num.div _ _ = _
    simp [Num.div, hq]
  rw [div_fin hcard] at mx my
  constructor
  · unfold slope
    simp only [sxy, sx, sx', sxx, mx, my]
    simp
  · unfold intercept
    rw [mx, my]

/-- **C29**, lines, for 0/1 weights: when a line is fitted, no line has a smaller sum of squared
errors.  False for other weights and for data on a horizontal line. -/
theorem C29_line_partial {n : Nat} {w x y : Nat → Num K}
    (h : ∀ j < n, w j = 0 ∨ (w j = 1 ∧ (∃ a, x j = .fin a) ∧ ∃ b, y j = .fin b)) {a b : K}
    (hb : slope n w x y = .fin b) (ha : intercept n w x y = .fin a) (a' b' : K) :
    lineError (ones n w) (fun j => (x j).amt) (fun j => (y j).amt) a b ≤
      lineError (ones n w) (fun j => (x j).amt) (fun j => (y j).amt) a' b' := by
  obtain ⟨my, hrest⟩ := line_eq h
  set S := ones n w with hS
  have hcard : (S.card : K) ≠ 0 := by
    intro h0
    have : S = ∅ := by
      have : S.card = 0 := by exact_mod_cast h0
      exact Finset.card_eq_zero.1 this
    unfold intercept at ha
    rw [my, this] at ha
    have : (Num.fin (∑ j ∈ (∅ : Finset Nat), (y j).amt) / Num.fin (((∅ : Finset Nat).card : K)) :
        Num K) = .nan := by
      show Num.div _ _ = _
      simp [Num.div]
    rw [this] at ha
    cases ha
  obtain ⟨e1, e2⟩ := hrest hcard
  set P := ∑ j ∈ S, (x j).amt * (y j).amt - (∑ j ∈ S, (x j).amt) * ((∑ j ∈ S, (y j).amt) / S.card)
    with hP
  set Q := ∑ j ∈ S, (x j).amt * (x j).amt - (∑ j ∈ S, (x j).amt) / S.card * ∑ j ∈ S, (x j).amt
    with hQ
  have hb' : ((Num.fin P).numToNan / (Num.fin Q).numToNan : Num K) = .fin b := by rw [← hb, e1]
  have hq : Q ≠ 0 := by
    intro h0
    rw [h0] at hb'
    have : (Num.fin (0 : K)).numToNan = .nan := by simp [Num.numToNan]
    rw [this] at hb'
    have e : ∀ z : Num K, z / .nan = .nan := by intro z; cases z <;> rfl
    rw [e] at hb'
    cases hb'
  have hbv : b = P / Q := by
    have := quot P Q
    rw [hb'] at this
    exact this
  rw [e2, hb] at ha
  have hav : a = (∑ j ∈ S, (y j).amt) / S.card - b * ((∑ j ∈ S, (x j).amt) / S.card) := by
    have : (Num.fin ((∑ j ∈ S, (y j).amt) / S.card) - Num.fin b * Num.fin ((∑ j ∈ S, (x j).amt) / S.card)
        : Num K) = .fin ((∑ j ∈ S, (y j).amt) / S.card - b * ((∑ j ∈ S, (x j).amt) / S.card)) := by
      simp
    rw [this] at ha
    exact (Num.fin.inj ha).symm
  exact best_line hcard hq hbv hav a' b'

/-- A line is fitted to two or more observations with different `x` that are not on a horizontal
line in the least-squares sense; it is the least-squares line. -/
theorem line_fits {n : Nat} {w x y : Nat → Num K}
    (h : ∀ j < n, w j = 0 ∨ (w j = 1 ∧ (∃ a, x j = .fin a) ∧ ∃ b, y j = .fin b))
    {u v : Nat} (hu : u ∈ ones n w) (hv : v ∈ ones n w) (hx : (x u).amt ≠ (x v).amt)
    (hP : (∑ j ∈ ones n w, (x j).amt * (y j).amt) * (ones n w).card ≠
      (∑ j ∈ ones n w, (x j).amt) * ∑ j ∈ ones n w, (y j).amt) :
    ∃ a b, slope n w x y = .fin b ∧ intercept n w x y = .fin a ∧ b ≠ 0 ∧
      ∑ j ∈ ones n w, (y j).amt = ∑ j ∈ ones n w, (a + b * (x j).amt) ∧
      ∑ j ∈ ones n w, (x j).amt * (y j).amt = ∑ j ∈ ones n w, (x j).amt * (a + b * (x j).amt) := by
  obtain ⟨-, hrest⟩ := line_eq h
  set S := ones n w with hS
  have hcard : (0 : K) < S.card := by exact_mod_cast Finset.card_pos.2 ⟨u, hu⟩
  obtain ⟨e1, e2⟩ := hrest hcard.ne'
  set XY := ∑ j ∈ S, (x j).amt * (y j).amt with hXY
  set XX := ∑ j ∈ S, (x j).amt * (x j).amt with hXX
  set X := ∑ j ∈ S, (x j).amt with hX
  set Y := ∑ j ∈ S, (y j).amt with hY
  set m : K := (S.card : K) with hm
  have hQ : XX - X / m * X ≠ 0 := by
    have e : ∑ j ∈ S, ((x j).amt - X / m) ^ 2 = XX - X / m * X := by
      have h1 : ∀ j ∈ S, ((x j).amt - X / m) ^ 2 =
          (x j).amt * (x j).amt - 2 * (X / m) * (x j).amt + (X / m) ^ 2 := fun j _ => by ring
      rw [Finset.sum_congr rfl h1, Finset.sum_add_distrib, Finset.sum_sub_distrib,
        ← Finset.mul_sum, Finset.sum_const, nsmul_eq_mul, ← hm, ← hXX, ← hX]
      field_simp
      ring
    rw [← e]
    intro h0
    rw [Finset.sum_eq_zero_iff_of_nonneg fun _ _ => sq_nonneg _] at h0
    have hu' := pow_eq_zero_iff (two_ne_zero) |>.1 (h0 u hu)
    have hv' := pow_eq_zero_iff (two_ne_zero) |>.1 (h0 v hv)
    exact hx (by linear_combination hu' - hv')
  have hP' : XY - X * (Y / m) ≠ 0 := by
    intro h0
    apply hP
    have : XY = X * (Y / m) := by linear_combination h0
    rw [this]
    field_simp
  rw [Num.numToNan_fin_of_ne hQ, Num.numToNan_fin_of_ne hP',
    Num.fin_div_fin_of_ne _ hQ] at e1
  set b := (XY - X * (Y / m)) / (XX - X / m * X) with hb
  rw [e1] at e2
  have hbQ : b * (XX - X / m * X) = XY - X * (Y / m) := by rw [hb, div_mul_cancel₀ _ hQ]
  refine ⟨Y / m - b * (X / m), b, e1, ?_, div_ne_zero hP' hQ, ?_, ?_⟩
  · rw [e2]; simp
  · rw [Finset.sum_add_distrib, Finset.sum_const, nsmul_eq_mul, ← Finset.mul_sum, ← hm, ← hX]
    field_simp
    ring
  · have h1 : ∀ j ∈ S, (x j).amt * (Y / m - b * (X / m) + b * (x j).amt) =
        (Y / m - b * (X / m)) * (x j).amt + b * ((x j).amt * (x j).amt) := fun j _ => by ring
    rw [Finset.sum_congr rfl h1, Finset.sum_add_distrib, ← Finset.mul_sum, ← Finset.mul_sum, ← hX,
      ← hXX]
    linear_combination -hbQ

/-- Observations on a line that is not horizontal give that line back. -/
theorem line_exact {n : Nat} {w x y : Nat → Num K}
    (h : ∀ j < n, w j = 0 ∨ (w j = 1 ∧ (∃ a, x j = .fin a) ∧ ∃ b, y j = .fin b))
    {u v : Nat} (hu : u ∈ ones n w) (hv : v ∈ ones n w) (hx : (x u).amt ≠ (x v).amt) {a b : K}
    (hb : b ≠ 0) (hy : ∀ j ∈ ones n w, (y j).amt = a + b * (x j).amt) :
    slope n w x y = .fin b ∧ intercept n w x y = .fin a := by
  set S := ones n w with hS
  have hcard : (0 : K) < S.card := by exact_mod_cast Finset.card_pos.2 ⟨u, hu⟩
  have e1 : ∑ j ∈ S, (y j).amt = a * S.card + b * ∑ j ∈ S, (x j).amt := by
    rw [Finset.sum_congr rfl hy, Finset.sum_add_distrib, Finset.sum_const, nsmul_eq_mul,
      ← Finset.mul_sum]
    ring
  have e2 : ∑ j ∈ S, (x j).amt * (y j).amt =
      a * (∑ j ∈ S, (x j).amt) + b * ∑ j ∈ S, (x j).amt * (x j).amt := by
    rw [Finset.mul_sum, Finset.mul_sum, ← Finset.sum_add_distrib]
    apply Finset.sum_congr rfl
    intro j hj
    rw [hy j hj]
    ring
  have hQ : (∑ j ∈ S, (x j).amt * (x j).amt) * S.card - (∑ j ∈ S, (x j).amt) ^ 2 ≠ 0 := by
    set X := ∑ j ∈ S, (x j).amt with hX
    set m : K := (S.card : K) with hm
    have e : ∑ j ∈ S, (m * (x j).amt - X) ^ 2 =
        m * ((∑ j ∈ S, (x j).amt * (x j).amt) * m - X ^ 2) := by
      have h1 : ∀ j ∈ S, (m * (x j).amt - X) ^ 2 =
          m ^ 2 * ((x j).amt * (x j).amt) - 2 * m * X * (x j).amt + X ^ 2 := fun j _ => by ring
      rw [Finset.sum_congr rfl h1, Finset.sum_add_distrib, Finset.sum_sub_distrib,
        ← Finset.mul_sum, ← Finset.mul_sum, Finset.sum_const, nsmul_eq_mul, ← hm, ← hX]
      ring
    intro h0
    rw [h0, mul_zero, Finset.sum_eq_zero_iff_of_nonneg fun _ _ => sq_nonneg _] at e
    have hu' := pow_eq_zero_iff (two_ne_zero) |>.1 (e u hu)
    have hv' := pow_eq_zero_iff (two_ne_zero) |>.1 (e v hv)
    exact hx (mul_left_cancel₀ hcard.ne' (by linear_combination hu' - hv'))
  obtain ⟨a', b', h1, h2, -, h4, h5⟩ := line_fits h hu hv hx (by
    rw [← hS, e1, e2]
    intro e
    have : b * ((∑ j ∈ S, (x j).amt * (x j).amt) * S.card - (∑ j ∈ S, (x j).amt) ^ 2) = 0 := by
      linear_combination e
    rcases mul_eq_zero.1 this with e | e
    · exact hb e
    · exact hQ e)
  rw [← hS] at h4 h5
  rw [Finset.sum_add_distrib, Finset.sum_const, nsmul_eq_mul, ← Finset.mul_sum, e1] at h4
  have h6 : ∑ j ∈ S, (x j).amt * (a' + b' * (x j).amt) =
      a' * (∑ j ∈ S, (x j).amt) + b' * ∑ j ∈ S, (x j).amt * (x j).amt := by
    rw [Finset.mul_sum, Finset.mul_sum, ← Finset.sum_add_distrib]
    exact Finset.sum_congr rfl fun j _ => by ring
  rw [h6, e2] at h5
  have hbb : b' = b := by
    have : (b' - b) * ((∑ j ∈ S, (x j).amt * (x j).amt) * S.card - (∑ j ∈ S, (x j).amt) ^ 2) = 0 := by
      linear_combination (-(S.card : K)) * h5 + (∑ j ∈ S, (x j).amt) * h4
    rcases mul_eq_zero.1 this with e | e
    · linear_combination e
    · exact absurd e hQ
  subst hbb
  have haa : a' = a := by
    have : (a' - a) * (S.card : K) = 0 := by linear_combination -h4
    rcases mul_eq_zero.1 this with e | e
    · linear_combination e
    · exact absurd e hcard.ne'
  subst haa
  exact ⟨h1, h2⟩

/-- **C29** is false for lines with unequal weights: the means are not weighted, and here another
line has a smaller weighted squared error (weights 1, 1, 2; points (0,0), (1,1), (2,0)). -/
theorem C29_line_false : ∃ (w x y : Nat → Num ℚ) (a b a' b' : ℚ),
    (∀ j < 3, 0 < (w j).amt) ∧ slope 3 w x y = .fin b ∧ intercept 3 w x y = .fin a ∧
      ∑ j ∈ Finset.range 3, (w j).amt * ((y j).amt - (a' + b' * (x j).amt)) ^ 2 <
        ∑ j ∈ Finset.range 3, (w j).amt * ((y j).amt - (a + b * (x j).amt)) ^ 2 :=
  ⟨fun j => if j = 2 then .fin 2 else 1, fun j => .fin j, fun j => if j = 1 then 1 else 0,
    1 / 2, - 1 / 6, 4 / 11, - 1 / 11, by decide +kernel, by decide +kernel, by decide +kernel,
    by decide +kernel⟩

/-- **C29** is false for data on a horizontal line: no line is fitted at all, though the constant
line has no error. -/
theorem C29_flat_false : ∃ (w x y : Nat → Num ℚ), (∀ j, w j = 1) ∧ (∀ j, y j = 1) ∧
    slope 3 w x y = .nan ∧ intercept 3 w x y = .nan ∧
      lineError (ones 3 w) (fun j => (x j).amt) (fun j => (y j).amt) 1 0 = 0 :=
  ⟨fun _ => 1, fun j => .fin j, fun _ => 1, fun _ => rfl, fun _ => rfl, by decide +kernel,
    by decide +kernel, by decide +kernel⟩

example : slope 3 (fun _ => (1 : Num ℚ)) (fun j => .fin j) (fun j => .fin (j * j)) = .fin 2 ∧
    intercept 3 (fun _ => (1 : Num ℚ)) (fun j => .fin j) (fun j => .fin (j * j)) = .fin (-1 / 3) := by
  decide +kernel

end Reg
end CL
