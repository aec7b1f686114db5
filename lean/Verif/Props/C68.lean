import Verif.Model.Sigma
import Verif.Lemmas.Sigma
import Verif.Props.C29
import Verif.Props.C56

set_option linter.unusedSectionVars false

/-! # C68: `sigma_` and `std_err_` of `Development` are Mack's estimates -/

namespace CL
namespace Dev
open Work Munich

/-- Mack's estimate of the variance of an age: the squared deviations of the link ratios from their average,
weighted with the amounts (to the power 1 for volume weights, 0 for simple averages, 2 for a regression), over
one less than their number. -/
noncomputable def variance (t : Tri ℝ) (i c d : Nat) (s : Finset Nat) (a : Avg) : ℝ :=
  (∑ o ∈ s, amount t i c o d ^ (2 - a.exponent) *
    (amount t i c o (d + 1) / amount t i c o d - average t i c d s a) ^ 2) / (s.card - 1)

/-- The sum of the weights. -/
noncomputable def mass (t : Tri ℝ) (i c d : Nat) (s : Finset Nat) (a : Avg) : ℝ :=
  ∑ o ∈ s, amount t i c o d ^ (2 - a.exponent)

theorem variance_nonneg (t : Tri ℝ) {i c d : Nat} {s : Finset Nat} (a : Avg) (h1 : 1 ≤ s.card)
    (hx : ∀ o ∈ s, 0 < amount t i c o d) : 0 ≤ variance t i c d s a := by
  refine div_nonneg (Finset.sum_nonneg fun o ho => mul_nonneg (pow_nonneg (hx o ho).le _) (sq_nonneg _)) ?_
  have : (1 : ℝ) ≤ s.card := by exact_mod_cast h1
  linarith

theorem mass_pos (t : Tri ℝ) {i c d : Nat} {s : Finset Nat} (a : Avg) (h1 : 1 ≤ s.card)
    (hx : ∀ o ∈ s, 0 < amount t i c o d) : 0 < mass t i c d s a :=
  Finset.sum_pos (fun o ho => pow_pos (hx o ho) _) (Finset.card_pos.mp h1)

theorem sqrt_fin {x : ℝ} (h : 0 ≤ x) : Tail.sqrt (.fin x) = .fin (Real.sqrt x) := by
  unfold Tail.sqrt
  simp only [if_neg (not_lt.mpr h)]

/-- **C68** for given 0/1 weights, before missing values are filled. -/
theorem C68_age {t : Tri ℝ} (fin : Tri.Finite t) (p : Params ℝ) (w : Arr ℝ) {i c d : Nat}
    (hi : i < t.values.d0) (hc : c < t.values.d1) (hd : d + 1 < t.values.d3)
    (hw : ∀ o < t.values.d2, Masked (w.get i c o d)) {s : Finset Nat}
    (hs : s = included t (fun i c o d => (w.get i c o d).amt) i c d) (h1 : 1 ≤ s.card)
    (hx : ∀ o ∈ s, 0 < amount t i c o d) (hb : average t i c d s (p.average d) ≠ 0)
    (hz : p.average d = .regression → ∀ o < t.values.d2, amount t i c o d = 0 → amount t i c o (d + 1) ≠ 0 →
      (w.get i c o d).amt = 0) :
    rawSigma (p.average d) t.values.d2 (fun o => w.get i c o d)
      (fun o => (t.values.get i c o d).numToNan) (fun o => (t.values.get i c o (d + 1)).numToNan) =
      (if 2 ≤ s.card then .fin (Real.sqrt (variance t i c d s (p.average d))) else .nan) ∧
    rawStdErr (p.average d) t.values.d2 (fun o => w.get i c o d)
      (fun o => (t.values.get i c o d).numToNan) (fun o => (t.values.get i c o (d + 1)).numToNan) =
      (if 2 ≤ s.card then .fin (Real.sqrt (variance t i c d s (p.average d) / mass t i c d s (p.average d)))
        else .nan) := by
  have hxc : ∀ j < t.values.d2, Clean (t.values.get i c j d).numToNan := fun j hj =>
    clean_numToNan (fin i hi c hc j hj d (by omega))
  have hyc : ∀ j < t.values.d2, Clean (t.values.get i c j (d + 1)).numToNan := fun j hj =>
    clean_numToNan (fin i hi c hc j hj (d + 1) hd)
  have hu : inUse t.values.d2 (fun o => w.get i c o d) (fun o => (t.values.get i c o d).numToNan)
      (fun o => (t.values.get i c o (d + 1)).numToNan) = s := by
    rw [hs]
    unfold inUse included amount
    simp only [Num.amt_numToNan]
  have hf : factor (p.average d) t.values.d2 (fun o => w.get i c o d)
      (fun o => (t.values.get i c o d).numToNan) (fun o => (t.values.get i c o (d + 1)).numToNan) =
      .fin (average t i c d s (p.average d)) := by
    have := C28_average fin p w hi hc hd hw
    rw [← hs, Num.numToNan_fin, if_neg hb] at this
    exact this
  have hm := mse_eq (p.average d) hw hxc hyc (fun _ j hj => by
      rw [hu] at hj
      rw [Num.amt_numToNan]
      exact hx j hj) (fun e j hj => by
      simp only [Num.amt_numToNan]
      exact hz e j hj) hf
  have hden := den_eq (p.average d) hw hxc hyc
  rw [hu] at hm hden
  simp only [Num.amt_numToNan] at hm hden
  have hM := mass_pos t (p.average d) h1 hx
  have hden' : Reg.origDen t.values.d2 (fun j => regWeight (p.average d) (w.get i c j d)
      (t.values.get i c j d).numToNan (t.values.get i c j (d + 1)).numToNan)
      (fun o => (t.values.get i c o d).numToNan) (fun o => (t.values.get i c o (d + 1)).numToNan) =
      .fin (mass t i c d s (p.average d)) := by
    rw [hden, Num.numToNan_fin, if_neg]
    · rfl
    · exact hM.ne'
  unfold rawSigma rawStdErr Reg.origVar
  rw [hden']
  simp only [hm]
  have hV := variance_nonneg t (p.average d) h1 hx
  by_cases h2 : 2 ≤ s.card
  · have : ((s.card : ℝ) - 1) ≠ 0 := by
      have : (2 : ℝ) ≤ s.card := by exact_mod_cast h2
      linarith
    rw [if_pos h2, if_pos h2, Num.numToNan_fin, if_neg this, Num.fin_div_fin_of_ne _ this]
    refine ⟨sqrt_fin hV, ?_⟩
    rw [Num.fin_div_fin_of_ne _ hM.ne']
    exact sqrt_fin (div_nonneg hV hM.le)
  · have : (s.card : ℝ) - 1 = 0 := by
      have : s.card = 1 := by omega
      rw [this]
      simp
    rw [if_neg h2, if_neg h2, this, Num.numToNan_fin, if_pos rfl]
    simp [Tail.sqrt]

/-! ## Filling missing values -/

theorem fill_known (m : Interp) (n : Nat) {y : Nat → Num ℝ} {d : Nat} {v : ℝ} (hv : 0 < v) (hy : y d = .fin v) :
    m.fill n y d = .fin v := by
  have he : (y d).eqb 0 = false := by
    rw [hy]
    simp [Num.eqb, Num.zero_def, hv.ne']
  unfold Interp.fill
  cases m with
  | logLinear =>
    simp only [he, Bool.false_eq_true, if_false]
    have hw : (Tail.log (y d) * 0 + 1).nanToNum = 1 := by
      rw [hy]
      simp [Tail.log, not_lt.mpr hv.le, hv.ne', Num.zero_def, Num.one_def, Num.nanToNum]
    rw [hw]
    have h0 : ∀ z : Num ℝ, (Tail.exp z * (1 - 1)).nanToNum = 0 := by
      intro z
      have hinf : (Num.pinf * Num.fin (0 : ℝ) : Num ℝ) = .nan := by
        show Num.mul _ _ = _
        simp [Num.mul, Num.infMul]
      cases z <;> simp [Tail.exp, Num.zero_def, Num.one_def, Num.nanToNum, hinf]
    rw [h0, hy]
    simp [Num.nanToNum, Num.zero_def, Num.numToNan_fin, hv.ne']
  | mack =>
    simp only [he, Bool.false_eq_true, if_false]
    have hw : (y d * 0 + 1).nanToNum = 1 := by
      rw [hy]
      simp [Num.zero_def, Num.one_def, Num.nanToNum]
    rw [hw]
    have h0 : ∀ z : Num ℝ, z.nanToNum * (1 - 1) = 0 := by
      intro z
      cases z <;> simp [Num.zero_def, Num.one_def, Num.nanToNum]
    have h1 : ∀ z : Num ℝ, (if d < 2 then (1 : Num ℝ) else z.nanToNum) * (1 - 1) = 0 := by
      intro z
      split
      · simp [Num.zero_def, Num.one_def]
      · exact h0 _
    rw [h1, hy]
    simp [Num.nanToNum, Num.zero_def, Num.numToNan_fin, hv.ne']

/-- A sum of squared deviations that vanishes is not recorded by the log-linear method. -/
theorem fill_zero (n : Nat) {y : Nat → Num ℝ} {d : Nat} (hy : y d = .fin 0) :
    Interp.logLinear.fill n y d = .nan := by
  have he : (y d).eqb 0 = true := by
    rw [hy]
    simp [Num.eqb, Num.zero_def]
  unfold Interp.fill
  simp only [he, if_true]
  have hp : (0 : ℝ) < 1 / 10 ^ 320 := by positivity
  have hw : (Tail.log (.fin (1 / 10 ^ 320 : ℝ)) * 0 + 1).nanToNum = 1 := by
    unfold Tail.log
    simp only [if_neg (not_lt.mpr hp.le), if_neg hp.ne']
    simp [Num.zero_def, Num.one_def, Num.nanToNum]
  rw [hw]
  have h0 : ∀ z : Num ℝ, (Tail.exp z * (1 - 1)).nanToNum = 0 := by
    intro z
    have hinf : (Num.pinf * Num.fin (0 : ℝ) : Num ℝ) = .nan := by
      show Num.mul _ _ = _
      simp [Num.mul, Num.infMul]
    cases z <;> simp [Tail.exp, Num.zero_def, Num.one_def, Num.nanToNum, hinf]
  rw [h0, hy]
  simp [Num.nanToNum, Num.zero_def, Num.numToNan_fin]

/-- Mack's rule for an age without two link ratios. -/
theorem fill_mack (n : Nat) {y : Nat → Num ℝ} {d : Nat} (hd : 2 ≤ d) (hy : y d = .nan) {u v : ℝ} (hu : 0 < u)
    (hv : 0 < v) (hu' : y (d - 1) = .fin u) (hv' : y (d - 2) = .fin v) :
    Interp.mack.fill n y d = .fin (min (u ^ 2 / v) (min v u)) := by
  have he : (y d).eqb 0 = false := by rw [hy]; rfl
  have h1 : (y (d - 1)).eqb 0 = false := by rw [hu']; simp [Num.eqb, Num.zero_def, hu.ne']
  have h2 : (y (d - 2)).eqb 0 = false := by rw [hv']; simp [Num.eqb, Num.zero_def, hv.ne']
  unfold Interp.fill
  simp only [he, h1, h2, Bool.false_eq_true, if_false, if_neg (show ¬ d < 2 by omega)]
  rw [hy, hu', hv']
  have e4 : (Num.fin u : Num ℝ).npow 4 = .fin (u ^ 4) := by simp [Num.npow]; ring
  have e2 : ∀ z : ℝ, (Num.fin z : Num ℝ).npow 2 = .fin (z ^ 2) := by intro z; simp [Num.npow]; ring
  have emin : ∀ a b : ℝ, npMin (.fin a) (.fin b) = .fin (min a b) := by
    intro a b
    unfold npMin
    simp only [Num.isNan, Bool.or_self, Bool.false_eq_true, if_false, Num.ltb, decide_eq_true_eq]
    split
    · rw [min_eq_right (by linarith)]
    · rw [min_eq_left (by linarith)]
  have hv2 : v ^ 2 ≠ 0 := (pow_pos hv 2).ne'
  rw [e4, e2, e2, Num.fin_div_fin_of_ne _ hv2, emin, emin]
  have hs : min (u ^ 4 / v ^ 2) (min (v ^ 2) (u ^ 2)) = (min (u ^ 2 / v) (min v u)) ^ 2 := by
    have hmono : ∀ a b : ℝ, 0 ≤ a → 0 ≤ b → min (a ^ 2) (b ^ 2) = (min a b) ^ 2 := by
      intro a b ha hb
      rcases le_total a b with h | h
      · rw [min_eq_left h, min_eq_left (pow_le_pow_left₀ ha h 2)]
      · rw [min_eq_right h, min_eq_right (pow_le_pow_left₀ hb h 2)]
    rw [hmono v u hv.le hu.le, show u ^ 4 / v ^ 2 = (u ^ 2 / v) ^ 2 by field_simp,
      hmono _ _ (by positivity) (le_min hv.le hu.le)]
  have hpos : 0 < min (u ^ 2 / v) (min v u) := lt_min (by positivity) (lt_min hv hu)
  rw [hs]
  have hl : (Num.fin ((min (u ^ 2 / v) (min v u)) ^ 2)).ltb 0 = false := by
    simp only [Num.ltb, Num.zero_def, decide_eq_false_iff_not, not_lt]
    positivity
  rw [hl]
  simp only [Bool.false_eq_true, if_false]
  rw [sqrt_fin (by positivity), Real.sqrt_sq hpos.le]
  simp [Num.zero_def, Num.one_def, Num.nanToNum, Num.numToNan_fin, hpos.ne']

/-- Mack's rule leaves an age missing if the age before it is. -/
theorem fill_mack_gap (n : Nat) {y : Nat → Num ℝ} {d : Nat} (hd : 2 ≤ d) (hy : y d = .nan)
    (hu : y (d - 1) = .nan) : Interp.mack.fill n y d = .nan := by
  have he : (y d).eqb 0 = false := by rw [hy]; rfl
  have h1 : (y (d - 1)).eqb 0 = false := by rw [hu]; rfl
  unfold Interp.fill
  simp only [he, h1, Bool.false_eq_true, if_false, if_neg (show ¬ d < 2 by omega)]
  rw [hy, hu]
  have e4 : (Num.nan : Num ℝ).npow 4 = .nan := by simp [Num.npow]
  have e : ∀ z : Num ℝ, npMin .nan z = .nan := by intro z; simp [npMin, Num.isNan]
  rw [e4, Num.nan_div, e]
  simp [Num.ltb, Tail.sqrt, Num.nanToNum, Num.zero_def, Num.one_def, Num.numToNan_fin]

/-- The least-squares line is unique if there are two different points. -/
theorem line_unique {S : Finset Nat} {x y : Nat → ℝ} {k1 k2 : Nat} (h1 : k1 ∈ S) (h2 : k2 ∈ S) (hx : x k1 ≠ x k2)
    {a b a' b' : ℝ} (h : ∀ α β, ∑ k ∈ S, (y k - (a + b * x k)) ^ 2 ≤ ∑ k ∈ S, (y k - (α + β * x k)) ^ 2)
    (h' : ∀ α β, ∑ k ∈ S, (y k - (a' + b' * x k)) ^ 2 ≤ ∑ k ∈ S, (y k - (α + β * x k)) ^ 2) : a' = a ∧ b' = b := by
  have hmid := h ((a + a') / 2) ((b + b') / 2)
  have heq := le_antisymm (h a' b') (h' a b)
  have key : ∑ k ∈ S, ((a - a') + (b - b') * x k) ^ 2 =
      2 * ∑ k ∈ S, (y k - (a + b * x k)) ^ 2 + 2 * ∑ k ∈ S, (y k - (a' + b' * x k)) ^ 2 -
        4 * ∑ k ∈ S, (y k - ((a + a') / 2 + (b + b') / 2 * x k)) ^ 2 := by
    rw [Finset.mul_sum, Finset.mul_sum, Finset.mul_sum, ← Finset.sum_add_distrib, ← Finset.sum_sub_distrib]
    exact Finset.sum_congr rfl fun k _ => by ring
  have h0 : ∑ k ∈ S, ((a - a') + (b - b') * x k) ^ 2 = 0 :=
    le_antisymm (by rw [key]; linarith) (Finset.sum_nonneg fun _ _ => sq_nonneg _)
  rw [Finset.sum_eq_zero_iff_of_nonneg fun _ _ => sq_nonneg _] at h0
  have e1 := pow_eq_zero_iff (two_ne_zero) |>.1 (h0 k1 h1)
  have e2 := pow_eq_zero_iff (two_ne_zero) |>.1 (h0 k2 h2)
  have hb : b - b' = 0 := by
    have : (b - b') * (x k1 - x k2) = 0 := by linear_combination e1 - e2
    rcases mul_eq_zero.1 this with e | e
    · exact e
    · exact absurd (sub_eq_zero.1 e) hx
  rw [hb, zero_mul, add_zero] at e1
  exact ⟨by linarith, by linarith⟩

/-- The log-linear rule for a missing age: the exponential of the least-squares line through the logarithms of
the known ages, if these are two or more and the line is not flat. -/
theorem fill_log (n : Nat) {y : Nat → Num ℝ} {d : Nat} (hy : y d = .nan) {v : Nat → ℝ} {S : Finset Nat}
    (hS : ∀ k < n, (k ∈ S ∧ 0 < v k ∧ y k = .fin (v k)) ∨ (k ∉ S ∧ y k = .nan)) (hSn : ∀ k ∈ S, k < n)
    (h2 : 2 ≤ S.card) (hP : (∑ k ∈ S, ((k : ℝ) + 1) * Real.log (v k)) * S.card ≠
      (∑ k ∈ S, ((k : ℝ) + 1)) * ∑ k ∈ S, Real.log (v k)) :
    ∃ a b : ℝ, Interp.logLinear.fill n y d = .fin (Real.exp (a + b * (d + 1))) ∧
      ∀ a' b', ∑ k ∈ S, (Real.log (v k) - (a + b * (k + 1))) ^ 2 ≤
        ∑ k ∈ S, (Real.log (v k) - (a' + b' * (k + 1))) ^ 2 := by
  have he : (y d).eqb 0 = false := by rw [hy]; rfl
  set y0 : Nat → Num ℝ := fun d => if (y d).eqb 0 then .fin (1 / 10 ^ 320) else y d with hy0
  set ly : Nat → Num ℝ := fun d => Tail.log (y0 d) with hly
  set w : Nat → Num ℝ := fun d => (ly d * 0 + 1).nanToNum with hw
  set x : Nat → Num ℝ := fun d : Nat => .fin ((d : ℝ) + 1) with hx
  have known : ∀ k ∈ S, ly k = .fin (Real.log (v k)) ∧ w k = 1 := by
    intro k hk
    rcases hS k (hSn k hk) with ⟨-, hv, e⟩ | ⟨hn, -⟩
    · have h1 : ly k = .fin (Real.log (v k)) := by
        simp only [hly, hy0, e]
        rw [if_neg (by simp [Num.eqb, Num.zero_def, hv.ne'])]
        unfold Tail.log
        simp only [if_neg (not_lt.mpr hv.le), if_neg hv.ne']
      refine ⟨h1, ?_⟩
      simp only [hw, h1]
      simp [Num.zero_def, Num.one_def, Num.nanToNum]
    · exact absurd hk hn
  have unknown : ∀ k < n, k ∉ S → w k = 0 := by
    intro k hk hn
    rcases hS k hk with ⟨h, -⟩ | ⟨-, e⟩
    · exact absurd h hn
    · have h1 : ly k = .nan := by
        simp only [hly, hy0, e]
        rw [if_neg (by simp [Num.eqb])]
        rfl
      simp only [hw, h1]
      simp [Num.zero_def, Num.one_def, Num.nanToNum]
  have hones : Reg.ones n w = S := by
    ext k
    unfold Reg.ones
    rw [Finset.mem_filter, Finset.mem_range]
    constructor
    · rintro ⟨h1, h2⟩
      by_contra hn
      rw [unknown k h1 hn] at h2
      simp [Num.zero_def, Num.one_def] at h2
    · intro hk
      exact ⟨hSn k hk, (known k hk).2⟩
  have hline : ∀ j < n, w j = 0 ∨ (w j = 1 ∧ (∃ a, x j = .fin a) ∧ ∃ b, ly j = .fin b) := by
    intro j hj
    by_cases hjS : j ∈ S
    · exact Or.inr ⟨(known j hjS).2, ⟨_, rfl⟩, ⟨_, (known j hjS).1⟩⟩
    · exact Or.inl (unknown j hj hjS)
  obtain ⟨k1, hk1, k2, hk2, hne⟩ := Finset.one_lt_card.mp (show 1 < S.card by omega)
  have hly' : ∀ k ∈ S, (ly k).amt = Real.log (v k) := fun k hk => by rw [(known k hk).1]; rfl
  obtain ⟨a, b, hb, ha, -⟩ := Reg.line_fits hline (u := k1) (v := k2) (by rw [hones]; exact hk1)
    (by rw [hones]; exact hk2) (by
      show ((k1 : ℝ) + 1) ≠ (k2 : ℝ) + 1
      intro h
      exact hne (by exact_mod_cast add_right_cancel h)) (by
      rw [hones, Finset.sum_congr rfl fun k hk => hly' k hk,
        Finset.sum_congr rfl fun k hk => by rw [hly' k hk]]
      exact hP)
  refine ⟨a, b, ?_, ?_⟩
  · have hwd : w d = 0 := by
      have h1 : ly d = .nan := by
        simp only [hly, hy0, he]
        rw [hy]
        rfl
      simp only [hw, h1]
      simp [Num.zero_def, Num.one_def, Num.nanToNum]
    have : Interp.logLinear.fill n y d = ((y d).nanToNum +
        (Tail.exp (x d * Reg.slope n w x ly + Reg.intercept n w x ly) * (1 - w d)).nanToNum).numToNan := rfl
    rw [this, hb, ha, hwd, hy]
    have : (Real.exp (((d : ℝ) + 1) * b + a)) ≠ 0 := (Real.exp_pos _).ne'
    simp only [hx, Num.fin_mul_fin, Num.fin_add_fin, Tail.exp, Num.zero_def, Num.one_def, Num.fin_sub_fin,
      Num.nanToNum, sub_zero, mul_one, zero_add, Num.numToNan_fin, if_neg this]
    congr 2
    ring
  · intro a' b'
    have herr : ∀ a b : ℝ, Reg.lineError (Reg.ones n w) (fun j => (x j).amt) (fun j => (ly j).amt) a b =
        ∑ k ∈ S, (Real.log (v k) - (a + b * (k + 1))) ^ 2 := by
      intro a b
      unfold Reg.lineError
      rw [hones]
      refine Finset.sum_congr rfl fun k hk => ?_
      beta_reduce
      rw [hly' k hk]
      rfl
    have := Reg.C29_line_partial hline hb ha a' b'
    rw [herr, herr] at this
    exact this

/-! ## Plain triangles -/

/-- An age has two or more link ratios. -/
theorem two_pairs {n D q d : Nat} (hn : 2 ≤ n) (h : q + d + 1 < D) : 2 ≤ (pairs n D q d).card := by
  have : ({0, 1} : Finset Nat) ⊆ pairs n D q d := by
    intro o ho
    rw [Finset.mem_insert, Finset.mem_singleton] at ho
    unfold pairs
    rw [Finset.mem_filter, Finset.mem_range]
    rcases ho with rfl | rfl
    · omega
    · rw [Nat.mul_one]; omega
  calc 2 = ({0, 1} : Finset Nat).card := rfl
    _ ≤ _ := Finset.card_le_card this

/-- An age has the link ratio of the first origin only. -/
theorem one_pair {n D q d : Nat} (hn : 2 ≤ n) (hd : d + 1 < D) (h : ¬ q + d + 1 < D) : pairs n D q d = {0} := by
  ext o
  unfold pairs
  rw [Finset.mem_filter, Finset.mem_range, Finset.mem_singleton]
  constructor
  · rintro ⟨-, h2⟩
    by_contra h0
    have : q * 1 ≤ q * o := Nat.mul_le_mul_left _ (by omega)
    omega
  · rintro rfl
    omega

/-- The estimates of one age before missing ones are filled. -/
structure RawAge (t : Tri ℝ) (p : Params ℝ) (w : Arr ℝ) (s : Finset Nat) (i c d : Nat) : Prop where
  sigma : rawSigma (p.average d) t.values.d2 (fun o => w.get i c o d)
    (fun o => (t.values.get i c o d).numToNan) (fun o => (t.values.get i c o (d + 1)).numToNan) =
    if 2 ≤ s.card then .fin (Real.sqrt (variance t i c d s (p.average d))) else .nan
  stdErr : rawStdErr (p.average d) t.values.d2 (fun o => w.get i c o d)
    (fun o => (t.values.get i c o d).numToNan) (fun o => (t.values.get i c o (d + 1)).numToNan) =
    if 2 ≤ s.card then .fin (Real.sqrt (variance t i c d s (p.average d) / mass t i c d s (p.average d))) else .nan

theorem raw_plain {t : Tri ℝ} {a : Int} {n D q : Nat} (h : Tri.Standard t a n D q) (hp : Positive t n D q)
    {p : Params ℝ} (hd : p.NoDrop) (hn : ∀ d, p.nPeriods d < 1) {w : Arr ℝ} (hw : weights t p = .ok w) {i c d : Nat}
    (hi : i < t.kdims.length) (hc : c < t.vdims.length) (hd' : d + 1 < D) :
    RawAge t p w (pairs n D q d) i c d := by
  obtain ⟨w0, w1, w2, w3⟩ := h.wf
  obtain ⟨w', hw', hcell⟩ := weights_all (t := t) hd hn
  rw [hw] at hw'
  injection hw' with hw'
  subst hw'
  have h01 : ∀ o < t.values.d2, w.get i c o d =
      if (t.values.get i c o d).isNan || (t.nanTri o d).isNan then .nan else 1 := by
    intro o ho
    rw [hcell i (by omega) c (by omega) o ho d (by rw [w3, h.lenD]; exact hd')]
    rcases Num.noInf_cases (h.finite i (by omega) c (by omega) o ho d (by rw [w3, h.lenD]; omega)) with e | ⟨b, e⟩ <;>
      rw [e] <;> rcases Tri.nanTri_eq t o d with e' | ⟨e', -⟩ <;> rw [e'] <;>
      simp [Num.isNan, Num.zero_def, Num.one_def]
  have hknown : ∀ o < n, q * o + d + 1 ≤ D → w.get i c o d = 1 := by
    intro o ho hod
    rw [h01 o (by rw [w2, h.lenO]; exact ho)]
    obtain ⟨x, hx, ex⟩ := hp i hi c hc o ho d (by omega) hod
    rw [ex]
    rcases Tri.nanTri_eq t o d with e' | ⟨-, e'⟩
    · rw [e']; rfl
    · have := (h.valuation_gt ho (d := d) (by omega)).mp e'
      omega
  have hs : pairs n D q d = included t (fun i c o d => (w.get i c o d).amt) i c d := by
    rw [← included_eq h hp hi hc hd']
    unfold included
    refine Finset.filter_congr fun o ho => ?_
    rw [Finset.mem_range, w2, h.lenO] at ho
    constructor
    · rintro ⟨h1, h2, -⟩
      refine ⟨h1, h2, ?_⟩
      by_cases hod : q * o + d + 1 ≤ D
      · beta_reduce
        rw [hknown o ho hod]; simp [Num.one_def]
      · exact absurd (by unfold amount; rw [h.known i hi c hc o ho d (by omega) (by omega)]; rfl) h1
    · rintro ⟨h1, h2, -⟩
      exact ⟨h1, h2, one_ne_zero⟩
  have := C68_age (i := i) (c := c) h.finite p w (by omega) (by omega) (by rw [w3, h.lenD]; exact hd') (fun o ho => by
      rw [h01 o ho]
      unfold Masked
      split_ifs <;> simp) hs (Finset.card_pos.mpr (pairs_nonempty h.two_origins hd'))
    (fun o ho => (amt_pos hp hi hc hd' ho).1) (average_pos hp h.two_origins hi hc hd' _).ne' (by
      intro _ o ho h1 h2
      rw [w2, h.lenO] at ho
      exfalso
      by_cases hod : q * o + d + 1 ≤ D
      · obtain ⟨x, hx, ex⟩ := hp i hi c hc o ho d (by omega) hod
        unfold amount at h1
        rw [ex] at h1
        exact hx.ne' h1
      · unfold amount at h2
        rw [h.known i hi c hc o ho (d + 1) hd' (by omega)] at h2
        exact h2 rfl)
  exact ⟨this.1, this.2⟩

/-- The spec of `sigma_` and `std_err_` before and after filling. -/
theorem stats_run {t : Tri ℝ} {a : Int} {n D q : Nat} (h : Tri.Standard t a n D q)
    {p : Params ℝ} (hd : p.NoDrop) (hn : ∀ d, p.nPeriods d < 1) (m : Interp) (one : Bool) :
    ∃ w f s e, weights t p = .ok w ∧ fit t p = .ok f ∧ fitStats t p m one = .ok (f, s, e) ∧
      s.ddims = f.ddims ∧ e.ddims = f.ddims ∧ s.odims = f.odims ∧ e.odims = f.odims ∧
      s.kdims = t.kdims ∧ e.kdims = t.kdims ∧ s.vdims = t.vdims ∧ e.vdims = t.vdims ∧
      s.values = sigmaArr t p m one w ∧ e.values = stdErrArr t p m one w := by
  obtain ⟨lr, hl, -⟩ := h.linkRatio
  obtain ⟨w, hw, -⟩ := weights_all (t := t) hd hn
  obtain ⟨b, hb⟩ := nPeriodsWeightFunc_all lr hn
  have hf : fit t p = paramTri t (ldfArr t p w) := by
    simp only [fit, hl, hb, hw, hd.1, hd.2.1, Option.map_none, optWeight, bind, Except.bind]
  have hpar : ∀ v : Arr ℝ, paramTri t v = .ok { t with
      odims := t.odims.filter fun o => o == (t.odims.min?).getD 0
      ddims := lr.ddims
      vd := ultVal
      isPattern := true
      isCum := some false
      values := v } := by
    intro v
    simp only [paramTri, hl, bind, Except.bind]
  have hst : fitStats t p m one = (do
      let f ← paramTri t (ldfArr t p w)
      let s ← paramTri t (sigmaArr t p m one w)
      let e ← paramTri t (stdErrArr t p m one w)
      .ok (f, s, e)) := by
    unfold fitStats
    rw [hf, hw]
    simp only [hpar, bind, Except.bind]
  simp only [hpar, bind, Except.bind] at hst
  exact ⟨w, _, _, _, hw, hf.trans (hpar _), hst, rfl, rfl, rfl, rfl, rfl, rfl, rfl, rfl, rfl, rfl⟩

/-- **C68**, plain triangles: `std_err_ ^ 2` is `sigma_ ^ 2` over the sum of the weights of the age, and `sigma_ ^ 2`
is Mack's variance where an age has two link ratios that differ.  Partial: all link ratios are used, and amounts are
positive; otherwise see `C68_age` and `C68_single_false`. -/
theorem C68_plain_partial {t : Tri ℝ} {a : Int} {n D q : Nat} (h : Tri.Standard t a n D q) (hp : Positive t n D q)
    {p : Params ℝ} (hd : p.NoDrop) (hn : ∀ d, p.nPeriods d < 1) (m : Interp) :
    ∃ f s e, fit t p = .ok f ∧ fitStats t p m false = .ok (f, s, e) ∧
      s.ddims = f.ddims ∧ e.ddims = f.ddims ∧ s.kdims = t.kdims ∧ e.kdims = t.kdims ∧ s.vdims = t.vdims ∧
      e.vdims = t.vdims ∧
      ∀ i < t.kdims.length, ∀ c < t.vdims.length, ∀ d, d + 1 < D →
        (q + d + 1 < D → 0 < variance t i c d (pairs n D q d) (p.average d) →
          s.values.get i c 0 d = .fin (Real.sqrt (variance t i c d (pairs n D q d) (p.average d)))) ∧
        (q + d + 1 < D → e.values.get i c 0 d = .fin (Real.sqrt (variance t i c d (pairs n D q d) (p.average d) /
          mass t i c d (pairs n D q d) (p.average d)))) ∧
        (¬ q + d + 1 < D → ∀ v, 0 ≤ v → s.values.get i c 0 d = .fin v →
          e.values.get i c 0 d = .fin (Real.sqrt (v ^ 2 / mass t i c d (pairs n D q d) (p.average d)))) ∧
        (¬ q + d + 1 < D → s.values.get i c 0 d = .nan → e.values.get i c 0 d = 0) := by
  obtain ⟨w, f, s, e, hw, hf, hr, s1, e1, -, -, s3, e3, s4, e4, hs, he⟩ := stats_run h hd hn m false
  refine ⟨f, s, e, hf, hr, s1, e1, s3, e3, s4, e4, ?_⟩
  intro i hi c hc d hd'
  have hraw := raw_plain h hp hd hn hw hi hc hd'
  have h2o := h.two_origins
  have hx0 : ∃ x0 y0, 0 < x0 ∧ 0 < y0 ∧ t.values.get i c 0 d = .fin x0 ∧ t.values.get i c 0 (d + 1) = .fin y0 := by
    obtain ⟨x, hx, ex⟩ := hp i hi c hc 0 (by omega) d (by omega) (by omega)
    obtain ⟨y, hy, ey⟩ := hp i hi c hc 0 (by omega) (d + 1) hd' (by omega)
    exact ⟨x, y, hx, hy, ex, ey⟩
  obtain ⟨x0, y0, hx0, hy0, ex, ey⟩ := hx0
  have hecell : e.values.get i c 0 d = (rawStdErr (p.average d) t.values.d2 (fun o => w.get i c o d)
        (fun o => (t.values.get i c o d).numToNan) (fun o => (t.values.get i c o (d + 1)).numToNan)).nanToNum +
      ((1 - (rawStdErr (p.average d) t.values.d2 (fun o => w.get i c o d)
        (fun o => (t.values.get i c o d).numToNan) (fun o => (t.values.get i c o (d + 1)).numToNan) * 0 + 1).nanToNum) *
        s.values.get i c 0 d / Tail.sqrt (((t.values.get i c 0 d).numToNan).npow
          (2 - expo (p.average d) (t.values.get i c 0 (d + 1)).numToNan))).nanToNum := by
    rw [he, hs]
    rfl
  have hroot : Tail.sqrt (((t.values.get i c 0 d).numToNan).npow
      (2 - expo (p.average d) (t.values.get i c 0 (d + 1)).numToNan)) =
      .fin (Real.sqrt (x0 ^ (2 - (p.average d).exponent))) := by
    rw [ex, ey, Num.numToNan_fin, if_neg hx0.ne', Num.numToNan_fin, if_neg hy0.ne']
    have : (Num.fin x0).npow (2 - expo (p.average d) (Num.fin y0)) = .fin (x0 ^ (2 - (p.average d).exponent)) := by
      unfold expo
      cases p.average d <;> simp [Avg.exponent, Num.npow, Num.one_def, pow_two]
    rw [this, sqrt_fin (pow_pos hx0 _).le]
  have hr0 : Real.sqrt (x0 ^ (2 - (p.average d).exponent)) ≠ 0 := (Real.sqrt_pos.mpr (pow_pos hx0 _)).ne'
  refine ⟨?_, ?_, ?_, ?_⟩
  · intro h2 hv
    rw [hs]
    unfold sigmaArr
    simp only [Bool.false_eq_true, if_false]
    refine fill_known m _ (Real.sqrt_pos.mpr hv) ?_
    rw [hraw.sigma, if_pos (two_pairs h2o h2)]
  · intro h2
    rw [hecell, hraw.stdErr, if_pos (two_pairs h2o h2), hroot]
    have h1 : ∀ z : ℝ, (Num.fin z * 0 + 1 : Num ℝ).nanToNum = 1 := by
      intro z
      simp [Num.zero_def, Num.one_def, Num.nanToNum]
    rw [h1]
    have h0 : (((1 : Num ℝ) - 1) * s.values.get i c 0 d /
        Num.fin (Real.sqrt (x0 ^ (2 - (p.average d).exponent)))).nanToNum = 0 := by
      have hi1 : (Num.fin (0 : ℝ) * Num.pinf : Num ℝ) = .nan := by
        show Num.mul _ _ = _
        simp [Num.mul, Num.infMul]
      have hi2 : (Num.fin (0 : ℝ) * Num.ninf : Num ℝ) = .nan := by
        show Num.mul _ _ = _
        simp [Num.mul, Num.infMul]
      rw [Num.one_def, Num.fin_sub_fin, sub_self]
      cases s.values.get i c 0 d with
      | nan => simp [Num.nanToNum, Num.zero_def]
      | pinf => rw [hi1]; simp [Num.nanToNum, Num.zero_def]
      | ninf => rw [hi2]; simp [Num.nanToNum, Num.zero_def]
      | fin z => rw [Num.fin_mul_fin, zero_mul, Num.fin_div_fin_of_ne _ hr0, zero_div]; rfl
    rw [h0]
    simp [Num.nanToNum, Num.zero_def]
  · intro h2 v hv hsv
    have hpair := one_pair h2o hd' h2
    rw [hecell, hraw.stdErr, if_neg (by rw [hpair]; simp), hsv, hroot, hpair]
    have hm : mass t i c d {0} (p.average d) = x0 ^ (2 - (p.average d).exponent) := by
      unfold mass amount
      rw [Finset.sum_singleton, ex]
      rfl
    rw [hm, Real.sqrt_div (sq_nonneg v), Real.sqrt_sq hv]
    simp [Num.nanToNum, Num.zero_def, Num.one_def, Num.fin_div_fin_of_ne _ hr0]
  · intro h2 hsv
    have hpair := one_pair h2o hd' h2
    rw [hecell, hraw.stdErr, if_neg (by rw [hpair]; simp), hsv]
    simp [Num.nanToNum, Num.zero_def, Num.one_def]

theorem sigma_cell {t : Tri ℝ} {a : Int} {n D q : Nat} (h : Tri.Standard t a n D q) (hp : Positive t n D q)
    {p : Params ℝ} (hd : p.NoDrop) (hn : ∀ d, p.nPeriods d < 1) (m : Interp) {f s e : Tri ℝ}
    (hr : fitStats t p m false = .ok (f, s, e)) {i c : Nat} (hi : i < t.kdims.length) (hc : c < t.vdims.length) :
    ∃ raw : Nat → Num ℝ, (∀ d, s.values.get i c 0 d = m.fill (D - 1) raw d) ∧ ∀ d, d + 1 < D →
      raw d = if q + d + 1 < D then .fin (Real.sqrt (variance t i c d (pairs n D q d) (p.average d))) else .nan := by
  obtain ⟨w, f', s', e', hw, -, hr', -, -, -, -, -, -, -, -, hs, -⟩ := stats_run h hd hn m false
  rw [hr] at hr'
  injection hr' with hr'
  injection hr' with h1 h2
  injection h2 with h2 h3
  subst h2
  refine ⟨fun d => rawSigma (p.average d) t.values.d2 (fun o => w.get i c o d)
    (fun o => (t.values.get i c o d).numToNan) (fun o => (t.values.get i c o (d + 1)).numToNan), fun d => ?_,
    fun d hd' => ?_⟩
  rotate_left
  · beta_reduce
    rw [(raw_plain h hp hd hn hw hi hc hd').sigma]
    by_cases h2 : q + d + 1 < D
    · rw [if_pos h2, if_pos (two_pairs h.two_origins h2)]
    · rw [if_neg h2, if_neg (by rw [one_pair h.two_origins hd' h2]; simp)]
  · rw [hs]
    unfold sigmaArr
    simp only [Bool.false_eq_true, if_false]
    rw [h.wf.2.2.2, h.lenD]

/-- **C68**, Mack's rule: an age without two link ratios gets the smallest of the two sigmas before it and of the
one that continues their ratio.  Partial: the age follows one with two link ratios; see `C68_gap_false`. -/
theorem C68_mack_partial {t : Tri ℝ} {a : Int} {n D q : Nat} (h : Tri.Standard t a n D q) (hp : Positive t n D q)
    {p : Params ℝ} (hd : p.NoDrop) (hn : ∀ d, p.nPeriods d < 1) {f s e : Tri ℝ}
    (hr : fitStats t p .mack false = .ok (f, s, e)) {i c d : Nat} (hi : i < t.kdims.length) (hc : c < t.vdims.length)
    (h2 : 2 ≤ d) (hd' : d + 1 < D) (hd1 : q + d < D) (hd0 : ¬ q + d + 1 < D) {u v : ℝ} (hu : 0 < u) (hv : 0 < v)
    (eu : variance t i c (d - 1) (pairs n D q (d - 1)) (p.average (d - 1)) = u ^ 2)
    (ev : variance t i c (d - 2) (pairs n D q (d - 2)) (p.average (d - 2)) = v ^ 2) :
    s.values.get i c 0 d = .fin (min (u ^ 2 / v) (min v u)) := by
  obtain ⟨raw, hs, hraw⟩ := sigma_cell h hp hd hn .mack hr hi hc
  rw [hs]
  refine fill_mack _ h2 ?_ hu hv ?_ ?_
  · rw [hraw d hd', if_neg hd0]
  · rw [hraw (d - 1) (by omega), if_pos (by omega), eu, Real.sqrt_sq hu.le]
  · rw [hraw (d - 2) (by omega), if_pos (by omega), ev, Real.sqrt_sq hv.le]

/-- **C68**, Mack's rule: false when an origin period has more than one development period.  All but the first of
the ages without two link ratios are left without sigma, and their standard error is 0.  Holds of every such
triangle. -/
theorem C68_gap_false {t : Tri ℝ} {a : Int} {n D q : Nat} (h : Tri.Standard t a n D q) (hp : Positive t n D q)
    {p : Params ℝ} (hd : p.NoDrop) (hn : ∀ d, p.nPeriods d < 1) :
    ∃ f s e, fitStats t p .mack false = .ok (f, s, e) ∧ ∀ i < t.kdims.length, ∀ c < t.vdims.length, ∀ d, 2 ≤ d →
      d + 1 < D → ¬ q + d < D → s.values.get i c 0 d = .nan ∧ e.values.get i c 0 d = 0 := by
  obtain ⟨f, s, e, -, hr, -, -, -, -, -, -, hcell⟩ := C68_plain_partial h hp hd hn .mack
  refine ⟨f, s, e, hr, ?_⟩
  intro i hi c hc d h2 hd' hq
  obtain ⟨raw, hs, hraw⟩ := sigma_cell h hp hd hn .mack hr hi hc
  have hnan : s.values.get i c 0 d = .nan := by
    rw [hs]
    refine fill_mack_gap _ h2 ?_ ?_
    · rw [hraw d hd', if_neg (by omega)]
    · rw [hraw (d - 1) (by omega), if_neg (by omega)]
  exact ⟨hnan, (hcell i hi c hc d hd').2.2.2 (by omega) hnan⟩

/-- **C68**, log-linear rule: the ages without two link ratios are on the exponential of the least-squares line
through the logarithms of the others.  Partial: two or more ages with two link ratios, whose sigmas are positive and
do not give a flat line. -/
theorem C68_log_partial {t : Tri ℝ} {a : Int} {n D q : Nat} (h : Tri.Standard t a n D q) (hp : Positive t n D q)
    {p : Params ℝ} (hd : p.NoDrop) (hn : ∀ d, p.nPeriods d < 1) {f s e : Tri ℝ}
    (hr : fitStats t p .logLinear false = .ok (f, s, e)) {i c : Nat} (hi : i < t.kdims.length)
    (hc : c < t.vdims.length) (h2 : q + 2 < D) {v : Nat → ℝ} (hv : ∀ k, q + k + 1 < D → 0 < v k ∧
      variance t i c k (pairs n D q k) (p.average k) = v k ^ 2)
    (hP : (∑ k ∈ Finset.range (D - q - 1), ((k : ℝ) + 1) * Real.log (v k)) * (D - q - 1 : Nat) ≠
      (∑ k ∈ Finset.range (D - q - 1), ((k : ℝ) + 1)) * ∑ k ∈ Finset.range (D - q - 1), Real.log (v k)) :
    ∃ a b : ℝ, (∀ a' b', ∑ k ∈ Finset.range (D - q - 1), (Real.log (v k) - (a + b * (k + 1))) ^ 2 ≤
        ∑ k ∈ Finset.range (D - q - 1), (Real.log (v k) - (a' + b' * (k + 1))) ^ 2) ∧
      (∀ d, q + d + 1 < D → s.values.get i c 0 d = .fin (v d)) ∧
      ∀ d, d + 1 < D → ¬ q + d + 1 < D → s.values.get i c 0 d = .fin (Real.exp (a + b * (d + 1))) := by
  obtain ⟨raw, hs, hraw⟩ := sigma_cell h hp hd hn .logLinear hr hi hc
  have hS : ∀ k < D - 1, (k ∈ Finset.range (D - q - 1) ∧ 0 < v k ∧ raw k = .fin (v k)) ∨
      (k ∉ Finset.range (D - q - 1) ∧ raw k = .nan) := by
    intro k hk
    rw [Finset.mem_range, hraw k (by omega)]
    by_cases hq : q + k + 1 < D
    · left
      obtain ⟨h1, h2⟩ := hv k hq
      exact ⟨by omega, h1, by rw [if_pos hq, h2, Real.sqrt_sq h1.le]⟩
    · right
      exact ⟨by omega, by rw [if_neg hq]⟩
  have hper := h.period
  have known : ∀ d, q + d + 1 < D → s.values.get i c 0 d = .fin (v d) := by
    intro d hq
    rw [hs]
    refine fill_known _ _ (hv d hq).1 ?_
    rcases hS d (by omega) with ⟨-, -, e⟩ | ⟨hn', -⟩
    · exact e
    · exact absurd (Finset.mem_range.mpr (by omega)) hn'
  have hfill : ∀ d, d + 1 < D → ¬ q + d + 1 < D → _ := fun d hd' hq => fill_log (D - 1) (y := raw) (d := d)
    (by rw [hraw d hd', if_neg hq]) hS (fun k hk => by rw [Finset.mem_range] at hk; omega)
    (by rw [Finset.card_range]; omega) (by rw [Finset.card_range]; exact hP)
  obtain ⟨a, b, -, hmin⟩ := hfill (D - 2) (by omega) (by omega)
  refine ⟨a, b, hmin, known, ?_⟩
  intro d hd' hq
  obtain ⟨a', b', hf', hmin'⟩ := hfill d hd' hq
  rw [hs, hf']
  have := line_unique (S := Finset.range (D - q - 1)) (x := fun k => (k : ℝ) + 1) (y := fun k => Real.log (v k))
    (k1 := 0) (k2 := 1) (Finset.mem_range.mpr (by omega)) (Finset.mem_range.mpr (by omega)) (by norm_num) hmin hmin'
  rw [this.1, this.2]

/-- **C68** is false when the link ratios of an age are all the same and the rule is the log-linear one: the
variance is zero, but sigma is missing. -/
theorem C68_zero_false {t : Tri ℝ} {a : Int} {n D q : Nat} (h : Tri.Standard t a n D q) (hp : Positive t n D q)
    {p : Params ℝ} (hd : p.NoDrop) (hn : ∀ d, p.nPeriods d < 1) :
    ∃ f s e, fitStats t p .logLinear false = .ok (f, s, e) ∧ ∀ i < t.kdims.length, ∀ c < t.vdims.length, ∀ d,
      q + d + 1 < D → variance t i c d (pairs n D q d) (p.average d) = 0 →
      s.values.get i c 0 d = .nan ∧ e.values.get i c 0 d = .fin 0 := by
  obtain ⟨f, s, e, -, hr, -, -, -, -, -, -, hcell⟩ := C68_plain_partial h hp hd hn .logLinear
  refine ⟨f, s, e, hr, ?_⟩
  intro i hi c hc d hq hv
  have hper := h.period
  obtain ⟨raw, hs, hraw⟩ := sigma_cell h hp hd hn .logLinear hr hi hc
  refine ⟨?_, ?_⟩
  · rw [hs]
    refine fill_zero _ ?_
    rw [hraw d (by omega), if_pos hq, hv, Real.sqrt_zero]
  · rw [(hcell i hi c hc d (by omega)).2.1 hq, hv, zero_div, Real.sqrt_zero]

/-- **C68** is false when the only link ratio of an age is not that of the first origin (because others are
dropped): the standard error is sigma over the root of the weight of the first origin, not over that of the
origin in use. -/
theorem C68_single_false {t : Tri ℝ} (fin : Tri.Finite t) (p : Params ℝ) (m : Interp) (w : Arr ℝ) {i c d o : Nat}
    (hi : i < t.values.d0) (hc : c < t.values.d1) (hd : d + 1 < t.values.d3)
    (hw : ∀ o < t.values.d2, Masked (w.get i c o d))
    (hs : {o} = included t (fun i c o d => (w.get i c o d).amt) i c d)
    (hx : 0 < amount t i c o d) (hb : average t i c d {o} (p.average d) ≠ 0)
    (hz : p.average d = .regression → ∀ o < t.values.d2, amount t i c o d = 0 → amount t i c o (d + 1) ≠ 0 →
      (w.get i c o d).amt = 0) {x y v : ℝ} (hx0 : 0 < x) (hy0 : 0 < y) (ex : t.values.get i c 0 d = .fin x)
    (ey : t.values.get i c 0 (d + 1) = .fin y) (hv : (sigmaArr t p m false w).get i c 0 d = .fin v) :
    (stdErrArr t p m false w).get i c 0 d = .fin (v / Real.sqrt (x ^ (2 - (p.average d).exponent))) := by
  have hraw := C68_age fin p w hi hc hd hw hs (by simp) (by simpa using hx) hb hz
  have hr0 : Real.sqrt (x ^ (2 - (p.average d).exponent)) ≠ 0 := (Real.sqrt_pos.mpr (pow_pos hx0 _)).ne'
  have hroot : Tail.sqrt (((t.values.get i c 0 d).numToNan).npow
      (2 - expo (p.average d) (t.values.get i c 0 (d + 1)).numToNan)) =
      .fin (Real.sqrt (x ^ (2 - (p.average d).exponent))) := by
    rw [ex, ey, Num.numToNan_fin, if_neg hx0.ne', Num.numToNan_fin, if_neg hy0.ne']
    have : (Num.fin x).npow (2 - expo (p.average d) (Num.fin y)) = .fin (x ^ (2 - (p.average d).exponent)) := by
      unfold expo
      cases p.average d <;> simp [Avg.exponent, Num.npow, pow_two]
    rw [this, sqrt_fin (pow_pos hx0 _).le]
  unfold stdErrArr
  simp only
  rw [hv, hroot, hraw.2, if_neg (by simp)]
  simp [Num.nanToNum, Num.zero_def, Num.one_def, Num.fin_div_fin_of_ne _ hr0]

namespace C68

/-- Amounts 2, 2, 3, 6 / 2, 4, 10 / 2, 6 / 5: link ratios 1, 2 and 3, then 3/2 and 5/2, then 2. -/
noncomputable def tri : Tri ℝ where
  kdims := [["Total"]]
  keyLabels := ["Total"]
  vdims := ["paid"]
  odims := [24240, 24252, 24264, 24276]
  ddims := [12, 24, 36, 48]
  isVal := false
  ograin := .Y
  dgrain := .Y
  vd := 24287
  isCum := some true
  isPattern := false
  isAdditive := none
  values := ⟨1, 1, 4, 4, fun _ _ o d => match o, d with
    | 0, 0 => .fin 2 | 0, 1 => .fin 2 | 0, 2 => .fin 3 | 0, 3 => .fin 6
    | 1, 0 => .fin 2 | 1, 1 => .fin 4 | 1, 2 => .fin 10
    | 2, 0 => .fin 2 | 2, 1 => .fin 6
    | 3, 0 => .fin 5
    | _, _ => .nan⟩

theorem standard : Tri.Standard tri 24240 4 4 1 where
  wf := ⟨rfl, rfl, rfl, rfl⟩
  finite := by
    intro i hi c hc o ho d hd
    replace ho : o < 4 := ho
    replace hd : d < 4 := hd
    interval_cases o <;> interval_cases d <;> trivial
  isVal := rfl
  cumulative := by decide
  noPattern := rfl
  multiplicative := rfl
  index_pos := le_rfl
  columns_pos := le_rfl
  two_origins := by decide
  period := le_rfl
  recent := by decide
  odims := rfl
  ddims := rfl
  vd := rfl
  short := by decide
  early := by decide
  known := by
    intro i hi c hc o ho d hd hlt
    interval_cases o <;> interval_cases d <;> first | rfl | omega

theorem positive : Positive tri 4 4 1 := by
  intro i hi c hc o ho d hd hle
  interval_cases o <;> interval_cases d <;>
    first
    | omega
    | exact ⟨_, by norm_num, rfl⟩

noncomputable def simple : Params ℝ where
  average := fun _ => .simple

theorem variance0 : variance tri 0 0 0 (pairs 4 4 1 0) .simple = 1 := by
  have : pairs 4 4 1 0 = {0, 1, 2} := by decide
  unfold variance average
  rw [this]
  simp only [Finset.sum_insert, Finset.sum_singleton, Finset.mem_insert, Finset.mem_singleton, not_or,
    (by decide : (0 : Nat) ≠ 1 ∧ (0 : Nat) ≠ 2), (by decide : (1 : Nat) ≠ 2), not_false_iff, and_self]
  have hc : (({0, 1, 2} : Finset Nat).card : ℝ) = 3 := by norm_num
  rw [hc]
  show ((2 : ℝ) ^ 0 * (2 / 2 - (2 / 2 + (4 / 2 + 6 / 2)) / 3) ^ 2 + (2 ^ 0 * (4 / 2 - (2 / 2 + (4 / 2 + 6 / 2)) / 3) ^ 2 +
    2 ^ 0 * (6 / 2 - (2 / 2 + (4 / 2 + 6 / 2)) / 3) ^ 2)) / (3 - 1) = 1
  norm_num

theorem variance1 : variance tri 0 0 1 (pairs 4 4 1 1) .simple = 1 / 2 := by
  have : pairs 4 4 1 1 = {0, 1} := by decide
  unfold variance average
  rw [this]
  simp only [Finset.sum_pair (by decide : (0 : Nat) ≠ 1)]
  have hc : (({0, 1} : Finset Nat).card : ℝ) = 2 := by norm_num
  rw [hc]
  show ((2 : ℝ) ^ 0 * (3 / 2 - (3 / 2 + 10 / 4) / 2) ^ 2 + 4 ^ 0 * (10 / 4 - (3 / 2 + 10 / 4) / 2) ^ 2) / (2 - 1) = 1 / 2
  norm_num

end C68

/-- The simple average of 1, 2 and 3 has variance 1, sigma 1 and a standard error of the root of 1/3; the
simple average of 3/2 and 5/2 has variance 1/2.  Mack's rule gives the last age a sigma of 1/2 over 1, as that is
less than 1 and the root of 1/2, and it is its standard error as well. -/
example : ∃ f s e, fitStats C68.tri C68.simple .mack false = .ok (f, s, e) ∧ s.values.get 0 0 0 0 = .fin 1 ∧
    e.values.get 0 0 0 0 = .fin (Real.sqrt (1 / 3)) ∧ s.values.get 0 0 0 1 = .fin (Real.sqrt (1 / 2)) ∧
    s.values.get 0 0 0 2 = .fin (1 / 2) ∧ e.values.get 0 0 0 2 = .fin (1 / 2) := by
  have hd : C68.simple.NoDrop := ⟨rfl, rfl, rfl, rfl, rfl, rfl⟩
  have hn : ∀ d, C68.simple.nPeriods d < 1 := fun d => by show (-1 : Int) < 1; decide
  obtain ⟨f, s, e, -, hr, -, -, -, -, -, -, hcell⟩ := C68_plain_partial C68.standard C68.positive hd hn .mack
  have v0 : variance C68.tri 0 0 0 (pairs 4 4 1 0) (C68.simple.average 0) = 1 := C68.variance0
  have v1 : variance C68.tri 0 0 1 (pairs 4 4 1 1) (C68.simple.average 1) = 1 / 2 := C68.variance1
  have m0 : mass C68.tri 0 0 0 (pairs 4 4 1 0) (C68.simple.average 0) = 3 := by
    have : pairs 4 4 1 0 = {0, 1, 2} := by decide
    have hs : C68.simple.average 0 = .simple := rfl
    unfold mass
    rw [this, hs]
    norm_num [Avg.exponent]
  have m2 : mass C68.tri 0 0 2 (pairs 4 4 1 2) (C68.simple.average 2) = 1 := by
    have : pairs 4 4 1 2 = {0} := by decide
    have hs : C68.simple.average 2 = .simple := rfl
    unfold mass
    rw [this, hs]
    norm_num [Avg.exponent]
  have s2 : s.values.get 0 0 0 2 = .fin (1 / 2) := by
    rw [C68_mack_partial C68.standard C68.positive hd hn hr (i := 0) (c := 0) (d := 2) (by decide) (by decide) le_rfl
      (by decide) (by decide) (by decide) (u := Real.sqrt (1 / 2)) (v := 1) (by positivity) one_pos
      (by rw [Real.sq_sqrt (by norm_num)]; exact v1) (by rw [one_pow]; exact v0), Real.sq_sqrt (by norm_num)]
    have h1 : (1 / 2 : ℝ) ≤ Real.sqrt (1 / 2) := Real.le_sqrt_of_sq_le (by norm_num)
    rw [div_one, min_eq_left (le_min (by norm_num) h1)]
  have c0 := hcell 0 (by decide) 0 (by decide) 0 (by decide)
  have c1 := hcell 0 (by decide) 0 (by decide) 1 (by decide)
  have c2 := hcell 0 (by decide) 0 (by decide) 2 (by decide)
  rw [v0, m0] at c0
  rw [v1] at c1
  rw [m2] at c2
  refine ⟨f, s, e, hr, ?_, ?_, ?_, s2, ?_⟩
  · rw [c0.1 (by decide) one_pos, Real.sqrt_one]
  · exact c0.2.1 (by decide)
  · exact c1.1 (by decide) (by norm_num)
  · rw [c2.2.2.1 (by decide) (1 / 2) (by norm_num) s2, div_one, Real.sqrt_sq (by norm_num)]

end Dev
end CL
