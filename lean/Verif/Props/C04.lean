import Verif.Lemmas.Pattern
import Verif.Spec.Examples
import Mathlib.Algebra.BigOperators.GroupWithZero.Finset

set_option linter.unusedSectionVars false

/-! # C04: age-to-ultimate factors are products of age-to-age factors -/

namespace CL
namespace Tri
variable {K : Type} [Field K] [LinearOrder K] [IsStrictOrderedRing K]

/-- The age-to-age factor a cell stands for: a missing (or zero) factor counts as one. -/
def factorOf (x : Num K) : K := if x.amt = 0 then 1 else x.amt

/-- Every cell lies at or before the valuation date, as for every fitted pattern (whose valuation
date is the sentinel `options.ULT_VAL`). -/
def AllObserved (t : Tri K) : Prop :=
  ∀ o < t.values.d2, ∀ d < t.values.d3, t.valuation o d ≤ t.vd

private theorem nanTri_observed {t : Tri K} (h : AllObserved t) {o d : Nat} (ho : o < t.values.d2)
    (hd : d < t.values.d3) : t.nanTri o d = 1 := by
  rcases nanTri_eq t o d with e | ⟨-, e⟩
  · exact e
  · exact absurd (h o ho d hd) (not_le.2 e)

/-- **C04, cumulative pattern.**  `cdf_` (that is `ldf_.incr_to_cum()`, `core/common.py:78-83`) at
age position `d` is the product of the factors from `d` to the last. -/
theorem C04_cdf {t : Tri K} (hf : Finite t) (hc : t.isCum = some false) (hp : t.isPattern = true)
    (ha : t.isAdditive = none) (hv : AllObserved t) :
    SameLabels (incrToCum t) t ∧ Arr.SameShape (incrToCum t).values t.values ∧
    ∀ i < t.values.d0, ∀ c < t.values.d1, ∀ o < t.values.d2, ∀ d < t.values.d3,
      (incrToCum t).values.get i c o d =
        .fin (∏ j ∈ Finset.Ico d t.values.d3, factorOf (t.values.get i c o j)) := by
  obtain ⟨er, hr⟩ := incrToCum_pattern hf (by simp [hc]) hp ha
  rw [er]
  refine ⟨⟨rfl, rfl, rfl, rfl, rfl, rfl, rfl, rfl, rfl, rfl⟩, ⟨rfl, rfl, rfl, rfl⟩, ?_⟩
  intro i hi c hcc o ho d hd
  show t.cumProdVals.get i c o d = _
  rw [hr i hi c hcc o ho d hd, nanTri_observed hv ho hd, Num.one_def, Num.fin_mul_fin, mul_one]
  rfl

/-- Age-to-ultimate is the age-to-age factor times the next age-to-ultimate factor. -/
theorem C04_recursion {t : Tri K} (hf : Finite t) (hc : t.isCum = some false)
    (hp : t.isPattern = true) (ha : t.isAdditive = none) (hv : AllObserved t)
    {i c o d : Nat} (hi : i < t.values.d0) (hcc : c < t.values.d1) (ho : o < t.values.d2)
    (hd : d + 1 < t.values.d3) :
    (incrToCum t).values.get i c o d =
      .fin (factorOf (t.values.get i c o d)) * (incrToCum t).values.get i c o (d + 1) := by
  obtain ⟨-, -, h⟩ := C04_cdf hf hc hp ha hv
  rw [h i hi c hcc o ho d (by omega), h i hi c hcc o ho (d + 1) hd, Num.fin_mul_fin,
    Finset.prod_eq_prod_Ico_succ_bot (show d < t.values.d3 by omega)]

/-- **C04, round trip.**  `cum_to_incr` of the cumulative pattern gives the factors back. -/
theorem C04_round_trip {t : Tri K} (wf : WF t) (ho : Ordered t) (hu : Dated t) (hn : t.ddims.Nodup)
    (hf : Finite t) (hc : t.isCum = some false) (hp : t.isPattern = true)
    (ha : t.isAdditive = none) (hv : AllObserved t) (h3 : 2 ≤ t.values.d3) :
    ∃ u, cumToIncr (incrToCum t) = .ok u ∧ SameLabels u t ∧ Arr.SameShape u.values t.values ∧
      u.isCum = some false ∧
      ∀ i < t.values.d0, ∀ c < t.values.d1, ∀ o < t.values.d2, ∀ d < t.values.d3,
        u.values.get i c o d = .fin (factorOf (t.values.get i c o d)) := by
  obtain ⟨-, -, h⟩ := C04_cdf hf hc hp ha hv
  obtain ⟨er, -⟩ := incrToCum_pattern hf (by simp [hc]) hp ha
  rw [er] at h ⊢
  set w : Tri K := { t with isCum := some true, values := t.cumProdVals } with hw
  obtain ⟨u, e, eu, hs, hcell⟩ := cumToIncr_pattern_cells (t := w) wf ho hu (by simp [hw]) hp h3 hn
  refine ⟨u, e, ?_, hs, by rw [eu], ?_⟩
  · rw [eu]; exact ⟨rfl, rfl, rfl, rfl, rfl, rfl, rfl, rfl, rfl, rfl⟩
  intro i hi c hcc o ho' d hd
  rw [hcell i c o d ⟨hi, hcc, ho', hd⟩]
  have hm : w.nanTri o d = 1 := nanTri_observed (t := t) hv ho' hd
  have hne : ∀ j, factorOf (t.values.get i c o j) ≠ 0 := by
    intro j; unfold factorOf; split_ifs with h0
    · exact one_ne_zero
    · exact h0
  have hfac : ∀ e, e < t.values.d3 → factor (w.values.get i c o e) =
      .fin (∏ j ∈ Finset.Ico e t.values.d3, factorOf (t.values.get i c o j)) := by
    intro e he
    rw [h i hi c hcc o ho' e he, factor_eq (by simp), Num.amt_fin,
      if_neg (Finset.prod_ne_zero_iff.2 fun j _ => hne j)]
  rw [hm, hfac d hd, Num.one_def]
  have hd3 : w.values.d3 = t.values.d3 := rfl
  split_ifs with h1
  · rw [hfac (d + 1) h1, Num.fin_div_fin_of_ne _ (Finset.prod_ne_zero_iff.2 fun j _ => hne j),
      Finset.prod_eq_prod_Ico_succ_bot hd, Num.fin_mul_fin, mul_one,
      mul_div_assoc, div_self (Finset.prod_ne_zero_iff.2 fun j _ => hne j), mul_one]
  · have : t.values.d3 = d + 1 := by omega
    rw [this, Nat.Ico_succ_singleton, Finset.prod_singleton]
    simp

example : (incrToCum (Ex.pat3 (some false) Ex.fac3)).values.get 0 0 0 0 = .fin (33 / 20) := by
  have h := (C04_cdf (t := Ex.pat3 (some false) Ex.fac3) (by decide) rfl rfl rfl
    (by unfold AllObserved; decide)).2.2 0 (by decide) 0 (by decide) 0 (by decide) 0 (by decide)
  rw [h]; decide +kernel

example : ∃ u, cumToIncr (incrToCum (Ex.pat3 (some false) Ex.fac3)) = .ok u ∧
    u.values.get 0 0 0 0 = .fin (3 / 2) := by
  obtain ⟨u, e, -, -, -, h⟩ := C04_round_trip (t := Ex.pat3 (some false) Ex.fac3) (by decide)
    (by decide) (by decide) (by decide) (by decide) rfl rfl rfl (by unfold AllObserved; decide)
    (by decide)
  refine ⟨u, e, ?_⟩
  rw [h 0 (by decide) 0 (by decide) 0 (by decide) 0 (by decide)]
  decide +kernel

end Tri
end CL
