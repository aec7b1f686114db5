import Verif.Lemmas.Rank
import Verif.Lemmas.Weights
import Mathlib.Tactic.IntervalCases

set_option linter.unusedSectionVars false

/-! # C52: `drop_above` and `drop_below` -/

namespace CL
namespace Dev
variable {K : Type} [Field K] [LinearOrder K] [IsStrictOrderedRing K]
open Tri

/-- The link ratios strictly between the bounds; `none` is no bound. -/
def inside (t : Tri K) (above below : Option K) (i c d : Nat) : Finset Nat :=
  (included t (fun _ _ _ _ => 1) i c d).filter fun o =>
    (∀ b, above = some b → amount t i c o (d + 1) / amount t i c o d < b) ∧
    ∀ b, below = some b → b < amount t i c o (d + 1) / amount t i c o d

/-- The bound `drop_above` of an age; `None` stands for `np.inf`. -/
def upper : Option K → Num K
  | none => .pinf
  | some b => .fin b

/-- The bound `drop_below` of an age; `None` stands for `-np.inf`. -/
def lower : Option K → Num K
  | none => .ninf
  | some b => .fin b

/-- **C52**: the factor of each age is the average over the link ratios strictly between the bounds
of the age, or over all of them if fewer than `preserve` lie there. -/
theorem C52_fit {t u : Tri K} (fin : Tri.Finite t) (known : Known t) {p : Params K}
    (hn : ∀ d, p.nPeriods d < 1) (h1 : p.drop = none) (h2 : p.dropVal = none)
    (h3 : p.dropHigh = none) (h4 : p.dropLow = none) {above below : Nat → Option K}
    (ha : p.dropAbove = some fun d => upper (above d))
    (hb : p.dropBelow = some fun d => lower (below d)) (hu : fit t p = .ok u)
    {i c d : Nat} (hi : i < t.values.d0) (hc : c < t.values.d1) (hd : d + 1 < t.values.d3) :
    u.values.get i c 0 d = (Num.fin (average t i c d
      (if ((inside t (above d) (below d) i c d).card : Int) < p.preserve
        then included t (fun _ _ _ _ => 1) i c d
        else inside t (above d) (below d) i c d) (p.average d))).numToNan := by
  obtain ⟨w, hw, hwv⟩ := weights_masks (t := t) hn h3 h4 (a := ⟨1, 1, 1, 1, fun _ _ _ _ => 1⟩)
    (b := ⟨1, 1, 1, 1, fun _ _ _ _ => 1⟩) (by rw [h1]; rfl) (by rw [h2]; rfl)
  rw [fit_average fin hw hu hi hc hd]
  congr 3
  -- the link ratios
  have hr : ∀ o < t.values.d2, ratio t i c o d =
      if o ∈ included t (fun _ _ _ _ => 1) i c d then
        .fin (amount t i c o (d + 1) / amount t i c o d) else .nan := by
    intro o ho
    have cell : ∀ e < t.values.d3, (t.values.get i c o e).numToNan =
        if amount t i c o e = 0 then .nan else .fin (amount t i c o e) := by
      intro e he
      unfold amount
      rcases Num.noInf_cases (fin i hi c hc o ho e he) with h | ⟨b, h⟩
      · rw [h]; simp
      · rw [h, Num.numToNan_fin, Num.amt_fin]
    have hmem : o ∈ included t (fun _ _ _ _ => 1) i c d ↔
        amount t i c o d ≠ 0 ∧ amount t i c o (d + 1) ≠ 0 := by
      unfold included; simp [ho]
    unfold ratio
    rw [cell (d + 1) hd, cell d (by omega)]
    by_cases e1 : amount t i c o d = 0
    · have : o ∉ included t (fun _ _ _ _ => 1) i c d := by rw [hmem]; tauto
      rw [if_neg this, if_pos e1]; simp
    by_cases e2 : amount t i c o (d + 1) = 0
    · have : o ∉ included t (fun _ _ _ _ => 1) i c d := by rw [hmem]; tauto
      rw [if_neg this, if_pos e2]; simp
    rw [if_neg e1, if_neg e2, Num.fin_div_fin_of_ne _ e1, if_pos (hmem.2 ⟨e1, e2⟩)]
  have hin : ∀ o < t.values.d2, ((ratio t i c o d).ltb (upper (above d)) &&
      (lower (below d)).ltb (ratio t i c o d)) = true ↔ o ∈ inside t (above d) (below d) i c d := by
    intro o ho
    rw [hr o ho]
    unfold inside
    rw [Finset.mem_filter]
    by_cases hm : o ∈ included t (fun _ _ _ _ => 1) i c d
    · rw [if_pos hm]
      cases above d <;> cases below d <;> simp [upper, lower, Num.ltb, hm]
    · rw [if_neg hm]
      simp [Num.ltb, hm]
  have hcount : ((List.range t.values.d2).filter fun o => (ratio t i c o d).ltb (upper (above d)) &&
      (lower (below d)).ltb (ratio t i c o d)).length = (inside t (above d) (below d) i c d).card := by
    rw [filter_length]
    congr 1
    ext o
    simp only [Finset.mem_filter, Finset.mem_range]
    constructor
    · rintro ⟨h, h'⟩; exact (hin o h).1 h'
    · intro h
      have ho : o < t.values.d2 := by
        have := (Finset.mem_filter.1 (Finset.mem_filter.1 h).1).1; simpa using this
      exact ⟨ho, (hin o ho).2 h⟩
  have hkeep : ∀ o < t.values.d2, o ∈ included t (fun _ _ _ _ => 1) i c d →
      (w.get i c o d = Num.ofBool (if ((inside t (above d) (below d) i c d).card : Int) < p.preserve
        then true else decide (o ∈ inside t (above d) (below d) i c d))) := by
    intro o ho hm
    obtain ⟨a1, a2, -⟩ := observed_of_amount fin known hi hc ho (by omega : d < t.values.d3)
      (Finset.mem_filter.1 hm).2.1
    rw [hwv i hi c hc o ho d hd, a1, a2, ha, hb]
    simp only [Option.isSome_some, Bool.or_self, if_true, Option.getD_some, dropX, hcount, bget]
    have hnan : (ratio t i c o d).isNan = false := by rw [hr o ho, if_pos hm]; rfl
    have hdec : ((ratio t i c o d).ltb (upper (above d)) &&
        (lower (below d)).ltb (ratio t i c o d)) = decide (o ∈ inside t (above d) (below d) i c d) := by
      rw [Bool.eq_iff_iff, hin o ho]; simp
    rw [hdec, hnan]
    simp [Num.one_def, Num.ofBool]
  unfold included
  split_ifs with hp
  · apply Finset.filter_congr
    intro o ho
    have ho : o < t.values.d2 := by simpa using ho
    simp only [ne_eq, one_ne_zero, not_false_eq_true, and_true]
    constructor
    · rintro ⟨a1, a2, -⟩; exact ⟨a1, a2⟩
    · rintro ⟨a1, a2⟩
      refine ⟨a1, a2, ?_⟩
      rw [hkeep o ho (by unfold included; simp [ho, a1, a2]), if_pos hp]
      simp [Num.ofBool]
  · ext o
    constructor
    · intro h
      obtain ⟨ho, a1, a2, a3⟩ := Finset.mem_filter.1 h
      have ho : o < t.values.d2 := by simpa using ho
      beta_reduce at a3
      rw [hkeep o ho (by unfold included; simp [ho, a1, a2]), if_neg hp] at a3
      by_contra hc
      simp [hc, Num.ofBool] at a3
    · intro h
      have hm := (Finset.mem_filter.1 h).1
      have h' := Finset.mem_filter.1 hm
      have ho : o < t.values.d2 := by simpa using h'.1
      refine Finset.mem_filter.2 ⟨by simpa using ho, h'.2.1, h'.2.2.1, ?_⟩
      beta_reduce
      rw [hkeep o ho hm, if_neg hp]
      simp [h, Num.ofBool]

/-- `drop_above = 1.51` for every age. -/
def aboveParams : Params ℚ where
  dropAbove := some fun _ => upper (some (151 / 100))
  dropBelow := some fun _ => lower (some 1)

example : ∃ u, fit (Ex.tri3 (some true) Ex.cum3) aboveParams = .ok u ∧
    u.values.get 0 0 0 0 = .fin (3 / 2) ∧ inside (Ex.tri3 (some true) Ex.cum3) (some (151 / 100))
      (some 1) 0 0 0 ⊆ {0} :=
  ⟨_, rfl, by decide +kernel, by
    intro o ho
    have h := Finset.mem_filter.1 ho
    have h1 := (Finset.mem_filter.1 h.1).1
    have ho : o < 3 := Finset.mem_range.1 h1
    have h2 := h.2.1 _ rfl
    revert h2
    interval_cases o
    · simp
    · intro h; exact absurd h (by decide +kernel)
    · intro _
      have h3 := (Finset.mem_filter.1 h.1).2.2.1
      exact absurd rfl h3⟩

end Dev
end CL
