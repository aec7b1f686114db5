import Verif.Lemmas.Convert
import Verif.Lemmas.ByLabel

set_option linter.unusedSectionVars false

/-! # Increments of a triangle on a regular grid -/

namespace CL
namespace Tri
variable {K : Type} [Field K] [LinearOrder K] [IsStrictOrderedRing K]

/-- Something is recorded in the cell: the amount changes, or it is given at the first age or in an
incremental triangle. -/
def Moves (x : Tri K) (i c o d : Nat) : Prop :=
  x.valuation o d ≤ x.vd ∧
    if x.isCum = some true ∧ d ≠ 0 then
      (x.values.get i c o d).amt ≠ (x.values.get i c o (d - 1)).amt
    else x.values.get i c o d ≠ .nan

/-- What is recorded in a cell of `x`: its amount, less that of the previous age if `x` is cumulative. -/
def increment (x : Tri K) (i c o d : Nat) : K :=
  if x.isCum = some true ∧ d ≠ 0 then (x.values.get i c o d).amt - (x.values.get i c o (d - 1)).amt
  else (x.values.get i c o d).amt

/-- The amounts of a row add up. -/
theorem sum_increment (x : Tri K) (hc : x.isCum = some true) (i c o d : Nat) :
    ∑ j ∈ Finset.range (d + 1), increment x i c o j = (x.values.get i c o d).amt := by
  induction d with
  | zero => simp [increment]
  | succ d ih =>
    rw [Finset.sum_range_succ, ih]
    unfold increment
    rw [if_pos ⟨hc, by omega⟩]
    simp

/-- The same labels, shape and cells in range. -/
theorem grid_congr {t u : Tri K} {a : Int} {n D q : Nat} (h : Grid t a n D q) (hl : SameLabels u t)
    (hs : Arr.SameShape u.values t.values)
    (hc : ∀ i < t.kdims.length, ∀ c < t.vdims.length, ∀ o < n, ∀ d < D,
      u.values.get i c o d = .nan ∧ D < q * o + d + 1 ∨
        (u.values.get i c o d).NoInf ∧ ¬ D < q * o + d + 1) : Grid u a n D q := by
  obtain ⟨l1, l2, l3, l4, l5, l6, l7, l8, l9, l10⟩ := hl
  obtain ⟨s0, s1, s2, s3⟩ := hs
  obtain ⟨w0, w1, w2, w3⟩ := h.wf
  refine ⟨⟨by rw [s0, w0, l1], by rw [s1, w1, l3], by rw [s2, w2, l4], by rw [s3, w3, l5]⟩, ?_,
    by rw [l6]; exact h.isVal, by rw [l1]; exact h.index_pos, by rw [l3]; exact h.columns_pos,
    h.two_origins, h.period, h.recent, by rw [l4, l8]; exact h.odims, by rw [l5, l8]; exact h.ddims,
    by rw [l9, l8]; exact h.vd, by rw [l8]; exact h.short, by rw [l9]; exact h.early, ?_⟩
  · intro i hi c hcc o ho d hd
    rw [s0, w0] at hi
    rw [s1, w1] at hcc
    rw [s2, w2, h.lenO] at ho
    rw [s3, w3, h.lenD] at hd
    rcases hc i hi c hcc o ho d hd with ⟨e, -⟩ | ⟨e, -⟩
    · rw [e]; trivial
    · exact e
  · intro i hi c hcc o ho d hd hgt
    rw [l1] at hi
    rw [l3] at hcc
    rcases hc i hi c hcc o ho d hd with ⟨e, -⟩ | ⟨-, e⟩
    · exact e
    · exact absurd hgt e

namespace Grid
variable {x : Tri K} {a : Int} {n D q : Nat}

theorem le_iff (h : Grid x a n D q) {o d : Nat} (ho : o < n) (hd : d < D) :
    x.valuation o d ≤ x.vd ↔ ¬ D < q * o + d + 1 := by
  rw [← not_lt, ← h.valuation_gt ho hd]

/-- The increments of a triangle. -/
theorem increments (h : Grid x a n D q) (noPattern : x.isPattern = false)
    (flag : x.isCum = some false ∨ x.isCum = some true ∧ 3 ≤ D) : ∃ u, x.cumToIncr = .ok u ∧ SameLabels u x ∧
    u.isCum = some false ∧ u.isPattern = false ∧ Grid u a n D q ∧
    (∀ i < x.kdims.length, ∀ c < x.vdims.length, ∀ o < n, ∀ d < D,
      (u.values.get i c o d ≠ .nan ↔ Moves x i c o d)) ∧
    ∀ i < x.kdims.length, ∀ c < x.vdims.length, ∀ o < n, ∀ d < D, x.valuation o d ≤ x.vd →
      (u.values.get i c o d).amt = if x.isCum = some true ∧ d ≠ 0 then
        (x.values.get i c o d).amt - (x.values.get i c o (d - 1)).amt
        else (x.values.get i c o d).amt := by
  rcases flag with hf | ⟨hf, hD⟩
  · refine ⟨x, by simp [cumToIncr, hf], ⟨rfl, rfl, rfl, rfl, rfl, rfl, rfl, rfl, rfl, rfl⟩, hf,
      noPattern, h, ?_, ?_⟩
    · intro i hi c hc o ho d hd
      unfold Moves
      rw [if_neg (by simp [hf])]
      refine ⟨fun hx => ⟨?_, hx⟩, fun hx => hx.2⟩
      rw [le_iff h ho hd]
      exact fun hgt => hx (h.known i hi c hc o ho d hd hgt)
    · intro i hi c hc o ho d hd hv
      rw [if_neg (by simp [hf])]
  · obtain ⟨u, e, eu, hshape, hcell⟩ := cumToIncr_cells h.wf h.ordered h.dated (by simp [hf])
      noPattern (by rw [h.wf.2.2.2, h.lenD]; omega) h.nodup
    have hin : ∀ {i c o d}, i < x.kdims.length → c < x.vdims.length → o < n → d < D →
        x.values.In i c o d := by
      intro i c o d hi hc ho hd
      refine ⟨?_, ?_, ?_, ?_⟩
      · rw [h.wf.1]; exact hi
      · rw [h.wf.2.1]; exact hc
      · rw [h.wf.2.2.1, h.lenO]; exact ho
      · rw [h.wf.2.2.2, h.lenD]; exact hd
    have hfin : ∀ {i c o d}, i < x.kdims.length → c < x.vdims.length → o < n → d < D →
        (x.values.get i c o d).NoInf := by
      intro i c o d hi hc ho hd
      obtain ⟨b0, b1, b2, b3⟩ := hin hi hc ho hd
      exact h.finite i b0 c b1 o b2 d b3
    have hmask : ∀ {o d}, o < n → d < D → x.diffMask o d = if D < q * o + d + 1 then .nan else 1 := by
      intro o d ho hd
      unfold diffMask
      rw [if_neg (by rw [h.wf.2.2.1, h.wf.2.2.2, h.lenO, h.lenD]; have := h.two_origins; omega)]
      simp only [gt_iff_lt, h.valuation_gt ho hd]
    have hc2 : ∀ i < x.kdims.length, ∀ c < x.vdims.length, ∀ o < n, ∀ d < D,
        u.values.get i c o d = if d = 0 then x.values.get i c o 0 else if D < q * o + d + 1 then .nan
          else (Num.fin ((x.values.get i c o d).amt - (x.values.get i c o (d - 1)).amt)).numToNan := by
      intro i hi c hc o ho d hd
      rw [hcell i c o d (hin hi hc ho hd)]
      by_cases h0 : d = 0
      · rw [if_pos h0, if_pos h0]
      · rw [if_neg h0, if_neg h0, hmask ho hd, Num.nanToNum_eq (hfin hi hc ho hd),
          Num.nanToNum_eq (hfin hi hc ho (by omega : d - 1 < D)), Num.fin_sub_fin]
        by_cases hgt : D < q * o + d + 1
        · rw [if_pos hgt, if_pos hgt]
          simp [Num.nanToNum]
        · rw [if_neg hgt, if_neg hgt]
          simp [Num.nanToNum]
    have hlab : SameLabels u x := by rw [eu]; exact ⟨rfl, rfl, rfl, rfl, rfl, rfl, rfl, rfl, rfl, rfl⟩
    refine ⟨u, e, hlab, by rw [eu], by rw [eu]; exact noPattern, ?_, ?_, ?_⟩
    · refine grid_congr h hlab hshape fun i hi c hc o ho d hd => ?_
      rw [hc2 i hi c hc o ho d hd]
      by_cases hgt : D < q * o + d + 1
      · left
        refine ⟨?_, hgt⟩
        by_cases h0 : d = 0
        · rw [if_pos h0]
          subst h0
          exact h.known i hi c hc o ho 0 hd hgt
        · rw [if_neg h0, if_pos hgt]
      · right
        refine ⟨?_, hgt⟩
        by_cases h0 : d = 0
        · rw [if_pos h0]
          exact hfin hi hc ho (by omega)
        · rw [if_neg h0, if_neg hgt]
          exact Num.noInf_numToNan trivial
    · intro i hi c hc o ho d hd
      rw [hc2 i hi c hc o ho d hd]
      unfold Moves
      rw [le_iff h ho hd]
      by_cases h0 : d = 0
      · subst h0
        rw [if_pos rfl, if_neg (by simp)]
        refine ⟨fun hx => ⟨fun hgt => hx (h.known i hi c hc o ho 0 hd hgt), hx⟩, fun hx => hx.2⟩
      · rw [if_neg h0, if_pos (c := x.isCum = some true ∧ d ≠ 0) ⟨hf, h0⟩]
        by_cases hgt : D < q * o + d + 1
        · rw [if_pos hgt]
          simp [hgt]
        · rw [if_neg hgt, Num.numToNan_fin]
          simp only [hgt, not_false_eq_true, true_and, sub_eq_zero]
          by_cases he : (x.values.get i c o d).amt = (x.values.get i c o (d - 1)).amt
          · simp [he]
          · rw [if_neg he]
            simp [he]
    · intro i hi c hc o ho d hd hv
      rw [hc2 i hi c hc o ho d hd]
      by_cases h0 : d = 0
      · subst h0
        simp
      · rw [if_neg h0, if_pos (c := x.isCum = some true ∧ d ≠ 0) ⟨hf, h0⟩, if_neg ((le_iff h ho hd).mp hv)]
        simp

end Grid
end Tri
end CL
