import Verif.Props.C31

set_option linter.unusedSectionVars false

/-! # C51: `drop_valuation` -/

namespace CL
namespace Dev
variable {K : Type} [Field K] [LinearOrder K] [IsStrictOrderedRing K]
open Tri

/-- The link ratios of an age that do not start in a cell valued at one of the dates. -/
def otherDates (t : Tri K) (vs : List Int) (i c d : Nat) : Finset Nat :=
  (included t (fun _ _ _ _ => 1) i c d).filter fun o => t.valuation o d ∉ vs

/-- The cells valued at the listed dates lie in the first `r` origins and the first `s` ages, and
each of these origins and ages has such a cell. -/
structure Leading (t : Tri K) (vs : List Int) (r s : Nat) : Prop where
  rle : 0 < r ∧ r ≤ t.values.d2
  sle : 0 < s ∧ s ≤ t.values.d3
  inside : ∀ o < t.values.d2, ∀ d < t.values.d3, t.valuation o d ∈ vs → o < r ∧ d < s
  row : ∀ o < r, ∃ d < t.values.d3, t.valuation o d ∈ vs
  col : ∀ d < s, ∃ o < t.values.d2, t.valuation o d ∈ vs

theorem leading_rows {t : Tri K} {vs : List Int} {r s : Nat} (h : Leading t vs r s) :
    keyRows t.values.d2 t.values.d3 (fun o d => vs.contains (t.valuation o d)) = List.range r := by
  apply List.Pairwise.eq_of_mem_iff (keyRows_pairwise _ _ _) List.pairwise_lt_range
  intro o
  rw [mem_keyRows, List.mem_range]
  have := h.rle
  constructor
  · rintro ⟨ho, d, hd, hk⟩; exact (h.inside o ho d hd (by simpa using hk)).1
  · intro ho
    obtain ⟨d, hd, hk⟩ := h.row o ho
    exact ⟨by omega, d, hd, by simpa using hk⟩

theorem leading_cols {t : Tri K} {vs : List Int} {r s : Nat} (h : Leading t vs r s) :
    keyCols t.values.d2 t.values.d3 (fun o d => vs.contains (t.valuation o d)) = List.range s := by
  apply List.Pairwise.eq_of_mem_iff (keyCols_pairwise _ _ _) List.pairwise_lt_range
  intro d
  rw [mem_keyCols, List.mem_range]
  have := h.sle
  constructor
  · rintro ⟨hd, o, ho, hk⟩; exact (h.inside o ho d hd (by simpa using hk)).2
  · intro hd
    obtain ⟨o, ho, hk⟩ := h.col d hd
    exact ⟨by omega, o, ho, by simpa using hk⟩

/-- The mask of `_drop_valuation`. -/
theorem dropValuation_eq {t : Tri K} (wf : WF t) (h0 : 0 < t.values.d0) (h1 : 0 < t.values.d1)
    (hd : 1 < t.values.d3) {vs : List Int} {r s : Nat} (h : Leading t vs r s) :
    ∃ a, dropValuation t vs = .ok a ∧ a.d0 = 1 ∧ a.d1 = 1 ∧ a.d2 = t.values.d2 ∧ a.d3 = t.values.d3 ∧
      ∀ o < t.values.d2, ∀ d < t.values.d3, a.get 0 0 o d =
        if t.valuation o d ∈ vs then 1 - ((t.values.get 0 0 o d).numToNan * 0 + 1).nanToNum
        else 1 := by
  have er := leading_rows h
  have ec := leading_cols h
  have ne : ∀ {n : Nat}, 0 < n → List.range n ≠ [] := by
    intro n hn h; rw [List.range_eq_nil] at h; omega
  have hr := h.rle
  have hs := h.sle
  unfold dropValuation getVal
  rw [if_pos hd, filterMask_eq _ (by rw [er]; exact ne hr.1) (by rw [ec]; exact ne hs.1)
    (by rw [er, ec]; exact ⟨even_range _, even_range _⟩), er, ec, pick_eq _ _ _ _ _ (Or.inr (ne hs.1))]
  simp only [bind, Except.bind]
  refine ⟨_, rfl, rfl, rfl, ?_, ?_, ?_⟩
  · simp [picked, Arr.take]; omega
  · simp [picked, Arr.take]; omega
  intro o ho d hd'
  simp only [picked, Arr.take, List.length_range]
  by_cases hin : o < r ∧ d < s
  · rw [if_pos hin, getD_range _ _ h0, getD_range _ _ h1, getD_range _ _ hin.1,
      getD_range _ _ hin.2, mul_ofBool]
    by_cases hv : t.valuation o d ∈ vs
    · simp [hv]
    · simp [hv, Num.one_def, Num.zero_def, Num.nanToNum]
  · rw [if_neg hin, if_neg]
    intro hv
    exact hin (h.inside o ho d hd' hv)

/-- **C51**, when the cells at the listed dates lie in the first origins and ages (`Leading`) and
an amount at a listed date is nonzero in the first triangle whenever it is in any other. -/
theorem C51_fit_partial {t u : Tri K} (hreg : Regular t) {p : Params K}
    (hn : ∀ d, p.nPeriods d < 1) {vs : List Int} {r s : Nat} (h : Leading t vs r s)
    (h1 : p.drop = none) (h2 : p.dropVal = some vs) (h3 : p.dropHigh = none) (h4 : p.dropLow = none)
    (h5 : p.dropAbove = none) (h6 : p.dropBelow = none) (hu : fit t p = .ok u)
    {i c d : Nat} (hi : i < t.values.d0) (hc : c < t.values.d1) (hd : d + 1 < t.values.d3)
    (hfirst : ∀ o < t.values.d2, t.valuation o d ∈ vs → amount t i c o d ≠ 0 →
      amount t 0 0 o d ≠ 0) (h2' : 1 < t.values.d2) :
    u.values.get i c 0 d =
      (Num.fin (average t i c d (otherDates t vs i c d) (p.average d))).numToNan := by
  obtain ⟨b, hb, b0, b1, b2, b3, hbv⟩ := dropValuation_eq hreg.wf (by omega) (by omega)
    (by omega : 1 < t.values.d3) h
  obtain ⟨w, hw, hwv⟩ := weights_masks (t := t) hn h3 h4 (a := ⟨1, 1, 1, 1, fun _ _ _ _ => 1⟩)
    (by rw [h1]; rfl) (by rw [h2]; exact hb)
  rw [fit_average hreg.finite hw hu hi hc hd]
  congr 3
  unfold otherDates included
  rw [Finset.filter_filter]
  apply Finset.filter_congr
  intro o ho'
  have ho' : o < t.values.d2 := by simpa using ho'
  beta_reduce
  by_cases hne : amount t i c o d = 0
  · simp [hne]
  obtain ⟨a1, a2, -⟩ := observed_of_amount hreg.finite hreg.known hi hc ho'
    (by omega : d < t.values.d3) hne
  rw [hwv i hi c hc o ho' d hd, h5, h6, a1, a2]
  have e2 : ¬ t.values.d2 = 1 := by omega
  have e3 : ¬ t.values.d3 = 1 := by omega
  simp only [Option.isSome_none, Bool.or_self, Bool.false_eq_true, if_false, bget, b0, b1, b2, b3,
    e2, e3, if_true]
  rw [hbv o ho' d (by omega)]
  by_cases hin : t.valuation o d ∈ vs
  · have hne0 := hfirst o ho' hin hne
    obtain ⟨-, -, a3⟩ := observed_of_amount hreg.finite hreg.known (i := 0) (c := 0) (by omega)
      (by omega) ho' (by omega : d < t.values.d3) hne0
    simp only [hin, if_true, not_true, and_false, iff_false]
    rw [a3, Num.numToNan_fin, if_neg hne0]
    simp [Num.one_def, Num.zero_def, Num.nanToNum]
  · simp only [hin, if_false, not_false_eq_true, and_true]
    simp [Num.one_def]

/-- `drop_valuation = '2003'` on a triangle with origins 2000 to 2004. -/
def valParams : Params ℚ where
  dropVal := some [24047]

/-- **C51** is false for triangles with fewer ages than origins: the link ratio of 2003 starts at
the listed date and that of 2002 does not, but 2002 is excluded and 2003 is averaged. -/
theorem C51_shape_false : ∃ (t u : Tri ℚ) (p : Params ℚ), Regular t ∧ p = valParams ∧
    fit t p = .ok u ∧ t.valuation 3 0 = 24047 ∧ t.valuation 2 0 ≠ 24047 ∧
    u.values.get 0 0 0 0 ≠
      (Num.fin (average t 0 0 0 (otherDates t [24047] 0 0 0) .volume)).numToNan ∧
    u.values.get 0 0 0 0 = (Num.fin (average t 0 0 0 {0, 1, 3} .volume)).numToNan := by
  obtain ⟨u, hu, h1, h2⟩ : ∃ u, fit tri53 valParams = .ok u ∧ u.values.get 0 0 0 0 ≠
      (Num.fin (average tri53 0 0 0 (otherDates tri53 [24047] 0 0 0) .volume)).numToNan ∧
    u.values.get 0 0 0 0 = (Num.fin (average tri53 0 0 0 {0, 1, 3} .volume)).numToNan :=
    ok_of _ (by decide +kernel)
  exact ⟨tri53, u, _, regular_tri53, rfl, hu, by decide +kernel, by decide +kernel, h1, h2⟩

/-- Two columns; the first has no amount in its 2001 origin at age 12. -/
def triTwo : Tri ℚ :=
  { kdims := [["Total"]], keyLabels := ["Total"], vdims := ["a", "b"]
    odims := [24000, 24012, 24024]
    ddims := [12, 24, 36]
    isVal := false, isCum := some true, isPattern := false, ograin := .Y, dgrain := .Y, vd := 24035, isAdditive := none
    values :=
      { d0 := 1, d1 := 2, d2 := 3, d3 := 3
        get := fun _ c o d =>
          (([[.fin 10, .fin 20, .fin 22],
            [if c = 0 then .fin 0 else .fin 10, .fin 30, .nan],
            [.fin 10, .nan, .nan]] : List (List (Num ℚ))).getD o []).getD d .nan } }

theorem regular_triTwo : Regular triTwo where
  wf := by decide
  ordered := by unfold Ordered; decide
  finite := by unfold Tri.Finite; decide
  known := by
    intro i hi c hc o ho d hd hv
    have ho : o < 3 := ho
    have hd : d < 3 := hd
    revert hv
    interval_cases o <;> interval_cases d <;> first | (intro; rfl) | (intro h; exact absurd h (by decide))

/-- `drop_valuation = '2001'`. -/
def valParams2 : Params ℚ where
  dropVal := some [24023]

/-- **C51** is false for a second column whose amounts are nonzero where those of the first are
zero: the link ratio at the listed date is still averaged. -/
theorem C51_first_false : ∃ (t u : Tri ℚ) (p : Params ℚ), Regular t ∧ p = valParams2 ∧
    fit t p = .ok u ∧ Leading t [24023] 2 2 ∧ t.valuation 1 0 = 24023 ∧
    u.values.get 0 1 0 0 ≠
      (Num.fin (average t 0 1 0 (otherDates t [24023] 0 1 0) .volume)).numToNan ∧
    u.values.get 0 1 0 0 = (Num.fin (average t 0 1 0 {0, 1} .volume)).numToNan := by
  obtain ⟨u, hu, h1, h2⟩ : ∃ u, fit triTwo valParams2 = .ok u ∧ u.values.get 0 1 0 0 ≠
      (Num.fin (average triTwo 0 1 0 (otherDates triTwo [24023] 0 1 0) .volume)).numToNan ∧
    u.values.get 0 1 0 0 = (Num.fin (average triTwo 0 1 0 {0, 1} .volume)).numToNan :=
    ok_of _ (by decide +kernel)
  exact ⟨triTwo, u, _, regular_triTwo, rfl, hu, ⟨by decide, by decide, by decide, by decide, by decide⟩,
    by decide +kernel, h1, h2⟩

example : ∃ u, fit triTwo valParams2 = .ok u ∧ u.values.get 0 0 0 0 = .fin 2 :=
  ok_of _ (by decide +kernel)

example : Leading triTwo [24023] 2 2 ∧ otherDates triTwo [24023] 0 1 0 = {0} :=
  ⟨⟨by decide, by decide, by decide, by decide, by decide⟩, by decide +kernel⟩

/-- Four origins with two ages. -/
def tri42 : Tri ℚ :=
  { kdims := [["Total"]], keyLabels := ["Total"], vdims := ["values"]
    odims := [24000, 24012, 24024, 24036]
    ddims := [12, 24]
    isVal := false, isCum := some true, isPattern := false, ograin := .Y, dgrain := .Y, vd := 24047, isAdditive := none
    values :=
      { d0 := 1, d1 := 1, d2 := 4, d3 := 2
        get := fun _ _ o d => if o = 3 ∧ d = 1 then .nan else .fin (10 * (d + 1)) } }

theorem regular_tri42 : Regular tri42 where
  wf := by decide
  ordered := by unfold Ordered; decide
  finite := by unfold Tri.Finite; decide
  known := by
    intro i hi c hc o ho d hd hv
    have ho : o < 4 := ho
    have hd : d < 2 := hd
    revert hv
    interval_cases o <;> interval_cases d <;> first | (intro; rfl) | (intro h; exact absurd h (by decide))

/-- **C51** is false for triangles with two ages: the single column of link ratios is taken for an
origin mask, and `fit` raises. -/
theorem C51_two_ages_false : ∃ (t : Tri ℚ) (vs : List Int), Regular t ∧ t.values.d3 = 2 ∧
    otherDates t vs 0 0 0 = {1, 2} ∧ fit t { dropVal := some vs } = .error .valueError :=
  ⟨tri42, [24011], regular_tri42, rfl, by decide +kernel, error_of (by decide +kernel)⟩

end Dev
end CL
