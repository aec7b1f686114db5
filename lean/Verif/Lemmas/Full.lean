import Verif.Model.Full
import Verif.Lemmas.Methods
import Verif.Props.C54

set_option linter.unusedSectionVars false

/-! # An ultimate divided by the factors of a pattern -/

namespace CL
namespace Tri
variable {K : Type} [Field K] [LinearOrder K] [IsStrictOrderedRing K]

/-- `u` is a column of ultimates for the index and columns of `t`. -/
structure UltFor (t u : Tri K) : Prop where
  wf : WF u
  index : u.kdims = t.kdims ∧ u.keyLabels = t.keyLabels
  columns : u.vdims = t.vdims
  grain : u.ograin = t.ograin
  one : u.ddims.length = 1
  noPattern : u.isPattern = false
  index_pos : 1 ≤ t.kdims.length
  columns_pos : 1 ≤ t.vdims.length
  origins_pos : 1 ≤ u.odims.length

theorem UltimateOf.ultFor {t u : Tri K} {rows : List Nat} {ult : Nat → Nat → Nat → Nat → K}
    (ht : CumTri t) (hr : rows ≠ []) (h : UltimateOf t u rows ult) : UltFor t u :=
  ⟨h.wf, h.index, h.columns, h.grains.1, by rw [h.development.1]; rfl, h.cumulative.2, ht.index_pos,
    ht.columns_pos, by rw [h.origins.1]; exact List.length_pos_iff.2 hr⟩

/-- The age-to-ultimate factors of a pattern. -/
theorem cdf_full {t f : Tri K} (h : PatternFor t f) :
    f.incrToCum = { f with values := f.cumProdVals, isCum := some true } ∧
      ∀ i c d, i < t.kdims.length → c < t.vdims.length → d < f.ddims.length →
        f.cumProdVals.get (C54.only f.kdims.length i) (C54.only f.vdims.length c) 0 d =
          .fin (f.toUlt i c d) ∧ f.toUlt i c d ≠ 0 := by
  obtain ⟨f0, f1, f2, f3⟩ := h.wf
  refine ⟨?_, ?_⟩
  · unfold incrToCum
    rw [if_neg h.incremental]
    simp only [h.pattern, if_true, h.multiplicative]
  · intro i c d hi hc hd
    have hbi : C54.only f.kdims.length i < f.values.d0 := by
      unfold C54.only
      rcases h.index with e | e
      · rw [f0, e]; split_ifs <;> omega
      · rw [f0, if_pos e]; omega
    have hbc : C54.only f.vdims.length c < f.values.d1 := by
      unfold C54.only
      rcases h.columns with e | e
      · rw [f1, e]; split_ifs <;> omega
      · rw [f1, if_pos e]; omega
    have hx : ∀ j < f.values.d3, f.values.get (C54.only f.kdims.length i)
        (C54.only f.vdims.length c) 0 j = .fin (f.ageFactor i c j) ∧ f.ageFactor i c j ≠ 0 := by
      intro j hj
      obtain ⟨x, hx, hx'⟩ := h.factors _ hbi _ hbc j hj
      unfold C54.only at hx'
      unfold ageFactor C54.only
      rw [hx']
      exact ⟨rfl, hx⟩
    have hnz : f.toUlt i c d ≠ 0 := by
      unfold toUlt
      rw [Finset.prod_ne_zero_iff]
      intro j hj
      exact (hx j (by rw [f3]; exact (Finset.mem_Ico.1 hj).2)).2
    refine ⟨?_, hnz⟩
    have hn : f.nanTri 0 d = 1 := by
      unfold nanTri
      rw [if_pos]
      have e2 : f.values.d2 = 1 := by rw [f2, h.origin]
      omega
    show (∏ j ∈ Finset.Ico d f.values.d3, (f.values.get (C54.only f.kdims.length i)
        (C54.only f.vdims.length c) 0 j).nanToNum.numToValue 1) * f.nanTri 0 d = _
    rw [hn]
    have : ∏ j ∈ Finset.Ico d f.values.d3, (f.values.get (C54.only f.kdims.length i)
        (C54.only f.vdims.length c) 0 j).nanToNum.numToValue 1 = .fin (f.toUlt i c d) := by
      unfold toUlt
      rw [← Num.prod_fin, f3]
      apply Finset.prod_congr rfl
      intro j hj
      obtain ⟨h5, h6⟩ := hx j (by rw [f3]; exact (Finset.mem_Ico.1 hj).2)
      rw [h5]
      simp [Num.numToValue, h6]
    rw [this]
    simp [Num.one_def]

/-- The triangle `ultimate_ / cdf_`. -/
theorem ult_div_cdf {t f u : Tri K} (hf : PatternFor t f) (hu : UltFor t u)
    (h2 : 2 ≤ f.ddims.length) :
    ∃ r, u.div f.incrToCum = .ok r ∧ WF r ∧
      r = { u with
        values := r.values
        ddims := f.ddims
        isVal := f.isVal
        dgrain := f.dgrain
        vd := max u.vd f.vd } ∧
      ∀ i < t.kdims.length, ∀ c < t.vdims.length, ∀ o < u.odims.length, ∀ d < f.ddims.length,
        r.values.get i c o d = u.values.get i c o 0 / .fin (f.toUlt i c d) := by
  obtain ⟨f0, f1, f2, f3⟩ := hf.wf
  obtain ⟨u0, u1, u2, u3⟩ := hu.wf
  obtain ⟨ef, hcell⟩ := cdf_full hf
  have hk : f.kdims = u.kdims ∨ f.kdims.length = 1 := by rw [hu.index.1]; exact hf.index
  have hv : f.vdims = u.vdims ∨ f.vdims.length = 1 := by rw [hu.columns]; exact hf.columns
  have p0 := hu.index_pos
  have p1 := hu.columns_pos
  have p2 := hu.origins_pos
  rw [← hu.index.1] at p0
  rw [← hu.columns] at p1
  have hcompat : Compat u f.incrToCum := by
    rw [ef]
    refine ⟨hu.wf, hf.wf, ?_, Or.inr ?_, ?_, ?_, ?_, Or.inr (Or.inl ⟨hf.origin, p2⟩),
      Or.inr (Or.inr ⟨hu.one, by show 1 ≤ f.ddims.length; omega⟩), ?_⟩
    · rw [hu.grain]; exact hf.ograin
    · show min u.values.d3 _ ≤ 1
      rw [u3, hu.one]; omega
    · rw [hu.index.2]; exact hf.keyLabels
    · rcases hk with e | e
      · exact Or.inl e.symm
      · exact Or.inr (Or.inl ⟨e, p0⟩)
    · rcases hv with e | e
      · exact Or.inl e.symm
      · exact Or.inr (Or.inl ⟨e, p1⟩)
    · intro h; rw [hu.one] at h; omega
  have e0 := div_compat hcompat
  obtain ⟨r, e1, hr⟩ := C54_div hcompat
  rw [e0] at e1
  injection e1 with e1
  have l0 : longer u.kdims f.kdims = u.kdims := by
    unfold longer
    rw [if_neg]
    rintro ⟨a, b⟩
    rcases hk with e | e
    · rw [e] at b; omega
    · omega
  have l1 : longer u.vdims f.vdims = u.vdims := by
    unfold longer
    rw [if_neg]
    rintro ⟨a, b⟩
    rcases hv with e | e
    · rw [e] at b; omega
    · omega
  have l2 : longer u.odims f.odims = u.odims := by
    unfold longer
    rw [if_neg]
    rintro ⟨a, b⟩
    rw [hf.origin] at b; omega
  have h1l : u.ddims.length = 1 ∧ f.ddims.length > 1 := ⟨hu.one, by omega⟩
  have l3 : longer u.ddims f.ddims = f.ddims := by
    unfold longer
    rw [if_pos h1l]
  have er : r = { u with
        values := r.values
        ddims := f.ddims
        isVal := f.isVal
        dgrain := f.dgrain
        vd := max u.vd f.vd } := by
    have key : ∀ w : Arr K, ({ mergedLabels u { f with values := f.cumProdVals, isCum := some true } with
        values := w } : Tri K) = { u with
        values := w
        ddims := f.ddims
        isVal := f.isVal
        dgrain := f.dgrain
        vd := max u.vd f.vd } := by
      intro w
      unfold mergedLabels
      simp only [l0, l1, l2, l3, if_pos h1l, hu.noPattern, Bool.false_and]
    have := key r.values
    rw [← this, ← e1, ef]
    rfl
  refine ⟨r, by rw [e0, e1], hr.wf, er, ?_⟩
  intro i hi c hc o ho d hd
  have hcl := hr.cells i (by rw [er]; show i < u.kdims.length; rw [hu.index.1]; exact hi)
    c (by rw [er]; show c < u.vdims.length; rw [hu.columns]; exact hc) o (by rw [er]; exact ho)
    d (by rw [er]; exact hd)
  rw [ef] at hcl
  simp only at hcl
  rw [hcl]
  have o2 : C54.only f.odims.length o = 0 := by unfold C54.only; rw [if_pos hf.origin]
  have o3 : C54.only f.ddims.length d = d := by unfold C54.only; rw [if_neg (by omega)]
  have q3 : C54.only u.ddims.length d = 0 := by unfold C54.only; rw [if_pos hu.one]
  have q0 : C54.only u.kdims.length i = i := by
    unfold C54.only
    rw [hu.index.1]
    split_ifs <;> omega
  have q1 : C54.only u.vdims.length c = c := by
    unfold C54.only
    rw [hu.columns]
    split_ifs <;> omega
  have q2 : C54.only u.odims.length o = o := by
    unfold C54.only
    split_ifs <;> omega
  rw [o2, o3, q3, q0, q1, q2, (hcell i c d hi hc hd).1]

end Tri
end CL
