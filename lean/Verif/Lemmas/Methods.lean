import Verif.Model.Methods
import Verif.Lemmas.Bcast
import Verif.Lemmas.AxSel
import Verif.Lemmas.Pattern
import Mathlib.Algebra.BigOperators.GroupWithZero.Finset
import Verif.Spec.Methods

set_option linter.unusedSectionVars false

/-! # Facts about `_align_cdf` and the diagonal of triangles with the same labels -/

namespace CL
namespace Tri
variable {K : Type} [Field K] [LinearOrder K] [IsStrictOrderedRing K]

/-- `t` with another pattern flag and other cells. -/
def reval (t : Tri K) (p : Bool) (g : Nat → Nat → Nat → Nat → Num K) : Tri K :=
  { t with isPattern := p, values := { t.values with get := g } }

theorem wf_reval {t : Tri K} (h : WF t) (p : Bool) (g) : WF (t.reval p g) := h

theorem pick_reval {t v : Tri K} {p0 p1 p2 p3 : List Nat} (h : t.pick p0 p1 p2 p3 = .ok v) (p : Bool)
    (g : Nat → Nat → Nat → Nat → Num K) :
    ∃ g', (t.reval p g).pick p0 p1 p2 p3 = .ok (v.reval p g') := by
  by_cases hne : t.isVal = true ∨ p3 ≠ []
  · rw [pick_eq _ _ _ _ _ hne] at h
    rw [pick_eq (t.reval p g) _ _ _ _ hne]
    injection h with h
    subst h
    exact ⟨_, rfl⟩
  · exfalso
    simp only [not_or, ne_eq, not_not, Bool.not_eq_true] at hne
    unfold pick at h
    simp [hne.1, hne.2] at h

/-- Selecting by valuation does not look at the cells. -/
theorem getVal_reval {t v : Tri K} {P : Int → Bool} (h : t.getVal P = .ok v) (p : Bool)
    (g : Nat → Nat → Nat → Nat → Num K) : ∃ g', (t.reval p g).getVal P = .ok (v.reval p g') := by
  unfold getVal at h ⊢
  have e3 : (t.reval p g).values.d3 = t.values.d3 := rfl
  rw [e3]
  split_ifs with hd
  · rw [if_pos hd] at h
    unfold filterMask getIdx at h ⊢
    simp only [bind, Except.bind] at h ⊢
    have ev : (fun o d => P ((t.reval p g).valuation o d)) = fun o d => P (t.valuation o d) := rfl
    have ek : (t.reval p g).keptValuations (fun o d => P (t.valuation o d)) =
      t.keptValuations (fun o d => P (t.valuation o d)) := rfl
    rw [ev, ek]
    have d0 : (t.reval p g).values.d0 = t.values.d0 := rfl
    have d1 : (t.reval p g).values.d1 = t.values.d1 := rfl
    have d2 : (t.reval p g).values.d2 = t.values.d2 := rfl
    rw [d0, d1, d2, e3]
    split at h
    · cases h
    · rename_i k0 h0
      split at h
      · cases h
      · rename_i k1 h1
        split at h
        · cases h
        · rename_i k2 h2
          split at h
          · cases h
          · rename_i k3 h3
            split_ifs at h ⊢ with hs
            split at h
            · cases h
            · rename_i p0 q0
              split at h
              · cases h
              · rename_i p1 q1
                split at h
                · cases h
                · rename_i p2 q2
                  split at h
                  · cases h
                  · rename_i p3 q3
                    obtain ⟨g', e⟩ := pick_reval h p fun i c o d =>
                      (g i c o d * Num.ofBool (P (t.valuation o d))).numToNan
                    exact ⟨g', e⟩
  · rw [if_neg hd] at h
    unfold sliceOrigin at h ⊢
    simp only [bind, Except.bind] at h ⊢
    have ev : (List.map (fun o => P ((t.reval p g).valuation o 0))
      (List.range (t.reval p g).odims.length)) =
      List.map (fun o => P (t.valuation o 0)) (List.range t.odims.length) := rfl
    rw [ev]
    have e2 : (t.reval p g).odims = t.odims := rfl
    rw [e2]
    split_ifs at h ⊢ with hl
    split at h
    · cases h
    · rename_i k0 h0
      have d2 : (t.reval p g).values.d2 = t.values.d2 := rfl
      rw [d2]
      split at h
      · cases h
      · rename_i p0 q0
        injection h with h
        subst h
        exact ⟨_, rfl⟩

/-- The variable `a` of `_align_cdf` is one on the observed part and missing elsewhere. -/
theorem alignOnes_spec {t : Tri K} (wf : WF t) (ord : Ordered t) (dated : Dated t)
    (h0 : 1 ≤ t.kdims.length) (h1 : 1 ≤ t.vdims.length) (h3 : 1 ≤ t.ddims.length) :
    ∃ a, t.alignOnes = .ok a ∧ FitsIn a t ∧ a.vd ≤ t.vd ∧ a.isPattern = t.isPattern ∧
      a.values.d0 = 1 ∧ a.values.d1 = 1 ∧ a.values.d2 = t.values.d2 ∧ a.values.d3 = t.values.d3 ∧
      ∀ i c o d, o < t.values.d2 → d < t.values.d3 → a.values.get i c o d = t.nanTri o d := by
  obtain ⟨w0, w1, w2, w3⟩ := wf
  obtain ⟨v, e, hv, hv2, hv3⟩ := pick_contig ord dated [0] [0] (List.range t.values.d2) t.values.d3 0
    (by intro p hp; rw [← w2]; exact List.mem_range.1 hp) (by omega) (by omega)
  have emap : ((List.range t.values.d3).map (· + 0)) = List.range t.values.d3 := by simp
  rw [emap] at e
  set b := t.picked [0] [0] (List.range t.values.d2) (List.range t.values.d3) v with hb
  have el : t.iloc (.int 0) (.int 0) (.slc .all) (.slc .all) = .ok b := by
    rw [← e]
    exact iloc_of_sel (selS_nat t.values.d0 0 (by omega)).sel (selS_nat t.values.d1 0 (by omega)).sel
      (selS_all _) (selS_all _)
  have b0 : b.values.d0 = 1 := rfl
  have b1 : b.values.d1 = 1 := rfl
  have b2 : b.values.d2 = t.values.d2 := by show (List.range _).length = _; simp
  have b3 : b.values.d3 = t.values.d3 := by show (List.range _).length = _; simp
  have hod : b.odims = t.odims := by
    show (List.range t.values.d2).map (t.odims.getD · 0) = t.odims
    rw [w2]; exact map_getD_range _ _
  have hdd : b.ddims = t.ddims := by
    show (List.range t.values.d3).map (t.ddims.getD · 0) = t.ddims
    rw [w3]; exact map_getD_range _ _
  have hnan : ∀ o d, o < t.values.d2 → d < t.values.d3 → ∀ p g,
      (b.reval p g).nanTri o d = t.nanTri o d := by
    intro o d ho hd p g
    have e1 : (b.reval p g).valuation o d = t.valuation o d := by
      have := valuation_picked_contig ord [0] [0] (List.range t.values.d2) t.values.d3 0 v
        (by intro p hp; rw [← w2]; exact List.mem_range.1 hp) (by omega) (by omega)
        hv2 (o := o) (d := d) (by simpa using ho) hd
      rw [emap, getD_range _ _ ho] at this
      exact this
    have h5 := hv3 o d (by simpa using ho) hd
    rw [getD_range _ _ ho] at h5
    simp only [Nat.add_zero] at h5
    show (if min b.values.d2 b.values.d3 = 1 then 1 else
      if (b.reval p g).valuation o d > v then .nan else 1) = t.nanTri o d
    rw [e1, b2, b3]
    unfold nanTri
    simp only [h5]
  have em : b.mulArr (Arr.scalar 0) = .ok (b.reval b.isPattern fun i c o d =>
      b.values.get i c o d * 0) := by
    unfold mulArr zipArr
    rw [Arr.zip_scalar]
    rfl
  set g : Nat → Nat → Nat → Nat → Num K := fun i c o d => b.values.get i c o d * 0 with hg
  set s := b.reval b.isPattern g with hs
  have ea : s.addArr s.nanTriArr = .ok (s.reval b.isPattern fun i c o d =>
      ((g i c o d).nanToNum + (s.nanTri o d).nanToNum)).cleanup := by
    unfold addArr zipArr
    rw [Arr.zip_fits]
    · simp only [bind, Except.bind]
      have e2 : s.nanTriArr.d2 = s.values.d2 := rfl
      have e3 : s.nanTriArr.d3 = s.values.d3 := rfl
      simp only [e2, e3, Arr.bix_self]
      rfl
    · exact ⟨Or.inr rfl, Or.inr rfl, Or.inl rfl, Or.inl rfl⟩
  refine ⟨(s.reval b.isPattern fun i c o d =>
      ((g i c o d).nanToNum + (s.nanTri o d).nanToNum)).cleanup, ?_, ?_, hv, rfl, rfl, rfl, b2, b3, ?_⟩
  · unfold alignOnes
    simp only [el, em, bind, Except.bind]
    exact ea
  · refine ⟨⟨w0, w1, w2, w3⟩, ?_, rfl, Or.inl rfl, rfl, Or.inr ⟨rfl, h0⟩, Or.inr ⟨rfl, h1⟩, Or.inl hod,
      Or.inl ⟨hdd, rfl⟩⟩
    refine ⟨rfl, rfl, ?_, ?_⟩
    · show b.values.d2 = b.odims.length
      rw [b2, hod, w2]
    · show b.values.d3 = b.ddims.length
      rw [b3, hdd, w3]
  · intro i c o d ho hd
    have h6 := hnan o d ho hd b.isPattern g
    have h7 := hnan o d ho hd b.isPattern fun i c o d =>
      ((g i c o d).nanToNum + (s.nanTri o d).nanToNum)
    show (((g i c o d).nanToNum + (s.nanTri o d).nanToNum) *
      ((b.reval b.isPattern fun i c o d =>
      ((g i c o d).nanToNum + (s.nanTri o d).nanToNum)).nanTri o d).nanToNum).numToNan = _
    rw [h7, hs, h6]
    rcases nanTri_eq t o d with h | ⟨h, -⟩
    · rw [h]
      have : g i c o d = .nan ∨ g i c o d = .fin 0 := by
        rw [hg]
        dsimp only
        cases b.values.get i c o d with
        | nan => left; simp
        | fin x => right; simp [Num.zero_def]
        | pinf => left; simp [Num.zero_def, Num.pinf_mul_fin, Num.infMul]
        | ninf => left; simp [Num.zero_def, Num.ninf_mul_fin, Num.infMul]
      rcases this with h | h <;> rw [h] <;> simp [Num.one_def, Num.numToNan_fin]
    · rw [h]
      obtain ⟨x, hx⟩ := Num.nanToNum_isFin (g i c o d)
      rw [hx]
      simp

/-- Attributes that selecting by valuation keeps. -/
theorem getVal_keeps {t v : Tri K} {P : Int → Bool} (h : t.getVal P = .ok v) :
    v.keyLabels = t.keyLabels ∧ v.ograin = t.ograin ∧ v.dgrain = t.dgrain ∧
      v.isPattern = t.isPattern ∧ v.isCum = t.isCum := by
  unfold getVal at h
  split_ifs at h with hd
  · unfold filterMask getIdx at h
    simp only [bind, Except.bind] at h
    split at h
    · cases h
    split at h
    · cases h
    split at h
    · cases h
    split at h
    · cases h
    split_ifs at h
    split at h
    · cases h
    split at h
    · cases h
    split at h
    · cases h
    split at h
    · cases h
    rename_i p3 q3
    by_cases hne : t.isVal = true ∨ p3 ≠ []
    · rw [pick_eq (_ : Tri K) _ _ _ _ (by exact hne)] at h
      injection h with h
      subst h
      exact ⟨rfl, rfl, rfl, rfl, rfl⟩
    · exfalso
      simp only [not_or, ne_eq, not_not, Bool.not_eq_true] at hne
      unfold pick at h
      simp [hne.1, hne.2] at h
  · unfold sliceOrigin at h
    simp only [bind, Except.bind] at h
    split_ifs at h
    split at h
    · cases h
    split at h
    · cases h
    injection h with h
    subst h
    exact ⟨rfl, rfl, rfl, rfl, rfl⟩

theorem sumKeep_keeps (v : Tri K) (ax : Axis) :
    (v.sumKeep ax).keyLabels = v.keyLabels ∧ (v.sumKeep ax).ograin = v.ograin ∧
      (v.sumKeep ax).dgrain = v.dgrain ∧ (v.sumKeep ax).isPattern = v.isPattern ∧
      (v.sumKeep ax).isCum = v.isCum := by
  show (relabelAgg v ax).keyLabels = _ ∧ (relabelAgg v ax).ograin = _ ∧
    (relabelAgg v ax).dgrain = _ ∧ (relabelAgg v ax).isPattern = _ ∧ (relabelAgg v ax).isCum = _
  unfold relabelAgg
  cases ax <;> simp only <;> split_ifs <;> exact ⟨rfl, rfl, rfl, rfl, rfl⟩

theorem PatternFor.length_le {t f : Tri K} (h : PatternFor t f) :
    t.ddims.length ≤ f.ddims.length := by
  have := congrArg List.length h.starts
  rw [List.length_take] at this
  omega

/-- The first columns of `cdf_`, as taken by `_align_cdf`. -/
theorem cdf_spec {t f : Tri K} (wf : WF t) (h : PatternFor t f) (h0 : 1 ≤ t.kdims.length)
    (h1 : 1 ≤ t.vdims.length) (h2 : 1 ≤ t.odims.length) (h3 : 1 ≤ t.ddims.length) :
    ∃ cdf, f.incrToCum.ilocD (.upto (t.values.d3 : Int)) = .ok cdf ∧ FitsIn cdf t ∧
      ∀ i c o d, i < t.values.d0 → c < t.values.d1 → d < t.values.d3 →
        bcell cdf.values t.values i c o d = .fin (f.toUlt i c d) ∧ f.toUlt i c d ≠ 0 := by
  obtain ⟨w0, w1, w2, w3⟩ := wf
  obtain ⟨f0, f1, f2, f3⟩ := h.wf
  have hle := h.length_le
  have ef : f.incrToCum = { f with values := f.cumProdVals, isCum := some true } := by
    unfold incrToCum
    rw [if_neg h.incremental]
    simp only [h.pattern, if_true, h.multiplicative]
  have el : f.incrToCum.ilocD (.upto (t.values.d3 : Int)) = f.incrToCum.pick (List.range f.values.d0)
      (List.range f.values.d1) (List.range f.values.d2) (List.range t.values.d3) := by
    have := ilocD_of_positions (t := f.incrToCum) (k := .upto (t.values.d3 : Int))
      (pd := List.range t.values.d3) (selS_upto _ _ (by rw [ef]; show t.values.d3 ≤ f.values.d3; omega))
    rw [this, ef]
    rfl
  have hne : List.range t.values.d3 ≠ [] := by
    intro hcon
    have := congrArg List.length hcon
    simp at this
    omega
  rw [pick_eq _ _ _ _ _ (Or.inr hne)] at el
  refine ⟨_, el, ?_, ?_⟩
  · rw [ef]
    have k0 : (List.range f.values.d0).map (f.kdims.getD · []) = f.kdims := by
      rw [f0]; exact map_getD_range _ _
    have k1 : (List.range f.values.d1).map (f.vdims.getD · "") = f.vdims := by
      rw [f1]; exact map_getD_range _ _
    have k2 : (List.range f.values.d2).map (f.odims.getD · 0) = f.odims := by
      rw [f2]; exact map_getD_range _ _
    have k3 : (List.range t.values.d3).map (f.ddims.getD · 0) = t.ddims := by
      rw [← h.starts]
      apply List.ext_getElem
      · simp; omega
      · intro i a b
        simp at a
        simp [List.getD_eq_getElem?_getD, show i < f.ddims.length by omega]
    refine ⟨⟨w0, w1, w2, w3⟩, ⟨?_, ?_, ?_, ?_⟩, h.ograin, Or.inl h.dgrain, h.keyLabels, ?_, ?_, ?_, ?_⟩
    · simp [picked, Arr.take]
    · simp [picked, Arr.take]
    · simp [picked, Arr.take]
    · simp [picked, Arr.take]
    · show (List.range f.values.d0).map (f.kdims.getD · []) = _ ∨
        ((List.range f.values.d0).map (f.kdims.getD · [])).length = 1 ∧ _
      rw [k0]
      exact h.index.imp id fun e => ⟨e, h0⟩
    · show (List.range f.values.d1).map (f.vdims.getD · "") = _ ∨
        ((List.range f.values.d1).map (f.vdims.getD · "")).length = 1 ∧ _
      rw [k1]
      exact h.columns.imp id fun e => ⟨e, h1⟩
    · show (List.range f.values.d2).map (f.odims.getD · 0) = _ ∨
        ((List.range f.values.d2).map (f.odims.getD · 0)).length = 1 ∧ _
      rw [k2]
      exact Or.inr ⟨h.origin, h2⟩
    · exact Or.inl ⟨k3, h.ages⟩
  · intro i c o d hi hc hd
    have e0 : f.values.d0 = t.values.d0 ∨ f.values.d0 = 1 := by
      rw [f0, w0]; rcases h.index with e | e
      · exact Or.inl (by rw [e])
      · exact Or.inr e
    have e1 : f.values.d1 = t.values.d1 ∨ f.values.d1 = 1 := by
      rw [f1, w1]; rcases h.columns with e | e
      · exact Or.inl (by rw [e])
      · exact Or.inr e
    have hbi : (List.range f.values.d0).getD (Arr.bix f.values.d0 t.values.d0 i) 0 =
        (if f.kdims.length = 1 then 0 else i) ∧ (if f.kdims.length = 1 then 0 else i) < f.values.d0 := by
      unfold Arr.bix
      rcases e0 with e | e
      · rw [if_pos e, getD_range _ _ (by omega)]
        split_ifs with h5
        · rw [← f0] at h5; omega
        · omega
      · rw [← f0, if_pos e]
        split_ifs
        · rw [getD_range _ _ (by omega)]; omega
        · rw [getD_range _ _ (by omega)]; omega
    have hbc : (List.range f.values.d1).getD (Arr.bix f.values.d1 t.values.d1 c) 0 =
        (if f.vdims.length = 1 then 0 else c) ∧ (if f.vdims.length = 1 then 0 else c) < f.values.d1 := by
      unfold Arr.bix
      rcases e1 with e | e
      · rw [if_pos e, getD_range _ _ (by omega)]
        split_ifs with h5
        · rw [← f1] at h5; omega
        · omega
      · rw [← f1, if_pos e]
        split_ifs
        · rw [getD_range _ _ (by omega)]; omega
        · rw [getD_range _ _ (by omega)]; omega
    have hbo : (List.range f.values.d2).getD (Arr.bix f.values.d2 t.values.d2 o) 0 = 0 := by
      have e2 : f.values.d2 = 1 := by rw [f2, h.origin]
      rw [e2]
      unfold Arr.bix
      split_ifs
      · cases o <;> simp
      · rfl
    have hx : ∀ j < f.values.d3, f.values.get (if f.kdims.length = 1 then 0 else i)
        (if f.vdims.length = 1 then 0 else c) 0 j = .fin (f.ageFactor i c j) ∧ f.ageFactor i c j ≠ 0 := by
      intro j hj
      obtain ⟨x, hx, hx'⟩ := h.factors _ hbi.2 _ hbc.2 j hj
      unfold ageFactor
      rw [hx']
      exact ⟨rfl, hx⟩
    have hnz : f.toUlt i c d ≠ 0 := by
      unfold toUlt
      rw [Finset.prod_ne_zero_iff]
      intro j hj
      exact (hx j (by rw [f3]; exact (Finset.mem_Ico.1 hj).2)).2
    refine ⟨?_, hnz⟩
    rw [ef]
    simp only [bcell, picked, Arr.take, List.length_range, Arr.bix_self]
    simp only [cumProdVals, hbi.1, hbc.1, hbo, getD_range _ _ hd]
    have hn : f.nanTri 0 d = 1 := by
      unfold nanTri
      rw [if_pos]
      have e2 : f.values.d2 = 1 := by rw [f2, h.origin]
      omega
    rw [hn]
    have : ∏ j ∈ Finset.Ico d f.values.d3, (f.values.get (if f.kdims.length = 1 then 0 else i)
        (if f.vdims.length = 1 then 0 else c) 0 j).nanToNum.numToValue 1 = .fin (f.toUlt i c d) := by
      unfold toUlt
      rw [← Num.prod_fin, f3]
      apply Finset.prod_congr rfl
      intro j hj
      obtain ⟨h5, h6⟩ := hx j (by rw [f3]; exact (Finset.mem_Ico.1 hj).2)
      rw [h5]
      simp [Num.numToValue, h6]
    rw [this]
    simp [Num.one_def]

/-- The diagonal of a triangle with the labels of `t` has the labels of the diagonal of `t`. -/
theorem diagonal_reval {t v : Tri K} (wf : WF t) (ord : Ordered t) (dated : Dated t)
    (dv : DistinctValuations t) (hd : 2 ≤ t.ddims.length) (h : t.getVal (· == t.vd) = .ok v)
    {rows : List Nat} (hr : DiagonalOf t (v.sumKeep .development) rows) (p : Bool)
    (g : Nat → Nat → Nat → Nat → Num K) :
    ∃ u, (t.reval p g).latestDiagonal = .ok u.toAgg ∧ SameAxes u (v.sumKeep .development) ∧
      u.isPattern = p ∧ DiagonalOf (t.reval p g) u rows := by
  obtain ⟨g', e⟩ := getVal_reval h p g
  obtain ⟨rows', cols', hf⟩ := C15_filter_partial (t := t.reval p g) wf ord dated hd e
  have hd' := DiagonalOf.of_filter (t := t.reval p g) dv hf
  have hrr : rows' = rows := by
    refine List.Pairwise.eq_of_mem_iff hd'.rows_inc hr.rows_inc ?_
    intro o
    rw [hd'.mem_rows, hr.mem_rows]
    rfl
  subst hrr
  refine ⟨(v.reval p g').sumKeep .development, ?_, ?_, ?_, hd'⟩
  · unfold latestDiagonal
    have e' : (t.reval p g).getVal (· == (t.reval p g).vd) = .ok (v.reval p g') := e
    rw [e']
    rfl
  · have hrel : relabelAgg (v.reval p g') .development =
        { relabelAgg v .development with isPattern := p, values := { v.values with get := g' } } := by
      simp only [relabelAgg]
      have : (v.reval p g').ddims = v.ddims := rfl
      rw [this]
      split_ifs <;> rfl
    unfold sumKeep
    rw [hrel]
    exact ⟨rfl, rfl, rfl, rfl, rfl, rfl, rfl, rfl⟩
  · show (relabelAgg (v.reval p g') .development).isPattern = p
    simp only [relabelAgg]
    split_ifs <;> rfl

/-- Last part of `_align_cdf`: `x / x * cdf` on the diagonal is the factor of the age of each
origin where `x` is not zero or missing. -/
theorem align_core {t f v : Tri K} (wf : WF t) (ord : Ordered t) (dated : Dated t)
    (dv : DistinctValuations t) (hd : 2 ≤ t.ddims.length) (h : t.getVal (· == t.vd) = .ok v)
    {rows : List Nat} (hr : DiagonalOf t (v.sumKeep .development) rows) (hf : PatternFor t f)
    (h0 : 1 ≤ t.kdims.length) (h1 : 1 ≤ t.vdims.length) (h2 : 1 ≤ t.odims.length)
    {cdf : Tri K} (hc : f.incrToCum.ilocD (.upto (t.values.d3 : Int)) = .ok cdf)
    (x : Tri K) (g : Nat → Nat → Nat → Nat → Num K) (vd : Int)
    (hx : x = { t with isPattern := false, vd := vd, values := { t.values with get := g } })
    (hg : ∀ i c o d, i < t.values.d0 → c < t.values.d1 → o < t.values.d2 → d < t.values.d3 →
      t.valuation o d = t.vd → (g i c o d).NoInf) :
    ∃ r1 r s, x.div x = .ok r1 ∧ r1.mul cdf = .ok r ∧
      ({ r with vd := t.vd } : Tri K).latestDiagonal = .ok s.toAgg ∧ WF s ∧
      SameAxes s (v.sumKeep .development) ∧ s.vd = t.vd ∧ s.isPattern = false ∧
      ∀ i c o d, i < t.values.d0 → c < t.values.d1 → (ho : o < rows.length) → d < t.ddims.length →
        t.valuation rows[o] d = t.vd → s.values.get i c o 0 =
          if (g i c rows[o] d).amt = 0 then .nan else .fin (f.toUlt i c d) := by
  obtain ⟨cdf', e, hfit, hcell⟩ := cdf_spec wf hf h0 h1 h2 (by omega)
  rw [hc] at e
  injection e with e
  subst e
  have wx : WF x := by rw [hx]; exact wf
  have e1 : x.div x = .ok (zipped (· / ·) x x) :=
    div_fits (SameAxes.fitsIn ⟨rfl, rfl, rfl, rfl, rfl, rfl, rfl, rfl⟩ wx wx)
  have hfit' : FitsIn cdf (zipped (· / ·) x x) := by
    obtain ⟨a, b, c, d, e, f, g, h, i⟩ := hfit
    rw [hx]
    exact ⟨a, b, c, d, e, f, g, h, i⟩
  have e2 := mul_fits hfit'
  set G : Nat → Nat → Nat → Nat → Num K := fun i c o d =>
    g i c o d / g i c o d * bcell cdf.values t.values i c o d with hG
  have e3 : ({ zipped (· * ·) (zipped (· / ·) x x) cdf with vd := t.vd } : Tri K) =
      t.reval false G := by
    rw [hx]
    simp only [zipped, reval, bcell, Arr.bix_self, Bool.false_and]
    rfl
  obtain ⟨s, s1, s2, s3, s4⟩ := diagonal_reval wf ord dated dv hd h hr false G
  refine ⟨_, _, s, e1, e2, by rw [e3]; exact s1, s4.wf, s2, s4.date, s3, ?_⟩
  intro i c o d hi hc' ho hd' hv
  rw [s4.cells i c o d hi hc' ho hd' hv]
  have hro := ((s4.mem_rows _).1 (List.getElem_mem ho)).1
  show (g i c rows[o] d / g i c rows[o] d * bcell cdf.values t.values i c rows[o] d).numToNan = _
  have hd3 : d < t.values.d3 := by rw [wf.2.2.2]; exact hd'
  obtain ⟨q1, q2⟩ := hcell i c rows[o] d hi hc' hd3
  rw [q1]
  rcases Num.noInf_cases (hg i c rows[o] d hi hc' (by rw [wf.2.2.1]; exact hro) hd3 hv) with e | ⟨a, e⟩
  · rw [e]; simp
  · rw [e]
    by_cases ha : a = 0
    · simp [ha, Num.fin_div_fin]
    · rw [Num.fin_div_fin_of_ne _ ha, div_self ha]
      simp [Num.numToNan_fin, ha, q2]

/-- `_align_cdf` without sample weights. -/
theorem alignCdf_none {t f v : Tri K} (wf : WF t) (ord : Ordered t) (dated : Dated t)
    (dv : DistinctValuations t) (fin : Finite t) (hd : 2 ≤ t.ddims.length)
    (hp : t.isPattern = false) (h : t.getVal (· == t.vd) = .ok v)
    {rows : List Nat} (hr : DiagonalOf t (v.sumKeep .development) rows) (hf : PatternFor t f)
    (h0 : 1 ≤ t.kdims.length) (h1 : 1 ≤ t.vdims.length) (h2 : 1 ≤ t.odims.length) :
    ∃ s, t.alignCdf f none = .ok s.toAgg ∧ WF s ∧
      SameAxes s (v.sumKeep .development) ∧ s.vd = t.vd ∧ s.isPattern = false ∧
      ∀ i c o d, i < t.values.d0 → c < t.values.d1 → (ho : o < rows.length) → d < t.ddims.length →
        t.valuation rows[o] d = t.vd → s.values.get i c o 0 =
          if (t.values.get i c rows[o] d).amt = 0 then .nan else .fin (f.toUlt i c d) := by
  obtain ⟨cdf, e, -, -⟩ := cdf_spec wf hf h0 h1 h2 (by omega)
  obtain ⟨a, ea, hfa, hva, hpa, ad0, ad1, ad2, ad3, hga⟩ :=
    alignOnes_spec wf ord dated h0 h1 (by omega)
  have em := mul_fits hfa
  have hcell : ∀ i c o d, i < t.values.d0 → c < t.values.d1 → o < t.values.d2 → d < t.values.d3 →
      t.valuation o d = t.vd →
      t.values.get i c o d * bcell a.values t.values i c o d = t.values.get i c o d := by
    intro i c o d hi hc ho hd' hv
    have : bcell a.values t.values i c o d = 1 := by
      unfold bcell
      rw [ad2, ad3, Arr.bix_self, Arr.bix_self, hga _ _ o d ho hd']
      rcases nanTri_eq t o d with h | ⟨-, h⟩
      · exact h
      · omega
    rw [this]
    rcases Num.noInf_cases (fin i hi c hc o ho d hd') with e | ⟨x, e⟩ <;> rw [e] <;>
      simp [Num.one_def]
  obtain ⟨r1, r, s, q1, q2, q3, q4, q5, q6, q7, q8⟩ := align_core wf ord dated dv hd h hr hf h0 h1 h2 e
    (zipped (· * ·) t a) (fun i c o d => t.values.get i c o d * bcell a.values t.values i c o d)
    (max t.vd a.vd) (by unfold zipped; simp only [hp, Bool.false_and])
    (by
      intro i c o d hi hc ho hd' hv
      rw [hcell i c o d hi hc ho hd' hv]
      exact fin i hi c hc o ho d hd')
  refine ⟨s, ?_, q4, q5, q6, q7, ?_⟩
  · unfold alignCdf
    simp only [e, ea, em, bind, Except.bind, pure, Except.pure, q1, q2, q3]
  · intro i c o d hi hc ho hd' hv
    have hro := ((hr.mem_rows _).1 (List.getElem_mem ho)).1
    rw [q8 i c o d hi hc ho hd' hv]
    beta_reduce
    rw [hcell i c rows[o] d hi hc (by rw [wf.2.2.1]; exact hro) (by rw [wf.2.2.2]; exact hd') hv]

theorem CumTri.diagonal {t : Tri K} (h : CumTri t) {r : Agg K} (hl : t.latestDiagonal = .ok r) :
    ∃ v rows, t.getVal (· == t.vd) = .ok v ∧ r = (v.sumKeep .development).toAgg ∧
      DiagonalOf t (v.sumKeep .development) rows := by
  unfold latestDiagonal at hl
  cases hg : t.getVal (· == t.vd) with
  | error e => rw [hg] at hl; cases hl
  | ok v =>
    rw [hg] at hl
    simp only [bind, Except.bind] at hl
    injection hl with hl
    obtain ⟨rows, cols, hf⟩ := C15_filter_partial h.wf h.ordered h.dated h.ages_two hg
    exact ⟨v, rows, rfl, hl.symm, DiagonalOf.of_filter h.distinct hf⟩

theorem toAgg_tri {u l : Tri K} (h : u.toAgg = .tri l) : u = l ∧
    ¬ (u.values.d0 = 1 ∧ u.values.d1 = 1 ∧ u.values.d2 = 1 ∧ u.values.d3 = 1) := by
  unfold toAgg at h
  split_ifs at h with hc
  injection h with h
  exact ⟨h, hc⟩

theorem toAgg_scalar {u : Tri K} {x : Num K} (h : u.toAgg = .scalar x) :
    u.values.d0 = 1 ∧ u.values.d1 = 1 ∧ u.values.d2 = 1 ∧ u.values.d3 = 1 := by
  unfold toAgg at h
  split_ifs at h with hc
  exact hc

end Tri
end CL
