import Verif.Spec.Standard
import Verif.Lemmas.Methods

set_option linter.unusedSectionVars false

/-! # Link ratios of a triangle on a regular grid -/

namespace CL
namespace Tri
variable {K : Type} [Field K] [LinearOrder K] [IsStrictOrderedRing K]

/-- How many of the `n` origins have a link ratio. -/
def linkRows (n D q : Nat) : Nat := if q * (n - 1) + 1 < D then n else n - 1

theorem lt_linkRows {n D q o : Nat} (hn : 2 ≤ n) (hq : 1 ≤ q) (hr : q * (n - 1) < D) :
    o < linkRows n D q ↔ o < n ∧ q * o + 1 < D := by
  unfold linkRows
  split_ifs with h
  · constructor
    · intro ho
      have : q * o ≤ q * (n - 1) := Nat.mul_le_mul_left _ (by omega)
      exact ⟨ho, by omega⟩
    · exact fun ho => ho.1
  · constructor
    · intro ho
      have : q * (o + 1) ≤ q * (n - 1) := Nat.mul_le_mul_left _ (by omega)
      rw [Nat.mul_add] at this
      exact ⟨by omega, by omega⟩
    · rintro ⟨h1, h2⟩
      by_contra hc
      have e : o = n - 1 := by omega
      rw [e] at h2
      exact h h2

theorem At.eq_map {l l' : List Int} {m : Nat} (h : At l l' (List.range m)) (hm : m ≤ l.length) :
    l' = (List.range m).map (l.getD · 0) := by
  apply List.ext_getElem?
  intro j
  by_cases hj : j < m
  · have := h.2 j (by simpa using hj)
    rw [this]
    simp [hj, List.getD_eq_getElem?_getD, show j < l.length by omega]
  · have := h.1
    rw [List.getElem?_eq_none (by rw [this]; simp; omega), List.getElem?_eq_none (by simp; omega)]

/-- The link ratios of a triangle on a grid lie on a grid. -/
theorem Standard.linkGrid {t : Tri K} {a : Int} {n D q : Nat} (h : Standard t a n D q)
    (hn : 1 < q * (n - 1)) (nz : NoZeros t) (h2 : 2 ≤ linkRows n D q) :
    ∃ lr, t.linkRatio = .ok lr ∧ Grid lr a (linkRows n D q) (D - 1) q ∧ lr.kdims = t.kdims ∧
      lr.vdims = t.vdims ∧ lr.ograin = t.ograin ∧ lr.dgrain = t.dgrain ∧
      ∀ i < t.kdims.length, ∀ c < t.vdims.length, ∀ o < linkRows n D q, ∀ d < D - 1,
        lr.values.get i c o d = ratio (t.values.get i c o d) (t.values.get i c o (d + 1)) := by
  obtain ⟨lr, hlr, -⟩ := h.linkRatio
  have hD := h.two_ages
  have hn2 := h.two_origins
  have hrec := h.recent
  have hrow : ∀ o, o < linkRows n D q ↔ o < n ∧ q * o + 1 < D := fun o =>
    lt_linkRows hn2 h.period hrec
  have hlrn : linkRows n D q ≤ n := by unfold linkRows; split_ifs <;> omega
  refine ⟨lr, hlr, ?_⟩
  have wf := h.wf
  obtain ⟨v, h1, h2', h3, e⟩ := linkRatio_eq wf h.ordered h.dated h.noPattern (by rw [h.lenD]; exact hD)
  rw [e] at hlr
  have hqo := quot_odims wf v
  have hqd := quot_ddims wf v (by rw [h.lenD]; omega)
  have hqdl : (quot t v).ddims.length = D - 1 := by rw [hqd]; simp [h.lenD]
  have hqw := quot_wf wf v (by rw [h.lenD]; omega)
  have hqk : (quot t v).kdims = t.kdims := by
    show (List.range t.values.d0).map (t.kdims.getD · []) = _
    rw [wf.1]; exact map_getD_range _ _
  have hqv : (quot t v).vdims = t.vdims := by
    show (List.range t.values.d1).map (t.vdims.getD · "") = _
    rw [wf.2.1]; exact map_getD_range _ _
  have hval : ∀ o < n, ∀ d < D - 1, (quot t v).valuation o d = t.valuation o d := fun o ho d hd =>
    quot_valuation wf h.ordered h1 (by rw [h.lenO]; exact ho) (by rw [h.lenD]; omega)
  have hgt : t.valuation (n - 1) (D - 2) > t.vd := by
    rw [gt_iff_lt, h.valuation_gt (by omega) (by omega)]; omega
  have hvt : v = t.vd := by
    rcases h3 with h3 | h3
    · exact h3
    · have := h3 (n - 1) (by rw [h.lenO]; omega) (D - 2) (by rw [h.lenD]; omega); omega
  have hD3 : 3 ≤ D := by omega
  have hnf : (quot t v).isFull = false := by
    rw [Bool.eq_false_iff]
    intro hf
    unfold isFull at hf
    rw [List.all_eq_true] at hf
    have h3 := hf (n - 1) (List.mem_range.mpr (by rw [hqw.2.2.1, hqo, h.lenO]; omega))
    rw [List.all_eq_true] at h3
    have h4 := h3 (D - 2) (List.mem_range.mpr (by rw [hqw.2.2.2, hqdl]; omega))
    unfold nanTri at h4
    rw [if_neg (by rw [hqw.2.2.1, hqw.2.2.2, hqo, h.lenO, hqdl]; omega), if_pos] at h4
    · simp at h4
    · rw [hval _ (by omega) _ (by omega)]
      have : (quot t v).vd = v := rfl
      omega
  rw [hnf] at hlr
  simp only [Bool.false_eq_true, if_false] at hlr
  cases hg : (quot t v).getVal (fun w => w < v) with
  | error => rw [hg] at hlr; cases hlr
  | ok w =>
    rw [hg] at hlr
    simp only [bind, Except.bind] at hlr
    injection hlr with hlr
    subst hlr
    obtain ⟨rows, cols, hs⟩ := C15_filter_partial hqw (quot_ordered wf h.ordered
      (by rw [h.lenD]; omega) h1) (fun hb => le_trans h2' (h.dated hb)) (by omega) hg
    have hkey : ∀ o < n, ∀ d < D - 1, decide ((quot t v).valuation o d < v) = true ↔
        q * o + d + 1 < D := by
      intro o ho d hd
      rw [hval o ho d hd, hvt, decide_eq_true_iff, h.valuation_lt ho (by omega)]
    have hrows : rows = List.range (linkRows n D q) := by
      refine List.Pairwise.eq_of_mem_iff hs.rows_inc List.pairwise_lt_range fun o => ?_
      rw [hs.mem_rows, List.mem_range, hrow, hqo, h.lenO, hqdl]
      constructor
      · rintro ⟨ho, d, hd, hk⟩
        have := (hkey o ho d hd).1 hk
        exact ⟨ho, by omega⟩
      · rintro ⟨ho, hlt⟩
        exact ⟨ho, 0, by omega, (hkey o ho 0 (by omega)).2 (by omega)⟩
    have hcols : cols = List.range (D - 1) := by
      refine List.Pairwise.eq_of_mem_iff hs.cols_inc List.pairwise_lt_range fun d => ?_
      rw [hs.mem_cols, List.mem_range, hqo, h.lenO, hqdl]
      constructor
      · exact fun hh => hh.1
      · exact fun hd => ⟨hd, 0, by omega, (hkey 0 (by omega) d hd).2 (by omega)⟩
    subst hrows hcols
    have hk := getVal_keeps hg
    have hg1 : w.ograin = t.ograin := hk.2.1
    have hg2 : w.dgrain = t.dgrain := hk.2.2.1
    have hod : w.odims = (List.range (linkRows n D q)).map fun o : Nat =>
        a + (o * q * t.dgrain.months : Nat) := by
      rw [At.eq_map hs.origins (by rw [hqo, h.lenO]; exact hlrn), hqo]
      refine List.map_congr_left fun o ho => ?_
      exact h.getO (by have := List.mem_range.1 ho; omega)
    have hdd : w.ddims = (List.range (D - 1)).map fun d : Nat =>
        (((d + 1) * t.dgrain.months : Nat) : Int) := by
      rw [At.eq_map hs.developments (by rw [hqdl])]
      refine List.map_congr_left fun d hd => ?_
      have hd' := List.mem_range.1 hd
      rw [hqd, ← h.getDv (by omega : d < D), List.getD_eq_getElem?_getD, List.getElem?_dropLast,
        if_pos (by rw [h.lenD]; exact hd'), ← List.getD_eq_getElem?_getD]
    have hvd : w.vd = a + ((D - 1) * t.dgrain.months : Nat) - 1 := by
      obtain ⟨m, ⟨o, d, ho, hd, hk1, hk2⟩, hmax, hm⟩ := hs.vd
      rw [hqo, h.lenO] at ho
      rw [hqdl] at hd
      have hb := (hkey o ho d hd).1 hk1
      have hm1 := hmax 0 (D - 2) (by rw [hqo, h.lenO]; omega) (by rw [hqdl]; omega)
        ((hkey 0 (by omega) _ (by omega)).2 (by omega))
      rw [hval 0 (by omega) _ (by omega), h.valuation (by omega) (by omega)] at hm1
      rw [hval o ho d hd, h.valuation ho (by omega)] at hk2
      have e1 : q * 0 + (D - 2) + 1 = D - 1 := by omega
      rw [e1] at hm1
      have h5 : (q * o + d + 1) * t.dgrain.months ≤ (D - 1) * t.dgrain.months :=
        Nat.mul_le_mul_right _ (by omega)
      have h6 : (D - 1) * t.dgrain.months ≤ D * t.dgrain.months :=
        Nat.mul_le_mul_right _ (by omega)
      have h7 := h.vd
      have h8 : (quot t v).vd = t.vd := hvt
      rw [hm, h8]
      omega
    have hnan : ∀ i < t.kdims.length, ∀ c < t.vdims.length, ∀ o < linkRows n D q, ∀ d < D - 1,
        ((w.values.get i c o d).numToNan = ratio (t.values.get i c o d) (t.values.get i c o (d + 1))) ∧
        (D - 1 < q * o + d + 1 → (w.values.get i c o d).numToNan = .nan) := by
      intro i hi c hc o ho d hd
      have ho' := (hrow o).1 ho
      have hi' : i < t.values.d0 := by rw [wf.1]; exact hi
      have hc' : c < t.values.d1 := by rw [wf.2.1]; exact hc
      rw [hs.cells i c o d hi' hc' (by simpa using ho) (by simpa using hd)]
      simp only [List.getElem_range]
      split_ifs with hk1
      · have := (hkey o ho'.1 d hd).1 hk1
        refine ⟨?_, fun hc => by omega⟩
        rw [Num.numToNan_numToNan]
        exact quot_cell h.finite nz wf v hi' hc' (by rw [h.lenO]; exact ho'.1) (by rw [h.lenD]; omega)
      · refine ⟨?_, fun _ => rfl⟩
        have hk2 : D < q * o + (d + 1) + 1 := by
          by_contra hcon
          exact hk1 ((hkey o ho'.1 d hd).2 (by omega))
        rw [h.known i hi c hc o ho'.1 (d + 1) (by omega) hk2]
        simp [ratio]
    have key : Grid ({ w with
        isPattern := true
        isCum := some false
        values := w.values.map Num.numToNan } : Tri K) a (linkRows n D q) (D - 1) q := by
      refine ⟨hs.wf, ?_, ?_, ?_, ?_, h2, h.period, ?_, ?_, ?_, ?_, ?_, ?_, ?_⟩
      · intro i hi c hc o ho d hd
        show ((w.values.get i c o d).numToNan).NoInf
        have hi' : i < t.kdims.length := by
          have := hs.wf.1; rw [hs.index, hqk] at this; rw [← this]; exact hi
        have hc' : c < t.vdims.length := by
          have := hs.wf.2.1; rw [hs.columns, hqv] at this; rw [← this]; exact hc
        have ho' : o < linkRows n D q := by
          have := hs.wf.2.2.1; rw [hod] at this; simp at this; rw [← this]; exact ho
        have hd' : d < D - 1 := by
          have := hs.wf.2.2.2; rw [hdd] at this; simp at this; rw [← this]; exact hd
        rw [(hnan i hi' c hc' o ho' d hd').1]
        unfold ratio
        split_ifs <;> trivial
      · exact hs.isVal.trans h.isVal
      · show 1 ≤ w.kdims.length
        rw [hs.index, hqk]; exact h.index_pos
      · show 1 ≤ w.vdims.length
        rw [hs.columns, hqv]; exact h.columns_pos
      · have hm1 := (hrow (linkRows n D q - 1)).1 (by omega)
        omega
      · show w.odims = (List.range (linkRows n D q)).map fun o : Nat =>
          a + (o * q * w.dgrain.months : Nat)
        rw [hod, hg2]
      · show w.ddims = (List.range (D - 1)).map fun d : Nat =>
          (((d + 1) * w.dgrain.months : Nat) : Int)
        rw [hdd, hg2]
      · show w.vd = a + ((D - 1) * w.dgrain.months : Nat) - 1
        rw [hvd, hg2]
      · show (D - 1) * w.dgrain.months < 9999
        rw [hg2]
        exact lt_of_le_of_lt (Nat.mul_le_mul_right _ (by omega)) h.short
      · show w.vd ≤ ultVal
        rw [hvd]
        have h6 : (D - 1) * t.dgrain.months ≤ D * t.dgrain.months := Nat.mul_le_mul_right _ (by omega)
        have := h.vd
        have := h.early
        omega
      · intro i hi c hc o ho d hd hlt
        exact (hnan i (by rw [← hqk, ← hs.index]; exact hi) c (by rw [← hqv, ← hs.columns]; exact hc)
          o ho d hd).2 hlt
    exact ⟨key, hs.index.trans hqk, hs.columns.trans hqv, hg1, hg2,
      fun i hi c hc o ho d hd => (hnan i hi c hc o ho d hd).1⟩

/-- Selecting by valuation keeps the additive flag. -/
theorem getVal_isAdditive {t v : Tri K} {P : Int → Bool} (h : t.getVal P = .ok v) :
    v.isAdditive = t.isAdditive := by
  unfold getVal at h
  split_ifs at h with hd
  · unfold filterMask getIdx at h
    simp only [bind, Except.bind] at h
    split at h
    · cases h
    split at h
    · cases h
    split at h
    · cases h
    split at h
    · cases h
    split_ifs at h
    split at h
    · cases h
    split at h
    · cases h
    split at h
    · cases h
    split at h
    · cases h
    rename_i p3 q3
    by_cases hne : t.isVal = true ∨ p3 ≠ []
    · rw [pick_eq (_ : Tri K) _ _ _ _ (by exact hne)] at h
      injection h with h
      subst h
      rfl
    · exfalso
      simp only [not_or, ne_eq, not_not, Bool.not_eq_true] at hne
      unfold pick at h
      simp [hne.1, hne.2] at h
  · unfold sliceOrigin at h
    simp only [bind, Except.bind] at h
    split_ifs at h
    split at h
    · cases h
    split at h
    · cases h
    injection h with h
    subst h
    rfl

/-- Leaving out the latest diagonal of a triangle on a grid. -/
theorem Standard.before {t : Tri K} {a : Int} {n D q : Nat} (h : Standard t a n D q)
    (h2 : 2 ≤ linkRows n D q) :
    ∃ u, t.getVal (fun v => v < t.vd) = .ok u ∧ Standard u a (linkRows n D q) (D - 1) q ∧
      u.kdims = t.kdims ∧ u.vdims = t.vdims ∧ u.ograin = t.ograin ∧ u.dgrain = t.dgrain ∧
      ∀ i < t.kdims.length, ∀ c < t.vdims.length, ∀ o < linkRows n D q, ∀ d < D - 1,
        u.values.get i c o d =
          if q * o + d + 1 < D then (t.values.get i c o d).numToNan else .nan := by
  have hD := h.two_ages
  have hn2 := h.two_origins
  have hrec := h.recent
  have wf := h.wf
  have hrow : ∀ o, o < linkRows n D q ↔ o < n ∧ q * o + 1 < D := fun o =>
    lt_linkRows hn2 h.period hrec
  have hlrn : linkRows n D q ≤ n := by unfold linkRows; split_ifs <;> omega
  have hkey : ∀ o < n, ∀ d < D, decide (t.valuation o d < t.vd) = true ↔ q * o + d + 1 < D := by
    intro o ho d hd
    rw [decide_eq_true_iff, h.valuation_lt ho hd]
  obtain ⟨w, hg⟩ := C15_succeeds wf h.ordered h.dated h.graded (by rw [h.lenD]; exact hD)
    (P := fun v => v < t.vd) (o := 0) (d := 0)
    (Or.inl fun v w hvw hw => by
      simp only [decide_eq_true_eq] at hw ⊢
      omega)
    (by rw [h.lenO]; omega) (by rw [h.lenD]; omega) ((hkey 0 (by omega) 0 (by omega)).2 (by omega))
  refine ⟨w, hg, ?_⟩
  obtain ⟨rows, cols, hs⟩ := C15_filter_partial wf h.ordered h.dated (by rw [h.lenD]; exact hD) hg
  have hrows : rows = List.range (linkRows n D q) := by
    refine List.Pairwise.eq_of_mem_iff hs.rows_inc List.pairwise_lt_range fun o => ?_
    rw [hs.mem_rows, List.mem_range, hrow, h.lenO, h.lenD]
    constructor
    · rintro ⟨ho, d, hd, hk⟩
      have := (hkey o ho d hd).1 hk
      exact ⟨ho, by omega⟩
    · rintro ⟨ho, hlt⟩
      exact ⟨ho, 0, by omega, (hkey o ho 0 (by omega)).2 (by omega)⟩
  have hcols : cols = List.range (D - 1) := by
    refine List.Pairwise.eq_of_mem_iff hs.cols_inc List.pairwise_lt_range fun d => ?_
    rw [hs.mem_cols, List.mem_range, h.lenO, h.lenD]
    constructor
    · rintro ⟨hd, o, ho, hk⟩
      have := (hkey o ho d hd).1 hk
      omega
    · exact fun hd => ⟨by omega, 0, by omega, (hkey 0 (by omega) d (by omega)).2 (by omega)⟩
  subst hrows hcols
  have hk := getVal_keeps hg
  have hg1 : w.ograin = t.ograin := hk.2.1
  have hg2 : w.dgrain = t.dgrain := hk.2.2.1
  have hod : w.odims = (List.range (linkRows n D q)).map fun o : Nat =>
      a + (o * q * t.dgrain.months : Nat) := by
    rw [At.eq_map hs.origins (by rw [h.lenO]; exact hlrn)]
    refine List.map_congr_left fun o ho => ?_
    exact h.getO (by have := List.mem_range.1 ho; omega)
  have hdd : w.ddims = (List.range (D - 1)).map fun d : Nat =>
      (((d + 1) * t.dgrain.months : Nat) : Int) := by
    rw [At.eq_map hs.developments (by rw [h.lenD]; omega)]
    refine List.map_congr_left fun d hd => ?_
    have hd' := List.mem_range.1 hd
    exact h.getDv (by omega)
  have hvd : w.vd = a + ((D - 1) * t.dgrain.months : Nat) - 1 := by
    obtain ⟨m, ⟨o, d, ho, hd, hk1, hk2⟩, hmax, hm⟩ := hs.vd
    rw [h.lenO] at ho
    rw [h.lenD] at hd
    have hb := (hkey o ho d hd).1 hk1
    have hm1 := hmax 0 (D - 2) (by rw [h.lenO]; omega) (by rw [h.lenD]; omega)
      ((hkey 0 (by omega) _ (by omega)).2 (by omega))
    rw [h.valuation (by omega) (by omega)] at hm1
    rw [h.valuation ho (by omega)] at hk2
    have e1 : q * 0 + (D - 2) + 1 = D - 1 := by omega
    rw [e1] at hm1
    have h5 : (q * o + d + 1) * t.dgrain.months ≤ (D - 1) * t.dgrain.months :=
      Nat.mul_le_mul_right _ (by omega)
    have h6 : (D - 1) * t.dgrain.months ≤ D * t.dgrain.months :=
      Nat.mul_le_mul_right _ (by omega)
    have h7 := h.vd
    rw [hm]
    omega
  have hcell : ∀ i < t.kdims.length, ∀ c < t.vdims.length, ∀ o < linkRows n D q, ∀ d < D - 1,
      w.values.get i c o d = if q * o + d + 1 < D then (t.values.get i c o d).numToNan else .nan := by
    intro i hi c hc o ho d hd
    have ho' := (hrow o).1 ho
    rw [hs.cells i c o d (by rw [wf.1]; exact hi) (by rw [wf.2.1]; exact hc) (by simpa using ho)
      (by simpa using hd)]
    simp only [List.getElem_range]
    simp only [hkey o ho'.1 d (show d < D by omega)]
  have hadd : w.isAdditive = t.isAdditive := getVal_isAdditive hg
  refine ⟨⟨⟨hs.wf, ?_, hs.isVal.trans h.isVal, by rw [hs.index]; exact h.index_pos,
    by rw [hs.columns]; exact h.columns_pos, h2, h.period, ?_, by rw [hod, hg2], by rw [hdd, hg2],
    by rw [hvd, hg2], ?_, ?_, ?_⟩, ?_, ?_, ?_⟩, hs.index, hs.columns, hg1, hg2, hcell⟩
  · intro i hi c hc o ho d hd
    have hi' : i < t.kdims.length := by have := hs.wf.1; rw [hs.index] at this; omega
    have hc' : c < t.vdims.length := by have := hs.wf.2.1; rw [hs.columns] at this; omega
    have ho' : o < linkRows n D q := by have := hs.wf.2.2.1; rw [hod] at this; simp at this; omega
    have hd' : d < D - 1 := by have := hs.wf.2.2.2; rw [hdd] at this; simp at this; omega
    rw [hcell i hi' c hc' o ho' d hd']
    split_ifs
    · exact Num.noInf_numToNan (h.finite i (by rw [wf.1]; exact hi') c (by rw [wf.2.1]; exact hc') o
        (by rw [wf.2.2.1, h.lenO]; omega) d (by rw [wf.2.2.2, h.lenD]; omega))
    · trivial
  · have hm1 := (hrow (linkRows n D q - 1)).1 (by omega)
    omega
  · rw [hg2]; exact lt_of_le_of_lt (Nat.mul_le_mul_right _ (by omega)) h.short
  · rw [hvd]
    have h6 : (D - 1) * t.dgrain.months ≤ D * t.dgrain.months := Nat.mul_le_mul_right _ (by omega)
    have := h.vd
    have := h.early
    omega
  · intro i hi c hc o ho d hd hlt
    rw [hcell i (by rw [← hs.index]; exact hi) c (by rw [← hs.columns]; exact hc) o ho d hd,
      if_neg (by omega)]
  · rw [hk.2.2.2.2]; exact h.cumulative
  · rw [hk.2.2.2.1]; exact h.noPattern
  · rw [hadd]; exact h.multiplicative

end Tri
end CL
