import Verif.Model.Reshape
import Verif.Props.C14
import Verif.Props.C19
import Verif.Props.C09

set_option linter.unusedSectionVars false

/-! # C24: fillna and dropna -/

namespace CL
namespace Tri
variable {K : Type} [Field K] [LinearOrder K] [IsStrictOrderedRing K]

/-! ## fillna -/

private theorem eqb_zero (a : K) : (Num.fin a : Num K).eqb 0 = decide (a = 0) := by
  simp [Num.eqb, Num.zero_def]

private theorem fillna_eq {t : Tri K} (wf : WF t) (fin : Finite t) (v : K) :
    ∃ u, t.fillna v = .ok u ∧ u = { t with values := u.values } ∧
      Arr.SameShape u.values t.values ∧
      ∀ i < t.values.d0, ∀ c < t.values.d1, ∀ o < t.values.d2, ∀ d < t.values.d3,
        u.values.get i c o d =
          (Num.fin (if (t.values.get i c o d).amt = 0 then v else (t.values.get i c o d).amt) *
            (t.nanTri o d).nanToNum).numToNan := by
  set frame : Tri K := ({ t with values := { t.values with get := fun i c o d =>
    (t.values.get i c o d).nanToNum + (Num.fin v * 0).nanToNum } } : Tri K).cleanup with hfr
  have e1 : t.addArr (Arr.scalar (Num.fin v * 0)) = .ok frame := by
    simp only [addArr, zipArr, Arr.zip_scalar, bind, Except.bind]
    rfl
  set z0 : Tri K := { t with values := { t.values with get := fun i c o d =>
      (t.values.get i c o d * 0) } } with hz0
  have e2 : t.mulArr (Arr.scalar 0) = .ok z0 := by
    simp only [mulArr, zipArr, Arr.zip_scalar, bind, Except.bind]
    rfl
  set z : Tri K := ({ z0 with values := { z0.values with get := fun i c o d =>
    (z0.values.get i c o d).nanToNum + (Num.fin v).nanToNum } } : Tri K).cleanup with hz
  have e3 : z0.addArr (Arr.scalar (.fin v)) = .ok z := by
    simp only [addArr, zipArr, Arr.zip_scalar, bind, Except.bind]
    rfl
  set m : Arr K := frame.values.map fun x => Num.ofBool (x.nanToNum.eqb 0) with hm
  set fill : Tri K := { z with values := { z.values with get := fun i c o d =>
      (z.values.get i c o d * m.get i c o d) } } with hfi
  have e4 : z.mulArr m = .ok fill := by
    have : Arr.SameShape z.values m := ⟨rfl, rfl, rfl, rfl⟩
    simp only [mulArr, zipArr, Arr.zip_same _ this, bind, Except.bind]
    rfl
  have e5 := add_same (x := frame) (y := fill) ⟨rfl, rfl, rfl, rfl, rfl, rfl, rfl, rfl⟩ wf wf
  have hmx : max frame.vd fill.vd = t.vd := max_self _
  refine ⟨{ t with values := { t.values with get := fun i c o d =>
      (((frame.values.get i c o d).nanToNum + (fill.values.get i c o d).nanToNum) *
          (nanTri { frame with vd := max frame.vd fill.vd } o d).nanToNum).numToNan } },
    ?_, rfl, ⟨rfl, rfl, rfl, rfl⟩, ?_⟩
  · simp only [fillna, e1, e2, e3, bind, Except.bind]
    rw [← hm, e4]
    simp only [e5]
    rfl
  · intro i hi c hc o ho d hd
    have hn := fin i hi c hc o ho d hd
    have hw : nanTri { frame with vd := max frame.vd fill.vd } o d = t.nanTri o d := by
      rw [hmx]; rfl
    have hw2 : nanTri z0 o d = t.nanTri o d := rfl
    show ((((frame.values.get i c o d).nanToNum + (fill.values.get i c o d).nanToNum) *
          (nanTri { frame with vd := max frame.vd fill.vd } o d).nanToNum).numToNan) = _
    rw [hw]
    have hfc : frame.values.get i c o d = (((t.values.get i c o d).nanToNum +
        (Num.fin v * 0).nanToNum) * (t.nanTri o d).nanToNum).numToNan := rfl
    have hzc : z.values.get i c o d = (((t.values.get i c o d * 0).nanToNum +
        (Num.fin v).nanToNum) * (t.nanTri o d).nanToNum).numToNan := rfl
    have hic : fill.values.get i c o d = z.values.get i c o d *
        Num.ofBool ((frame.values.get i c o d).nanToNum.eqb 0) := rfl
    rw [hic, hzc, hfc]
    rw [Num.nanToNum_eq hn]
    have h0 : ((t.values.get i c o d * 0).nanToNum : Num K) = .fin 0 := by
      rcases Num.noInf_cases hn with e | ⟨a, e⟩ <;> rw [e] <;> simp [Num.zero_def, Num.nanToNum]
    have h1 : (Num.fin v * 0 : Num K).nanToNum = .fin 0 := by simp [Num.zero_def, Num.nanToNum]
    rw [h0, h1]
    generalize (t.values.get i c o d).amt = a
    rcases nanTri_eq t o d with e | ⟨e, -⟩ <;> rw [e]
    · by_cases ha : a = 0 <;> by_cases hv : v = 0 <;>
        simp [ha, hv, Num.zero_def, Num.one_def, Num.nanToNum, Num.numToNan, Num.eqb, Num.ofBool]
    · by_cases ha : a = 0 <;> by_cases hv : v = 0 <;>
        simp [ha, hv, Num.zero_def, Num.one_def, Num.nanToNum, Num.numToNan, Num.eqb, Num.ofBool]

/-- **C24**, fillna, for triangles with at least two origins and two developments: exactly the
observed cells without amount change, to the given value.  False for the others. -/
theorem C24_fillna_partial {t : Tri K} (h : Regular t) {v : K} (hv : v ≠ 0)
    (h1 : min t.values.d2 t.values.d3 ≠ 1) :
    ∃ u, t.fillna v = .ok u ∧ u = { t with values := u.values } ∧
      Arr.SameShape u.values t.values ∧
      ∀ i < t.values.d0, ∀ c < t.values.d1, ∀ o < t.values.d2, ∀ d < t.values.d3,
        (t.valuation o d ≤ t.vd → (t.values.get i c o d).amt = 0 → u.values.get i c o d = .fin v) ∧
        ((t.values.get i c o d).amt ≠ 0 → u.values.get i c o d = t.values.get i c o d) ∧
        (t.vd < t.valuation o d → u.values.get i c o d = .nan) := by
  obtain ⟨u, u1, u2, u3, u4⟩ := fillna_eq h.wf h.finite v
  refine ⟨u, u1, u2, u3, ?_⟩
  intro i hi c hc o ho d hd
  have hn := h.finite i hi c hc o ho d hd
  have hk := h.known i hi c hc o ho d hd
  have e : ∀ w, (w = 1 ∨ w = (0 : K)) → (Num.fin v * Num.fin w : Num K).numToNan =
      if w = 1 then .fin v else .nan := by
    rintro w (rfl | rfl) <;> simp [Num.numToNan, hv]
  rw [u4 i hi c hc o ho d hd]
  refine ⟨fun hle ha => ?_, fun ha => ?_, fun hlt => ?_⟩
  · have : t.nanTri o d = 1 := by
      unfold nanTri; rw [if_neg h1, if_neg (by omega)]
    rw [this, if_pos ha]
    simp [Num.one_def, Num.nanToNum, Num.numToNan, hv]
  · have hle : t.valuation o d ≤ t.vd := by
      by_contra hlt
      rw [hk (by omega)] at ha
      exact ha rfl
    have : t.nanTri o d = 1 := by
      unfold nanTri; rw [if_neg h1, if_neg (by omega)]
    rw [this, if_neg ha]
    rcases Num.noInf_cases hn with e | ⟨a, e⟩
    · rw [e] at ha; exact absurd rfl ha
    · rw [e] at ha ⊢
      have : a ≠ 0 := ha
      simp [Num.one_def, Num.nanToNum, Num.numToNan, Num.amt, this]
  · have : t.nanTri o d = .nan := by
      unfold nanTri; rw [if_neg h1, if_pos hlt]
    rw [this]
    simp [Num.nanToNum, Num.numToNan]

example : Regular (Ex.tri3 (some true) Ex.cum3) ∧
    min (Ex.tri3 (some true) Ex.cum3).values.d2 (Ex.tri3 (some true) Ex.cum3).values.d3 ≠ 1 :=
  ⟨(Ex.proper_tri3 _).regular, by decide⟩

/-- **C24 is false for a triangle with one origin**: `fillna` also fills cells after the valuation
date. -/
theorem C24_fillna_false : ∃ t x u : Tri ℚ, Proper t ∧ t.ilocAx .origin (.int (-1)) = .ok x ∧
    Regular x ∧ x.fillna 7 = .ok u ∧ x.vd < x.valuation 0 2 ∧ x.values.get 0 0 0 2 = .nan ∧
    u.values.get 0 0 0 2 = .fin 7 := by
  have e : (Ex.tri3 (some true) Ex.cum3).ilocAx .origin (.int (-1)) = .ok
      ((Ex.tri3 (some true) Ex.cum3).picked [0] [0] [2] [0, 1, 2] 24275) := rfl
  refine ⟨Ex.tri3 (some true) Ex.cum3, _, _, Ex.proper_tri3 _, e, ⟨by decide, by decide,
    by decide, by decide⟩, rfl, ?_⟩
  decide +kernel

/-! ## dropna -/

private theorem fin_numToNan (a : K) :
    ((Num.fin a).numToNan).NoInf ∧ ((Num.fin a).numToNan).amt = a := by
  by_cases h : a = 0
  · subst h; simp [Num.numToNan, Num.amt, Num.NoInf]
  · simp [Num.numToNan, Num.amt, Num.NoInf, h]

/-- Total of all amounts of an origin. -/
def originTotal (t : Tri K) (o : Nat) : K :=
  ∑ d ∈ Finset.range t.values.d3, ∑ c ∈ Finset.range t.values.d1, ∑ i ∈ Finset.range t.values.d0,
    (t.values.get i c o d).amt

/-- Total of all amounts of a development. -/
def devTotal (t : Tri K) (d : Nat) : K :=
  ∑ o ∈ Finset.range t.values.d2, ∑ c ∈ Finset.range t.values.d1, ∑ i ∈ Finset.range t.values.d0,
    (t.values.get i c o d).amt

/-- `lo..hi` are the positions below `n` from the first to the last with a nonzero total. -/
def Span (f : Nat → K) (n lo hi : Nat) : Prop :=
  lo ≤ hi ∧ hi < n ∧ f lo ≠ 0 ∧ f hi ≠ 0 ∧ (∀ j < lo, f j = 0) ∧ ∀ j < n, hi < j → f j = 0

private theorem span_exists {f : Nat → K} {n : Nat} (h : ∃ j < n, f j ≠ 0) :
    ∃ lo hi, Span f n lo hi := by
  classical
  let s := (Finset.range n).filter fun j => f j ≠ 0
  have hs : s.Nonempty := by
    obtain ⟨j, h1, h2⟩ := h
    exact ⟨j, by simp [s, h1, h2]⟩
  have m1 := Finset.min'_mem s hs
  have m2 := Finset.max'_mem s hs
  simp only [s, Finset.mem_filter, Finset.mem_range] at m1 m2
  refine ⟨s.min' hs, s.max' hs, Finset.min'_le_max' s hs, m2.1, m1.2, m2.2, ?_, ?_⟩
  · intro j hj
    by_contra hne
    have hjn : j < n := by have := m1.1; simp only [s] at hj; omega
    have : s.min' hs ≤ j := Finset.min'_le s j (by simp [s, hne, hjn])
    omega
  · intro j hj hlt
    by_contra hne
    have : j ≤ s.max' hs := Finset.le_max' s j (by simp [s, hne]; omega)
    omega

private theorem grandSum_eq {t : Tri K} (wf : WF t) (fin : Finite t) (hk : 0 < t.kdims.length)
    (hc : 0 < t.vdims.length) (h1 : ¬ (t.values.d2 = 1 ∧ t.values.d3 = 1)) :
    ∃ s, t.grandSum = .ok s ∧ s.odims = t.odims ∧ s.ddims = t.ddims ∧
      s.values.d2 = t.values.d2 ∧ s.values.d3 = t.values.d3 ∧
      ∀ o < t.values.d2, ∀ d < t.values.d3, s.values.get 0 0 o d =
        (Num.fin (∑ c ∈ Finset.range t.values.d1, ∑ i ∈ Finset.range t.values.d0,
          (t.values.get i c o d).amt)).numToNan := by
  obtain ⟨a1, a2, a3, a4, a5, a6, a7, a8⟩ := C19_sum wf fin .index hk
  obtain ⟨w0, w1, w2, w3⟩ := wf
  set a := t.sumKeep .index with ha
  have ad1 : a.values.d1 = t.values.d1 := by rw [a1.2.1, a5 (by simp), w1]
  have ad2 : a.values.d2 = t.values.d2 := by rw [a1.2.2.1, a6 (by simp), w2]
  have ad3 : a.values.d3 = t.values.d3 := by rw [a1.2.2.2, a7 (by simp), w3]
  have ad0 : a.values.d0 = 1 := by rw [a1.1]; exact a2
  have ea : t.sum .index = .tri a := (C19_sum_result t .index).2 (by
    intro h
    exact h1 ⟨by rw [← ad2]; exact h .origin, by rw [← ad3]; exact h .development⟩)
  have cella : ∀ c < t.values.d1, ∀ o < t.values.d2, ∀ d < t.values.d3,
      a.values.get 0 c o d = (Num.fin (∑ i ∈ Finset.range t.values.d0,
        (t.values.get i c o d).amt)).numToNan := by
    intro c hc o ho d hd
    have := a8 (fun x => match x with
      | .index => 0 | .columns => c | .origin => o | .development => d) (by
        intro b hb; cases b <;> simp_all [Arr.dim])
    exact this
  have fa : Finite a := by
    intro i hi c hc o ho d hd
    rw [ad0] at hi
    have : i = 0 := by omega
    subst this
    rw [cella c (by rw [← ad1]; exact hc) o (by rw [← ad2]; exact ho) d (by rw [← ad3]; exact hd)]
    exact (fin_numToNan _).1
  obtain ⟨b1, b2, b3, b4, b5, b6, b7, b8⟩ := C19_sum a1 fa .columns (by
    show 0 < a.vdims.length
    rw [a5 (by simp)]; exact hc)
  set b := a.sumKeep .columns with hb
  have bd2 : b.values.d2 = t.values.d2 := by rw [b1.2.2.1, b6 (by simp), ← a1.2.2.1, ad2]
  have bd3 : b.values.d3 = t.values.d3 := by rw [b1.2.2.2, b7 (by simp), ← a1.2.2.2, ad3]
  have eb : a.sum .columns = .tri b := (C19_sum_result a .columns).2 (by
    intro h
    exact h1 ⟨by rw [← bd2]; exact h .origin, by rw [← bd3]; exact h .development⟩)
  refine ⟨b, by simp only [grandSum, ea, eb], by rw [b6 (by simp), a6 (by simp)],
    by rw [b7 (by simp), a7 (by simp)], bd2, bd3, ?_⟩
  intro o ho d hd
  have := b8 (fun x => match x with
      | .index => 0 | .columns => 0 | .origin => o | .development => d) (by
        intro b hb; cases b <;> simp_all [Arr.dim])
  have e : b.values.cell (fun x => match x with
      | .index => 0 | .columns => 0 | .origin => o | .development => d) =
      b.values.get 0 0 o d := rfl
  rw [← e, this]
  congr 2
  show ∑ c ∈ Finset.range a.values.d1, (a.values.get 0 c o d).amt = _
  rw [ad1]
  apply Finset.sum_congr rfl
  intro c hc
  rw [cella c (by simpa using hc) o ho d hd]
  exact (fin_numToNan _).2

private theorem totals_mask {n m : Nat} (g : Nat → Nat → Num K) (f : Nat → Nat → K)
    (h : ∀ a < n, ∀ b < m, g a b = (Num.fin (f a b)).numToNan) (a : Nat) (ha : a < n) :
    (!(∑ b ∈ Finset.range m, (g a b).nan0).eqb 0) = decide (∑ b ∈ Finset.range m, f a b ≠ 0) := by
  rw [Num.sum_nan0 _ _ (by
    intro b hb
    rw [h a ha b (by simpa using hb)]
    exact (fin_numToNan _).1)]
  rw [eqb_zero]
  have : ∑ b ∈ Finset.range m, (g a b).amt = ∑ b ∈ Finset.range m, f a b := by
    apply Finset.sum_congr rfl
    intro b hb
    rw [h a ha b (by simpa using hb)]
    exact (fin_numToNan _).2
  rw [this]
  simp

/-- The positions of the labels between two labels of an increasing list. -/
private theorem between {l : List Int} (hs : l.Pairwise (· < ·)) {lo hi : Nat} (h1 : lo ≤ hi)
    (h2 : hi < l.length) :
    TruePositions (l.map fun x => decide (l.getD lo 0 ≤ x) && decide (x ≤ l.getD hi 0)) =
      (List.range (hi + 1 - lo)).map (· + lo) := by
  have hm : ∀ i j, i < l.length → j < l.length → (l.getD i 0 ≤ l.getD j 0 ↔ i ≤ j) := by
    intro i j hi hj
    rw [List.getD_eq_getElem _ _ hi, List.getD_eq_getElem _ _ hj]
    rw [List.pairwise_iff_getElem] at hs
    constructor
    · intro h
      by_contra hlt
      have := hs j i hj hi (by omega)
      omega
    · intro h
      rcases Nat.lt_or_ge i j with h' | h'
      · exact (hs i j hi hj h').le
      · have : i = j := by omega
        subst this; exact le_refl _
  unfold TruePositions
  rw [List.length_map]
  apply List.Perm.eq_of_pairwise (le := (· < ·))
  · intro a b _ _ h h'; omega
  · exact List.Pairwise.filter _ List.pairwise_lt_range
  · rw [List.pairwise_map]
    exact List.pairwise_lt_range.imp (by intro a b h; omega)
  · rw [List.perm_ext_iff_of_nodup]
    · intro i
      simp only [List.mem_filter, List.mem_range, List.mem_map]
      constructor
      · rintro ⟨h3, h4⟩
        rw [List.getElem?_map, List.getElem?_eq_getElem h3] at h4
        simp only [Option.map_some, Option.some.injEq, Bool.and_eq_true, decide_eq_true_eq] at h4
        rw [← List.getD_eq_getElem l 0 h3, hm _ _ (by omega) h3, hm _ _ h3 h2] at h4
        exact ⟨i - lo, by omega, by omega⟩
      · rintro ⟨a, h3, rfl⟩
        have h4 : a + lo < l.length := by omega
        refine ⟨h4, ?_⟩
        rw [List.getElem?_map, List.getElem?_eq_getElem h4]
        simp only [Option.map_some, Option.some.injEq, Bool.and_eq_true, decide_eq_true_eq]
        rw [← List.getD_eq_getElem l 0 h4, hm _ _ (by omega) h4, hm _ _ h4 h2]
        omega
    · exact List.Nodup.filter _ List.nodup_range
    · exact List.Nodup.map (by intro a b h; simpa using h) List.nodup_range

private theorem first_true {f : Nat → K} {n lo hi : Nat} (h : Span f n lo hi) :
    ((List.range n).map fun o => decide (f o ≠ 0)).findIdx id = lo ∧
    ((List.range n).map fun o => decide (f o ≠ 0)).length - 1 -
      (((List.range n).map fun o => decide (f o ≠ 0)).reverse.findIdx id) = hi := by
  obtain ⟨h1, h2, h3, h4, h5, h6⟩ := h
  constructor
  · rw [List.findIdx_eq (by simp; omega)]
    refine ⟨by simp [h3], ?_⟩
    intro j hj
    simp [h5 j hj]
  · have : (((List.range n).map fun o => decide (f o ≠ 0)).reverse.findIdx id) = n - 1 - hi := by
      rw [List.findIdx_eq (by simp; omega)]
      refine ⟨?_, ?_⟩
      · rw [List.getElem_reverse]
        have : n - 1 - (n - 1 - hi) = hi := by omega
        simp [this, h4]
      · intro j hj
        rw [List.getElem_reverse]
        have := h6 (n - 1 - j) (by omega) (by omega)
        simp [this]
    rw [this]
    simp
    omega

private theorem spanMask_eq {f : Nat → K} {l : List Int} {lo hi : Nat}
    (h : Span f l.length lo hi) :
    spanMask l ((List.range l.length).map fun o => decide (f o ≠ 0)) =
      l.map fun x => decide (l.getD lo 0 ≤ x) && decide (x ≤ l.getD hi 0) := by
  obtain ⟨e1, e2⟩ := first_true h
  unfold spanMask
  rw [e1, e2]

private theorem labelMask_eq {f : Nat → K} {l : List Int} (hs : l.Pairwise (· < ·)) {lo hi : Nat}
    (h : Span f l.length lo hi) :
    labelMask l ((List.range l.length).map fun o => decide (f o ≠ 0)) =
      l.map fun x => decide (l.getD lo 0 ≤ x) && decide (x ≤ l.getD hi 0) := by
  obtain ⟨h1, h2, h3, h4, h5, h6⟩ := h
  have hml : ∀ x, x ∈ maskLabels l ((List.range l.length).map fun o => decide (f o ≠ 0)) ↔
      ∃ j < l.length, f j ≠ 0 ∧ x = l.getD j 0 := by
    intro x
    rw [maskLabels_eq (0 : Int) _ _ (by simp)]
    simp only [TruePositions, List.length_map, List.length_range, List.mem_map, List.mem_filter,
      List.mem_range]
    constructor
    · rintro ⟨j, ⟨h7, h8⟩, rfl⟩
      refine ⟨j, h7, ?_, rfl⟩
      simpa [h7] using h8
    · rintro ⟨j, h7, h8, rfl⟩
      exact ⟨j, ⟨h7, by simp [h7, h8]⟩, rfl⟩
  have hmono : ∀ i j, i ≤ j → j < l.length → l.getD i 0 ≤ l.getD j 0 := by
    intro i j hij hj
    rw [List.getD_eq_getElem _ _ (by omega), List.getD_eq_getElem _ _ hj]
    rw [List.pairwise_iff_getElem] at hs
    rcases Nat.lt_or_ge i j with h' | h'
    · exact (hs i j (by omega) hj h').le
    · have : i = j := by omega
      subst this; exact le_refl _
  have e1 : (maskLabels l ((List.range l.length).map fun o => decide (f o ≠ 0))).min? =
      some (l.getD lo 0) := by
    rw [List.min?_eq_some_iff]
    refine ⟨(hml _).2 ⟨lo, by omega, h3, rfl⟩, ?_⟩
    intro b hb
    obtain ⟨j, h7, h8, rfl⟩ := (hml _).1 hb
    refine hmono _ _ ?_ h7
    by_contra hlt
    exact h8 (h5 j (by omega))
  have e2 : (maskLabels l ((List.range l.length).map fun o => decide (f o ≠ 0))).max? =
      some (l.getD hi 0) := by
    rw [List.max?_eq_some_iff]
    refine ⟨(hml _).2 ⟨hi, by omega, h4, rfl⟩, ?_⟩
    intro b hb
    obtain ⟨j, h7, h8, rfl⟩ := (hml _).1 hb
    refine hmono _ _ ?_ h2
    by_contra hlt
    exact h8 (h6 j h7 (by omega))
  unfold labelMask
  rw [e1, e2]

/-- What `dropna` works on. -/
structure Droppable (t : Tri K) : Prop where
  wf : WF t
  finite : Finite t
  index : 0 < t.kdims.length
  columns : 0 < t.vdims.length
  origins : t.odims.Pairwise (· < ·)
  devs : t.ddims.Pairwise (· < ·)
  cells : ¬ (t.values.d2 = 1 ∧ t.values.d3 = 1)

private theorem masks {t : Tri K} (h : Droppable t) : ∃ s, t.grandSum = .ok s ∧
    s.odims = t.odims ∧ s.ddims = t.ddims ∧ s.values.d3 = t.values.d3 ∧
    ((List.range s.values.d2).map fun o =>
      !(∑ d ∈ Finset.range s.values.d3, (s.values.get 0 0 o d).nan0).eqb 0) =
      ((List.range t.odims.length).map fun o => decide (t.originTotal o ≠ 0)) ∧
    ((List.range s.values.d3).map fun d =>
        !(∑ o ∈ Finset.range s.values.d2, (s.values.get 0 0 o d).nan0).eqb 0) =
      ((List.range t.ddims.length).map fun d => decide (t.devTotal d ≠ 0)) := by
  obtain ⟨s, s1, s2, s3, s4, s5, s6⟩ := grandSum_eq h.wf h.finite h.index h.columns h.cells
  refine ⟨s, s1, s2, s3, s5, ?_, ?_⟩
  · rw [s4, s5, ← h.wf.2.2.1]
    apply List.map_congr_left
    intro o ho
    exact totals_mask (fun o d => s.values.get 0 0 o d) _ s6 o (by simpa using ho)
  · rw [s4, s5, ← h.wf.2.2.2]
    apply List.map_congr_left
    intro d hd
    exact totals_mask (fun d o => s.values.get 0 0 o d) _ (fun d hd o ho => s6 o ho d hd) d
      (by simpa using hd)

/-- The block `lo..hi` of a list of labels. -/
def Block (l out : List Int) (lo hi : Nat) : Prop :=
  out.length = hi + 1 - lo ∧ ∀ j < hi + 1 - lo, out[j]? = l[lo + j]?

private theorem block_of_at {l out : List Int} {lo hi : Nat} {ps : List Nat}
    (e : ps = (List.range (hi + 1 - lo)).map (· + lo)) (h : At l out ps) : Block l out lo hi := by
  subst e
  obtain ⟨h1, h2⟩ := h
  refine ⟨by simpa using h1, ?_⟩
  intro j hj
  have := h2 j (by simpa using hj)
  rw [this]
  simp [Nat.add_comm]

/-- **C24**, dropna: the result is the block of origins and developments from the first to the last
whose amounts have a nonzero total, with all its cells.  A single development is kept as it is. -/
theorem C24_dropna {t : Tri K} (h : Droppable t) (ho : ∃ o < t.odims.length, t.originTotal o ≠ 0)
    (hd : t.ddims.length = 1 ∨ ∃ d < t.ddims.length, t.devTotal d ≠ 0) :
    ∃ u a b a' b', t.dropna = .ok u ∧ WF u ∧ u.kdims = t.kdims ∧ u.vdims = t.vdims ∧
      u.vd = t.vd ∧ Span t.originTotal t.odims.length a b ∧ Block t.odims u.odims a b ∧
      (t.ddims.length ≠ 1 → Span t.devTotal t.ddims.length a' b') ∧
      (t.ddims.length = 1 → a' = 0 ∧ b' = 0) ∧ Block t.ddims u.ddims a' b' ∧
      ∀ i < t.values.d0, ∀ c < t.values.d1, ∀ o < b + 1 - a, ∀ d < b' + 1 - a',
        u.values.get i c o d = t.values.get i c (a + o) (a' + d) := by
  obtain ⟨s, s1, s2, s3, s4, s5, s6⟩ := masks h
  obtain ⟨a, b, hab⟩ := span_exists ho
  have hany : ((List.range t.odims.length).map fun o => decide (t.originTotal o ≠ 0)).contains true
      = true := by
    obtain ⟨o, h1, h2⟩ := ho
    simp only [List.contains_eq_mem, decide_eq_true_eq, List.mem_map, List.mem_range]
    exact ⟨o, h1, by simp [h2]⟩
  have hne : ∀ {lo hi : Nat}, lo ≤ hi → (List.range (hi + 1 - lo)).map (· + lo) ≠ [] := by
    intro lo hi h
    simp; omega
  have ebo := between h.origins hab.1 hab.2.1
  by_cases h1 : t.ddims.length = 1
  · have hm : TruePositions (t.odims.map fun x => decide (t.odims.getD a 0 ≤ x) &&
        decide (x ≤ t.odims.getD b 0)) ≠ [] := by rw [ebo]; exact hne hab.1
    obtain ⟨u, u1, u2, u3, u4, u5, u6, u7, u8⟩ := C14_mask_origin h.wf
      (m := t.odims.map fun x => decide (t.odims.getD a 0 ≤ x) && decide (x ≤ t.odims.getD b 0))
      (by simp) hm
    refine ⟨u, a, b, 0, 0, ?_, u2, u3, u4, u6, hab, block_of_at ebo u7, fun h => absurd h1 h,
      fun _ => ⟨rfl, rfl⟩, ?_, ?_⟩
    · simp only [dropna, s1, bind, Except.bind]
      rw [s5, hany, s2, spanMask_eq hab, if_neg (by simp),
        if_neg (by rw [s4, h.wf.2.2.2, h1]; simp)]
      exact u1
    · rw [u5]
      refine ⟨by rw [h1], ?_⟩
      intro j hj
      rw [Nat.zero_add]
    · intro i hi c hc o ho d hd
      rw [u8 i c o d hi hc (by rw [ebo]; simpa using ho) (by rw [h.wf.2.2.2, h1]; exact hd)]
      simp only [ebo]
      simp [Nat.add_comm]
  · have hd : ∃ d < t.ddims.length, t.devTotal d ≠ 0 := hd.resolve_left h1
    obtain ⟨a', b', hab'⟩ := span_exists hd
    have ebd := between h.devs hab'.1 hab'.2.1
    have hm' : TruePositions (t.ddims.map fun x => decide (t.ddims.getD a' 0 ≤ x) &&
        decide (x ≤ t.ddims.getD b' 0)) ≠ [] := by rw [ebd]; exact hne hab'.1
    obtain ⟨v, v1, v2, v3, v4, v5, v6, v7, v8⟩ := C14_mask_development h.wf
      (m := t.ddims.map fun x => decide (t.ddims.getD a' 0 ≤ x) && decide (x ≤ t.ddims.getD b' 0))
      (by simp) hm'
    have hm : TruePositions (t.odims.map fun x => decide (t.odims.getD a 0 ≤ x) &&
        decide (x ≤ t.odims.getD b 0)) ≠ [] := by rw [ebo]; exact hne hab.1
    obtain ⟨u, u1, u2, u3, u4, u5, u6, u7, u8⟩ := C14_mask_origin v2
      (m := t.odims.map fun x => decide (t.odims.getD a 0 ≤ x) && decide (x ≤ t.odims.getD b 0))
      (by rw [v5]; simp) hm
    have hbd := block_of_at ebd v7
    have hbo : Block t.odims u.odims a b := by
      rw [v5] at u7
      exact block_of_at ebo u7
    refine ⟨u, a, b, a', b', ?_, u2, u3.trans v3, u4.trans v4, u6.trans v6, hab,
      hbo, fun _ => hab', fun h => absurd h h1,
      by rw [u5]; exact hbd, ?_⟩
    · simp only [dropna, s1, bind, Except.bind]
      rw [s5, hany, s2, s6, s3, spanMask_eq hab, labelMask_eq h.devs hab', if_neg (by simp),
        if_pos (by rw [s4, h.wf.2.2.2]; exact h1)]
      simp only [v1]
      exact u1
    · intro i hi c hc o ho d hd
      have d0 : v.values.d0 = t.values.d0 := by rw [v2.1, v3, h.wf.1]
      have d1 : v.values.d1 = t.values.d1 := by rw [v2.2.1, v4, h.wf.2.1]
      have d3 : v.values.d3 = b' + 1 - a' := by rw [v2.2.2.2, hbd.1]
      rw [u8 i c o d (by rw [d0]; exact hi) (by rw [d1]; exact hc) (by rw [ebo]; simpa using ho)
        (by rw [d3]; exact hd)]
      have ha : o + a < t.values.d2 := by rw [h.wf.2.2.1]; have := hab.2.1; omega
      simp only [ebo, List.getElem_map, List.getElem_range]
      rw [v8 i c _ d hi hc ha (by rw [ebd]; simpa using hd)]
      simp only [ebd, List.getElem_map, List.getElem_range]
      rw [Nat.add_comm o, Nat.add_comm d]

/-- **C24**: without any nonzero origin total, `dropna` raises. -/
theorem C24_dropna_empty {t : Tri K} (h : Droppable t)
    (ho : ∀ o < t.odims.length, t.originTotal o = 0) : t.dropna = .error .valueError := by
  obtain ⟨s, s1, s2, s3, s4, s5, s6⟩ := masks h
  have hany : ((List.range t.odims.length).map fun o => decide (t.originTotal o ≠ 0)).contains true
      = false := by
    rw [Bool.eq_false_iff]
    simp only [ne_eq, List.contains_eq_mem, decide_eq_true_eq, List.mem_map, List.mem_range]
    rintro ⟨o, h1, h2⟩
    exact (by simpa using h2 : ¬ t.originTotal o = 0) (ho o h1)
  simp only [dropna, s1, bind, Except.bind]
  rw [s5, hany, if_pos rfl]

example : Droppable (Ex.tri3 (some true) Ex.cum3) :=
  ⟨by decide, (Ex.proper_tri3 _).finite, by decide, by decide, by decide, by decide, by decide⟩

end Tri
end CL
