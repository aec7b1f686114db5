import Verif.Lemmas.Benktander
import Verif.Props.C33
import Mathlib.Analysis.SpecificLimits.Normed

set_option linter.unusedSectionVars false

/-! # C35: Benktander, Bornhuetter-Ferguson and expected loss -/

namespace CL
namespace Tri
variable {K : Type} [Field K] [LinearOrder K] [IsStrictOrderedRing K]

/-- `u` holds one ultimate per origin of `t`, for the index of `t` in sorted order; position `i` of
its index is position `p[i]` of the index of `t`. -/
structure C35.SortedUltimate (t u : Tri K) (p : List Nat) (ult : Nat → Nat → Nat → Nat → K) :
    Prop where
  perm : p.Perm (List.range t.kdims.length)
  wf : WF u
  index : At t.kdims u.kdims p
  keeps : t.kdims.Pairwise (· ≤ ·) → p = List.range t.kdims.length
  sorted : u.kdims.Pairwise (· ≤ ·)
  keyLabels : u.keyLabels = t.keyLabels
  columns : u.vdims = t.vdims
  origins : u.odims = t.odims
  grains : u.ograin = t.ograin ∧ u.dgrain = t.dgrain
  development : u.ddims = [ultVal] ∧ u.isVal = true
  date : u.vd = ultVal
  cumulative : u.isCum = some true ∧ u.isPattern = false
  cells : ∀ i c o d, (hi : i < p.length) → c < t.vdims.length → o < t.odims.length →
    d < t.ddims.length → t.valuation o d = t.vd →
    u.values.get i c o 0 = (Num.fin (ult p[i] c o d)).numToNan

/-- **C35** (partial: every origin needs a cell at the valuation date, see
`C35_dropped_origin_false`; latest amount and expectation must not cancel, see `C35_cancel_false`;
`1 - 1 / cdf` must not be exactly `-1e-16`; the diagonal must have more than one cell).  The ultimate
is what `n` credibility iterations from the a-priori expectation give. -/
theorem C35_benktander_partial {t f w l : Tri K} (ht : CumTri t) (hf : PatternFor t f)
    (hw : ExposureFor t w) (hall : AllCurrent t) (hl : t.latestDiagonal = .ok (.tri l))
    (apriori : K) (n : Nat)
    (hz : ∀ i < t.kdims.length, ∀ c < t.vdims.length, ∀ o < t.odims.length, ∀ d < t.ddims.length,
      t.valuation o d = t.vd →
      (t.values.get i c o d).amt + apriori * w.exposure i c o ≠ 0 ∨
        ((t.values.get i c o d).amt = 0 ∧ apriori * w.exposure i c o = 0))
    (hq : ∀ i < t.kdims.length, ∀ c < t.vdims.length, ∀ d < t.ddims.length,
      1 - 1 / f.toUlt i c d ≠ -(1 / 10 ^ 16)) :
    ∃ u p, t.benktander f (some w) apriori n = .ok u ∧
      C35.SortedUltimate t u p fun i c o d =>
        benkIter (t.values.get i c o d).amt (f.toUlt i c d) (apriori * w.exposure i c o) n := by
  obtain ⟨w0, w1, w2, w3⟩ := ht.wf
  obtain ⟨v, rows, hv, hr, hdg⟩ := ht.diagonal hl
  obtain ⟨hvl, hns⟩ := toAgg_tri hr.symm
  have hrows : rows = List.range t.odims.length := by
    refine List.Pairwise.eq_of_mem_iff hdg.rows_inc List.pairwise_lt_range ?_
    intro o
    rw [hdg.mem_rows, List.mem_range]
    exact ⟨fun h => h.1, fun h => ⟨h, hall o h⟩⟩
  subst hrows
  -- the expectation
  set e : Tri K := { w with
    values := { w.values with
      get := fun i c o d => w.values.get i c o d * .fin apriori } } with he
  have ee : w.mulArr (Arr.scalar (.fin apriori)) = .ok e := by
    unfold mulArr zipArr
    rw [Arr.zip_scalar]
    rfl
  have hfin : ∀ x : Num K, x.NoInf → (x * Num.fin apriori).NoInf ∧
      (x * Num.fin apriori).amt = apriori * x.amt := by
    intro x hx
    rcases Num.noInf_cases hx with q | ⟨a, q⟩ <;> rw [q]
    · simp
    · simp [mul_comm]
  have hwe : ExposureFor t e :=
    ⟨hw.wf, fun i hi c hc o ho d hd => (hfin _ (hw.finite i hi c hc o ho d hd)).1, hw.keyLabels,
      hw.ograin, hw.index, hw.columns, hw.origins, hw.one⟩
  obtain ⟨s, s1, s2, s3, s4, s5, s6⟩ := alignCdf_some ht.wf ht.ordered ht.dated ht.distinct ht.finite
    ht.ages_two ht.noPattern hv hdg hf hwe ht.index_pos ht.columns_pos ht.origins_pos
  rw [hvl] at s3 hdg hns
  have hsh := s3.shape s2 hdg.wf
  have hst : s.toAgg = .tri s := by
    unfold toAgg
    rw [if_neg]
    rw [hsh.1, hsh.2.1, hsh.2.2.1, hsh.2.2.2]
    exact hns
  have sk : s.kdims = t.kdims := by rw [s3.1, hdg.index]
  have sd : s.ddims.length = 1 := by rw [s3.2.2.2.2.1, hdg.one]
  have l0 : l.values.d0 = t.kdims.length := by rw [hdg.wf.1, hdg.index]
  have l1 : l.values.d1 = t.vdims.length := by rw [hdg.wf.2.1, hdg.columns]
  have l2 : l.values.d2 = t.odims.length := by rw [hdg.wf.2.2.1, hdg.origins.1, List.length_range]
  have l3 : l.values.d3 = 1 := by rw [hdg.wf.2.2.2, hdg.one]
  have hek : 1 ≤ e.kdims.length := by
    rcases hwe.index with q | q <;> rw [q]
    exact ht.index_pos
  -- sorting
  obtain ⟨v1, r1⟩ := sortIndex_spec s2 (by rw [sk]; exact ht.index_pos) (by omega)
  obtain ⟨v2, r2⟩ := sortIndex_spec hdg.wf (by rw [hdg.index]; exact ht.index_pos)
    (by rw [hdg.one])
  obtain ⟨v3, r3⟩ := sortIndex_spec hwe.wf hek (by rw [hwe.one])
  obtain ⟨v4, r4⟩ := sortIndex_spec ht.wf ht.index_pos (by have := ht.ages_two; omega)
  rw [sk] at r1
  rw [hdg.index] at r2
  set p := sortPositions t.kdims with hp
  have hpl : p.length = t.kdims.length := sortPositions_length _
  set pe := sortPositions e.kdims with hpe
  have hpe' : (e.kdims = t.kdims ∧ pe = p) ∨ (e.kdims.length = 1 ∧ pe = [0]) := by
    rcases hwe.index with q | q
    · left; exact ⟨q, by rw [hpe, q]⟩
    · right; exact ⟨q, sortPositions_one q⟩
  set A := s.values.take p (List.range s.values.d1) (List.range s.values.d2)
    (List.range s.values.d3) with hA
  set B := l.values.take p (List.range l.values.d1) (List.range l.values.d2)
    (List.range l.values.d3) with hB
  set E := e.values.take pe (List.range e.values.d1) (List.range e.values.d2)
    (List.range e.values.d3) with hE
  have e0 := hwe.wf
  have A0 : A.d0 = t.kdims.length := hpl
  have A1 : A.d1 = t.vdims.length := by
    show (List.range s.values.d1).length = _; rw [List.length_range, hsh.2.1, l1]
  have A2 : A.d2 = t.odims.length := by
    show (List.range s.values.d2).length = _; rw [List.length_range, hsh.2.2.1, l2]
  have A3 : A.d3 = 1 := by
    show (List.range s.values.d3).length = _; rw [List.length_range, hsh.2.2.2, l3]
  have B1 : B.d1 = t.vdims.length := by
    show (List.range l.values.d1).length = _; rw [List.length_range, l1]
  have B2 : B.d2 = t.odims.length := by
    show (List.range l.values.d2).length = _; rw [List.length_range, l2]
  have B3 : B.d3 = 1 := by
    show (List.range l.values.d3).length = _; rw [List.length_range, l3]
  have E1 : E.d1 = e.vdims.length := by
    show (List.range e.values.d1).length = _; rw [List.length_range, e0.2.1]
  have E2 : E.d2 = e.odims.length := by
    show (List.range e.values.d2).length = _; rw [List.length_range, e0.2.2.1]
  have E3 : E.d3 = 1 := by
    show (List.range e.values.d3).length = _; rw [List.length_range, e0.2.2.2, hwe.one]
  have hBA : Arr.SameShape B A := ⟨rfl, by rw [B1, A1], by rw [B2, A2], by rw [B3, A3]⟩
  have hEA : Arr.Fits E A := by
    refine ⟨?_, ?_, ?_, ?_⟩
    · rcases hpe' with q | q
      · left; show pe.length = p.length; rw [q.2]
      · right; show pe.length = 1; rw [q.2]; rfl
    · rw [E1, A1]; rcases hwe.columns with q | q
      · exact Or.inl (by rw [q])
      · exact Or.inr q
    · rw [E2, A2]; rcases hwe.origins with q | q
      · exact Or.inl (by rw [q])
      · exact Or.inr q
    · exact Or.inl (by rw [E3, A3])
  have hb := benkArr_eq n hBA hEA
  have hrun : t.benktander f (some w) apriori n = setUlt (.tri { t with
      kdims := p.map (t.kdims.getD · [])
      vd := v4
      values := { A with
        get := fun i c o d => benkCell n (A.get i c o d) (B.get i c o d)
          (E.get (Arr.bix E.d0 A.d0 i) (Arr.bix E.d1 A.d1 c) (Arr.bix E.d2 A.d2 o)
            (Arr.bix E.d3 A.d3 d)) } }) := by
    unfold benktander
    dsimp only
    rw [if_neg (by rw [ht.ages]; simp [ht.cumulative])]
    simp only [ee, hl, s1, hst, bind, Except.bind, r1, r2, r3, r4, hb]
  refine ⟨_, p, hrun, ?_⟩
  refine ⟨sortPositions_perm _, ⟨?_, A1, A2, A3⟩, ?_, sortPositions_of_sorted,
    sortPositions_sorted _, rfl, rfl, rfl, ⟨rfl, rfl⟩, ⟨rfl, rfl⟩, rfl, ⟨rfl, ht.noPattern⟩, ?_⟩
  · show p.length = (p.map _).length
    rw [List.length_map]
  · exact at_getD _ _ _ fun x hx => mem_sortPositions.1 hx
  · intro i c o d hi hc ho hd hval
    have hpi : p[i] < t.kdims.length := mem_sortPositions.1 (List.getElem_mem hi)
    have hpi' : p[i] < t.values.d0 := by rw [w0]; exact hpi
    have hc' : c < t.values.d1 := by rw [w1]; exact hc
    have hd3 : d < t.values.d3 := by rw [w3]; exact hd
    have ho' : o < (List.range t.odims.length).length := by simpa using ho
    have hor : (List.range t.odims.length)[o] = o := List.getElem_range _
    have c1 := hdg.cells p[i] c o d hpi' hc' ho' hd (by rw [hor]; exact hval)
    have c2 := s6 p[i] c o d hpi' hc' ho' hd (by rw [hor]; exact hval)
    rw [hor] at c1 c2
    have tfin := ht.finite p[i] hpi' c hc' o (by rw [w2]; exact ho) d hd3
    have gA : A.get i c o 0 = s.values.get p[i] c o 0 := by
      show s.values.get (p.getD i 0) ((List.range s.values.d1).getD c 0)
        ((List.range s.values.d2).getD o 0) ((List.range s.values.d3).getD 0 0) = _
      rw [List.getD_eq_getElem _ _ hi, getD_range _ _ (by rw [hsh.2.1, l1]; exact hc),
        getD_range _ _ (by rw [hsh.2.2.1, l2]; exact ho),
        getD_range _ _ (by rw [hsh.2.2.2, l3]; omega)]
    have gB : B.get i c o 0 = l.values.get p[i] c o 0 := by
      show l.values.get (p.getD i 0) ((List.range l.values.d1).getD c 0)
        ((List.range l.values.d2).getD o 0) ((List.range l.values.d3).getD 0 0) = _
      rw [List.getD_eq_getElem _ _ hi, getD_range _ _ (by rw [l1]; exact hc),
        getD_range _ _ (by rw [l2]; exact ho), getD_range _ _ (by rw [l3]; omega)]
    have gE : E.get (Arr.bix E.d0 A.d0 i) (Arr.bix E.d1 A.d1 c) (Arr.bix E.d2 A.d2 o)
        (Arr.bix E.d3 A.d3 0) =
        w.values.get (if w.kdims.length = 1 then 0 else p[i]) (if w.vdims.length = 1 then 0 else c)
          (if w.odims.length = 1 then 0 else o) 0 * .fin apriori := by
      have i0 : pe.getD (Arr.bix E.d0 A.d0 i) 0 = if w.kdims.length = 1 then 0 else p[i] := by
        have hek' : e.kdims = w.kdims := rfl
        rcases hpe' with ⟨q, q'⟩ | ⟨q, q'⟩
        · have : E.d0 = A.d0 := by show pe.length = p.length; rw [q']
          rw [this, Arr.bix_self, q', List.getD_eq_getElem _ _ hi, ← hek', q]
          split_ifs with h1
          · omega
          · rfl
        · rw [← hek', if_pos q, q']
          have : E.d0 = 1 := by show pe.length = 1; rw [q']; rfl
          rw [this]
          unfold Arr.bix
          split_ifs with h1
          · have : i < A.d0 := hi
            have : i = 0 := by omega
            subst this; rfl
          · rfl
      have i1 : (List.range e.values.d1).getD (Arr.bix E.d1 A.d1 c) 0 =
          if w.vdims.length = 1 then 0 else c := by
        have hek' : e.vdims = w.vdims := rfl
        rcases hwe.columns with q | q
        · have : E.d1 = A.d1 := by rw [E1, A1, q]
          rw [this, Arr.bix_self, getD_range _ _ (by rw [e0.2.1, q]; exact hc), ← hek', q]
          split_ifs with h1
          · omega
          · rfl
        · rw [← hek', if_pos q, E1, q]
          unfold Arr.bix
          split_ifs with h1
          · have : c = 0 := by rw [A1] at h1; omega
            subst this
            exact getD_range _ _ (by rw [e0.2.1, q]; omega)
          · exact getD_range _ _ (by rw [e0.2.1, q]; omega)
      have i2 : (List.range e.values.d2).getD (Arr.bix E.d2 A.d2 o) 0 =
          if w.odims.length = 1 then 0 else o := by
        have hek' : e.odims = w.odims := rfl
        rcases hwe.origins with q | q
        · have : E.d2 = A.d2 := by rw [E2, A2, q]
          rw [this, Arr.bix_self, getD_range _ _ (by rw [e0.2.2.1, q]; exact ho), ← hek', q]
          split_ifs with h1
          · omega
          · rfl
        · rw [← hek', if_pos q, E2, q]
          unfold Arr.bix
          split_ifs with h1
          · have : o = 0 := by rw [A2] at h1; omega
            subst this
            exact getD_range _ _ (by rw [e0.2.2.1, q]; omega)
          · exact getD_range _ _ (by rw [e0.2.2.1, q]; omega)
      have i3 : (List.range e.values.d3).getD (Arr.bix E.d3 A.d3 0) 0 = 0 := by
        rw [E3, A3, Arr.bix_self]
        exact getD_range _ _ (by rw [e0.2.2.2, hwe.one]; omega)
      show e.values.get (pe.getD (Arr.bix E.d0 A.d0 i) 0) _ _ _ = _
      rw [i0, i1, i2, i3]
    have wfin : (w.values.get (if w.kdims.length = 1 then 0 else p[i])
        (if w.vdims.length = 1 then 0 else c) (if w.odims.length = 1 then 0 else o) 0).NoInf := by
      obtain ⟨q0, q1, q2, q3⟩ := hw.wf
      apply hw.finite
      · split_ifs with hk
        · omega
        · rcases hw.index with q | q
          · rw [q0, q]; exact hpi
          · exact absurd q hk
      · split_ifs with hk
        · omega
        · rcases hw.columns with q | q
          · rw [q1, q]; exact hc
          · exact absurd q hk
      · split_ifs with hk
        · omega
        · rcases hw.origins with q | q
          · rw [q2, q]; exact ho
          · exact absurd q hk
      · rw [q3, hw.one]; omega
    have hexp : e.exposure p[i] c o = apriori * w.exposure p[i] c o := (hfin _ wfin).2
    rw [hexp] at c2
    show (if (benkCell n (A.get i c o 0) (B.get i c o 0) _).isFinite then
      benkCell n (A.get i c o 0) (B.get i c o 0) _ else .nan) = _
    rw [gA, gB, gE, c1, c2]
    have hlf : ((t.values.get p[i] c o d).numToNan).NoInf := Num.noInf_numToNan tfin
    have hef := hfin _ wfin
    have hnf : ∀ x : K, (if ((Num.fin x).numToNan).isFinite then (Num.fin x).numToNan else .nan) =
        (Num.fin x).numToNan := by
      intro x
      rw [Num.numToNan_fin]
      split_ifs <;> simp_all [Num.isFinite]
    set x := w.values.get (if w.kdims.length = 1 then 0 else p[i])
      (if w.vdims.length = 1 then 0 else c) (if w.odims.length = 1 then 0 else o) 0 with hx
    by_cases hzero : (t.values.get p[i] c o d).amt + apriori * w.exposure p[i] c o = 0
    · -- no factor: the latest amount and the expectation are zero
      rw [if_pos hzero, benkCell_nan n hlf hef.1]
      rcases hz p[i] hpi c hc o ho d hd hval with h1 | ⟨h1, h2⟩
      · exact absurd hzero h1
      · have : benkIter (t.values.get p[i] c o d).amt (f.toUlt p[i] c d)
            (apriori * w.exposure p[i] c o) n = 0 := by
          rw [benkIter_eq, h1, h2]; simp
        rw [this]; simp
    · obtain ⟨cdf, -, -, hcell⟩ := cdf_spec ht.wf hf ht.index_pos ht.columns_pos ht.origins_pos
        (by have := ht.ages_two; omega)
      have hne := (hcell p[i] c o d hpi' hc' hd3).2
      have hqq : 1 - 1 / f.toUlt p[i] c d + 1 / 10 ^ 16 ≠ 0 := by
        intro h
        exact hq p[i] hpi c hc d hd (eq_neg_of_add_eq_zero_left h)
      rw [if_neg hzero, benkCell_fin n hne hqq hlf hef.1, Num.amt_numToNan, hef.2]
      exact hnf _

/-- With the index in increasing order the ultimates come in the order of the triangle. -/
theorem C35_sorted_partial {t f w l : Tri K} (ht : CumTri t) (hf : PatternFor t f)
    (hw : ExposureFor t w) (hall : AllCurrent t) (hl : t.latestDiagonal = .ok (.tri l))
    (hs : t.kdims.Pairwise (· ≤ ·)) (apriori : K) (n : Nat)
    (hz : ∀ i < t.kdims.length, ∀ c < t.vdims.length, ∀ o < t.odims.length, ∀ d < t.ddims.length,
      t.valuation o d = t.vd →
      (t.values.get i c o d).amt + apriori * w.exposure i c o ≠ 0 ∨
        ((t.values.get i c o d).amt = 0 ∧ apriori * w.exposure i c o = 0))
    (hq : ∀ i < t.kdims.length, ∀ c < t.vdims.length, ∀ d < t.ddims.length,
      1 - 1 / f.toUlt i c d ≠ -(1 / 10 ^ 16)) :
    ∃ u, t.benktander f (some w) apriori n = .ok u ∧
      UltimateOf t u (List.range t.odims.length) fun i c o d =>
        benkIter (t.values.get i c o d).amt (f.toUlt i c d) (apriori * w.exposure i c o) n := by
  obtain ⟨u, p, h1, h2⟩ := C35_benktander_partial ht hf hw hall hl apriori n hz hq
  obtain rfl := h2.keeps hs
  refine ⟨u, h1, ⟨List.pairwise_lt_range, ?_, h2.wf, ⟨?_, h2.keyLabels⟩, h2.columns, ?_, h2.grains,
    h2.development, h2.date, h2.cumulative, ?_⟩⟩
  · intro o
    rw [List.mem_range]
    exact ⟨fun h => ⟨h, hall o h⟩, fun h => h.1⟩
  · have a := h2.index
    apply List.ext_getElem?
    intro j
    by_cases hj : j < (List.range t.kdims.length).length
    · rw [a.2 j hj, List.getElem_range]
    · rw [List.getElem?_eq_none (by rw [a.1]; omega), List.getElem?_eq_none (by simpa using hj)]
  · rw [h2.origins]
    refine ⟨by simp, fun j hj => ?_⟩
    rw [List.getElem_range]
  · intro i c o d hi hc ho hd hv
    rw [List.getElem_range] at hv ⊢
    have := h2.cells i c o d (by rw [ht.wf.1] at hi; simpa using hi) (by rw [ht.wf.2.1] at hc; exact hc)
      (by simpa using ho) hd hv
    rw [List.getElem_range] at this
    exact this

/-- Expected loss: the ultimate is the a-priori expectation. -/
theorem C35_expected_loss_partial {t f w l : Tri K} (ht : CumTri t) (hf : PatternFor t f)
    (hw : ExposureFor t w) (hall : AllCurrent t) (hl : t.latestDiagonal = .ok (.tri l))
    (hs : t.kdims.Pairwise (· ≤ ·)) (apriori : K)
    (hz : ∀ i < t.kdims.length, ∀ c < t.vdims.length, ∀ o < t.odims.length, ∀ d < t.ddims.length,
      t.valuation o d = t.vd →
      (t.values.get i c o d).amt + apriori * w.exposure i c o ≠ 0 ∨
        ((t.values.get i c o d).amt = 0 ∧ apriori * w.exposure i c o = 0))
    (hq : ∀ i < t.kdims.length, ∀ c < t.vdims.length, ∀ d < t.ddims.length,
      1 - 1 / f.toUlt i c d ≠ -(1 / 10 ^ 16)) :
    ∃ u, t.expectedLoss f (some w) apriori = .ok u ∧
      UltimateOf t u (List.range t.odims.length) fun i c o _ => apriori * w.exposure i c o :=
  C35_sorted_partial ht hf hw hall hl hs apriori 0 hz hq

/-- Bornhuetter-Ferguson: the latest amount plus the undeveloped share of the expectation. -/
theorem C35_bornhuetter_ferguson_partial {t f w l : Tri K} (ht : CumTri t) (hf : PatternFor t f)
    (hw : ExposureFor t w) (hall : AllCurrent t) (hl : t.latestDiagonal = .ok (.tri l))
    (hs : t.kdims.Pairwise (· ≤ ·)) (apriori : K)
    (hz : ∀ i < t.kdims.length, ∀ c < t.vdims.length, ∀ o < t.odims.length, ∀ d < t.ddims.length,
      t.valuation o d = t.vd →
      (t.values.get i c o d).amt + apriori * w.exposure i c o ≠ 0 ∨
        ((t.values.get i c o d).amt = 0 ∧ apriori * w.exposure i c o = 0))
    (hq : ∀ i < t.kdims.length, ∀ c < t.vdims.length, ∀ d < t.ddims.length,
      1 - 1 / f.toUlt i c d ≠ -(1 / 10 ^ 16)) :
    ∃ u, t.bornhuetterFerguson f (some w) apriori = .ok u ∧
      UltimateOf t u (List.range t.odims.length) fun i c o d =>
        (t.values.get i c o d).amt + (1 - 1 / f.toUlt i c d) * (apriori * w.exposure i c o) :=
  C35_sorted_partial ht hf hw hall hl hs apriori 1 hz hq

/-- The distance to the chain-ladder ultimate shrinks by the undeveloped share in every iteration. -/
theorem C35_distance (latest e : K) {cdf : K} (h : cdf ≠ 0) (n : Nat) :
    benkIter latest cdf e n - latest * cdf = (1 - 1 / cdf) ^ n * (e - latest * cdf) := by
  induction n with
  | zero => simp [benkIter]
  | succ n ih =>
    have e1 : benkIter latest cdf e (n + 1) - latest * cdf =
        (1 - 1 / cdf) * (benkIter latest cdf e n - latest * cdf) := by
      rw [benkIter]; field_simp; ring
    rw [e1, ih, pow_succ]
    ring

theorem toUlt_ne_zero {t f : Tri K} (ht : CumTri t) (hf : PatternFor t f) {i c d : Nat}
    (hi : i < t.kdims.length) (hc : c < t.vdims.length) (hd : d < t.ddims.length) :
    f.toUlt i c d ≠ 0 := by
  obtain ⟨cdf, -, -, hcell⟩ := cdf_spec ht.wf hf ht.index_pos ht.columns_pos ht.origins_pos
    (by have := ht.ages_two; omega)
  exact (hcell i c 0 d (by rw [ht.wf.1]; exact hi) (by rw [ht.wf.2.1]; exact hc)
    (by rw [ht.wf.2.2.2]; exact hd)).2

/-- When the expectation is the chain-ladder ultimate, any number of iterations returns the
chain-ladder ultimate. -/
theorem C35_fixed_point_partial {t f w l : Tri K} (ht : CumTri t) (hf : PatternFor t f)
    (hw : ExposureFor t w) (hall : AllCurrent t) (hl : t.latestDiagonal = .ok (.tri l))
    (hs : t.kdims.Pairwise (· ≤ ·)) (apriori : K) (n : Nat)
    (he : ∀ i < t.kdims.length, ∀ c < t.vdims.length, ∀ o < t.odims.length, ∀ d < t.ddims.length,
      t.valuation o d = t.vd →
      apriori * w.exposure i c o = (t.values.get i c o d).amt * f.toUlt i c d)
    (hz : ∀ i < t.kdims.length, ∀ c < t.vdims.length, ∀ d < t.ddims.length, f.toUlt i c d ≠ -1)
    (hq : ∀ i < t.kdims.length, ∀ c < t.vdims.length, ∀ d < t.ddims.length,
      1 - 1 / f.toUlt i c d ≠ -(1 / 10 ^ 16)) :
    ∃ u v, t.benktander f (some w) apriori n = .ok u ∧ t.chainladder f none = .ok v ∧
      u.odims = v.odims ∧ u.kdims = v.kdims ∧ u.vdims = v.vdims ∧
      ∀ i < t.kdims.length, ∀ c < t.vdims.length, ∀ o < t.odims.length,
        u.values.get i c o 0 = v.values.get i c o 0 := by
  obtain ⟨u, h1, h2⟩ := C35_sorted_partial ht hf hw hall hl hs apriori n (by
    intro i hi c hc o ho d hd hv
    rw [he i hi c hc o ho d hd hv]
    by_cases h0 : (t.values.get i c o d).amt = 0
    · right; simp [h0]
    · left
      intro h
      have : (t.values.get i c o d).amt * (1 + f.toUlt i c d) = 0 := by rw [← h]; ring
      rcases mul_eq_zero.1 this with h | h
      · exact h0 h
      · exact hz i hi c hc d hd (by linarith)) hq
  obtain ⟨v, rows, h3, h4, h5⟩ := C33_ultimate_partial ht hf hl
  have hrr : rows = List.range t.odims.length := by
    refine List.Pairwise.eq_of_mem_iff h5.rows_inc h2.rows_inc ?_
    intro o
    rw [h5.mem_rows, h2.mem_rows]
  subst hrr
  refine ⟨u, v, h1, h3, ?_, ?_, ?_, ?_⟩
  · have a := h2.origins
    have b := h5.origins
    apply List.ext_getElem?
    intro j
    by_cases hj : j < (List.range t.odims.length).length
    · rw [a.2 j hj, b.2 j hj]
    · rw [List.getElem?_eq_none (by rw [a.1]; omega), List.getElem?_eq_none (by rw [b.1]; omega)]
  · rw [h2.index.1, h5.index.1]
  · rw [h2.columns, h5.columns]
  · intro i hi c hc o ho
    obtain ⟨d, hd, hv⟩ := hall o ho
    have c1 := h2.cells i c o d (by rw [ht.wf.1]; exact hi) (by rw [ht.wf.2.1]; exact hc)
      (by simpa using ho) hd (by rw [List.getElem_range]; exact hv)
    have c2 := h5.cells i c o d (by rw [ht.wf.1]; exact hi) (by rw [ht.wf.2.1]; exact hc)
      (by simpa using ho) hd (by rw [List.getElem_range]; exact hv)
    rw [List.getElem_range] at c1 c2
    rw [c1, c2]
    have := C35_distance (t.values.get i c o d).amt (apriori * w.exposure i c o)
      (toUlt_ne_zero ht hf hi hc hd) n
    rw [he i hi c hc o ho d hd hv, sub_self, mul_zero, sub_eq_zero] at this
    rw [he i hi c hc o ho d hd hv, this]

/-- For factors above one half the ultimates tend to the chain-ladder ultimate. -/
theorem C35_limit_partial {t f w l : Tri ℝ} (ht : CumTri t) (hf : PatternFor t f)
    (hw : ExposureFor t w) (hall : AllCurrent t) (hl : t.latestDiagonal = .ok (.tri l))
    (hs : t.kdims.Pairwise (· ≤ ·)) (apriori : ℝ)
    (hz : ∀ i < t.kdims.length, ∀ c < t.vdims.length, ∀ o < t.odims.length, ∀ d < t.ddims.length,
      t.valuation o d = t.vd →
      (t.values.get i c o d).amt + apriori * w.exposure i c o ≠ 0 ∨
        ((t.values.get i c o d).amt = 0 ∧ apriori * w.exposure i c o = 0))
    (hq : ∀ i < t.kdims.length, ∀ c < t.vdims.length, ∀ d < t.ddims.length,
      1 - 1 / f.toUlt i c d ≠ -(1 / 10 ^ 16))
    (hh : ∀ i < t.kdims.length, ∀ c < t.vdims.length, ∀ d < t.ddims.length, 1 / 2 < f.toUlt i c d) :
    ∃ (u : ℕ → Tri ℝ) (v : Tri ℝ), (∀ n, t.benktander f (some w) apriori n = .ok (u n)) ∧
      t.chainladder f none = .ok v ∧
      ∀ i < t.kdims.length, ∀ c < t.vdims.length, ∀ o < t.odims.length,
        Filter.Tendsto (fun n => ((u n).values.get i c o 0).amt) Filter.atTop
          (nhds (v.values.get i c o 0).amt) := by
  choose u h1 h2 using fun n => C35_sorted_partial ht hf hw hall hl hs apriori n hz hq
  obtain ⟨v, rows, h3, h4, h5⟩ := C33_ultimate_partial ht hf hl
  have hrr : rows = List.range t.odims.length := by
    refine List.Pairwise.eq_of_mem_iff h5.rows_inc (h2 0).rows_inc ?_
    intro o
    rw [h5.mem_rows, (h2 0).mem_rows]
  subst hrr
  refine ⟨u, v, h1, h3, ?_⟩
  intro i hi c hc o ho
  obtain ⟨d, hd, hv⟩ := hall o ho
  have hi' : i < t.values.d0 := by rw [ht.wf.1]; exact hi
  have hc' : c < t.values.d1 := by rw [ht.wf.2.1]; exact hc
  have c2 := h5.cells i c o d hi' hc' (by simpa using ho) hd (by rw [List.getElem_range]; exact hv)
  rw [List.getElem_range] at c2
  rw [c2, Num.amt_numToNan, Num.amt_fin]
  have c1 : ∀ n, ((u n).values.get i c o 0).amt =
      benkIter (t.values.get i c o d).amt (f.toUlt i c d) (apriori * w.exposure i c o) n := by
    intro n
    have c1 := (h2 n).cells i c o d hi' hc' (by simpa using ho) hd
      (by rw [List.getElem_range]; exact hv)
    rw [List.getElem_range] at c1
    rw [c1, Num.amt_numToNan, Num.amt_fin]
  have hn := toUlt_ne_zero ht hf hi hc hd
  have e : ∀ n, ((u n).values.get i c o 0).amt = (t.values.get i c o d).amt * f.toUlt i c d +
      (1 - 1 / f.toUlt i c d) ^ n *
        (apriori * w.exposure i c o - (t.values.get i c o d).amt * f.toUlt i c d) := by
    intro n
    rw [c1, ← C35_distance _ _ hn]
    ring
  have hb := hh i hi c hc d hd
  have hpos : 0 < f.toUlt i c d := by linarith
  have hq1 : |1 - 1 / f.toUlt i c d| < 1 := by
    rw [abs_lt]
    have h2 : 1 / f.toUlt i c d < 2 := by
      rw [div_lt_iff₀ hpos]; linarith
    have h3 : 0 < 1 / f.toUlt i c d := by positivity
    constructor <;> linarith
  have lim := tendsto_pow_atTop_nhds_zero_of_abs_lt_one hq1
  have lim2 := (lim.mul_const (apriori * w.exposure i c o -
    (t.values.get i c o d).amt * f.toUlt i c d)).const_add ((t.values.get i c o d).amt * f.toUlt i c d)
  rw [zero_mul, add_zero] at lim2
  exact lim2.congr fun n => (e n).symm

/-- Without an exposure the methods raise `ValueError`. -/
theorem C35_no_exposure (t f : Tri K) (apriori : K) (n : Nat) :
    t.benktander f none apriori n = .error .valueError := rfl

namespace C35
/-- Premium of the origins 2020, 2021, 2022. -/
def premium (g : Nat → ℚ) : Tri ℚ where
  kdims := [["Total"]]
  keyLabels := ["Total"]
  vdims := ["premium"]
  odims := [24240, 24252, 24264]
  ddims := [24275]
  isVal := true
  ograin := .Y
  dgrain := .Y
  vd := 24275
  isCum := none
  isPattern := false
  isAdditive := none
  values := ⟨1, 1, 3, 1, fun _ _ o _ => .fin (g o)⟩

theorem exposureFor (g : Nat → ℚ) : ExposureFor (Ex.tri3 (some true) Ex.cum3) (premium g) :=
  ⟨⟨rfl, rfl, rfl, rfl⟩, fun _ _ _ _ _ _ _ _ => by simp [premium], rfl, rfl, Or.inl rfl, Or.inr rfl, Or.inl rfl,
    rfl⟩

/-- Two iterations from 90 per cent of a premium of 200: the hypotheses of the theorem hold. -/
example : ∃ u, (Ex.tri3 (some true) Ex.cum3).benktander C33.pat (some (premium fun _ => 200)) (9 / 10) 2 =
    .ok u ∧ u.values.get 0 0 0 0 = .fin (8490 / 49) ∧ u.values.get 0 0 1 0 = .fin (1148964 / 5929) ∧
    u.values.get 0 0 2 0 = .fin (10827620 / 53361) := by
  obtain ⟨l, hl, hd⟩ := C05_regular C33.cumTri.wf C33.cumTri.ordered C33.cumTri.dated
    C33.cumTri.distinct C33.cumTri.ages_two C33.cumTri.origins_pos (D := 2) (q := 1) le_rfl (by decide)
    (by decide) (by decide)
  have hlt : l.toAgg = .tri l := by
    unfold toAgg
    rw [if_neg]
    rintro ⟨-, -, h2, -⟩
    rw [hd.wf.2.2.1, hd.origins.1, List.length_range] at h2
    exact absurd h2 (by decide)
  rw [hlt] at hl
  obtain ⟨u, h1, h2⟩ := C35_sorted_partial C33.cumTri C33.patternFor (exposureFor fun _ => 200)
    (by unfold AllCurrent; decide) hl (by decide) (9 / 10) 2 (by
      intro i hi c hc o ho d hd hv
      have hi : i < 1 := hi
      have hc : c < 1 := hc
      have ho : o < 3 := ho
      have hd : d < 3 := hd
      left
      interval_cases i; interval_cases c; interval_cases o <;> interval_cases d <;>
        decide +kernel) (by decide +kernel)
  refine ⟨u, h1, ?_, ?_, ?_⟩
  · rw [h2.cells 0 0 0 2 (by decide) (by decide) (by decide) (by decide) (by decide)]; decide +kernel
  · rw [h2.cells 0 0 1 1 (by decide) (by decide) (by decide) (by decide) (by decide)]; decide +kernel
  · rw [h2.cells 0 0 2 0 (by decide) (by decide) (by decide) (by decide) (by decide)]; decide +kernel

end C35

/-- **C35 is false when the expectation cancels the latest amount**: with an expectation of -120 for
origin 2022, whose latest amount is 120, the factor is dropped and the ultimate is missing instead of
`120 + (1 - 1 / cdf) * (-120)`. -/
theorem C35_cancel_false :
    ∃ u, (Ex.tri3 (some true) Ex.cum3).bornhuetterFerguson C33.pat
        (some (C35.premium fun _ => -120)) 1 = .ok u ∧ u.values.get 0 0 2 0 = .nan ∧
      (Num.fin (benkIter 120 (C33.pat.toUlt 0 0 0) (-120 : ℚ) 1)).numToNan ≠ .nan :=
  ⟨_, rfl, by decide +kernel, by decide +kernel⟩

/-- **C35 is false for origins without a cell at the valuation date**: the factors have two rows and
the expectation three, so that the method raises an error. -/
theorem C35_dropped_origin_false :
    ∃ t : Tri ℚ, (Ex.tri3 (some true) Ex.cum3).ilocD (.upto 2) = .ok t ∧ CumTri t ∧
      PatternFor t C33.pat ∧ ExposureFor t (C35.premium fun _ => 200) ∧
      t.benktander C33.pat (some (C35.premium fun _ => 200)) 1 1 = .error .valueError := by
  refine ⟨_, rfl, ⟨by decide, by decide, by decide, by unfold DistinctValuations; decide,
    by decide, rfl, by decide, rfl, by decide, by decide, by decide, by decide⟩, ?_, ?_, rfl⟩
  · exact ⟨by decide, rfl, by decide, rfl, rfl, rfl, rfl, rfl, Or.inl rfl, Or.inl rfl, rfl, rfl,
      C33.patternFor.factors⟩
  · exact ⟨by decide, (C35.exposureFor _).finite, rfl, rfl, Or.inl rfl, Or.inr rfl, Or.inl rfl, rfl⟩

/-- **C35 is false for a triangle with a single origin**: its latest diagonal is a number, which has
no `sort_index`. -/
theorem C35_single_cell_false :
    ∃ t w : Tri ℚ, (Ex.tri3 (some true) Ex.cum3).ilocO (.slc ⟨some 0, some 1, none⟩) = .ok t ∧
      (C35.premium fun _ => 200).ilocO (.slc ⟨some 0, some 1, none⟩) = .ok w ∧
      CumTri t ∧ PatternFor t C33.pat ∧ ExposureFor t w ∧
      t.benktander C33.pat (some w) 1 1 = .error .attributeError := by
  refine ⟨_, _, rfl, rfl, ⟨by decide, by decide, by decide, by unfold DistinctValuations; decide,
    by decide, rfl, by decide, rfl, by decide, by decide, by decide, by decide⟩, ?_, ?_, rfl⟩
  · exact ⟨by decide, rfl, by decide, rfl, rfl, rfl, rfl, rfl, Or.inl rfl, Or.inl rfl, rfl, rfl,
      C33.patternFor.factors⟩
  · exact ⟨by decide, by decide, rfl, rfl, Or.inl rfl, Or.inr rfl, Or.inl rfl, rfl⟩

end Tri
end CL
