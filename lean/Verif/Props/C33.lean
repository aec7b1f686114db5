import Verif.Lemmas.Methods
import Verif.Spec.Examples
import Mathlib.Tactic.IntervalCases
import Mathlib.Tactic.NormNum

set_option linter.unusedSectionVars false

/-! # C33: the chain-ladder ultimate and its IBNR -/

namespace CL
namespace Tri
variable {K : Type} [Field K] [LinearOrder K] [IsStrictOrderedRing K]

/-- **C33, ultimate** (partial: the latest diagonal must have more than one cell, see
`C33_single_cell_false`, and origins without a cell at the valuation date have no ultimate, see
`C33_dropped_origin_false`).  The ultimate of an origin is its latest amount times the product of
the factors from its age on, tail included. -/
theorem C33_ultimate_partial {t f l : Tri K} (ht : CumTri t) (hf : PatternFor t f)
    (hl : t.latestDiagonal = .ok (.tri l)) :
    ∃ u rows, t.chainladder f none = .ok u ∧ DiagonalOf t l rows ∧
      UltimateOf t u rows fun i c o d => (t.values.get i c o d).amt * f.toUlt i c d := by
  obtain ⟨v, rows, hv, hr, hdg⟩ := ht.diagonal hl
  obtain ⟨hvl, hns⟩ := toAgg_tri hr.symm
  obtain ⟨s, s1, s2, s3, s4, s5, s6⟩ := alignCdf_none ht.wf ht.ordered ht.dated ht.distinct ht.finite
    ht.ages_two ht.noPattern hv hdg hf ht.index_pos ht.columns_pos ht.origins_pos
  have lab : l.keyLabels = t.keyLabels ∧ l.ograin = t.ograin ∧ l.dgrain = t.dgrain := by
    have k1 := getVal_keeps hv
    have k2 := sumKeep_keeps v .development
    rw [hvl] at k2
    exact ⟨k2.1.trans k1.1, k2.2.1.trans k1.2.1, k2.2.2.1.trans k1.2.2.1⟩
  rw [hvl] at s3 hdg hns
  have hsh := s3.shape s2 hdg.wf
  have hst : s.toAgg = .tri s := by
    unfold toAgg
    rw [if_neg]
    rw [hsh.1, hsh.2.1, hsh.2.2.1, hsh.2.2.2]
    exact hns
  have em := mul_fits (s3.symm.fitsIn hdg.wf s2)
  have e0 : Arr.SameShape s.values l.values := hsh
  have hrun : t.chainladder f none = setUlt (.tri (zipped (· * ·) l s)) := by
    unfold chainladder
    rw [if_neg (by rw [ht.ages]; simp [ht.cumulative])]
    simp only [hl, s1, hst, bind, Except.bind, Agg.mul, em]
  refine ⟨_, rows, hrun, hdg, ⟨hdg.rows_inc, hdg.mem_rows, ?_, ⟨hdg.index, lab.1⟩, hdg.columns,
    hdg.origins, ⟨lab.2.1, lab.2.2⟩, ⟨rfl, rfl⟩, rfl, ⟨rfl, ?_⟩, ?_⟩⟩
  · obtain ⟨w0, w1, w2, w3⟩ := hdg.wf
    exact ⟨w0, w1, w2, by show l.values.d3 = 1; rw [w3, hdg.one]⟩
  · show (l.isPattern && s.isPattern) = false
    rw [s5, Bool.and_false]
  · intro i c o d hi hc ho hd hval
    have e1 := hdg.cells i c o d hi hc ho hd hval
    have e2 := s6 i c o d hi hc ho hd hval
    have hro := ((hdg.mem_rows _).1 (List.getElem_mem ho)).1
    have e3 : bcell s.values l.values i c o 0 = s.values.get i c o 0 := by
      unfold bcell
      rw [e0.1, e0.2.1, e0.2.2.1, e0.2.2.2, Arr.bix_self, Arr.bix_self, Arr.bix_self, Arr.bix_self]
    show (if (l.values.get i c o 0 * bcell s.values l.values i c o 0).isFinite then
      l.values.get i c o 0 * bcell s.values l.values i c o 0 else .nan) = _
    rw [e3, e1, e2]
    obtain ⟨cdf, -, -, hcell⟩ := cdf_spec ht.wf hf ht.index_pos ht.columns_pos ht.origins_pos
      (by have := ht.ages_two; omega)
    have hd3 : d < t.values.d3 := by rw [ht.wf.2.2.2]; exact hd
    have hne := (hcell i c rows[o] d hi hc hd3).2
    rcases Num.noInf_cases (ht.finite i hi c hc rows[o] (by rw [ht.wf.2.2.1]; exact hro) d hd3) with
      e | ⟨a, e⟩
    · rw [e]; simp [Num.isFinite]
    · rw [e]
      by_cases ha : a = 0
      · simp [ha, Num.isFinite]
      · simp [ha, Num.isFinite, Num.numToNan_fin, hne]

/-- When the latest diagonal is a single cell it is a number, and the method fails. -/
theorem C33_single_cell {t f : Tri K} {x : Num K} (ht : CumTri t) (hf : PatternFor t f)
    (hl : t.latestDiagonal = .ok (.scalar x)) :
    t.chainladder f none = .error .attributeError := by
  obtain ⟨v, rows, hv, hr, hdg⟩ := ht.diagonal hl
  have hs := toAgg_scalar hr.symm
  obtain ⟨s, s1, s2, s3, s4, s5, s6⟩ := alignCdf_none ht.wf ht.ordered ht.dated ht.distinct ht.finite
    ht.ages_two ht.noPattern hv hdg hf ht.index_pos ht.columns_pos ht.origins_pos
  have hsh := s3.shape s2 hdg.wf
  have hst : s.toAgg = .scalar (s.values.get 0 0 0 0) := by
    unfold toAgg
    rw [if_pos]
    rw [hsh.1, hsh.2.1, hsh.2.2.1, hsh.2.2.2]
    exact hs
  unfold chainladder
  rw [if_neg (by rw [ht.ages]; simp [ht.cumulative])]
  simp only [hl, s1, hst, bind, Except.bind, Agg.mul, setUlt]

/-- **C33, IBNR**: for every ultimate `u` computed by a method, `ibnr_` is the ultimate minus the
latest amount (missing as 0, a difference of 0 as missing), on the axes of the ultimate. -/
theorem C33_ibnr {t u l : Tri K} {rows : List Nat} {ult : Nat → Nat → Nat → Nat → K} (ht : CumTri t)
    (hl : t.latestDiagonal = .ok (.tri l)) (hu : UltimateOf t u rows ult) :
    ∃ r, ibnr u t = .ok r ∧ WF r ∧ r.kdims = t.kdims ∧ r.vdims = t.vdims ∧ r.odims = u.odims ∧ r.ddims = u.ddims ∧
      ∀ i c o d, i < t.values.d0 → c < t.values.d1 → (ho : o < rows.length) →
        d < t.ddims.length → t.valuation rows[o] d = t.vd →
        r.values.get i c o 0 =
          (Num.fin (ult i c rows[o] d - (t.values.get i c rows[o] d).amt)).numToNan := by
  obtain ⟨v, rows', hv, hr, hdg⟩ := ht.diagonal hl
  obtain ⟨hvl, -⟩ := toAgg_tri hr.symm
  have lab : l.keyLabels = t.keyLabels ∧ l.ograin = t.ograin ∧ l.dgrain = t.dgrain := by
    have k1 := getVal_keeps hv
    have k2 := sumKeep_keeps v .development
    rw [hvl] at k2
    exact ⟨k2.1.trans k1.1, k2.2.1.trans k1.2.1, k2.2.2.1.trans k1.2.2.1⟩
  rw [hvl] at hdg
  have hrr : rows' = rows := by
    refine List.Pairwise.eq_of_mem_iff hdg.rows_inc hu.rows_inc ?_
    intro o
    rw [hdg.mem_rows, hu.mem_rows]
  subst hrr
  have hod : l.odims = u.odims := by
    have a := hdg.origins
    have b := hu.origins
    apply List.ext_getElem?
    intro j
    by_cases hj : j < rows'.length
    · rw [a.2 j hj, b.2 j hj]
    · rw [List.getElem?_eq_none (by rw [a.1]; omega), List.getElem?_eq_none (by rw [b.1]; omega)]
  have hfit : FitsIn l u := by
    refine ⟨hu.wf, hdg.wf, ?_, ?_, ?_, Or.inl ?_, Or.inl ?_, Or.inl hod, Or.inr ⟨hdg.one, ?_⟩⟩
    · rw [hu.grains.1, lab.2.1]
    · exact Or.inl (by rw [hu.grains.2, lab.2.2])
    · rw [hu.index.2, lab.1]
    · rw [hu.index.1, hdg.index]
    · rw [hu.columns, hdg.columns]
    · rw [hu.development.1]; simp
  have es := sub_fits hfit
  have hrun : ibnr u t = .ok { (zipped (fun a b => a.nanToNum - b.nanToNum) u l).cleanup with
      vdims := u.vdims } := by
    unfold ibnr
    simp only [hl, es, bind, Except.bind]
  refine ⟨_, hrun, hu.wf, hu.index.1, hu.columns, rfl, rfl, ?_⟩
  intro i c o d hi hc ho hd hval
  have hro := ((hdg.mem_rows _).1 (List.getElem_mem ho)).1
  have e1 := hdg.cells i c o d hi hc ho hd hval
  have e2 := hu.cells i c o d hi hc ho hd hval
  have s0 : l.values.d0 = u.values.d0 := by rw [hdg.wf.1, hu.wf.1, hdg.index, hu.index.1]
  have s1 : l.values.d1 = u.values.d1 := by rw [hdg.wf.2.1, hu.wf.2.1, hdg.columns, hu.columns]
  have s2 : l.values.d2 = u.values.d2 := by rw [hdg.wf.2.2.1, hu.wf.2.2.1, hod]
  have s3 : l.values.d3 = 1 := by rw [hdg.wf.2.2.2, hdg.one]
  have u3 : u.values.d3 = 1 := by rw [hu.wf.2.2.2, hu.development.1]; rfl
  have e3 : bcell l.values u.values i c o 0 = l.values.get i c o 0 := by
    unfold bcell
    rw [s0, s1, s2, s3, u3, Arr.bix_self, Arr.bix_self, Arr.bix_self, Arr.bix_self]
  have hn : (zipped (fun a b => a.nanToNum - b.nanToNum) u l).nanTri o 0 = 1 := by
    unfold nanTri
    rw [if_pos]
    show min u.values.d2 u.values.d3 = 1
    rw [u3, ← s2, hdg.wf.2.2.1, hdg.origins.1]
    omega
  show (((u.values.get i c o 0).nanToNum - (bcell l.values u.values i c o 0).nanToNum) *
    ((zipped (fun a b => a.nanToNum - b.nanToNum) u l).nanTri o 0).nanToNum).numToNan = _
  rw [hn, e3, e1, e2]
  have hfin : (t.values.get i c rows'[o] d).NoInf := ht.finite i hi c hc _
    (by rw [ht.wf.2.2.1]; exact hro) d (by rw [ht.wf.2.2.2]; exact hd)
  rw [Num.nanToNum_eq (Num.noInf_numToNan hfin), Num.nanToNum_eq (Num.noInf_numToNan (by simp))]
  simp [Num.one_def]

/-- On a regular triangle with at least two origins the method succeeds and gives every origin an
ultimate; `D - q * o` is the development of the latest cell of origin `o`. -/
theorem C33_regular {t f : Tri K} (ht : CumTri t) (hf : PatternFor t f) (hn : 2 ≤ t.odims.length)
    {D q : Nat} (hq : 1 ≤ q) (hD : D < t.ddims.length) (hqD : q * (t.odims.length - 1) ≤ D)
    (hv : ∀ o < t.odims.length, t.valuation o (D - q * o) = t.vd) :
    ∃ u, t.chainladder f none = .ok u ∧ u.odims = t.odims ∧
      ∀ i < t.kdims.length, ∀ c < t.vdims.length, ∀ o < t.odims.length,
        u.values.get i c o 0 =
          (Num.fin ((t.values.get i c o (D - q * o)).amt * f.toUlt i c (D - q * o))).numToNan := by
  obtain ⟨l, hl, hd⟩ := C05_regular ht.wf ht.ordered ht.dated ht.distinct ht.ages_two ht.origins_pos
    hq hD hqD hv
  have hlt : l.toAgg = .tri l := by
    unfold toAgg
    rw [if_neg]
    rintro ⟨-, -, h2, -⟩
    rw [hd.wf.2.2.1, hd.origins.1, List.length_range] at h2
    omega
  rw [hlt] at hl
  obtain ⟨u, rows, h1, h2, h3⟩ := C33_ultimate_partial ht hf hl
  have hrr : rows = List.range t.odims.length := by
    refine List.Pairwise.eq_of_mem_iff h2.rows_inc hd.rows_inc ?_
    intro o
    rw [h2.mem_rows, hd.mem_rows]
  subst hrr
  refine ⟨u, h1, ?_, ?_⟩
  · have a := h3.origins
    apply List.ext_getElem?
    intro j
    by_cases hj : j < (List.range t.odims.length).length
    · rw [a.2 j hj, List.getElem_range]
    · rw [List.getElem?_eq_none (by rw [a.1]; omega),
        List.getElem?_eq_none (by simpa using hj)]
  · intro i hi c hc o ho
    have := h3.cells i c o (D - q * o) (by rw [ht.wf.1]; exact hi) (by rw [ht.wf.2.1]; exact hc)
      (by simpa using ho) (by omega) (by rw [List.getElem_range]; exact hv o ho)
    rw [List.getElem_range] at this
    exact this

/-- Where the age-to-ultimate factor of the age of an origin is one, its ultimate is its latest
amount. -/
theorem C33_fully_developed {t f u l : Tri K} {rows : List Nat} (ht : CumTri t) (hf : PatternFor t f)
    (hl : t.latestDiagonal = .ok (.tri l)) (hr : DiagonalOf t l rows)
    (hu : t.chainladder f none = .ok u)
    {i c o d : Nat} (hi : i < t.kdims.length) (hc : c < t.vdims.length) (ho : o < rows.length)
    (hd : d < t.ddims.length) (hv : t.valuation rows[o] d = t.vd) (h1 : f.toUlt i c d = 1) :
    u.values.get i c o 0 = l.values.get i c o 0 := by
  obtain ⟨u', rows', e, h2, h3⟩ := C33_ultimate_partial ht hf hl
  rw [hu] at e
  injection e with e
  subst e
  have hrr : rows' = rows := by
    refine List.Pairwise.eq_of_mem_iff h2.rows_inc hr.rows_inc ?_
    intro o
    rw [h2.mem_rows, hr.mem_rows]
  subst hrr
  have hro := ((h2.mem_rows _).1 (List.getElem_mem ho)).1
  have hi' : i < t.values.d0 := by rw [ht.wf.1]; exact hi
  have hc' : c < t.values.d1 := by rw [ht.wf.2.1]; exact hc
  rw [h3.cells i c o d hi' hc' ho hd hv, h2.cells i c o d hi' hc' ho hd hv, h1, mul_one]
  exact Num.numToNan_fin_amt (ht.finite i hi' c hc' _ (by rw [ht.wf.2.2.1]; exact hro) d
    (by rw [ht.wf.2.2.2]; exact hd))

/-- Scaling all amounts by `k` scales all ultimates by `k`. -/
theorem C33_scale {t s f u u' l : Tri K} {k : K} (ht : CumTri t) (hf : PatternFor t f)
    (hs : t.mulArr (Arr.scalar (.fin k)) = .ok s) (hl : t.latestDiagonal = .ok (.tri l))
    (hu : t.chainladder f none = .ok u) (hu' : s.chainladder f none = .ok u') :
    u'.odims = u.odims ∧ ∀ i < t.kdims.length, ∀ c < t.vdims.length, ∀ o < u.odims.length,
      (u'.values.get i c o 0).amt = k * (u.values.get i c o 0).amt := by
  have es : s = t.reval t.isPattern fun i c o d => t.values.get i c o d * .fin k := by
    unfold mulArr zipArr at hs
    rw [Arr.zip_scalar] at hs
    simp only [bind, Except.bind] at hs
    injection hs with hs
    exact hs.symm
  have hfin : ∀ i < t.values.d0, ∀ c < t.values.d1, ∀ o < t.values.d2, ∀ d < t.values.d3,
      (t.values.get i c o d * Num.fin k).NoInf ∧
      (t.values.get i c o d * Num.fin k).amt = k * (t.values.get i c o d).amt := by
    intro i hi c hc o ho d hd
    rcases Num.noInf_cases (ht.finite i hi c hc o ho d hd) with e | ⟨a, e⟩ <;> rw [e]
    · simp
    · simp [mul_comm]
  have hts : CumTri s := by
    rw [es]
    exact ⟨ht.wf, ht.ordered, ht.dated, ht.distinct,
      fun i hi c hc o ho d hd => (hfin i hi c hc o ho d hd).1, ht.ages, ht.cumulative, ht.noPattern,
      ht.index_pos, ht.columns_pos, ht.origins_pos, ht.ages_two⟩
  have hfs : PatternFor s f := by
    rw [es]
    exact ⟨hf.wf, hf.pattern, hf.incremental, hf.multiplicative, hf.ages, hf.ograin, hf.dgrain,
      hf.keyLabels, hf.index, hf.columns, hf.origin, hf.starts, hf.factors⟩
  obtain ⟨v, rows, hv, hr, hdg⟩ := ht.diagonal hl
  obtain ⟨hvl, hns⟩ := toAgg_tri hr.symm
  obtain ⟨l', e1, e2, e3, e4⟩ := diagonal_reval ht.wf ht.ordered ht.dated ht.distinct ht.ages_two hv hdg
    t.isPattern (fun i c o d => t.values.get i c o d * .fin k)
  rw [← es] at e1
  have hsh := e2.shape e4.wf hdg.wf
  have hl' : l'.toAgg = .tri l' := by
    unfold toAgg
    rw [if_neg]
    rw [hsh.1, hsh.2.1, hsh.2.2.1, hsh.2.2.2]
    exact hns
  rw [hl'] at e1
  obtain ⟨u1, rows1, p1, p2, p3⟩ := C33_ultimate_partial ht hf hl
  obtain ⟨u2, rows2, r1, r2, r3⟩ := C33_ultimate_partial hts hfs e1
  rw [hu] at p1; injection p1 with p1; subst p1
  rw [hu'] at r1; injection r1 with r1; subst r1
  have hrr : rows2 = rows1 := by
    refine List.Pairwise.eq_of_mem_iff r2.rows_inc p2.rows_inc ?_
    intro o
    rw [r2.mem_rows, p2.mem_rows, es]
    rfl
  subst hrr
  refine ⟨?_, ?_⟩
  · have a := p3.origins
    have b := r3.origins
    rw [es] at b
    apply List.ext_getElem?
    intro j
    by_cases hj : j < rows2.length
    · rw [a.2 j hj, b.2 j hj]; rfl
    · rw [List.getElem?_eq_none (by rw [b.1]; omega), List.getElem?_eq_none (by rw [a.1]; omega)]
  · intro i hi c hc o ho
    rw [p3.origins.1] at ho
    obtain ⟨hro, d, hd, hval⟩ := (p3.mem_rows _).1 (List.getElem_mem ho)
    have hi' : i < t.values.d0 := by rw [ht.wf.1]; exact hi
    have hc' : c < t.values.d1 := by rw [ht.wf.2.1]; exact hc
    have c1 := p3.cells i c o d hi' hc' ho hd hval
    have c2 := r3.cells i c o d (by rw [es]; exact hi') (by rw [es]; exact hc') ho (by rw [es]; exact hd)
      (by rw [es]; exact hval)
    rw [c1, c2, Num.amt_numToNan, Num.amt_numToNan, es]
    show (t.values.get i c rows2[o] d * Num.fin k).amt * _ = _
    rw [(hfin i hi' c hc' _ (by rw [ht.wf.2.2.1]; exact hro) d (by rw [ht.wf.2.2.2]; exact hd)).2]
    simp only [Num.amt_fin]
    ring

namespace C33
/-- Factors 3/2, 11/10, 1 and a tail of 21/20 for ages 12, 24, 36, 48. -/
def pat : Tri ℚ where
  kdims := [["Total"]]
  keyLabels := ["Total"]
  vdims := ["paid"]
  odims := [24240]
  ddims := [12, 24, 36, 48]
  isVal := false
  ograin := .Y
  dgrain := .Y
  vd := ultVal
  isCum := some false
  isPattern := true
  isAdditive := none
  values := ⟨1, 1, 1, 4, fun _ _ _ d => .fin ([3 / 2, 11 / 10, 1, 21 / 20].getD d 1)⟩

theorem cumTri : CumTri (Ex.tri3 (some true) Ex.cum3) := by
  have pr := Ex.proper_tri3 (some true)
  exact ⟨pr.wf, pr.ordered, pr.dated, by unfold DistinctValuations; decide, pr.finite, rfl, by decide,
    rfl, by decide, by decide, by decide, by decide⟩

theorem patternFor : PatternFor (Ex.tri3 (some true) Ex.cum3) pat := by
  refine ⟨by decide, rfl, by decide, rfl, rfl, rfl, rfl, rfl, Or.inl rfl, Or.inl rfl, rfl, rfl, ?_⟩
  intro i hi c hc j hj
  have hj : j < 4 := hj
  refine ⟨[3 / 2, 11 / 10, 1, 21 / 20].getD j 1, ?_, rfl⟩
  interval_cases j <;> norm_num

/-- Ultimates 165 * 21/20, 168 * 11/10 * 21/20 and 120 * 3/2 * 11/10 * 21/20. -/
example : ∃ u, (Ex.tri3 (some true) Ex.cum3).chainladder pat none = .ok u ∧
    u.values.get 0 0 0 0 = .fin (693 / 4) ∧ u.values.get 0 0 1 0 = .fin (4851 / 25) ∧
    u.values.get 0 0 2 0 = .fin (2079 / 10) := by
  obtain ⟨u, h1, -, h3⟩ := C33_regular cumTri patternFor (by decide) (D := 2) (q := 1) le_rfl (by decide)
    (by decide) (by decide)
  refine ⟨u, h1, ?_, ?_, ?_⟩
  · rw [h3 0 (by decide) 0 (by decide) 0 (by decide)]; decide +kernel
  · rw [h3 0 (by decide) 0 (by decide) 1 (by decide)]; decide +kernel
  · rw [h3 0 (by decide) 0 (by decide) 2 (by decide)]; decide +kernel

end C33

/-- **C33 is false for a triangle with a single origin**: its latest diagonal has one cell, so it
comes back as a number, and the method raises `AttributeError`. -/
theorem C33_single_cell_false :
    ∃ t : Tri ℚ, (Ex.tri3 (some true) Ex.cum3).ilocO (.slc ⟨some 0, some 1, none⟩) = .ok t ∧
      CumTri t ∧ PatternFor t C33.pat ∧ t.chainladder C33.pat none = .error .attributeError := by
  refine ⟨_, rfl, ⟨by decide, by decide, by decide, by unfold DistinctValuations; decide,
    by decide, rfl, by decide, rfl, by decide, by decide, by decide, by decide⟩, ?_, rfl⟩
  exact ⟨by decide, rfl, by decide, rfl, rfl, rfl, rfl, rfl, Or.inl rfl, Or.inl rfl, rfl, rfl,
    C33.patternFor.factors⟩

/-- **C33 is false for origins without a cell at the valuation date**: the triangle cut after age
24 keeps three origins, but origin 2020 (last valued 2021) has no ultimate. -/
theorem C33_dropped_origin_false :
    ∃ t u : Tri ℚ, (Ex.tri3 (some true) Ex.cum3).ilocD (.upto 2) = .ok t ∧ CumTri t ∧
      PatternFor t C33.pat ∧ t.odims = [24240, 24252, 24264] ∧
      t.chainladder C33.pat none = .ok u ∧ u.odims = [24252, 24264] := by
  refine ⟨_, _, rfl, ⟨by decide, by decide, by decide, by unfold DistinctValuations; decide,
    by decide, rfl, by decide, rfl, by decide, by decide, by decide, by decide⟩, ?_, rfl, rfl, rfl⟩
  exact ⟨by decide, rfl, by decide, rfl, rfl, rfl, rfl, rfl, Or.inl rfl, Or.inl rfl, rfl, rfl,
    C33.patternFor.factors⟩

end Tri
end CL
