import Verif.Lemmas.FullRun
import Verif.Props.C33
import Verif.Props.C35
import Verif.Lemmas.Coherent

set_option linter.unusedSectionVars false

/-! # C34: the full triangle keeps the known data and ends at the ultimate -/

namespace CL
namespace Tri
variable {K : Type} [Field K] [LinearOrder K] [IsStrictOrderedRing K]
variable {t f u : Tri K} {a : Int} {n D q F : Nat} {U : Nat → Nat → Nat → K}

/-- An ultimate of a method is an ultimate for the full triangle. -/
theorem UltimateOf.ultAmounts (h : Standard t a n D q) {ult : Nat → Nat → Nat → Nat → K}
    (hu : UltimateOf t u (List.range n) ult) :
    UltAmounts t u fun i c o => ult i c o (D - 1 - q * o) := by
  have hO : u.odims = t.odims := by
    rw [hu.origins.eq_map (by rw [h.lenO])]
    have := map_getD_range t.odims 0
    rwa [h.lenO] at this
  refine ⟨hu.wf, hu.index.1, hu.index.2, hu.columns, hO, by rw [hu.development.1]; rfl, hu.grains.1, hu.date,
    hu.cumulative.2, ?_⟩
  intro i hi c hc o ho
  rw [h.lenO] at ho
  have h3 := h.row_le ho
  rw [Nat.mul_comm] at h3
  have h1 := h.two_ages
  have := hu.cells i c o (D - 1 - q * o) (by rw [h.wf.1]; exact hi) (by rw [h.wf.2.1]; exact hc)
    (by simpa using ho) (by rw [h.lenD]; omega) (by
      rw [List.getElem_range, h.valuation_vd ho (by omega)]; omega)
  rw [this, List.getElem_range]

theorem GridPattern.growth_eq (hf : GridPattern t f a n D q F) (i c d : Nat) :
    f.growth i c d F = f.toUlt i c d := by
  unfold growth toUlt
  rw [hf.len]

theorem GridPattern.growth_ne (hf : GridPattern t f a n D q F) {i c : Nat} (hi : i < t.kdims.length)
    (hc : c < t.vdims.length) {d e : Nat} (he : e ≤ F) : f.growth i c d e ≠ 0 := by
  unfold growth
  rw [Finset.prod_ne_zero_iff]
  intro j hj
  have hj := (Finset.mem_Ico.1 hj).2
  exact (hf.cell hi hc (by rcases hf.index with e | e; exacts [Or.inl (by rw [e]), Or.inr e])
    (by rcases hf.columns with e | e; exacts [Or.inl (by rw [e]), Or.inr e]) (j := j) (by omega)).2

theorem numToNan_inj {x y : K} : (Num.fin x).numToNan = (Num.fin y).numToNan ↔ x = y := by
  refine ⟨fun e => ?_, fun e => by rw [e]⟩
  have := congrArg Num.amt e
  rwa [Num.amt_numToNan, Num.amt_numToNan] at this

/-- The last column of the full triangle. -/
theorem emerged_last (i c o : Nat) : emerged t f U D q F i c o F = U i c o ↔
    (U i c o ≠ 0 ∧ f.growth i c (D - 1 - q * o) F ≠ 1) ∨ U i c o = t.latest D q i c o := by
  unfold emerged share
  by_cases h : U i c o = 0 ∨ f.growth i c (D - 1 - q * o) F = 1
  · rw [if_pos h, add_zero]
    constructor
    · exact fun e => Or.inr e.symm
    · rintro (⟨h1, h2⟩ | h3)
      · rcases h with h | h
        · exact absurd h h1
        · exact absurd h h2
      · exact h3.symm
  · rw [if_neg h]
    rw [not_or] at h
    rw [div_self (sub_ne_zero.2 h.2), one_mul, add_sub_cancel]
    exact ⟨fun _ => Or.inl h, fun _ => rfl⟩

/-- The full triangle of a cumulative triangle in which at least two origins have a cell before the
valuation date: every origin and age of the triangle is kept, every known cell is kept (a zero as
missing), and the last column is the ultimate exactly when the ultimate is not zero and the
age-to-ultimate factor is not one, or when the ultimate is the latest amount.  Missing: the ultimate is
kept in all cases (false, see `C34_false`), and two origins of which only one has an earlier cell. -/
theorem C34_partial (h : Standard t a n D q) (hc : t.isCum = some true)
    (hf : GridPattern t f a n D q F) (h2 : 2 ≤ linkRows n D q) (hu : UltAmounts t u U) :
    ∃ z, fullTriangle t f u true = .ok z ∧ z.kdims = t.kdims ∧ z.vdims = t.vdims ∧ z.odims = t.odims ∧
      z.ddims.length = F + 1 ∧ z.ddims.take D = t.ddims ∧ z.ddims.getD F 0 = 9999 ∧
      (∀ i < t.kdims.length, ∀ c < t.vdims.length, ∀ o < n, ∀ d < D, t.valuation o d ≤ t.vd →
        z.values.get i c o d = (t.values.get i c o d).numToNan) ∧
      ∀ i < t.kdims.length, ∀ c < t.vdims.length, ∀ o < n,
        (z.values.get i c o F = u.values.get i c o 0 ↔
          (U i c o ≠ 0 ∧ f.toUlt i c (D - 1 - q * o) ≠ 1) ∨ U i c o = t.latest D q i c o) := by
  obtain ⟨z, hz, zw, zk, zv, zo, zd, -, -, -, -, -, -, -, zcell⟩ := full_spec h hc hf h2 hu
  have hcov := hf.covers
  refine ⟨z, hz, zk, zv, zo, by rw [zd, fullAges_length], ?_, by rw [zd, fullAges_at], ?_, ?_⟩
  · rw [zd, h.ddims]
    unfold fullAges
    rw [List.take_append_of_le_length (by simp; omega), ← List.map_take, List.take_range, min_eq_left hcov]
  · intro i hi c hc o ho d hd hv
    rw [zcell i hi c hc o ho d (by omega), if_pos]
    by_contra hk
    have := (h.valuation_gt ho hd).2 (by omega)
    omega
  · intro i hi c hc o ho
    have hr := h.row_le ho
    rw [Nat.mul_comm] at hr
    rw [zcell i hi c hc o ho F (by omega), hu.cells i hi c hc o (by rw [h.lenO]; exact ho)]
    have hD := h.two_ages
    by_cases hk : q * o + F + 1 ≤ D
    · omega
    · rw [if_neg hk, numToNan_inj, emerged_last, hf.growth_eq]

/-- For the chain ladder method the last column is always the ultimate. -/
theorem C34_chainladder_partial (h : Standard t a n D q) (hc : t.isCum = some true)
    (hf : GridPattern t f a n D q F) (h2 : 2 ≤ linkRows n D q) :
    ∃ u z, t.chainladder f none = .ok u ∧ fullTriangle t f u true = .ok z ∧
      (∀ i < t.kdims.length, ∀ c < t.vdims.length, ∀ o < n, ∀ d < D, t.valuation o d ≤ t.vd →
        z.values.get i c o d = (t.values.get i c o d).numToNan) ∧
      ∀ i < t.kdims.length, ∀ c < t.vdims.length, ∀ o < n,
        z.values.get i c o F = u.values.get i c o 0 := by
  obtain ⟨l, hl, hd⟩ := h.latest
  obtain ⟨u, rows, hu, hr, hul⟩ := C33_ultimate_partial h.cumTri hf.toPatternFor hl
  have hrr : rows = List.range n := by
    refine List.Pairwise.eq_of_mem_iff hr.rows_inc hd.rows_inc ?_
    intro o
    rw [hr.mem_rows, hd.mem_rows]
  subst hrr
  obtain ⟨z, hz, -, -, -, -, -, -, hk, hla⟩ := C34_partial h hc hf h2 (hul.ultAmounts h)
  refine ⟨u, z, hu, hz, hk, ?_⟩
  intro i hi c hc o ho
  rw [hla i hi c hc o ho]
  show (t.latest D q i c o * f.toUlt i c (D - 1 - q * o) ≠ 0 ∧ _) ∨
    t.latest D q i c o * f.toUlt i c (D - 1 - q * o) = t.latest D q i c o
  by_cases h0 : t.latest D q i c o = 0
  · exact Or.inr (by rw [h0, zero_mul])
  by_cases h1 : f.toUlt i c (D - 1 - q * o) = 1
  · exact Or.inr (by rw [h1, mul_one])
  · refine Or.inl ⟨mul_ne_zero h0 ?_, h1⟩
    rw [← hf.growth_eq]
    exact hf.growth_ne hi hc le_rfl

/-- Accumulating an incremental triangle on a grid. -/
theorem Grid.standard_cum (h : Grid t a n D q) (hc : t.isCum ≠ some true) (hp : t.isPattern = false)
    (hm : t.isAdditive = none) : Standard t.incrToCum a n D q ∧ t.incrToCum.isCum = some true ∧
      t.incrToCum.kdims = t.kdims ∧ t.incrToCum.vdims = t.vdims ∧ t.incrToCum.dgrain = t.dgrain ∧
      t.incrToCum.vd = t.vd ∧
      ∀ i < t.kdims.length, ∀ c < t.vdims.length, ∀ o < n, ∀ d < D, q * o + d + 1 ≤ D →
        (t.incrToCum.values.get i c o d).amt = ∑ j ∈ Finset.range (d + 1), (t.values.get i c o j).amt := by
  obtain ⟨e, hcell⟩ := incrToCum_cells h.finite hc hp
  have nt : ∀ o < n, ∀ d < D, t.nanTri o d = if q * o + d + 1 ≤ D then 1 else .nan := by
    intro o ho d hd
    unfold nanTri
    have h1 := h.two_origins
    have h2 := h.two_ages
    rw [if_neg (by rw [h.wf.2.2.1, h.wf.2.2.2, h.lenO, h.lenD]; omega)]
    have := h.valuation_gt ho hd
    by_cases hk : q * o + d + 1 ≤ D
    · rw [if_neg (by intro hh; have := this.1 hh; omega), if_pos hk]
    · rw [if_pos (this.2 (by omega)), if_neg hk]
  refine ⟨⟨⟨?_, ?_, ?_, ?_, ?_, h.two_origins, h.period, h.recent, ?_, ?_, ?_, ?_, ?_, ?_⟩, ?_, ?_, ?_⟩, ?_, ?_,
    ?_, ?_, ?_, ?_⟩
  · rw [e]; exact h.wf
  · rw [e]
    intro i hi c hcc o ho d hd
    show (t.cumSumVals.get i c o d).NoInf
    rw [hcell i hi c hcc o ho d hd]
    rcases nanTri_eq t o d with e | ⟨e, -⟩
    · rw [e, Num.one_def, Num.fin_mul_fin]
      exact Num.noInf_numToNan (Num.noInf_fin _)
    · rw [e, Num.mul_nan]; exact Num.noInf_nan
  · rw [e]; exact h.isVal
  · rw [e]; exact h.index_pos
  · rw [e]; exact h.columns_pos
  · rw [e]; exact h.odims
  · rw [e]; exact h.ddims
  · rw [e]; exact h.vd
  · rw [e]; exact h.short
  · rw [e]; exact h.early
  · rw [e]
    intro i hi c hcc o ho d hd hk
    show t.cumSumVals.get i c o d = .nan
    rw [hcell i (by rw [h.wf.1]; exact hi) c (by rw [h.wf.2.1]; exact hcc) o (by rw [h.wf.2.2.1, h.lenO]; exact ho)
      d (by rw [h.wf.2.2.2, h.lenD]; exact hd), nt o ho d hd, if_neg (by omega), Num.mul_nan]
    rfl
  · rw [e]; simp
  · rw [e]; exact hp
  · rw [e]; exact hm
  · rw [e]
  · rw [e]
  · rw [e]
  · rw [e]
  · rw [e]
  · rw [e]
    intro i hi c hcc o ho d hd hk
    show (t.cumSumVals.get i c o d).amt = _
    rw [hcell i (by rw [h.wf.1]; exact hi) c (by rw [h.wf.2.1]; exact hcc) o (by rw [h.wf.2.2.1, h.lenO]; exact ho)
      d (by rw [h.wf.2.2.2, h.lenD]; exact hd), nt o ho d hd, if_pos hk, Num.one_def, Num.fin_mul_fin, mul_one,
      Num.amt_numToNan]
    rfl

/-- The full triangle of an incremental triangle: known amounts are kept, and the amounts of an origin
add up to what the cumulative full triangle ends at. -/
theorem C34_incremental_partial (h : Grid t a n D q) (hc : t.isCum ≠ some true)
    (hp : t.isPattern = false) (hm : t.isAdditive = none)
    (hf : GridPattern t.incrToCum f a n D q F) (h2 : 2 ≤ linkRows n D q) (hu : UltAmounts t.incrToCum u U) :
    ∃ z, fullTriangle t f u false = .ok z ∧ z.isCum = some false ∧ z.odims = t.odims ∧
      z.ddims.length = F + 1 ∧
      (∀ i < t.kdims.length, ∀ c < t.vdims.length, ∀ o < n, ∀ d < D, t.valuation o d ≤ t.vd →
        (z.values.get i c o d).amt = (t.values.get i c o d).amt) ∧
      ∀ i < t.kdims.length, ∀ c < t.vdims.length, ∀ o < n,
        (U i c o ≠ 0 ∧ f.toUlt i c (D - 1 - q * o) ≠ 1) ∨ U i c o = t.incrToCum.latest D q i c o →
        ∑ d ∈ Finset.range (F + 1), (z.values.get i c o d).amt = U i c o := by
  obtain ⟨hs, hcc, hk, hv, hg, hvd, hsum⟩ := h.standard_cum hc hp hm
  obtain ⟨y, hy, yw, yk, yv, yo, yd, yvd, yi, yc, yp, -, -, -, ycell⟩ := full_spec hs hcc hf h2 hu
  have n2 := h.two_origins
  have hD := h.two_ages
  have hcov := hf.covers
  have hq := h.period
  have lO : y.odims.length = n := by rw [yo, hs.lenO]
  have lD : y.ddims.length = F + 1 := by rw [yd, fullAges_length]
  have hyv : ∀ o < n, ∀ d < F + 1, y.valuation o d ≤ y.vd := by
    intro o ho d hd
    rw [yvd]
    unfold Tri.valuation valuationOf
    rw [yi, yo, yd, yvd, fullAges_last, fullAges_length]
    simp only [Bool.false_eq_true, if_false, true_and]
    have he := hf.early
    have hqo : q * o ≤ q * (n - 1) := Nat.mul_le_mul_left _ (by omega)
    by_cases hl : d + 1 = F + 1
    · rw [if_pos hl]
    · rw [if_neg hl, hs.getO ho, min_eq_left (le_trans (hs.origin_le ho) hs.early), fullAges_get (by omega)]
      generalize t.incrToCum.dgrain.months = m at he
      have h3 : (q * o + d + 1) * m ≤ (q * (n - 1) + F + 1) * m := Nat.mul_le_mul_right _ (by omega)
      have h4 : (q * o + d + 1) * m = o * q * m + (d + 1) * m := by ring
      omega
  have ord : Ordered y := by
    intro _
    refine ⟨?_, ?_, ?_⟩
    · rw [yo, yvd]
      exact fun o ho => le_trans ((hs.ordered hs.isVal).1 o ho) hs.early
    · rw [yd]
      intro d hd
      unfold fullAges at hd
      simp only [List.mem_append, List.mem_map, List.mem_range, List.mem_singleton] at hd
      rcases hd with ⟨j, hj, rfl⟩ | rfl
      · have : 1 * 1 ≤ (j + 1) * t.incrToCum.dgrain.months := Nat.mul_le_mul (by omega) (months_pos _)
        omega
      · omega
    · rw [yd]
      unfold fullAges
      rw [List.dropLast_concat]
      intro hmem
      simp only [List.mem_map, List.mem_range] at hmem
      obtain ⟨j, hj, ej⟩ := hmem
      have h1 : (j + 1) * t.incrToCum.dgrain.months ≤ F * t.incrToCum.dgrain.months :=
        Nat.mul_le_mul_right _ (by omega)
      have := hf.short
      omega
  obtain ⟨z, hz, zeq, zs, zcell⟩ := cumToIncr_cells yw ord (fun _ => by rw [yvd])
    (by rw [yc]; decide) yp (by rw [yw.2.2.2, lD]; omega)
    (by rw [yd]; exact nodup_of_lt (fullAges_sorted hf.short))
  have hcell : ∀ i < t.kdims.length, ∀ c < t.vdims.length, ∀ o < n, ∀ d < F + 1,
      (z.values.get i c o d).amt = if d = 0 then (y.values.get i c o 0).amt
        else (y.values.get i c o d).amt - (y.values.get i c o (d - 1)).amt := by
    intro i hi c hc o ho d hd
    have hin : y.values.In i c o d := ⟨by rw [yw.1, yk, hk]; exact hi, by rw [yw.2.1, yv, hv]; exact hc,
      by rw [yw.2.2.1, lO]; exact ho, by rw [yw.2.2.2, lD]; exact hd⟩
    have hnum : ∀ d < F + 1, (y.values.get i c o d).nanToNum = .fin (y.values.get i c o d).amt := by
      intro d hd
      rw [ycell i (by rw [hk]; exact hi) c (by rw [hv]; exact hc) o ho d hd]
      split_ifs with hkn
      · have := hs.finite i (by rw [hs.wf.1, hk]; exact hi) c (by rw [hs.wf.2.1, hv]; exact hc) o
          (by rw [hs.wf.2.2.1, hs.lenO]; exact ho) d (by rw [hs.wf.2.2.2, hs.lenD]; omega)
        rcases Num.noInf_cases (Num.noInf_numToNan this) with e | ⟨v, e⟩ <;> rw [e] <;> rfl
      · rcases Num.noInf_cases (Num.noInf_numToNan (Num.noInf_fin (emerged t.incrToCum f U D q F i c o d)))
          with e | ⟨v, e⟩ <;> rw [e] <;> rfl
    rw [zcell i c o d hin]
    split_ifs with h0
    · rfl
    · have dm : y.diffMask o d = 1 := by
        unfold diffMask
        split_ifs with h1 h2
        · rfl
        · exact absurd h2 (not_lt.2 (hyv o ho d hd))
        · rfl
      rw [dm, hnum d hd, hnum (d - 1) (by omega), Num.fin_sub_fin]
      show ((Num.fin _ * Num.fin 1 : Num K).numToNan).amt = _
      rw [Num.fin_mul_fin, mul_one, Num.amt_numToNan]
      rfl
  refine ⟨z, ?_, by rw [zeq], ?_, by rw [zeq]; exact lD, ?_, ?_⟩
  · unfold fullTriangle at hy ⊢
    have ic : ∀ x : Tri K, x.isCum = some true → x.incrToCum = x := by
      intro x hx
      unfold incrToCum
      rw [if_pos hx]
    have ic := ic _ hcc
    rw [hvd, ic] at hy
    simp only [if_true, Bool.false_eq_true, if_false] at hy ⊢
    obtain ⟨e, he, hy⟩ := bind_ok hy
    obtain ⟨l, hl, hy⟩ := bind_ok hy
    rw [he]
    simp only [bind, Except.bind, hl] at hy ⊢
    cases l with
    | scalar v => cases hy
    | tri l =>
      simp only [] at hy ⊢
      obtain ⟨g, hg, hy⟩ := bind_ok hy
      obtain ⟨p, hp, hy⟩ := bind_ok hy
      obtain ⟨r, hr, hy⟩ := bind_ok hy
      obtain ⟨s, hs, hy⟩ := bind_ok hy
      simp only [hg, hp, hr, hs, hy]
      exact hz
  · rw [zeq]
    show y.odims = _
    rw [yo]
    unfold incrToCum
    split_ifs <;> rfl
  · intro i hi c hc o ho d hd hval
    have hkn : q * o + d + 1 ≤ D := by
      by_contra hcon
      have := (h.valuation_gt ho hd).2 (by omega)
      omega
    have ka : ∀ d < D, q * o + d + 1 ≤ D → (y.values.get i c o d).amt =
        ∑ j ∈ Finset.range (d + 1), (t.values.get i c o j).amt := by
      intro d hd hkn
      rw [ycell i (by rw [hk]; exact hi) c (by rw [hv]; exact hc) o ho d (by omega), if_pos hkn,
        Num.amt_numToNan, hsum i hi c hc o ho d hd hkn]
    rw [hcell i hi c hc o ho d (by omega)]
    split_ifs with h0
    · subst h0
      rw [ka 0 hd hkn, Finset.sum_range_one]
    · rw [ka d hd hkn, ka (d - 1) (by omega) (by omega), show d - 1 + 1 = d by omega,
        Finset.sum_range_succ, add_sub_cancel_left]
  · intro i hi c hc o ho hU
    have tel : ∀ m ≤ F, ∑ d ∈ Finset.range (m + 1), (z.values.get i c o d).amt =
        (y.values.get i c o m).amt := by
      intro m hm
      induction m with
      | zero => rw [Finset.sum_range_one, hcell i hi c hc o ho 0 (by omega), if_pos rfl]
      | succ m ih =>
        rw [Finset.sum_range_succ, ih (by omega), hcell i hi c hc o ho (m + 1) (by omega),
          if_neg (by omega), Nat.add_sub_cancel, add_sub_cancel]
    rw [tel F le_rfl, ycell i (by rw [hk]; exact hi) c (by rw [hv]; exact hc) o ho F (by omega),
      if_neg (by omega), Num.amt_numToNan]
    rw [← hf.growth_eq] at hU
    exact (emerged_last i c o).2 hU

namespace C34

/-- Factors 3/2, 11/10 and no tail. -/
def pat : Tri ℚ where
  kdims := [["Total"]]
  keyLabels := ["Total"]
  vdims := ["paid"]
  odims := [24240]
  ddims := [12, 24, 36]
  isVal := false
  ograin := .Y
  dgrain := .Y
  vd := ultVal
  isCum := some false
  isPattern := true
  isAdditive := none
  values := ⟨1, 1, 1, 3, fun _ _ _ d => .fin ([3 / 2, 11 / 10, 1].getD d 1)⟩

theorem grid (b : Option Bool) : Grid (Ex.tri3 b Ex.cum3) 24240 3 3 1 where
  wf := ⟨rfl, rfl, rfl, rfl⟩
  finite := (Ex.proper_tri3 b).finite
  isVal := rfl
  index_pos := by decide +revert
  columns_pos := by decide +revert
  two_origins := by decide
  period := le_rfl
  recent := by decide
  odims := by decide +revert
  ddims := by decide +revert
  vd := by decide +revert
  short := by decide +revert
  early := by decide +revert
  known := by
    intro i hi c hc o ho d hd h
    interval_cases o <;> interval_cases d <;> first | rfl | omega

theorem standard : Standard (Ex.tri3 (some true) Ex.cum3) 24240 3 3 1 :=
  ⟨grid _, by decide, rfl, rfl⟩

theorem gridPattern : GridPattern (Ex.tri3 (some true) Ex.cum3) pat 24240 3 3 1 3 where
  wf := ⟨rfl, rfl, rfl, rfl⟩
  pattern := rfl
  incremental := by decide
  multiplicative := rfl
  ages := rfl
  ograin := rfl
  dgrain := rfl
  keyLabels := rfl
  index := Or.inl rfl
  columns := Or.inl rfl
  origin := rfl
  starts := rfl
  factors := by
    intro i hi c hc j hj
    have hj : j < 3 := hj
    refine ⟨[3 / 2, 11 / 10, 1].getD j 1, ?_, rfl⟩
    interval_cases j <;> norm_num
  grid := by decide
  covers := le_rfl
  short := by decide
  early := by decide
  date := le_rfl

/-- The theorem applied to the 3 x 3 example. -/
example : ∃ u z, (Ex.tri3 (some true) Ex.cum3).chainladder pat none = .ok u ∧
    fullTriangle (Ex.tri3 (some true) Ex.cum3) pat u true = .ok z ∧ z.values.get 0 0 1 1 = .fin 168 ∧
    z.values.get 0 0 2 3 = u.values.get 0 0 2 0 := by
  obtain ⟨u, z, h1, h2, h3, h4⟩ := C34_chainladder_partial standard rfl gridPattern (by decide)
  refine ⟨u, z, h1, h2, ?_, h4 0 (by decide) 0 (by decide) 2 (by decide)⟩
  rw [h3 0 (by decide) 0 (by decide) 1 (by decide) 1 (by decide) (by decide)]
  decide +kernel

/-- An incremental triangle of payments 100, 150, 165; 110, 168; 120. -/
example : ∃ u z, (Ex.tri3 (some false) Ex.cum3).incrToCum.chainladder pat none = .ok u ∧
    fullTriangle (Ex.tri3 (some false) Ex.cum3) pat u false = .ok z ∧
    (z.values.get 0 0 1 1).amt = 168 ∧
    ∑ d ∈ Finset.range 4, (z.values.get 0 0 1 d).amt = 278 * (11 / 10) := by
  have hg := grid (some false)
  obtain ⟨hs, hc, -⟩ := hg.standard_cum (by decide) rfl rfl
  have hf : GridPattern (Ex.tri3 (some false) Ex.cum3).incrToCum pat 24240 3 3 1 3 := by
    have g := gridPattern
    exact ⟨⟨g.wf, g.pattern, g.incremental, g.multiplicative, rfl, rfl, rfl, rfl, Or.inl rfl, Or.inl rfl, rfl,
      rfl, g.factors⟩, g.grid, g.covers, g.short, g.early, g.date⟩
  obtain ⟨l, hl, hd⟩ := hs.latest
  obtain ⟨u, rows, hu, hr, hul⟩ := C33_ultimate_partial hs.cumTri hf.toPatternFor hl
  have hrr : rows = List.range 3 := by
    refine List.Pairwise.eq_of_mem_iff hr.rows_inc hd.rows_inc ?_
    intro o
    rw [hr.mem_rows, hd.mem_rows]
  subst hrr
  obtain ⟨z, hz, -, -, -, h3, h4⟩ := C34_incremental_partial hg (by decide) rfl rfl hf (by decide)
    (hul.ultAmounts hs)
  refine ⟨u, z, hu, hz, ?_, ?_⟩
  · rw [h3 0 (by decide) 0 (by decide) 1 (by decide) 1 (by decide) (by decide)]
    decide +kernel
  · rw [h4 0 (by decide) 0 (by decide) 1 (by decide) (Or.inl (by decide +kernel))]
    decide +kernel

end C34

/-- An origin whose age-to-ultimate factor is exactly one ends at its latest amount, whatever its
ultimate: 165 instead of the expected loss of 200. -/
theorem C34_false : ∃ (t f w u z : Tri ℚ), Standard t 24240 3 3 1 ∧ t.isCum = some true ∧
    GridPattern t f 24240 3 3 1 3 ∧ ExposureFor t w ∧ t.expectedLoss f (some w) 1 = .ok u ∧
    fullTriangle t f u true = .ok z ∧ u.values.get 0 0 0 0 = .fin 200 ∧
    z.values.get 0 0 0 3 = .fin 165 := by
  obtain ⟨z, h1, h2⟩ := ok_of (x := (Ex.tri3 (some true) Ex.cum3).expectedLoss C34.pat
      (some (C35.premium fun _ => 200)) 1 >>= fun u =>
      fullTriangle (Ex.tri3 (some true) Ex.cum3) C34.pat u true)
    (fun z => z.values.get 0 0 0 3 = .fin 165) (by decide +kernel)
  obtain ⟨u, h3, h4⟩ := bind_ok h1
  obtain ⟨u', h5, h6⟩ := ok_of (x := (Ex.tri3 (some true) Ex.cum3).expectedLoss C34.pat
      (some (C35.premium fun _ => 200)) 1) (fun u => u.values.get 0 0 0 0 = .fin 200) (by decide +kernel)
  rw [h3] at h5
  injection h5 with h5
  subst h5
  exact ⟨_, _, _, u, z, C34.standard, rfl, C34.gridPattern, C35.exposureFor _, h3, h4, h6, h2⟩

end Tri
end CL
