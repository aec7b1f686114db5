import Verif.Model.ProcessVariance
import Verif.Lemmas.MackTri
import Verif.Lemmas.Increments
import Verif.Lemmas.Coherent
import Mathlib.Data.Sign.Basic

set_option linter.unusedSectionVars false

/-! # Full triangles with process variance -/

namespace CL
namespace Boot
open Tri
variable {K : Type} [Field K] [LinearOrder K] [IsStrictOrderedRing K]
variable {t f u : Tri K} {a : Int} {n D q F : Nat} {U : Nat → Nat → Nat → K} {z : Tri K}

/-- The expected increment of the full triangle. -/
def gain (z : Tri K) (i c o d : Nat) : K :=
  (z.values.get i c o d).amt - (z.values.get i c o (d - 1)).amt

/-- A draw with the size and the sign of the expected increment. -/
def shaken (scale : K) (std : K → K) (x : K) : K := (SignType.sign x : K) * (scale * std (|x| / scale))

theorem noise_fin (std : K → K) (scale x : K) : noise std scale (.fin x) = .fin (shaken scale std x) := by
  unfold noise shaken
  by_cases h0 : x = 0
  · subst h0
    simp
  · rcases lt_or_gt_of_ne h0 with h | h
    · simp [h0, h.not_gt, sign_neg h]
    · simp [h0, h, sign_pos h]

theorem shaken_zero (scale : K) (std : K → K) : shaken scale std 0 = 0 := by simp [shaken]

theorem filled_numToNan (x : K) : ((Num.fin x).numToNan).nanToNum = .fin x := by
  by_cases h : x = 0
  · rw [h, Num.numToNan_zero']; rfl
  · rw [Num.numToNan_fin_of_ne h]; rfl

/-- Nothing in the full triangle is after its valuation date. -/
theorem past (h : Grid t a n D q) (hf : GridPattern t f a n D q F) (hz : Completed t z n D q F) {o d : Nat}
    (ho : o < n) (hd : d < F + 1) : z.valuation o d ≤ ultVal := by
  unfold Tri.valuation valuationOf
  rw [hz.isVal, hz.origins, hz.ages, hz.date, fullAges_last, fullAges_length]
  simp only [Bool.false_eq_true, if_false, true_and]
  have he := hf.early
  have hqo : q * o ≤ q * (n - 1) := Nat.mul_le_mul_left _ (by omega)
  split_ifs with hl
  · exact le_rfl
  · rw [h.getO ho, min_eq_left (le_trans (h.origin_le ho) h.early), fullAges_get (by omega)]
    have h3 : (q * o + d + 1) * t.dgrain.months ≤ (q * (n - 1) + F + 1) * t.dgrain.months :=
      Nat.mul_le_mul_right _ (by omega)
    have h4 : (q * o + d + 1) * t.dgrain.months = o * q * t.dgrain.months + (d + 1) * t.dgrain.months := by ring
    omega

theorem full_ordered (h : Grid t a n D q) (hf : GridPattern t f a n D q F) (hz : Completed t z n D q F) :
    Ordered z := by
  have hm := months_pos t.dgrain
  intro _
  refine ⟨?_, ?_, ?_⟩
  · intro o ho
    rw [hz.origins] at ho
    rw [hz.date]
    exact le_trans ((h.ordered h.isVal).1 o ho) h.early
  · rw [hz.ages]
    intro d hd
    unfold fullAges at hd
    simp only [List.mem_append, List.mem_map, List.mem_range, List.mem_singleton] at hd
    rcases hd with ⟨j, hj, rfl⟩ | rfl
    · have : 1 * 1 ≤ (j + 1) * t.dgrain.months := Nat.mul_le_mul (by omega) hm
      omega
    · omega
  · rw [hz.ages]
    unfold fullAges
    rw [List.dropLast_concat]
    intro hmem
    simp only [List.mem_map, List.mem_range] at hmem
    obtain ⟨j, hj, ej⟩ := hmem
    have h1 : (j + 1) * t.dgrain.months ≤ F * t.dgrain.months := Nat.mul_le_mul_right _ (by omega)
    have := hf.short
    omega

/-- The increments of the full triangle. -/
theorem full_increments (h : Grid t a n D q) (hf : GridPattern t f a n D q F) (hz : Completed t z n D q F)
    (zc : z.isCum = some true) : ∃ y, z.cumToIncr = .ok y ∧ y = { z with
        isCum := some false
        values := y.values } ∧ WF y ∧
      ∀ i < t.kdims.length, ∀ c < t.vdims.length, ∀ o < n, ∀ d < F + 1,
        (y.values.get i c o d).nanToNum =
          .fin (if d = 0 then (z.values.get i c o 0).amt else gain z i c o d) := by
  have n2 := h.two_origins
  have D2 := h.two_ages
  have hcov := hf.covers
  have d0 : z.values.d0 = t.kdims.length := by rw [hz.wf.1, hz.index]
  have d1 : z.values.d1 = t.vdims.length := by rw [hz.wf.2.1, hz.columns]
  have d2 : z.values.d2 = n := by rw [hz.wf.2.2.1, hz.origins, h.lenO]
  have d3 : z.values.d3 = F + 1 := by rw [hz.wf.2.2.2, hz.ages, fullAges_length]
  obtain ⟨y, hy, ey, hs, hcell⟩ := cumToIncr_cells hz.wf (full_ordered h hf hz) (fun _ => by rw [hz.date])
    (by rw [zc]; decide) hz.noPattern (by rw [d3]; omega)
    (by rw [hz.ages]; exact nodup_of_lt (fullAges_sorted hf.short))
  have wy : WF y := cumToIncr_wf hz.wf hy
  refine ⟨y, hy, ey, wy, ?_⟩
  intro i hi c hc o ho d hd
  rw [hcell i c o d ⟨by rw [d0]; exact hi, by rw [d1]; exact hc, by rw [d2]; exact ho, by rw [d3]; exact hd⟩]
  by_cases e0 : d = 0
  · rw [if_pos e0, if_pos e0, hz.filled hi hc ho (by omega)]
  · rw [if_neg e0, if_neg e0]
    have hm : z.diffMask o d = 1 := by
      unfold diffMask
      rw [if_neg (by rw [d2, d3]; omega), if_neg]
      rw [hz.date]
      have := past h hf hz ho hd
      omega
    rw [hm, hz.filled hi hc ho hd, hz.filled hi hc ho (by omega), Num.fin_sub_fin]
    show ((Num.fin _ * Num.fin 1 : Num K).numToNan).nanToNum = _
    rw [Num.fin_mul_fin, mul_one, filled_numToNan]
    rfl

theorem three_ages (h : Grid t a n D q) (h2 : 2 ≤ linkRows n D q) : 3 ≤ D := by
  have n2 := h.two_origins
  have hq := h.period
  have hr := h.recent
  unfold linkRows at h2
  split_ifs at h2 with h3
  · have : 1 * 1 ≤ q * (n - 1) := Nat.mul_le_mul hq (by omega)
    omega
  · have : 1 * 2 ≤ q * (n - 1) := Nat.mul_le_mul hq (by omega)
    omega

/-- The amount of a cell with process variance: the recorded amount, or the latest one and what was drawn since. -/
def noisy (t z : Tri K) (D q : Nat) (scales : List K) (draw : Nat → Nat → Nat → Nat → K → K) (i c o d : Nat) : K :=
  if q * o + d + 1 ≤ D then (t.values.get i c o d).amt
  else t.latest D q i c o +
    ∑ j ∈ Finset.Ico (D - q * o) (d + 1), shaken (scaleAt scales j) (draw i c o j) (gain z i c o j)

theorem process_run (h : Standard t a n D q) (hc : t.isCum = some true) (hf : GridPattern t f a n D q F)
    (h2 : 2 ≤ linkRows n D q) (hz : Completed t z n D q F) (zc : z.isCum = some true) {scales : List K}
    (hl : scales.length = 1 ∨ scales.length = F + 1) (hp : ∀ s ∈ scales, 0 < s)
    (draw : Nat → Nat → Nat → Nat → K → K) :
    ∃ r, processVariance t z scales draw = .ok r ∧ WF r ∧ SameAxes r z ∧ r.vd = ultVal ∧ r.isPattern = false ∧
      r.isCum = some true ∧
      ∀ i < t.kdims.length, ∀ c < t.vdims.length, ∀ o < n, ∀ d < F + 1,
        r.values.get i c o d = (Num.fin (noisy t z D q scales draw i c o d)).numToNan := by
  have n2 := h.two_origins
  have D2 := h.two_ages
  have hcov := hf.covers
  have hD := three_ages h.toGrid h2
  obtain ⟨y, hy, ey, wy, yc⟩ := full_increments h.toGrid hf hz zc
  obtain ⟨b, hb, ⟨bk, bl, bv, bo, bd, bi, bog, bdg, bvd, bp⟩, bc, bp', gb, -, bcell⟩ :=
    h.toGrid.increments h.noPattern (Or.inr ⟨hc, hD⟩)
  have yk : y.kdims = t.kdims := by rw [ey]; exact hz.index
  have yv : y.vdims = t.vdims := by rw [ey]; exact hz.columns
  have yo : y.odims = t.odims := by rw [ey]; exact hz.origins
  have yd : y.ddims = fullAges F t.dgrain.months := by rw [ey]; exact hz.ages
  have yvd : y.vd = ultVal := by rw [ey]; exact hz.date
  have yi : y.isVal = false := by rw [ey]; exact hz.isVal
  have yp : y.isPattern = false := by rw [ey]; exact hz.noPattern
  have yog : y.ograin = t.ograin := by rw [ey]; exact hz.ograin
  have ydg : y.dgrain = t.dgrain := by rw [ey]; exact hz.dgrain
  have yl : y.keyLabels = t.keyLabels := by rw [ey]; exact hz.keyLabels
  have same : SameButDates y b := ⟨by rw [yk, bk], by rw [yl, bl], by rw [yv, bv], by rw [yi, bi, h.isVal],
    by rw [yog, bog], by rw [ydg, bdg]⟩
  have vmax : max ultVal b.vd = ultVal := by rw [bvd]; exact max_eq_left h.early
  have lo : y.odims.length = n := by rw [yo, h.lenO]
  have lbo : b.odims.length = n := by rw [bo, h.lenO]
  have ld : y.ddims.length = F + 1 := by rw [yd, fullAges_length]
  have lbd : b.ddims.length = D := by rw [bd, h.lenD]
  have blk : LabelBlock (fullAges F t.dgrain.months) b.ddims 0 := by
    refine ⟨by rw [lbd, fullAges_length]; omega, fun k hk => ?_⟩
    rw [lbd] at hk
    rw [Nat.zero_add, bd, h.getDv hk, fullAges_get (by omega)]
  obtain ⟨l, el, eql, wl, l0, l1, lcell⟩ := sub_blocks same wy gb.wf (O := t.odims)
    (D := fullAges F t.dgrain.months) h.toGrid.odims_sorted (fullAges_sorted hf.short) (ox := 0) (dx := 0)
    (oy := 0) (dy := 0) (by rw [yo]; exact LabelBlock.refl _) (by rw [yd]; exact LabelBlock.refl _)
    (by rw [bo]; exact LabelBlock.refl _) blk (by omega) (by omega) (by omega) (by omega)
    (fullAges_le hf.short) (by intro k hk; rw [h.lenO] at hk; left; omega)
    (by intro k hk; rw [fullAges_length] at hk; left; omega) (by omega)
  have lvd : l.vd = ultVal := by rw [eql]; show max y.vd b.vd = _; rw [yvd, vmax]
  have lax : SameAxes l z := by
    rw [eql]
    exact ⟨by rw [hz.index, ← yk], by rw [hz.keyLabels, ← yl], by rw [hz.columns, ← yv], hz.origins.symm,
      hz.ages.symm, by rw [hz.isVal, ← yi], by rw [hz.ograin, ← yog], by rw [hz.dgrain, ← ydg]⟩
  have full_mask : ∀ {x : Tri K}, WF x → SameAxes x z → x.vd = ultVal → ∀ {o d : Nat}, o < n → d < F + 1 →
      x.nanTri o d = 1 := by
    rintro x wx ⟨-, -, -, e4, e5, e6, e7, e8⟩ ev o d ho hd
    rcases nanTri_eq x o d with e | ⟨-, e⟩
    · exact e
    · exfalso
      have h1 : x.valuation o d = z.valuation o d := by
        unfold Tri.valuation
        rw [e4, e5, e6, ev, hz.date]
      rw [h1, ev] at e
      have := past h.toGrid hf hz ho hd
      omega
  have hknown : ∀ {o d : Nat}, o < n → d < D → (t.valuation o d ≤ t.vd ↔ q * o + d + 1 ≤ D) := by
    intro o d ho hd
    rw [h.toGrid.le_iff ho hd]
    omega
  -- the recorded increments, filled
  have bfill : ∀ i < t.kdims.length, ∀ c < t.vdims.length, ∀ o < n, ∀ d < F + 1,
      (blockCell b 0 0 i c o d).nanToNum = .fin (if q * o + d + 1 ≤ D then
        (if d = 0 then (t.values.get i c o 0).amt
          else (t.values.get i c o d).amt - (t.values.get i c o (d - 1)).amt) else 0) := by
    intro i hi c hcc o ho d hd
    unfold blockCell
    rw [lbo, lbd]
    by_cases hdD : d < D
    · rw [if_pos ⟨⟨by omega, by omega⟩, by omega, by omega⟩, Nat.sub_zero, Nat.sub_zero]
      by_cases hk : q * o + d + 1 ≤ D
      · rw [if_pos hk]
        have e := bcell i hi c hcc o ho d hdD ((hknown ho hdD).2 hk)
        have hfin := gb.finite i (by rw [gb.wf.1, bk]; exact hi) c (by rw [gb.wf.2.1, bv]; exact hcc) o
          (by rw [gb.wf.2.2.1, lbo]; exact ho) d (by rw [gb.wf.2.2.2, lbd]; exact hdD)
        rw [Num.nanToNum_eq hfin, e]
        by_cases h0 : d = 0
        · subst h0
          rw [if_neg (by simp), if_pos rfl]
        · rw [if_pos ⟨hc, h0⟩, if_neg h0]
      · rw [if_neg hk, gb.known i (by rw [bk]; exact hi) c (by rw [bv]; exact hcc) o ho d hdD (by omega)]
        rfl
    · rw [if_neg (by omega), if_neg (by omega)]
      rfl
  have lfill : ∀ i < t.kdims.length, ∀ c < t.vdims.length, ∀ o < n, ∀ d < F + 1,
      l.values.get i c o d = (Num.fin (if q * o + d + 1 ≤ D then 0 else gain z i c o d)).numToNan := by
    intro i hi c hcc o ho d hd
    rw [lcell i c o d (by rw [h.lenO]; exact ho) (by rw [fullAges_length]; exact hd),
      full_mask wl lax lvd ho hd, bfill i hi c hcc o ho d hd]
    have e1 : blockCell y 0 0 i c o d = y.values.get i c o d := by
      unfold blockCell
      rw [lo, ld, if_pos ⟨⟨by omega, by omega⟩, by omega, by omega⟩, Nat.sub_zero, Nat.sub_zero]
    rw [e1, yc i hi c hcc o ho d hd, Num.fin_sub_fin]
    show (Num.fin _ * Num.fin 1 : Num K).numToNan = _
    rw [Num.fin_mul_fin, mul_one]
    congr 2
    have hrow := h.row_le ho
    have kn : ∀ e, q * o + e + 1 ≤ D → (z.values.get i c o e).amt = (t.values.get i c o e).amt := by
      intro e he
      rw [hz.known i hi c hcc o ho e (by omega) he, Num.amt_numToNan]
    by_cases hk : q * o + d + 1 ≤ D
    · rw [if_pos hk, if_pos hk]
      by_cases h0 : d = 0
      · subst h0
        rw [if_pos rfl, if_pos rfl, kn 0 hk, sub_self]
      · rw [if_neg h0, if_neg h0]
        unfold gain
        rw [kn d hk, kn (d - 1) (by omega), sub_self]
    · rw [if_neg hk, if_neg hk, if_neg, sub_zero]
      rintro rfl
      rw [Nat.mul_comm] at hrow
      omega
  obtain ⟨m, hm⟩ : ∃ m : Tri K, m = { l with values := { l.values with
      get := fun i c o d => noise (draw i c o d) (scaleAt scales d) (l.values.get i c o d) } } := ⟨_, rfl⟩
  have wm : WF m := by rw [hm]; exact wl
  have mlab : m.kdims = l.kdims ∧ m.keyLabels = l.keyLabels ∧ m.vdims = l.vdims ∧ m.odims = l.odims ∧
      m.ddims = l.ddims ∧ m.isVal = l.isVal ∧ m.ograin = l.ograin ∧ m.dgrain = l.dgrain := by
    rw [hm]; exact ⟨rfl, rfl, rfl, rfl, rfl, rfl, rfl, rfl⟩
  obtain ⟨ml1, ml2, ml3, ml4, ml5, ml6, ml7, ml8⟩ := mlab
  have max' : SameAxes m z := by
    obtain ⟨x1, x2, x3, x4, x5, x6, x7, x8⟩ := lax
    exact ⟨ml1.trans x1, ml2.trans x2, ml3.trans x3, ml4.trans x4, ml5.trans x5, ml6.trans x6, ml7.trans x7, ml8.trans x8⟩
  have mvd : m.vd = ultVal := by rw [hm]; exact lvd
  have mp : m.isPattern = false := by
    rw [hm]; show l.isPattern = false
    rw [eql]; show (y.isPattern && b.isPattern) = false
    rw [yp]; rfl
  have mcum : m.isCum = some false := by
    rw [hm]; show l.isCum = some false
    rw [eql]; show y.isCum = some false
    rw [ey]
  have mo : m.odims = t.odims := max'.2.2.2.1.trans hz.origins
  have md : m.ddims = fullAges F t.dgrain.months := max'.2.2.2.2.1.trans hz.ages
  have mfill : ∀ i < t.kdims.length, ∀ c < t.vdims.length, ∀ o < n, ∀ d < F + 1,
      (m.values.get i c o d).nanToNum = .fin (if q * o + d + 1 ≤ D then 0
        else shaken (scaleAt scales d) (draw i c o d) (gain z i c o d)) := by
    intro i hi c hcc o ho d hd
    rw [hm]
    show (noise (draw i c o d) (scaleAt scales d) (l.values.get i c o d)).nanToNum = _
    rw [lfill i hi c hcc o ho d hd]
    by_cases hk : q * o + d + 1 ≤ D
    · rw [if_pos hk, if_pos hk, Num.numToNan_zero']
      rfl
    · rw [if_neg hk, if_neg hk]
      by_cases h0 : gain z i c o d = 0
      · rw [h0, Num.numToNan_zero', shaken_zero]
        rfl
      · rw [Num.numToNan_fin_of_ne h0, noise_fin]
        rfl
  have sameM : SameButDates m b := by
    obtain ⟨x1, x2, x3, x4, x5, x6, x7, x8⟩ := max'
    exact ⟨by rw [x1, hz.index, bk], by rw [x2, hz.keyLabels, bl], by rw [x3, hz.columns, bv],
      by rw [x6, hz.isVal, bi, h.isVal], by rw [x7, hz.ograin, bog], by rw [x8, hz.dgrain, bdg]⟩
  obtain ⟨s, es, eqs, ws, s0, s1, scell⟩ := add_blocks sameM wm gb.wf (O := t.odims)
    (D := fullAges F t.dgrain.months) h.toGrid.odims_sorted (fullAges_sorted hf.short) (ox := 0) (dx := 0)
    (oy := 0) (dy := 0) (by rw [mo]; exact LabelBlock.refl _) (by rw [md]; exact LabelBlock.refl _)
    (by rw [bo]; exact LabelBlock.refl _) blk (by rw [mo, h.lenO]; omega) (by rw [md, fullAges_length]; omega)
    (by omega) (by omega) (fullAges_le hf.short)
    (by intro k hk; rw [h.lenO] at hk; left; rw [mo, h.lenO]; omega)
    (by intro k hk; rw [fullAges_length] at hk; left; rw [md, fullAges_length]; omega)
    (by rw [md, fullAges_length, lbd]; omega)
  have svd : s.vd = ultVal := by rw [eqs]; show max m.vd b.vd = _; rw [mvd, vmax]
  have sax : SameAxes s z := by
    obtain ⟨x1, x2, x3, x4, x5, x6, x7, x8⟩ := max'
    rw [eqs]
    exact ⟨x1, x2, x3, hz.origins.symm, hz.ages.symm, x6, x7, x8⟩
  have scum : s.isCum = some false := by rw [eqs]; exact mcum
  have sp : s.isPattern = false := by
    rw [eqs]; show (m.isPattern && b.isPattern) = false
    rw [mp]; rfl
  have e0 : s.values.d0 = t.kdims.length := by rw [ws.1, sax.1, hz.index]
  have e1 : s.values.d1 = t.vdims.length := by rw [ws.2.1, sax.2.2.1, hz.columns]
  have e2 : s.values.d2 = n := by rw [ws.2.2.1, sax.2.2.2.1, hz.origins, h.lenO]
  have e3 : s.values.d3 = F + 1 := by rw [ws.2.2.2, sax.2.2.2.2.1, hz.ages, fullAges_length]
  have sfill : ∀ i < t.kdims.length, ∀ c < t.vdims.length, ∀ o < n, ∀ d < F + 1,
      s.values.get i c o d = (Num.fin (if q * o + d + 1 ≤ D then
        (if d = 0 then (t.values.get i c o 0).amt
          else (t.values.get i c o d).amt - (t.values.get i c o (d - 1)).amt)
        else shaken (scaleAt scales d) (draw i c o d) (gain z i c o d))).numToNan := by
    intro i hi c hcc o ho d hd
    rw [scell i c o d (by rw [h.lenO]; exact ho) (by rw [fullAges_length]; exact hd),
      full_mask ws sax svd ho hd, bfill i hi c hcc o ho d hd]
    have e1 : blockCell m 0 0 i c o d = m.values.get i c o d := by
      unfold blockCell
      rw [mo, md, h.lenO, fullAges_length, if_pos ⟨⟨by omega, by omega⟩, by omega, by omega⟩, Nat.sub_zero, Nat.sub_zero]
    rw [e1, mfill i hi c hcc o ho d hd, Num.fin_add_fin]
    show (Num.fin _ * Num.fin 1 : Num K).numToNan = _
    rw [Num.fin_mul_fin, mul_one]
    congr 2
    by_cases hk : q * o + d + 1 ≤ D
    · simp only [if_pos hk, zero_add]
    · simp only [if_neg hk, add_zero]
  have sfin : Finite s := by
    intro i hi c hcc o ho d hd
    rw [sfill i (by omega) c (by omega) o (by omega) d (by omega)]
    exact Num.noInf_numToNan (by trivial)
  obtain ⟨ci, ccell⟩ := incrToCum_cells sfin (by rw [scum]; decide) sp
  refine ⟨s.incrToCum, ?_, incrToCum_wf ws, ?_, ?_, ?_, ?_, ?_⟩
  · unfold processVariance
    simp only [hy, hb, el, bind, Except.bind]
    rw [if_neg, if_neg, ← hm, es]
    · rw [Bool.not_eq_true, List.any_eq_false]
      intro x hx
      have := hp x hx
      simp only [decide_eq_true_eq, not_le]
      exact this
    · have : l.values.d3 = F + 1 := by rw [wl.2.2.2, lax.2.2.2.2.1, hz.ages, fullAges_length]
      rw [this]
      tauto
  · rw [ci]; exact sax
  · rw [ci]; exact svd
  · rw [ci]; exact sp
  · rw [ci]
  · intro i hi c hcc o ho d hd
    rw [ci]
    show s.cumSumVals.get i c o d = _
    rw [ccell i (by omega) c (by omega) o (by omega) d (by omega), full_mask ws sax svd ho hd]
    show (Num.fin _ * Num.fin 1 : Num K).numToNan = _
    rw [Num.fin_mul_fin, mul_one]
    congr 2
    have hsum : ∀ j ∈ Finset.range (d + 1), (s.values.get i c o j).amt = if q * o + j + 1 ≤ D then
        (if j = 0 then (t.values.get i c o 0).amt
          else (t.values.get i c o j).amt - (t.values.get i c o (j - 1)).amt)
        else shaken (scaleAt scales j) (draw i c o j) (gain z i c o j) := by
      intro j hj
      rw [Finset.mem_range] at hj
      rw [sfill i hi c hcc o ho j (by omega), Num.amt_numToNan]
      rfl
    rw [Finset.sum_congr rfl hsum]
    have hrow := h.row_le ho
    rw [Nat.mul_comm] at hrow
    have tele : ∀ e, q * o + e + 1 ≤ D → (∑ j ∈ Finset.range (e + 1), if q * o + j + 1 ≤ D then
        (if j = 0 then (t.values.get i c o 0).amt
          else (t.values.get i c o j).amt - (t.values.get i c o (j - 1)).amt)
        else shaken (scaleAt scales j) (draw i c o j) (gain z i c o j)) = (t.values.get i c o e).amt := by
      intro e
      induction e with
      | zero =>
        intro he
        rw [Finset.sum_range_one, if_pos he, if_pos rfl]
      | succ e ih =>
        intro he
        rw [Finset.sum_range_succ, ih (by omega), if_pos he, if_neg (by omega), Nat.add_sub_cancel]
        ring
    unfold noisy
    by_cases hk : q * o + d + 1 ≤ D
    · rw [if_pos hk, tele d hk]
    · rw [if_neg hk]
      rw [Finset.range_eq_Ico, ← Finset.sum_Ico_consecutive _ (Nat.zero_le (D - q * o)) (by omega : D - q * o ≤ d + 1)]
      congr 1
      · have := tele (D - 1 - q * o) (by omega)
        rw [Finset.range_eq_Ico, show D - 1 - q * o + 1 = D - q * o by omega] at this
        exact this
      · refine Finset.sum_congr rfl fun j hj => ?_
        rw [Finset.mem_Ico] at hj
        rw [if_neg (by omega)]

end Boot
end CL
