import Verif.Lemmas.Mack
import Verif.Lemmas.Full
import Verif.Spec.Mack

set_option linter.unusedSectionVars false

/-! # The Mack recursion on triangles -/

namespace CL
variable {K : Type} [Field K] [LinearOrder K] [IsStrictOrderedRing K]

/-- With the mask of a triangle, the recursion on numbers is Mack's. -/
theorem quad_row {s : K → K} (hs : IsSqrt s) {T L M : Nat → K} {l D : Nat}
    (h0 : ∀ d ≤ l, M d = 0) (h1 : ∀ d, l < d → d ≤ D → M d = 1) :
    MackRow T L l D (quad s T L M) where
  known d hd := by
    cases d with
    | zero => rfl
    | succ d => show _ * _ = _; rw [h0 _ hd, mul_zero]
  nonneg d hd := by
    cases d with
    | zero => exact le_rfl
    | succ d =>
      show 0 ≤ _ * _
      by_cases hl : d + 1 ≤ l
      · rw [h0 _ hl, mul_zero]
      · rw [h1 _ (by omega) hd, mul_one]
        exact (hs _ (add_nonneg (sq_nonneg _) (sq_nonneg _))).1
  step d h2 h3 := by
    show (_ * _) ^ 2 = _
    rw [h1 _ (by omega) (by omega), mul_one, (hs _ (add_nonneg (sq_nonneg _) (sq_nonneg _))).2, add_comm]

namespace Tri
variable {t f u : Tri K} {a : Int} {n D q F : Nat} {U : Nat → Nat → Nat → K}

theorem only_bix {m I i : Nat} (h : m = I ∨ m = 1) (hi : i < I) : Arr.bix m I i = C54.only m i := by
  unfold Arr.bix C54.only
  rcases h with h | h
  · rw [if_pos h]
    split_ifs with h1
    · omega
    · rfl
  · rw [if_pos h]
    split_ifs with h1
    · omega
    · rfl

theorem only_lt {m I i : Nat} (h : m = I ∨ m = 1) (hi : i < I) : C54.only m i < m := by
  unfold C54.only
  split_ifs <;> omega

/-- The factors of the recursion. -/
theorem mackLdf_spec (h : Grid t a n D q) (hf : GridPattern t f a n D q F) (hF : D < F) :
    ∃ l, t.mackLdf f = .ok l ∧ l.d2 = 1 ∧
      (l.d0 = t.kdims.length ∨ l.d0 = 1) ∧ (l.d1 = t.vdims.length ∨ l.d1 = 1) ∧ l.d3 = D ∧
      ∀ i < t.kdims.length, ∀ c < t.vdims.length, ∀ O o d, o < O → d < D →
        l.lift t.kdims.length t.vdims.length O i c o d = .fin (f.riskFactor D i c d) := by
  obtain ⟨w0, w1, w2, w3⟩ := h.wf
  obtain ⟨f0, f1, f2, f3⟩ := hf.wf
  have hD := h.two_ages
  have lD := h.lenD
  have lF := hf.len
  have i0 : f.values.d0 = t.kdims.length ∨ f.values.d0 = 1 := by
    rw [f0]; rcases hf.index with e | e
    · exact Or.inl (by rw [e])
    · exact Or.inr e
  have i1 : f.values.d1 = t.vdims.length ∨ f.values.d1 = 1 := by
    rw [f1]; rcases hf.columns with e | e
    · exact Or.inl (by rw [e])
    · exact Or.inr e
  have i2 : f.values.d2 = 1 := by rw [f2]; exact hf.origin
  obtain ⟨ec, hcdf⟩ := cdf_full hf.toPatternFor
  obtain ⟨x, hx, x0, x1, x2, x3, xc⟩ := Arr.sliceD_upto f.values (y := D - 1) (by omega)
  obtain ⟨y, hy, y0, y1, y2, y3, yc⟩ := Arr.sliceD_neg f.cumProdVals (x := D - 1)
    (show D - 1 + 1 < f.values.d3 by omega)
  have hy' : f.incrToCum.values.sliceD (some (-((f.values.d3 : Int) - t.values.d3 + 1)))
      (some (-((f.values.d3 : Int) - t.values.d3 + 1) + 1)) = .ok y := by
    rw [ec, ← hy]
    show Arr.sliceD f.cumProdVals _ _ = Arr.sliceD f.cumProdVals _ _
    have e : f.cumProdVals.d3 = f.values.d3 := rfl
    have e1 : -((f.values.d3 : Int) - t.values.d3 + 1) = ((D - 1 : Nat) : Int) - f.cumProdVals.d3 := by
      rw [e]; omega
    rw [e1]
  obtain ⟨l, hl, ⟨l0, l1, l2, l3⟩, lc, lc'⟩ := Arr.cat2_cols (a := x) (b := y) (I := f.values.d0)
    (C := f.values.d1) (O := f.values.d2) (D := D - 1) (E := 1) ⟨x0, x1, x2, x3⟩ ⟨y0, y1, y2, y3⟩
  refine ⟨l, ?_, by rw [l2, i2], by rw [l0]; exact i0, by rw [l1]; exact i1, by rw [l3]; omega, ?_⟩
  · unfold mackLdf
    simp only [bind, Except.bind]
    rw [show ((t.ddims.length : Int) - 1) = ((D - 1 : Nat) : Int) by rw [lD]; omega, hx]
    simp only
    rw [hy']
    exact hl
  · intro i hi c hc O o d ho hd
    unfold Arr.lift
    rw [l0, l1, l2, only_bix i0 hi, only_bix i1 hc]
    have eo : Arr.bix f.values.d2 O o = 0 := by
      unfold Arr.bix
      split_ifs with e
      · omega
      · rfl
    rw [eo]
    unfold riskFactor
    by_cases hd' : d + 1 < D
    · rw [if_pos hd', lc _ _ _ d (by omega), xc _ _ _ d (by omega)]
      obtain ⟨v, -, hv⟩ := hf.factors (C54.only f.values.d0 i) (only_lt i0 hi) (C54.only f.values.d1 c) (only_lt i1 hc) d
        (by omega)
      rw [hv]
      unfold ageFactor
      rw [← f0, ← f1]
      show Num.fin v = Num.fin (f.values.get (C54.only f.values.d0 i) (C54.only f.values.d1 c) 0 d).amt
      rw [hv]; rfl
    · rw [if_neg hd']
      obtain rfl : d = D - 1 := by omega
      have := lc' (C54.only f.values.d0 i) (C54.only f.values.d1 c) 0 0
      rw [Nat.add_zero] at this
      rw [this, yc, f0, f1]
      exact (hcdf i c (D - 1) hi hc (by omega)).1

/-- What the risk calculation uses of the full triangle. -/
structure Completed (t z : Tri K) (n D q F : Nat) : Prop where
  wf : WF z
  index : z.kdims = t.kdims
  keyLabels : z.keyLabels = t.keyLabels
  columns : z.vdims = t.vdims
  origins : z.odims = t.odims
  ages : z.ddims = fullAges F t.dgrain.months
  date : z.vd = ultVal
  isVal : z.isVal = false
  noPattern : z.isPattern = false
  ograin : z.ograin = t.ograin
  dgrain : z.dgrain = t.dgrain
  cells : ∀ i < t.kdims.length, ∀ c < t.vdims.length, ∀ o < n, ∀ d < F + 1,
    z.values.get i c o d = (Num.fin (z.values.get i c o d).amt).numToNan
  known : ∀ i < t.kdims.length, ∀ c < t.vdims.length, ∀ o < n, ∀ d < D, q * o + d + 1 ≤ D →
    z.values.get i c o d = (t.values.get i c o d).numToNan

theorem completed (h : Standard t a n D q) (hc : t.isCum = some true)
    (hf : GridPattern t f a n D q F) (h2 : 2 ≤ linkRows n D q) (hu : UltAmounts t u U) :
    ∃ z, fullTriangle t f u true = .ok z ∧ Completed t z n D q F := by
  obtain ⟨z, hz, zw, zk, zv, zo, zd, zvd, zi, -, zp, zg, zog, zl, zcell⟩ := full_spec h hc hf h2 hu
  have hcov := hf.covers
  refine ⟨z, hz, zw, zk, zl, zv, zo, zd, zvd, zi, zp, zog, zg, ?_, ?_⟩
  · intro i hi c hc o ho d hd
    rw [zcell i hi c hc o ho d hd]
    split_ifs with hk
    · have := h.finite i (by rw [h.wf.1]; exact hi) c (by rw [h.wf.2.1]; exact hc) o
        (by rw [h.wf.2.2.1, h.lenO]; exact ho) d (by rw [h.wf.2.2.2, h.lenD]; omega)
      rw [numToNan_amt this, Num.amt_numToNan]
      rfl
    · rw [Num.amt_numToNan]
      rfl
  · intro i hi c hc o ho d hd hk
    rw [zcell i hi c hc o ho d (by omega), if_pos hk]

/-- A cell of the full triangle with the missing ones filled in. -/
theorem Completed.filled {z : Tri K} (hz : Completed t z n D q F) {i c o d : Nat} (hi : i < t.kdims.length)
    (hc : c < t.vdims.length) (ho : o < n) (hd : d < F + 1) :
    (z.values.get i c o d).nanToNum = .fin (z.values.get i c o d).amt := by
  generalize hx : (z.values.get i c o d).amt = x
  rw [hz.cells i hi c hc o ho d hd, hx]
  by_cases h0 : x = 0
  · rw [h0, Num.numToNan_zero']; rfl
  · rw [Num.numToNan_fin_of_ne h0]; rfl

/-- The mask is one on the cells after the valuation date and in the last column. -/
theorem mackNans_spec (h : Grid t a n D q) (I C : Nat) : Arr.NansAre (some t.mackNans) I C n D
    (fun o d => if q * o + d + 1 ≤ D then 0 else 1) := by
  refine ⟨⟨Or.inr rfl, Or.inr rfl, Or.inl ?_, ?_⟩, ?_⟩
  · show t.values.d2 = n
    rw [h.wf.2.2.1, h.lenO]
  · show t.values.d3 + 1 = _
    rw [h.wf.2.2.2, h.lenD]
  · intro i c o d ho hd
    unfold Arr.lift
    have e : Arr.bix t.mackNans.d2 n o = o := by
      show Arr.bix t.values.d2 n o = o
      rw [h.wf.2.2.1, h.lenO, Arr.bix_self]
    rw [e]
    show 1 - (if d < t.values.d3 then (t.nanTri o d).nanToNum else 0) = _
    have d3 : t.values.d3 = D := by rw [h.wf.2.2.2, h.lenD]
    have n2 := h.two_origins
    have D2 := h.two_ages
    rw [d3]
    by_cases hd' : d < D
    · rw [if_pos hd']
      unfold nanTri
      rw [if_neg (by rw [h.wf.2.2.1, h.lenO, d3]; omega)]
      have hv := h.valuation_gt ho hd'
      by_cases hk : q * o + d + 1 ≤ D
      · rw [if_neg (fun e => by have := hv.1 e; omega)]
        simp only [hk, if_true]
        show (Num.fin 1 - Num.fin 1 : Num K) = _
        rw [Num.fin_sub_fin, sub_self]
      · rw [if_pos (hv.2 (by omega))]
        simp only [hk, if_false]
        show (Num.fin 1 - Num.fin 0 : Num K) = _
        rw [Num.fin_sub_fin, sub_zero]
    · rw [if_neg hd']
      simp only [show ¬ q * o + d + 1 ≤ D by omega, if_false]
      show (Num.fin 1 - Num.fin 0 : Num K) = _
      rw [Num.fin_sub_fin, sub_zero]

theorem mackLabels_spec (h : Grid t a n D q) (hcov : D ≤ F) {z : Tri K} (hz : Completed t z n D q F)
    (v : Arr K) (O : List Int) : t.mackLabels z v O = .ok { t with
      values := v
      odims := O
      ddims := t.ddims ++ [9999]
      vd := ultVal } := by
  unfold mackLabels
  have hl : z.ddims.length = F + 1 := by rw [hz.ages, fullAges_length]
  have d3 : t.values.d3 = D := by rw [h.wf.2.2.2, h.lenD]
  rw [if_neg, hz.date, d3]
  · have e1 : z.ddims.take D = t.ddims := by
      rw [hz.ages, h.ddims]
      unfold fullAges
      rw [List.take_append_of_le_length (by simp; omega), ← List.map_take, List.take_range, min_eq_left hcov]
    have e2 : z.ddims.getLastD 0 = 9999 := by
      rw [hz.ages]
      unfold fullAges
      simp
    rw [e1, e2]
  · rw [d3, hl]
    intro e
    rcases e with e | e
    · rw [e] at hl; simp at hl
    · omega

/-- The risk of every cell, whatever the errors `S` of the factors. -/
theorem mackRisk_spec (s : K → K) (h : Grid t a n D q) (hf : GridPattern t f a n D q F) (hF : D < F)
    {z : Tri K} (hz : Completed t z n D q F) {se : Arr K} (hse : se.Up t.kdims.length t.vdims.length n D)
    {S : Nat → Nat → Nat → Nat → K}
    (cse : ∀ i < t.kdims.length, ∀ c < t.vdims.length, ∀ o < n, ∀ d < D,
      se.lift t.kdims.length t.vdims.length n i c o d = .fin (S i c o d)) :
    ∃ r, mackRisk s t f z se = .ok r ∧ WF r ∧ r = { t with
        values := r.values
        ddims := t.ddims ++ [9999]
        vd := ultVal } ∧
      ∀ i < t.kdims.length, ∀ c < t.vdims.length, ∀ o < n, ∀ d < D + 1, r.values.get i c o d =
        .fin (quad s (fun d => (z.values.get i c o d).amt * S i c o d) (f.riskFactor D i c)
          (fun d => if q * o + d + 1 ≤ D then 0 else 1) d) := by
  obtain ⟨w0, w1, w2, w3⟩ := h.wf
  obtain ⟨z0, z1, z2, z3⟩ := hz.wf
  have lO := h.lenO
  have lD := h.lenD
  have zl : z.ddims.length = F + 1 := by rw [hz.ages, fullAges_length]
  obtain ⟨x, hx, x0, x1, x2, x3, xc⟩ := Arr.sliceD_upto z.values (y := D) (by omega)
  obtain ⟨y, hy, yd, yc⟩ := Arr.zip_up' (· * ·) (a := x.map Num.nanToNum) (b := se)
    (I := t.kdims.length) (C := t.vdims.length) (O := n) (D := D)
    ⟨by show x.d0 = _; rw [x0, z0, hz.index], by show x.d1 = _; rw [x1, z1, hz.columns],
      by show x.d2 = _; rw [x2, z2, hz.origins, lO], x3⟩ hse
  obtain ⟨l, hl, l2, l0, l1, l3, lc⟩ := mackLdf_spec h hf hF
  obtain ⟨v, hv, ⟨v0, v1, v2, v3⟩, vc⟩ := Arr.mackLoop_spec s (t1 := y) (ldf := l)
    (risk := Arr.zeros t.values.d0 t.values.d1 t.values.d2 1) (nans := some t.mackNans) yd ⟨l0, l1, Or.inr l2, l3⟩
    ⟨w0, w1, by rw [← lO]; exact w2, rfl⟩
    (T := fun i c o d => (z.values.get i c o d).amt * S i c o d) (L := fun i c _ d => f.riskFactor D i c d)
    (by
      intro i hi c hc o ho d hd
      rw [yc, cse i hi c hc o ho d hd]
      show (x.get i c o d).nanToNum * _ = _
      rw [xc _ _ _ d hd, hz.filled hi hc ho (by omega), Num.fin_mul_fin])
    (by
      intro i hi c hc o ho d hd
      exact lc i hi c hc n o d ho hd)
    (fun _ _ _ _ _ _ => rfl) (mackNans_spec h _ _)
  have hlab := mackLabels_spec h (by omega) hz v t.odims
  refine ⟨{ t with values := v, ddims := t.ddims ++ [9999], vd := ultVal }, ?_, ⟨v0, v1, ?_, ?_⟩, rfl, ?_⟩
  · unfold mackRisk
    simp only [bind, Except.bind]
    rw [lD, hx]
    simp only
    rw [hy]
    simp only
    rw [hl]
    simp only
    rw [hv]
    exact hlab
  · rw [v2, ← lO]
  · show v.d3 = (t.ddims ++ [9999]).length
    rw [v3]; simp [lD]
  · intro i hi c hc o ho d hd
    exact vc i hi c hc o ho d hd

/-- Without an age after those of the triangle, the slice of the age-to-ultimate factors is empty. -/
theorem mackLdf_short (h : Grid t a n D q) (hf : GridPattern t f a n D q D) :
    ∃ l, t.mackLdf f = .ok l ∧ l.d2 = 1 ∧
      (l.d0 = t.kdims.length ∨ l.d0 = 1) ∧ (l.d1 = t.vdims.length ∨ l.d1 = 1) ∧ l.d3 = D - 1 ∧
      ∀ i < t.kdims.length, ∀ c < t.vdims.length, ∀ O o d, o < O → d < D - 1 →
        l.lift t.kdims.length t.vdims.length O i c o d = .fin (f.riskFactor D i c d) := by
  obtain ⟨w0, w1, w2, w3⟩ := h.wf
  obtain ⟨f0, f1, f2, f3⟩ := hf.wf
  have hD := h.two_ages
  have lD := h.lenD
  have lF := hf.len
  have i0 : f.values.d0 = t.kdims.length ∨ f.values.d0 = 1 := by
    rw [f0]; rcases hf.index with e | e
    · exact Or.inl (by rw [e])
    · exact Or.inr e
  have i1 : f.values.d1 = t.vdims.length ∨ f.values.d1 = 1 := by
    rw [f1]; rcases hf.columns with e | e
    · exact Or.inl (by rw [e])
    · exact Or.inr e
  have i2 : f.values.d2 = 1 := by rw [f2]; exact hf.origin
  obtain ⟨ec, -⟩ := cdf_full hf.toPatternFor
  obtain ⟨x, hx, x0, x1, x2, x3, xc⟩ := Arr.sliceD_upto f.values (y := D - 1) (by omega)
  obtain ⟨y, hy, y0, y1, y2, y3⟩ := Arr.sliceD_none f.cumProdVals
    (show 1 ≤ f.values.d3 by omega)
  have hy' : f.incrToCum.values.sliceD (some (-((f.values.d3 : Int) - t.values.d3 + 1)))
      (some (-((f.values.d3 : Int) - t.values.d3 + 1) + 1)) = .ok y := by
    rw [ec, ← hy]
    have e1 : -((f.values.d3 : Int) - t.values.d3 + 1) = -1 := by omega
    rw [e1]
    rfl
  obtain ⟨l, hl, ⟨l0, l1, l2, l3⟩, lc, -⟩ := Arr.cat2_cols (a := x) (b := y) (I := f.values.d0)
    (C := f.values.d1) (O := f.values.d2) (D := D - 1) (E := 0) ⟨x0, x1, x2, x3⟩ ⟨y0, y1, y2, y3⟩
  refine ⟨l, ?_, by rw [l2, i2], by rw [l0]; exact i0, by rw [l1]; exact i1, l3, ?_⟩
  · unfold mackLdf
    simp only [bind, Except.bind]
    rw [show ((t.ddims.length : Int) - 1) = ((D - 1 : Nat) : Int) by rw [lD]; omega, hx]
    simp only
    rw [hy']
    exact hl
  · intro i hi c hc O o d ho hd
    unfold Arr.lift
    rw [l0, l1, l2, only_bix i0 hi, only_bix i1 hc]
    have eo : Arr.bix f.values.d2 O o = 0 := by
      unfold Arr.bix
      split_ifs with e
      · omega
      · rfl
    rw [eo]
    unfold riskFactor
    rw [if_pos (by omega), lc _ _ _ d (by omega), xc _ _ _ d (by omega)]
    obtain ⟨v, -, hv⟩ := hf.factors (C54.only f.values.d0 i) (only_lt i0 hi) (C54.only f.values.d1 c) (only_lt i1 hc) d
      (by omega)
    rw [hv]
    unfold ageFactor
    rw [← f0, ← f1]
    show Num.fin v = Num.fin (f.values.get (C54.only f.values.d0 i) (C54.only f.values.d1 c) 0 d).amt
    rw [hv]; rfl

/-- Without an age after those of the triangle, the values lack the last column. -/
theorem mackRisk_short (s : K → K) (h : Grid t a n D q) (hf : GridPattern t f a n D q D)
    {z : Tri K} (hz : Completed t z n D q D) {se : Arr K} (hse : se.Up t.kdims.length t.vdims.length n D)
    {S : Nat → Nat → Nat → Nat → K}
    (cse : ∀ i < t.kdims.length, ∀ c < t.vdims.length, ∀ o < n, ∀ d < D,
      se.lift t.kdims.length t.vdims.length n i c o d = .fin (S i c o d)) :
    ∃ r, mackRisk s t f z se = .ok r ∧ r.values.d3 = D ∧ r.ddims = t.ddims ++ [9999] ∧
      ∀ i < t.kdims.length, ∀ c < t.vdims.length, ∀ o < n, ∀ d < D, r.values.get i c o d =
        .fin (quad s (fun d => (z.values.get i c o d).amt * S i c o d) (f.riskFactor D i c)
          (fun d => if q * o + d + 1 ≤ D then 0 else 1) d) := by
  obtain ⟨w0, w1, w2, w3⟩ := h.wf
  obtain ⟨z0, z1, z2, z3⟩ := hz.wf
  have lO := h.lenO
  have lD := h.lenD
  have hD := h.two_ages
  have zl : z.ddims.length = D + 1 := by rw [hz.ages, fullAges_length]
  obtain ⟨x, hx, x0, x1, x2, x3, xc⟩ := Arr.sliceD_upto z.values (y := D) (by omega)
  obtain ⟨y, hy, yd, yc⟩ := Arr.zip_up' (· * ·) (a := x.map Num.nanToNum) (b := se)
    (I := t.kdims.length) (C := t.vdims.length) (O := n) (D := D)
    ⟨by show x.d0 = _; rw [x0, z0, hz.index], by show x.d1 = _; rw [x1, z1, hz.columns],
      by show x.d2 = _; rw [x2, z2, hz.origins, lO], x3⟩ hse
  obtain ⟨l, hl, l2, l0, l1, l3, lc⟩ := mackLdf_short h hf
  obtain ⟨v, hv, vd, vc⟩ := Arr.mackLoop_upto s (t1 := y) (ldf := l)
    (risk := Arr.zeros t.values.d0 t.values.d1 t.values.d2 1) (nans := some t.mackNans) yd ⟨l0, l1, Or.inr l2, l3⟩
    ⟨w0, w1, by rw [← lO]; exact w2, rfl⟩
    (T := fun i c o d => (z.values.get i c o d).amt * S i c o d) (L := fun i c _ d => f.riskFactor D i c d)
    (by
      intro i hi c hc o ho d hd
      rw [yc, cse i hi c hc o ho d hd]
      show (x.get i c o d).nanToNum * _ = _
      rw [xc _ _ _ d hd, hz.filled hi hc ho (by omega), Num.fin_mul_fin])
    (by
      intro i hi c hc o ho d hd
      exact lc i hi c hc n o d ho hd)
    (fun _ _ _ _ _ _ => rfl) (mackNans_spec h _ _) (D - 1) (by omega) le_rfl
  obtain ⟨w, hw, wd, wc⟩ := Arr.mackStep_past s (n := t.mackNans) yd ⟨l0, l1, Or.inr l2, l3⟩ vd (by omega) le_rfl
    (mackNans_spec h t.kdims.length t.vdims.length).1
  have hloop : Arr.mackLoop s y l (some t.mackNans) (Arr.zeros t.values.d0 t.values.d1 t.values.d2 1) = .ok w := by
    unfold Arr.mackLoop
    rw [yd.2.2.2, show D = D - 1 + 1 by omega, List.range_succ, List.foldlM_append, hv]
    simp only [List.foldlM_cons, List.foldlM_nil, bind, Except.bind]
    rw [hw]
    rfl
  have hlab := mackLabels_spec h le_rfl hz w t.odims
  refine ⟨{ t with values := w, ddims := t.ddims ++ [9999], vd := ultVal }, ?_, ?_, rfl, ?_⟩
  · unfold mackRisk
    simp only [bind, Except.bind]
    rw [lD, hx]
    simp only
    rw [hy]
    simp only
    rw [hl]
    simp only
    rw [hloop]
    exact hlab
  · show w.d3 = D
    rw [wd.2.2.2]; omega
  · intro i hi c hc o ho d hd
    show w.get i c o d = _
    rw [wc i c o d (by omega), vc i hi c hc o ho d (by omega)]

end Tri
end CL
