import Verif.Lemmas.MackProcess
import Verif.Lemmas.Coherent

set_option linter.unusedSectionVars false

/-! # Standard errors and totals over origins -/

namespace CL
variable {K : Type} [Field K] [LinearOrder K] [IsStrictOrderedRing K]

namespace Tri
variable {t f u : Tri K} {a : Int} {n D q F : Nat} {U : Nat → Nat → Nat → K}

/-- A triangle of risks `R` with origins `O` and the ages of `t` and ultimate. -/
structure RiskTri (t r : Tri K) (O : List Int) (R : Nat → Nat → Nat → Nat → Num K) : Prop where
  wf : WF r
  labels : r = { t with
    values := r.values
    odims := O
    ddims := t.ddims ++ [9999]
    vd := ultVal }
  cells : ∀ i < t.kdims.length, ∀ c < t.vdims.length, ∀ o < O.length, ∀ d < t.ddims.length + 1,
    r.values.get i c o d = R i c o d

theorem RiskTri.map {r : Tri K} {O : List Int} {R : Nat → Nat → Nat → Nat → Num K} (h : RiskTri t r O R)
    (g : Num K → Num K) : RiskTri t { r with values := r.values.map g } O fun i c o d => g (R i c o d) := by
  refine ⟨h.wf, ?_, ?_⟩
  · conv_lhs => rw [h.labels]
  · intro i hi c hc o ho d hd
    show g (r.values.get i c o d) = _
    rw [h.cells i hi c hc o ho d hd]

/-- The dates of a triangle of risks are before the sentinel. -/
theorem RiskTri.nanTri (ht : Grid t a n D q) (hf : GridPattern t f a n D q F) {r : Tri K} {O : List Int}
    {R : Nat → Nat → Nat → Nat → Num K} (h : RiskTri t r O R) (hO : O = t.odims ∨ O = t.odims.take 1)
    {o d : Nat} (ho : o < O.length) (hd : d < D + 1) : r.nanTri o d = 1 := by
  unfold Tri.nanTri
  split_ifs with h1 h2
  · rfl
  · exfalso
    have ev : r.valuation o d = valuationOf t.isVal O (t.ddims ++ [9999]) ultVal o d := by
      rw [h.labels]; rfl
    have ed : r.vd = ultVal := by rw [h.labels]
    rw [ev, ed] at h2
    unfold valuationOf at h2
    rw [ht.isVal] at h2
    simp only [Bool.false_eq_true, if_false] at h2
    split_ifs at h2 with h3
    · exact lt_irrefl _ h2
    · have hd' : d < D := by
        by_contra hc
        apply h3
        simp [ht.lenD]
        omega
      have eo : O.getD o 0 = t.odims.getD o 0 ∧ o < n := by
        have lO := ht.lenO
        rcases hO with e | e
        · rw [e]; exact ⟨rfl, by rw [e, lO] at ho; exact ho⟩
        · have hl : o < 1 := by
            rw [e, List.length_take] at ho; omega
          have n2 := ht.two_origins
          obtain rfl : o = 0 := by omega
          refine ⟨?_, by omega⟩
          rw [e, List.getD_eq_getElem?_getD, List.getD_eq_getElem?_getD, List.getElem?_take]
          simp
      have e9 : (t.ddims ++ [9999]).getD d 0 = t.ddims.getD d 0 := by
        rw [List.getD_append _ _ _ _ (by rw [ht.lenD]; exact hd')]
      rw [eo.1, e9, ht.getO eo.2, ht.getDv hd'] at h2
      have he := hf.early
      have hcov := hf.covers
      have hqo : q * o ≤ q * (n - 1) := Nat.mul_le_mul_left _ (by omega)
      have hm : (o * q + (d + 1)) * t.dgrain.months ≤ (q * (n - 1) + F + 1) * t.dgrain.months := by
        apply Nat.mul_le_mul_right
        rw [Nat.mul_comm o q]
        omega
      rw [Nat.add_mul] at hm
      have := min_le_left (a + ((o * q * t.dgrain.months : Nat) : Int)) ultVal
      omega
  · rfl

/-- The sum of two triangles of finite risks. -/
theorem RiskTri.add (ht : Grid t a n D q) (hf : GridPattern t f a n D q F) {x y : Tri K} {O : List Int}
    {P Q : Nat → Nat → Nat → Nat → K} (hx : RiskTri t x O fun i c o d => .fin (P i c o d))
    (hy : RiskTri t y O fun i c o d => .fin (Q i c o d)) (hO : O = t.odims ∨ O = t.odims.take 1) :
    ∃ v, x.add y = .ok v ∧ RiskTri t v O fun i c o d => (Num.fin (P i c o d + Q i c o d)).numToNan := by
  have ek : x.kdims = t.kdims ∧ x.vdims = t.vdims ∧ x.odims = O ∧ x.ddims = t.ddims ++ [9999] ∧
      x.keyLabels = t.keyLabels ∧ x.ograin = t.ograin ∧ x.dgrain = t.dgrain ∧ x.isVal = t.isVal := by
    rw [hx.labels]; exact ⟨rfl, rfl, rfl, rfl, rfl, rfl, rfl, rfl⟩
  have ey : y.kdims = t.kdims ∧ y.vdims = t.vdims ∧ y.odims = O ∧ y.ddims = t.ddims ++ [9999] ∧
      y.keyLabels = t.keyLabels ∧ y.ograin = t.ograin ∧ y.dgrain = t.dgrain ∧ y.isVal = t.isVal := by
    rw [hy.labels]; exact ⟨rfl, rfl, rfl, rfl, rfl, rfl, rfl, rfl⟩
  obtain ⟨x1, x2, x3, x4, x5, x6, x7, x8⟩ := ek
  obtain ⟨y1, y2, y3, y4, y5, y6, y7, y8⟩ := ey
  have hc : Compat x y := ⟨hx.wf, hy.wf, by rw [x6, y6], Or.inl (by rw [x7, y7]), by rw [x5, y5],
    Or.inl (by rw [x1, y1]), Or.inl (by rw [x2, y2]), Or.inl (by rw [x3, y3]), Or.inl (by rw [x4, y4]),
    fun _ _ => by rw [x8, y8]⟩
  rw [add_compat hc]
  obtain ⟨v, hv⟩ : ∃ v, v = combined (fun a b => a.nanToNum + b.nanToNum) x y := ⟨_, rfl⟩
  have hr : RiskTri t v O fun i c o d => .fin (P i c o d + Q i c o d) := by
    have lx : v = { t with
        values := v.values
        odims := O
        ddims := t.ddims ++ [9999]
        vd := ultVal } := by
      rw [hv]
      unfold combined mergedLabels
      rw [x1, x2, x3, x4, y1, y2, y3, y4]
      simp only [longer_self]
      have h1 : x.isPattern = t.isPattern ∧ y.isPattern = t.isPattern ∧ x.vd = ultVal ∧ y.vd = ultVal := by
        rw [hx.labels, hy.labels]; exact ⟨rfl, rfl, rfl, rfl⟩
      obtain ⟨p1, p2, p3, p4⟩ := h1
      rw [p1, p2, p3, p4, x7, x8, y7, y8, max_self, Bool.and_self]
      simp only [ite_self]
      conv_lhs => rw [hx.labels]
    refine ⟨by rw [hv]; exact wf_combined _ _ _, lx, ?_⟩
    intro i hi c hc o ho d hd
    rw [hv]
    show (x.values.get _ _ _ _).nanToNum + (y.values.get _ _ _ _).nanToNum = _
    rw [hx.wf.1, hx.wf.2.1, hx.wf.2.2.1, hx.wf.2.2.2, hy.wf.1, hy.wf.2.1, hy.wf.2.2.1, hy.wf.2.2.2,
      x1, x2, x3, x4, y1, y2, y3, y4]
    simp only [longer_self, Arr.bix_self]
    rw [hx.cells i hi c hc o ho d hd, hy.cells i hi c hc o ho d hd]
    exact Num.fin_add_fin _ _
  rw [← hv]
  refine ⟨_, rfl, hr.wf, ?_, ?_⟩
  · show ({ v with values := v.cleanup.values } : Tri K) = _
    generalize v.cleanup.values = w
    conv_lhs => rw [hr.labels]
  · intro i hi c hc o ho d hd
    show (v.values.get i c o d * (v.nanTri o d).nanToNum).numToNan = _
    rw [hr.nanTri ht hf hO ho (by rw [ht.lenD] at hd; exact hd), hr.cells i hi c hc o ho d hd,
      show ((1 : Num K)).nanToNum = 1 from rfl, Num.one_def, Num.fin_mul_fin, mul_one]

/-- The square root of an amount. -/
theorem sqrt_numToNan {s : K → K} {x : K} (hx : 0 ≤ x) :
    Num.sqrt s (Num.fin x).numToNan = if x = 0 then .nan else .fin (s x) := by
  split_ifs with h0
  · rw [h0, Num.numToNan_zero']; rfl
  · rw [Num.numToNan_fin_of_ne h0]
    exact if_neg (not_lt.2 hx)

/-- Squaring undoes the square root, also when the amount is missing because it is zero. -/
theorem sqrt_pow {s : K → K} (hs : IsSqrt s) {x : K} (hx : 0 ≤ x) :
    (Num.sqrt s (Num.fin x).numToNan).nanToNum.npow 2 = .fin x := by
  rw [sqrt_numToNan hx]
  split_ifs with h0
  · rw [h0]
    show (Num.fin 0 : Num K).npow 2 = _
    rw [Num.npow_two]
    norm_num
  · show (Num.fin (s x)).npow 2 = _
    rw [Num.npow_two, (hs x hx).2]

theorem RiskTri.pow {r : Tri K} {O : List Int} {R : Nat → Nat → Nat → Nat → K}
    (h : RiskTri t r O fun i c o d => .fin (R i c o d)) :
    RiskTri t (r.pow 2) O fun i c o d => .fin (R i c o d ^ 2) := by
  have := h.map fun x => x.nanToNum.npow 2
  refine ⟨this.wf, this.labels, ?_⟩
  intro i hi c hc o ho d hd
  refine (this.cells i hi c hc o ho d hd).trans ?_
  show (Num.fin _).npow 2 = _
  rw [Num.npow_two]

/-- The standard errors of the cells. -/
theorem mackStdErr_spec {s : K → K} (ht : Grid t a n D q) (hf : GridPattern t f a n D q F)
    {x y : Tri K} {P Q : Nat → Nat → Nat → Nat → K} (hx : RiskTri t x t.odims fun i c o d => .fin (P i c o d))
    (hy : RiskTri t y t.odims fun i c o d => .fin (Q i c o d)) :
    ∃ v, mackStdErr s x y = .ok v ∧ RiskTri t v t.odims fun i c o d =>
      if P i c o d ^ 2 + Q i c o d ^ 2 = 0 then .nan else .fin (s (P i c o d ^ 2 + Q i c o d ^ 2)) := by
  obtain ⟨v, hv, hr⟩ := RiskTri.add ht hf hx.pow hy.pow (Or.inl rfl)
  have := hr.map (Num.sqrt s)
  refine ⟨v.sqrt s, ?_, this.wf, this.labels, ?_⟩
  · unfold mackStdErr
    rw [hv]
    rfl
  · intro i hi c hc o ho d hd
    refine (this.cells i hi c hc o ho d hd).trans ?_
    exact sqrt_numToNan (add_nonneg (sq_nonneg _) (sq_nonneg _))

/-- The sum over origins. -/
theorem RiskTri.sum (ht : Grid t a n D q) {r : Tri K} {R : Nat → Nat → Nat → Nat → K}
    (h : RiskTri t r t.odims fun i c o d => .fin (R i c o d)) :
    ∃ v, r.sum .origin = .tri v ∧ RiskTri t v (t.odims.take 1) fun i c _ d =>
      (Num.fin (∑ o ∈ Finset.range n, R i c o d)).numToNan := by
  have D2 := ht.two_ages
  have n2 := ht.two_origins
  have eo : r.odims = t.odims ∧ r.ddims = t.ddims ++ [9999] := by
    rw [h.labels]; exact ⟨rfl, rfl⟩
  have hw := h.wf
  have e : r.sumKeep .origin = { r with
      odims := r.odims.take 1
      values := (r.values.nansum .origin).map Num.numToNan } := by
    unfold sumKeep relabelAgg
    simp only
    rw [if_pos (by rw [eo.1, ht.lenO]; omega)]
  refine ⟨r.sumKeep .origin, ?_, sumKeep_wf h.wf ?_, ?_, ?_⟩
  · unfold Tri.sum toAgg
    rw [if_neg]
    rintro ⟨-, -, -, h3⟩
    have h4 : (r.sumKeep .origin).values.d3 = r.values.d3 := rfl
    rw [h4, hw.2.2.2, eo.2, List.length_append, ht.lenD] at h3
    simp at h3
    omega
  · show r.odims.length ≠ 0
    rw [eo.1, ht.lenO]; omega
  · rw [e]
    conv_lhs => rw [h.labels]
  · intro i hi c hc o ho d hd
    show (∑ o ∈ Finset.range r.values.d2, (r.values.get i c o d).nan0).numToNan = _
    rw [hw.2.2.1, eo.1, ht.lenO]
    congr 1
    rw [← Num.sum_fin]
    refine Finset.sum_congr rfl fun o ho => ?_
    rw [h.cells i hi c hc o (by rw [ht.lenO]; exact Finset.mem_range.1 ho) d hd]
    rfl

/-- The total process risk. -/
theorem totalProcess_spec {s : K → K} (ht : Grid t a n D q) {y : Tri K}
    {Q : Nat → Nat → Nat → Nat → K} (hy : RiskTri t y t.odims fun i c o d => .fin (Q i c o d)) :
    ∃ v, totalProcess s y = .ok v ∧ RiskTri t v (t.odims.take 1) fun i c _ d =>
      Num.sqrt s (Num.fin (∑ o ∈ Finset.range n, Q i c o d ^ 2)).numToNan := by
  obtain ⟨v, hv, hr⟩ := RiskTri.sum ht hy.pow
  refine ⟨v.sqrt s, ?_, hr.map (Num.sqrt s)⟩
  unfold totalProcess
  rw [hv]

/-- The total standard error. -/
theorem totalMackStdErr_spec {s : K → K} (hs : IsSqrt s) (ht : Grid t a n D q)
    (hf : GridPattern t f a n D q F) {y p : Tri K} {Q P : Nat → Nat → Nat → Nat → K}
    (hy : RiskTri t y t.odims fun i c o d => .fin (Q i c o d))
    (hp : RiskTri t p (t.odims.take 1) fun i c o d => .fin (P i c o d)) {i c : Nat}
    (hi : i < t.kdims.length) (hc : c < t.vdims.length) :
    ∃ x, totalMackStdErr s y p i c = .ok x ∧
      x = (if (∑ o ∈ Finset.range n, Q i c o D ^ 2) + P i c 0 D ^ 2 = 0 then .nan
        else .fin (s ((∑ o ∈ Finset.range n, Q i c o D ^ 2) + P i c 0 D ^ 2))) := by
  obtain ⟨v, hv, hr⟩ := totalProcess_spec (s := s) ht hy
  have n2 := ht.two_origins
  have nn : ∀ i c d, 0 ≤ ∑ o ∈ Finset.range n, Q i c o d ^ 2 := fun i c d =>
    Finset.sum_nonneg fun o _ => sq_nonneg _
  have hr2 : RiskTri t (v.pow 2) (t.odims.take 1) fun i c _ d => .fin (∑ o ∈ Finset.range n, Q i c o d ^ 2) := by
    have := hr.map fun x => x.nanToNum.npow 2
    refine ⟨this.wf, this.labels, ?_⟩
    intro i hi c hc o ho d hd
    exact (this.cells i hi c hc o ho d hd).trans (sqrt_pow hs (nn i c d))
  obtain ⟨w, hw, hwr⟩ := RiskTri.add ht hf hr2 hp.pow (Or.inr rfl)
  refine ⟨_, by unfold totalMackStdErr; rw [hv]; simp only [bind, Except.bind]; rw [hw], ?_⟩
  have e3 : (w.sqrt s).values.d3 - 1 = D := by
    show w.values.d3 - 1 = D
    rw [hwr.wf.2.2.2, hwr.labels]
    simp [ht.lenD]
  rw [e3]
  have := (hwr.map (Num.sqrt s)).cells i hi c hc 0 (by rw [List.length_take, ht.lenO]; omega) D
    (by rw [ht.lenD]; omega)
  refine this.trans ?_
  exact sqrt_numToNan (add_nonneg (nn i c D) (sq_nonneg _))

/-- What is still to come of the cells of the full triangle, with the latest amounts. -/
theorem future_spec (h : Standard t a n D q) (hf : GridPattern t f a n D q F)
    (h2 : 2 ≤ linkRows n D q) {z : Tri K} (hz : Completed t z n D q F) :
    ∃ k x, t.getVal (fun v => v < t.vd) = .ok k ∧ z.sub k = .ok x ∧ WF x ∧ x.kdims = t.kdims ∧
      x.vdims = t.vdims ∧ x.odims = t.odims ∧ x.ddims = z.ddims ∧ x.isVal = false ∧
      ∀ i < t.kdims.length, ∀ c < t.vdims.length, ∀ o < n, ∀ d < D, x.values.get i c o d =
        (Num.fin (if q * o + d + 1 < D then 0 else (z.values.get i c o d).amt)).numToNan := by
  have D2 := h.two_ages
  have n2 := h.two_origins
  have hcov := hf.covers
  have hrow : ∀ o, o < linkRows n D q ↔ o < n ∧ q * o + 1 < D := fun o =>
    lt_linkRows n2 h.period h.recent
  have hlrn : linkRows n D q ≤ n := by unfold linkRows; split_ifs <;> omega
  obtain ⟨k, hk, ks, kk, kv, ko, kg, kc⟩ := h.before h2
  have kkeep := getVal_keeps hk
  have D3 : 2 ≤ D - 1 := ks.two_ages
  have zl : z.ddims.length = F + 1 := by rw [hz.ages, fullAges_length]
  have same : SameButDates z k := ⟨by rw [hz.index, kk], by rw [hz.keyLabels]; exact kkeep.1.symm,
    by rw [hz.columns, kv], by rw [hz.isVal, ks.isVal], by rw [hz.ograin, ko], by rw [hz.dgrain, kg]⟩
  have bo : LabelBlock z.odims k.odims 0 := by
    refine ⟨by rw [hz.origins, h.lenO, ks.lenO]; omega, ?_⟩
    intro j hj
    rw [ks.lenO] at hj
    rw [hz.origins, Nat.zero_add, ks.getO hj, h.getO (by omega), kg]
  have bd : LabelBlock z.ddims k.ddims 0 := by
    refine ⟨by rw [zl, ks.lenD]; omega, ?_⟩
    intro j hj
    rw [ks.lenD] at hj
    rw [hz.ages, Nat.zero_add, ks.getDv hj, fullAges_get (by omega), kg]
  have hsD : z.ddims.Pairwise (· < ·) := by
    rw [hz.ages]; exact fullAges_sorted hf.short
  obtain ⟨x, hx, xl, xw, x0, x1, xc⟩ := sub_blocks same hz.wf ks.wf
    (by rw [hz.origins]; exact h.toGrid.odims_sorted : z.odims.Pairwise (· < ·)) hsD (LabelBlock.refl _)
    (LabelBlock.refl _) bo bd (by rw [hz.origins, h.lenO]; exact n2) (by rw [zl]; omega)
    (by rw [ks.lenO]; exact h2) (by rw [ks.lenD]; exact D3)
    (by rw [hz.ages]; exact fullAges_le hf.short)
    (fun k hk => Or.inl ⟨by omega, by omega⟩) (fun k hk => Or.inl ⟨by omega, by omega⟩)
    (Or.inr (Or.inr (Or.inr (by rw [zl, ks.lenD]; omega))))
  have xlab : x.kdims = z.kdims ∧ x.vdims = z.vdims ∧ x.odims = z.odims ∧ x.ddims = z.ddims ∧
      x.isVal = z.isVal ∧ x.vd = max z.vd k.vd := by
    rw [xl]; exact ⟨rfl, rfl, rfl, rfl, rfl, rfl⟩
  obtain ⟨l1, l2, l3, l4, l5, l6⟩ := xlab
  refine ⟨k, x, hk, hx, xw, by rw [l1, hz.index], by rw [l2, hz.columns], by rw [l3, hz.origins], l4,
    by rw [l5, hz.isVal], ?_⟩
  intro i hi c hc o ho d hd
  have nt : x.nanTri o d = 1 := by
    unfold Tri.nanTri
    split_ifs with h1 h2
    · rfl
    · exfalso
      have hkv : k.vd ≤ ultVal := ks.early
      have hm : max z.vd k.vd = ultVal := by rw [hz.date]; exact max_eq_left hkv
      unfold Tri.valuation valuationOf at h2
      rw [l3, l4, l5, l6, hm, hz.isVal, hz.origins, hz.ages] at h2
      simp only [Bool.false_eq_true, if_false] at h2
      rw [if_neg (by rw [fullAges_length]; omega), h.getO ho, fullAges_get (by omega)] at h2
      have he := hf.early
      have hqo : q * o ≤ q * (n - 1) := Nat.mul_le_mul_left _ (by omega)
      have hm : (o * q + (d + 1)) * t.dgrain.months ≤ (q * (n - 1) + F + 1) * t.dgrain.months := by
        apply Nat.mul_le_mul_right
        rw [Nat.mul_comm o q]
        omega
      rw [Nat.add_mul] at hm
      have := min_le_left (a + ((o * q * t.dgrain.months : Nat) : Int)) ultVal
      omega
    · rfl
  rw [xc i c o d (by rw [hz.origins, h.lenO]; exact ho) (by rw [zl]; omega), nt]
  have e1 : (blockCell z 0 0 i c o d).nanToNum = .fin (z.values.get i c o d).amt := by
    unfold blockCell
    rw [if_pos ⟨⟨by omega, by rw [hz.origins, h.lenO]; omega⟩, ⟨by omega, by rw [zl]; omega⟩⟩]
    exact hz.filled hi hc ho (by omega)
  have e2 : (blockCell k 0 0 i c o d).nanToNum =
      .fin (if q * o + d + 1 < D then (z.values.get i c o d).amt else 0) := by
    unfold blockCell
    rw [ks.lenO, ks.lenD]
    by_cases hk : q * o + d + 1 < D
    · rw [if_pos ⟨⟨by omega, by rw [Nat.zero_add, hrow]; omega⟩, ⟨by omega, by omega⟩⟩, if_pos hk]
      rw [Nat.sub_zero, Nat.sub_zero, kc i hi c hc o ((hrow o).2 (by omega)) d (by omega), if_pos hk,
        ← hz.known i hi c hc o ho d hd (by omega)]
      exact hz.filled hi hc ho (by omega)
    · rw [if_neg hk]
      split_ifs with hin
      · rw [Nat.sub_zero, Nat.sub_zero, kc i hi c hc o (by omega) d (by omega), if_neg hk]
        rfl
      · rfl
  rw [e1, e2, Num.fin_sub_fin, show ((1 : Num K)).nanToNum = 1 from rfl, Num.one_def, Num.fin_mul_fin, mul_one]
  congr 2
  split_ifs
  · rw [sub_self]
  · rw [sub_zero]

/-- The total parameter risk; a missing standard error counts as zero. -/
theorem mackTotalParameter_missing (s : K → K) (h : Standard t a n D q) (hf : GridPattern t f a n D q F)
    (hF : D < F) (h2 : 2 ≤ linkRows n D q) {z : Tri K} (hz : Completed t z n D q F) {se : Arr K}
    (hse : se.Up t.kdims.length t.vdims.length n D) {S : Nat → Nat → Nat → Nat → K}
    (cse : ∀ i < t.kdims.length, ∀ c < t.vdims.length, ∀ o < n, ∀ d < D,
      se.lift t.kdims.length t.vdims.length n i c o d = .fin (S i c o d) ∨
        (se.lift t.kdims.length t.vdims.length n i c o d = .nan ∧ S i c o d = 0)) :
    ∃ r, mackTotalParameter s t f z se = .ok r ∧ RiskTri t r (t.odims.take 1) fun i c _ d =>
      .fin (quad s (fun d => ∑ o ∈ Finset.range n,
          if q * o + d + 1 < D then 0 else (z.values.get i c o d).amt * S i c o d)
        (f.riskFactor D i c) (fun _ => 1) d) := by
  obtain ⟨k, x, hk, hx, xw, x1, x2, x3, x4, x5, xc⟩ := future_spec h hf h2 hz
  obtain ⟨w0, w1, w2, w3⟩ := h.wf
  have D2 := h.two_ages
  have n2 := h.two_origins
  have lO := h.lenO
  have lD := h.lenD
  have zl : z.ddims.length = F + 1 := by rw [hz.ages, fullAges_length]
  have hne : List.range D ≠ [] := by
    intro e
    have := congrArg List.length e
    rw [List.length_range] at this
    simp at this
    omega
  have hcut : x.ilocD (.slc ⟨none, some (t.values.d3 : Int), none⟩) = .ok (x.picked (List.range x.values.d0)
      (List.range x.values.d1) (List.range x.values.d2) (List.range D)
      (((x.picked (List.range x.values.d0) (List.range x.values.d1) (List.range x.values.d2) (List.range D)
        x.vd).valuations.max?).elim x.vd fun m => min m x.vd)) := by
    have hsel := selS_upto x.values.d3 D (by rw [xw.2.2.2, x4, zl]; omega)
    have := ilocD_of_positions (t := x) hsel
    rw [w3, lD]
    exact this.trans (pick_eq x _ _ _ _ (Or.inr hne))
  obtain ⟨y, hy⟩ : ∃ y, y = x.picked (List.range x.values.d0)
      (List.range x.values.d1) (List.range x.values.d2) (List.range D)
      (((x.picked (List.range x.values.d0) (List.range x.values.d1) (List.range x.values.d2) (List.range D)
        x.vd).valuations.max?).elim x.vd fun m => min m x.vd) := ⟨_, rfl⟩
  rw [← hy] at hcut
  have yd : y.values.Dims t.kdims.length t.vdims.length n D := by
    rw [hy]
    refine ⟨?_, ?_, ?_, ?_⟩
    · show (List.range _).length = _
      rw [List.length_range, xw.1, x1]
    · show (List.range _).length = _
      rw [List.length_range, xw.2.1, x2]
    · show (List.range _).length = _
      rw [List.length_range, xw.2.2.1, x3, lO]
    · show (List.range _).length = _
      rw [List.length_range]
  have yc : ∀ i < t.kdims.length, ∀ c < t.vdims.length, ∀ o < n, ∀ d < D,
      y.values.get i c o d = x.values.get i c o d := by
    intro i hi c hc o ho d hd
    have g : ∀ {m j : Nat}, j < m → (List.range m).getD j 0 = j := by
      intro m j hj
      rw [List.getD_eq_getElem _ _ (by simpa using hj)]
      simp
    rw [hy]
    show x.values.get _ _ _ _ = _
    rw [g (by rw [xw.1, x1]; exact hi), g (by rw [xw.2.1, x2]; exact hc), g (by rw [xw.2.2.1, x3, lO]; exact ho),
      g hd]
  obtain ⟨v, hv, vd, vc⟩ := Arr.zip_up' (· * ·) yd hse
  obtain ⟨m, hm⟩ : ∃ m : Tri K, m = { y with values := v } := ⟨_, rfl⟩
  have hmul : y.mulArr se = .ok m := by
    unfold mulArr zipArr
    rw [hv, hm]
    rfl
  have hsum : m.sum .origin = .tri (m.sumKeep .origin) := by
    unfold Tri.sum toAgg
    rw [if_neg]
    rintro ⟨-, -, -, h3⟩
    have h4 : (m.sumKeep .origin).values.d3 = v.d3 := by rw [hm]; rfl
    rw [h4, vd.2.2.2] at h3
    omega
  obtain ⟨l, hl, l2, l0, l1, l3, lc⟩ := mackLdf_spec h.toGrid hf hF
  obtain ⟨r, hr, ⟨r0, r1, r2, r3⟩, rc⟩ := Arr.mackLoop_spec s (t1 := (m.sumKeep .origin).values.map Num.nanToNum)
    (ldf := l) (risk := Arr.zeros t.values.d0 t.values.d1 (min t.values.d2 1) 1) (nans := none)
    (I := t.kdims.length) (C := t.vdims.length) (O := 1) (D := D)
    (by rw [hm]; exact ⟨vd.1, vd.2.1, rfl, vd.2.2.2⟩) ⟨l0, l1, Or.inr l2, l3⟩
    ⟨w0, w1, by show min t.values.d2 1 = 1; rw [w2, lO]; omega, rfl⟩
    (T := fun i c _ d => ∑ o ∈ Finset.range n,
      if q * o + d + 1 < D then 0 else (z.values.get i c o d).amt * S i c o d)
    (L := fun i c _ d => f.riskFactor D i c d) (M := fun _ _ => 1)
    (by
      intro i hi c hc o ho d hd
      have e : (m.sumKeep .origin).values.get i c o d =
          (Num.fin (∑ o ∈ Finset.range n,
            if q * o + d + 1 < D then 0 else (z.values.get i c o d).amt * S i c o d)).numToNan := by
        rw [hm]
        show (∑ o ∈ Finset.range v.d2, (v.get i c o d).nan0).numToNan = _
        rw [vd.2.2.1]
        congr 1
        rw [← Num.sum_fin]
        refine Finset.sum_congr rfl fun o ho => ?_
        have ho := Finset.mem_range.1 ho
        rw [vc, yc i hi c hc o ho d hd, xc i hi c hc o ho d hd]
        rcases cse i hi c hc o ho d hd with e | ⟨e, e0⟩
        swap
        · rw [e, e0, Num.mul_nan, mul_zero, ite_self]; rfl
        rw [e]
        split_ifs with hk
        · rw [Num.numToNan_zero', Num.nan_mul]; rfl
        · by_cases h0 : (z.values.get i c o d).amt = 0
          · rw [h0, Num.numToNan_zero', Num.nan_mul, zero_mul]; rfl
          · rw [Num.numToNan_fin_of_ne h0, Num.fin_mul_fin]; rfl
      show ((m.sumKeep .origin).values.get i c o d).nanToNum = _
      rw [e]
      generalize (∑ o ∈ Finset.range n,
            if q * o + d + 1 < D then 0 else (z.values.get i c o d).amt * S i c o d) = w
      by_cases h0 : w = 0
      · rw [h0, Num.numToNan_zero']; rfl
      · rw [Num.numToNan_fin_of_ne h0]; rfl)
    (by
      intro i hi c hc o ho d hd
      exact lc i hi c hc 1 o d ho hd)
    (fun _ _ _ _ _ _ => rfl) (fun _ _ => rfl)
  have hlab := mackLabels_spec h.toGrid (by omega) hz r (t.odims.take 1)
  refine ⟨{ t with values := r, odims := t.odims.take 1, ddims := t.ddims ++ [9999], vd := ultVal }, ?_, ⟨r0, r1, ?_, ?_⟩, rfl, ?_⟩
  · unfold mackTotalParameter
    simp only [bind, Except.bind]
    rw [hk]
    simp only
    rw [hx]
    simp only
    rw [hcut]
    simp only
    rw [hmul]
    simp only
    rw [hsum]
    simp only
    rw [hl]
    simp only
    rw [hr]
    exact hlab
  · show r.d2 = (t.odims.take 1).length
    rw [r2, List.length_take, lO]; omega
  · show r.d3 = (t.ddims ++ [9999]).length
    rw [r3]; simp [lD]
  · intro i hi c hc o ho d hd
    rw [List.length_take] at ho
    rw [lD] at hd
    exact rc i hi c hc o (by omega) d hd

/-- The total parameter risk. -/
theorem mackTotalParameter_spec (s : K → K) (h : Standard t a n D q) (hf : GridPattern t f a n D q F)
    (hF : D < F) (h2 : 2 ≤ linkRows n D q) {z : Tri K} (hz : Completed t z n D q F) {se : Arr K}
    (hse : se.Up t.kdims.length t.vdims.length n D) {S : Nat → Nat → Nat → Nat → K}
    (cse : ∀ i < t.kdims.length, ∀ c < t.vdims.length, ∀ o < n, ∀ d < D,
      se.lift t.kdims.length t.vdims.length n i c o d = .fin (S i c o d)) :
    ∃ r, mackTotalParameter s t f z se = .ok r ∧ RiskTri t r (t.odims.take 1) fun i c _ d =>
      .fin (quad s (fun d => ∑ o ∈ Finset.range n,
          if q * o + d + 1 < D then 0 else (z.values.get i c o d).amt * S i c o d)
        (f.riskFactor D i c) (fun _ => 1) d) :=
  mackTotalParameter_missing s h hf hF h2 hz hse fun i hi c hc o ho d hd => Or.inl (cse i hi c hc o ho d hd)

end Tri
end CL
