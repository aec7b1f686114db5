import Verif.Lemmas.FullTri

set_option linter.unusedSectionVars false

/-! # The run-off part of a full triangle -/

namespace CL
namespace Tri
variable {K : Type} [Field K] [LinearOrder K] [IsStrictOrderedRing K]
variable {t f u : Tri K} {a : Int} {n D q F : Nat} {U : Nat → Nat → Nat → K}

/-- One recorded amount per origin, under the labels of `t`. -/
structure Diag (t l : Tri K) (A : Nat → Nat → Nat → K) : Prop where
  wf : WF l
  index : l.kdims = t.kdims
  keyLabels : l.keyLabels = t.keyLabels
  columns : l.vdims = t.vdims
  origins : l.odims = t.odims
  one : l.ddims.length = 1
  ograin : l.ograin = t.ograin
  noPattern : l.isPattern = false
  cells : ∀ i < t.kdims.length, ∀ c < t.vdims.length, ∀ o < t.odims.length,
    l.values.get i c o 0 = (Num.fin (A i c o)).numToNan

theorem numToNan_amt {x : Num K} (h : x.NoInf) : x.numToNan = (Num.fin x.amt).numToNan := by
  rcases Num.noInf_cases h with e | ⟨v, e⟩
  · rw [e]; exact Num.numToNan_zero'.symm
  · rw [e]; rfl

/-- The latest diagonal. -/
theorem Standard.diag (h : Standard t a n D q) : ∃ l, t.latestDiagonal = .ok (.tri l) ∧
    Diag t l (fun i c o => latest t D q i c o) ∧ l.vd = t.vd := by
  obtain ⟨l, hl, hd⟩ := h.latest
  obtain ⟨v, rows, hv, hr, -⟩ := h.cumTri.diagonal hl
  obtain ⟨e, -⟩ := toAgg_tri hr.symm
  have k1 := getVal_keeps hv
  have k2 := sumKeep_keeps v .development
  rw [e] at k2
  have hO : l.odims = t.odims := by
    rw [hd.origins.eq_map (by rw [h.lenO])]
    have := map_getD_range t.odims 0
    rwa [h.lenO] at this
  refine ⟨l, hl, ⟨hd.wf, hd.index, k2.1.trans k1.1, hd.columns, hO, hd.one, k2.2.1.trans k1.2.1,
    k2.2.2.2.1.trans (k1.2.2.2.1.trans h.noPattern), ?_⟩, hd.date⟩
  intro i hi c hc o ho
  rw [h.lenO] at ho
  have h3 := h.row_le ho
  rw [Nat.mul_comm] at h3
  have h1 := h.two_ages
  have := hd.cells i c o (D - 1 - q * o) (by rw [h.wf.1]; exact hi) (by rw [h.wf.2.1]; exact hc)
    (by simpa using ho) (by rw [h.lenD]; omega) (by
      rw [List.getElem_range, h.valuation_vd ho (by omega)]; omega)
  rw [this, List.getElem_range]
  exact numToNan_amt (h.finite i (by rw [h.wf.1]; exact hi) c (by rw [h.wf.2.1]; exact hc) o
    (by rw [h.wf.2.2.1, h.lenO]; exact ho) _ (by rw [h.wf.2.2.2, h.lenD]; omega))

theorem longer_self {α : Type} (l : List α) : longer l l = l := by unfold longer; rw [ite_self]

theorem longer_one {α : Type} {a b : List α} (h : b.length = 1) : longer a b = a := by
  unfold longer; rw [if_neg (by omega)]

/-- What is still to be paid. -/
theorem remaining (hu : UltAmounts t u U) {l : Tri K} {A : Nat → Nat → Nat → K} (hl : Diag t l A)
    (hv : l.vd ≤ ultVal) : ∃ g, u.sub l = .ok g ∧ Diag t g (fun i c o => U i c o - A i c o) ∧
      g.vd = ultVal := by
  have c : Compat u l := by
    refine ⟨hu.wf, hl.wf, hu.ograin.trans hl.ograin.symm, Or.inr ?_, hu.keyLabels.trans hl.keyLabels.symm,
      Or.inl (hu.index.trans hl.index.symm), Or.inl (hu.columns.trans hl.columns.symm),
      Or.inl (hu.origins.trans hl.origins.symm), Or.inr (Or.inl ⟨hl.one, by rw [hu.one]⟩), ?_⟩
    · rw [hu.wf.2.2.2, hu.one]; omega
    · intro h1 _; rw [hu.one] at h1; omega
  have hs := sub_compat c
  obtain ⟨g, hg⟩ : ∃ g, g = (combined (fun a b => a.nanToNum - b.nanToNum) u l).cleanup := ⟨_, rfl⟩
  rw [← hg] at hs
  have ek : longer u.kdims l.kdims = t.kdims := by rw [hl.index, hu.index, longer_self]
  have ev : longer u.vdims l.vdims = t.vdims := by rw [hl.columns, hu.columns, longer_self]
  have eo : longer u.odims l.odims = t.odims := by rw [hl.origins, hu.origins, longer_self]
  have ed : longer u.ddims l.ddims = u.ddims := longer_one hl.one
  have gw : WF g := by rw [hg]; exact wf_combined (fun a b => a.nanToNum - b.nanToNum) u l
  refine ⟨g, hs, ⟨gw, ?_, ?_, ?_, ?_, ?_, ?_, ?_, ?_⟩, ?_⟩
  · rw [hg]; exact ek
  · rw [hg]; exact hu.keyLabels
  · rw [hg]; exact ev
  · rw [hg]; exact eo
  · rw [hg]; show (longer u.ddims l.ddims).length = 1; rw [ed, hu.one]
  · rw [hg]; exact hu.ograin
  · rw [hg]; show (u.isPattern && l.isPattern) = false; rw [hu.noPattern]; rfl
  · intro i hi c hc o ho
    have nt : (combined (fun a b => a.nanToNum - b.nanToNum) u l).nanTri o 0 = 1 := by
      unfold nanTri
      rw [if_pos]
      show min (longer u.odims l.odims).length (longer u.ddims l.ddims).length = 1
      rw [eo, ed, hu.one]; omega
    rw [hg]
    show (((u.values.get (Arr.bix _ (longer u.kdims l.kdims).length i)
          (Arr.bix _ (longer u.vdims l.vdims).length c) (Arr.bix _ (longer u.odims l.odims).length o)
          (Arr.bix _ (longer u.ddims l.ddims).length 0)).nanToNum -
        (l.values.get (Arr.bix _ (longer u.kdims l.kdims).length i)
          (Arr.bix _ (longer u.vdims l.vdims).length c) (Arr.bix _ (longer u.odims l.odims).length o)
          (Arr.bix _ (longer u.ddims l.ddims).length 0)).nanToNum) * _).numToNan = _
    rw [nt, ek, ev, eo, ed, hu.wf.1, hu.wf.2.1, hu.wf.2.2.1, hu.wf.2.2.2, hl.wf.1, hl.wf.2.1, hl.wf.2.2.1,
      hl.wf.2.2.2, hu.index, hu.columns, hu.origins, hl.index, hl.columns, hl.origins, hu.one, hl.one]
    simp only [Arr.bix, if_true]
    rw [hu.cells i hi c hc o ho, hl.cells i hi c hc o ho]
    have e : ∀ x : K, ((Num.fin x).numToNan).nanToNum = .fin x := by
      intro x
      by_cases hx : x = 0
      · rw [hx, Num.numToNan_zero']; rfl
      · rw [Num.numToNan_fin_of_ne hx]; rfl
    rw [e, e, Num.fin_sub_fin]
    show (Num.fin _ * Num.fin 1 : Num K).numToNan = _
    rw [Num.fin_mul_fin, mul_one]
  · rw [hg]; show max u.vd l.vd = ultVal
    rw [hu.date]; exact max_eq_left hv

theorem laterAges_length {F m : Nat} (hF : 1 ≤ F) : (laterAges F m).length = F := by
  unfold laterAges; simp; omega

theorem laterAges_get {F m d : Nat} (hd : d + 1 < F) :
    (laterAges F m).getD d 0 = (((d + 2) * m : Nat) : Int) := by
  unfold laterAges
  rw [List.getD_eq_getElem?_getD, List.getElem?_append_left (by simp; omega)]
  simp [show d < F - 1 by omega]

theorem laterAges_last {F m : Nat} : (laterAges F m).getLast? = some 9999 := by
  unfold laterAges; simp

/-- The cells of `g`, of the remaining amounts and of their product. -/
theorem runoff_prod (h : Standard t a n D q) (hF : 2 ≤ F) {g r : Tri K} (w : Wide t g F)
    (gd : g.ddims = laterAges F t.dgrain.months) {R : Nat → Nat → Nat → K} (hr : Diag t r R)
    (rv : r.vd = ultVal) :
    ∃ p, g.mul r = .ok p ∧ Wide t p F ∧ p.ddims = laterAges F t.dgrain.months ∧
      ∀ i < t.kdims.length, ∀ c < t.vdims.length, ∀ o < n, ∀ d < F, p.values.get i c o d =
        g.values.get i c o d * (Num.fin (R i c o)).numToNan := by
  have gl : g.ddims.length = F := by rw [gd, laterAges_length (by omega)]
  have k1 := h.index_pos
  have v1 := h.columns_pos
  have fit : ∀ {α : Type} {x y : List α}, x = y ∨ (x.length = 1 ∧ y.length = 1) → 1 ≤ y.length →
      Fit x y := by
    intro α x y hxy hy
    rcases hxy with e | e
    · exact Or.inl e
    · exact Or.inr (Or.inl ⟨e.2, by omega⟩)
  have lng : ∀ {α : Type} {x y : List α}, x = y ∨ (x.length = 1 ∧ y.length = 1) → longer x y = x := by
    intro α x y hxy
    rcases hxy with e | e
    · rw [e, longer_self]
    · exact longer_one e.2
  have c : Compat g r := by
    refine ⟨w.wf, hr.wf, w.ograin.trans hr.ograin.symm, Or.inr ?_, w.keyLabels.trans hr.keyLabels.symm,
      ?_, ?_, Or.inl (w.odims.trans hr.origins.symm), Or.inr (Or.inl ⟨hr.one, by omega⟩), ?_⟩
    · rw [hr.wf.2.2.2, hr.one]; omega
    · rw [hr.index]; exact fit w.index k1
    · rw [hr.columns]; exact fit w.columns v1
    · intro _ h1; rw [hr.one] at h1; omega
  have ek : longer g.kdims r.kdims = g.kdims := by rw [hr.index]; exact lng w.index
  have ev : longer g.vdims r.vdims = g.vdims := by rw [hr.columns]; exact lng w.columns
  have eo : longer g.odims r.odims = t.odims := by rw [hr.origins, w.odims, longer_self]
  have ed : longer g.ddims r.ddims = g.ddims := longer_one hr.one
  have hdd : ¬ (g.ddims.length = 1 ∧ r.ddims.length > 1) := by omega
  refine ⟨combined (· * ·) g r, mul_compat c, ⟨wf_combined _ _ _, w.keyLabels, ?_, ?_, eo, w.ograin, ?_,
    ?_, ?_, ?_⟩, ed.trans gd, ?_⟩
  · show longer g.kdims r.kdims = _ ∨ _ ∧ _
    rw [ek]
    show _ ∨ (longer g.kdims r.kdims).length = 1 ∧ _
    rw [ek]; exact w.index
  · show longer g.vdims r.vdims = _ ∨ _ ∧ _
    rw [ev]
    show _ ∨ (longer g.vdims r.vdims).length = 1 ∧ _
    rw [ev]; exact w.columns
  · show (if _ then _ else _) = _
    rw [if_neg hdd]; exact w.dgrain
  · show (if _ then _ else _) = _
    rw [if_neg hdd]; exact w.isVal
  · show (g.isPattern && r.isPattern) = false
    rw [w.noPattern]; rfl
  · show max g.vd r.vd = ultVal
    rw [w.vd, rv, max_self]
  · intro i hi c hc o ho d hd
    show g.values.get (Arr.bix _ (longer g.kdims r.kdims).length i)
        (Arr.bix _ (longer g.vdims r.vdims).length c) (Arr.bix _ (longer g.odims r.odims).length o)
        (Arr.bix _ (longer g.ddims r.ddims).length d) *
      r.values.get (Arr.bix _ (longer g.kdims r.kdims).length i)
        (Arr.bix _ (longer g.vdims r.vdims).length c) (Arr.bix _ (longer g.odims r.odims).length o)
        (Arr.bix _ (longer g.ddims r.ddims).length d) = _
    rw [ek, ev, eo, ed, w.wf.1, w.wf.2.1, w.wf.2.2.1, w.wf.2.2.2, w.odims, hr.wf.1, hr.wf.2.1, hr.wf.2.2.1,
      hr.wf.2.2.2, w.d0, w.d1, hr.index, hr.columns, hr.origins, hr.one, gl]
    have : Arr.bix 1 F d = 0 := by unfold Arr.bix; rw [if_neg (by omega)]
    rw [this]
    simp only [Arr.bix, if_true]
    rw [hr.cells i hi c hc o (by rw [h.lenO]; exact ho)]

/-- Valuation of the cells of the run-off. -/
theorem later_valuation (h : Standard t a n D q) (hF : 2 ≤ F) {g : Tri K} (gi : g.isVal = false)
    (go : g.odims = t.odims) (gv : g.vd = ultVal)
    (gd : g.ddims = laterAges F t.dgrain.months) {o d : Nat} (ho : o < n) (hd : d < F) :
    g.valuation o d = if d + 1 = F then ultVal
      else a + ((q * o + d + 2) * t.dgrain.months : Nat) - 1 := by
  unfold Tri.valuation valuationOf
  rw [gi, gd, go, gv, laterAges_last, laterAges_length (by omega)]
  simp only [Bool.false_eq_true, if_false, true_and]
  by_cases hd' : d + 1 = F
  · rw [if_pos hd', if_pos hd']
  · rw [if_neg hd', if_neg hd', h.getO ho, min_eq_left (le_trans (h.origin_le ho) h.early),
      laterAges_get (by omega)]
    push_cast
    ring

/-- The latest amounts plus the emerging part of the remaining ones. -/
theorem runoff_sum (h : Standard t a n D q) (hf : GridPattern t f a n D q F) {l p : Tri K}
    {A : Nat → Nat → Nat → K} (hl : Diag t l A) (lv : l.vd ≤ ultVal) (w : Wide t p F)
    (pd : p.ddims = laterAges F t.dgrain.months) {P : Nat → Nat → Nat → Nat → K}
    (hp : ∀ i < t.kdims.length, ∀ c < t.vdims.length, ∀ o < n, ∀ d < F,
      (p.values.get i c o d).nanToNum = .fin (P i c o d)) :
    ∃ s, l.add p = .ok s ∧ Wide t s F ∧ s.ddims = laterAges F t.dgrain.months ∧ s.kdims = t.kdims ∧
      s.vdims = t.vdims ∧
      ∀ i < t.kdims.length, ∀ c < t.vdims.length, ∀ o < n, ∀ d < F, s.values.get i c o d =
        (Num.fin (A i c o + P i c o d)).numToNan := by
  have hF : 2 ≤ F := le_trans h.two_ages hf.covers
  have gl : p.ddims.length = F := by rw [pd, laterAges_length (by omega)]
  have k1 := h.index_pos
  have v1 := h.columns_pos
  have fit : ∀ {α : Type} {x y : List α}, x = y ∨ (x.length = 1 ∧ y.length = 1) → 1 ≤ y.length →
      Fit y x := by
    intro α x y hxy hy
    rcases hxy with e | e
    · exact Or.inl e.symm
    · exact Or.inr (Or.inl ⟨e.1, by omega⟩)
  have lng : ∀ {α : Type} {x y : List α}, x = y ∨ (x.length = 1 ∧ y.length = 1) → longer y x = y := by
    intro α x y hxy
    rcases hxy with e | e
    · rw [e, longer_self]
    · exact longer_one e.1
  have c : Compat l p := by
    refine ⟨hl.wf, w.wf, hl.ograin.trans w.ograin.symm, Or.inr ?_, hl.keyLabels.trans w.keyLabels.symm,
      ?_, ?_, Or.inl (hl.origins.trans w.odims.symm), Or.inr (Or.inr ⟨hl.one, by omega⟩), ?_⟩
    · rw [hl.wf.2.2.2, hl.one]; omega
    · rw [hl.index]; exact fit w.index k1
    · rw [hl.columns]; exact fit w.columns v1
    · intro h1 _; rw [hl.one] at h1; omega
  have ek : longer l.kdims p.kdims = t.kdims := by rw [hl.index]; exact lng w.index
  have ev : longer l.vdims p.vdims = t.vdims := by rw [hl.columns]; exact lng w.columns
  have eo : longer l.odims p.odims = t.odims := by rw [hl.origins, w.odims, longer_self]
  have hdd : l.ddims.length = 1 ∧ p.ddims.length > 1 := ⟨hl.one, by omega⟩
  have ed : longer l.ddims p.ddims = p.ddims := by unfold longer; rw [if_pos hdd]
  have hs := add_compat c
  obtain ⟨y, hy⟩ : ∃ y, y = combined (fun a b => a.nanToNum + b.nanToNum) l p := ⟨_, rfl⟩
  obtain ⟨s, hs'⟩ : ∃ s, s = y.cleanup := ⟨_, rfl⟩
  rw [← hy, ← hs'] at hs
  have yw : WF y := by rw [hy]; exact wf_combined _ _ _
  have yi : y.isVal = false := by
    rw [hy]; show (if _ then _ else _) = _
    rw [if_pos hdd]; exact w.isVal
  have yo : y.odims = t.odims := by rw [hy]; exact eo
  have yd : y.ddims = laterAges F t.dgrain.months := by rw [hy]; exact ed.trans pd
  have yv : y.vd = ultVal := by
    rw [hy]; show max l.vd p.vd = ultVal
    rw [w.vd]; exact max_eq_right lv
  refine ⟨s, hs, ⟨?_, ?_, ?_, ?_, ?_, ?_, ?_, ?_, ?_, ?_⟩, ?_, ?_, ?_, ?_⟩
  · rw [hs']; exact yw
  · rw [hs', hy]; exact hl.keyLabels
  · rw [hs', hy]; exact Or.inl ek
  · rw [hs', hy]; exact Or.inl ev
  · rw [hs']; exact yo
  · rw [hs', hy]; exact hl.ograin
  · rw [hs', hy]; show (if _ then _ else _) = _
    rw [if_pos hdd]; exact w.dgrain
  · rw [hs']; exact yi
  · rw [hs', hy]; show (l.isPattern && p.isPattern) = false
    rw [hl.noPattern]; rfl
  · rw [hs']; exact yv
  · rw [hs']; exact yd
  · rw [hs', hy]; exact ek
  · rw [hs', hy]; exact ev
  · intro i hi c hc o ho d hd
    have nt : y.nanTri o d = 1 := by
      rcases nanTri_eq y o d with e | ⟨-, e⟩
      · exact e
      · exfalso
        rw [later_valuation h hF yi yo yv yd ho hd, yv] at e
        have he := hf.early
        have hqo : q * o ≤ q * (n - 1) := Nat.mul_le_mul_left _ (by omega)
        split_ifs at e with h1
        · omega
        · have : (q * o + d + 2) * t.dgrain.months ≤ (q * (n - 1) + F + 1) * t.dgrain.months :=
            Nat.mul_le_mul_right _ (by omega)
          omega
    rw [hs']
    show (y.values.get i c o d * (y.nanTri o d).nanToNum).numToNan = _
    rw [nt, hy]
    show (((l.values.get (Arr.bix _ (longer l.kdims p.kdims).length i)
          (Arr.bix _ (longer l.vdims p.vdims).length c) (Arr.bix _ (longer l.odims p.odims).length o)
          (Arr.bix _ (longer l.ddims p.ddims).length d)).nanToNum +
        (p.values.get (Arr.bix _ (longer l.kdims p.kdims).length i)
          (Arr.bix _ (longer l.vdims p.vdims).length c) (Arr.bix _ (longer l.odims p.odims).length o)
          (Arr.bix _ (longer l.ddims p.ddims).length d)).nanToNum) * _).numToNan = _
    rw [ek, ev, eo, ed, w.wf.1, w.wf.2.1, w.wf.2.2.1, w.wf.2.2.2, w.odims, hl.wf.1, hl.wf.2.1, hl.wf.2.2.1,
      hl.wf.2.2.2, w.d0, w.d1, hl.index, hl.columns, hl.origins, hl.one, gl]
    have : Arr.bix 1 F d = 0 := by unfold Arr.bix; rw [if_neg (by omega)]
    rw [this]
    simp only [Arr.bix, if_true]
    rw [hl.cells i hi c hc o (by rw [h.lenO]; exact ho), hp i hi c hc o ho d hd]
    have e : ∀ x : K, ((Num.fin x).numToNan).nanToNum = .fin x := by
      intro x
      by_cases hx : x = 0
      · rw [hx, Num.numToNan_zero']; rfl
      · rw [Num.numToNan_fin_of_ne hx]; rfl
    rw [e, Num.fin_add_fin]
    show (Num.fin _ * Num.fin 1 : Num K).numToNan = _
    rw [Num.fin_mul_fin, mul_one]

/-- The ages of a full triangle. -/
def fullAges (F m : Nat) : List Int :=
  ((List.range F).map fun d : Nat => (((d + 1) * m : Nat) : Int)) ++ [9999]

theorem fullAges_length {F m : Nat} : (fullAges F m).length = F + 1 := by
  unfold fullAges; simp

theorem fullAges_get {F m d : Nat} (hd : d < F) :
    (fullAges F m).getD d 0 = (((d + 1) * m : Nat) : Int) := by
  unfold fullAges
  rw [List.getD_eq_getElem?_getD, List.getElem?_append_left (by simp; omega)]
  simp [hd]

theorem fullAges_at {F m : Nat} : (fullAges F m).getD F 0 = 9999 := by
  unfold fullAges
  rw [List.getD_eq_getElem?_getD, List.getElem?_append_right (by simp)]
  simp

theorem fullAges_last {F m : Nat} : (fullAges F m).getLast? = some 9999 := by
  unfold fullAges; simp

theorem laterAges_at {F m : Nat} (hF : 1 ≤ F) : (laterAges F m).getD (F - 1) 0 = 9999 := by
  unfold laterAges
  rw [List.getD_eq_getElem?_getD, List.getElem?_append_right (by simp)]
  simp

theorem fullAges_le {F : Nat} {g : Grain} (hs : F * g.months < 9999) : ∀ d ∈ fullAges F g.months, d ≤ 9999 := by
  intro d hd
  unfold fullAges at hd
  simp only [List.mem_append, List.mem_map, List.mem_range, List.mem_singleton] at hd
  rcases hd with ⟨j, hj, rfl⟩ | rfl
  · have : (j + 1) * g.months ≤ F * g.months := Nat.mul_le_mul_right _ hj
    omega
  · exact le_rfl

theorem fullAges_sorted {F : Nat} {g : Grain} (hs : F * g.months < 9999) :
    (fullAges F g.months).Pairwise (· < ·) := by
  unfold fullAges
  rw [List.pairwise_append]
  refine ⟨ages_sorted F g, List.pairwise_singleton _ _, ?_⟩
  intro x hx y hy
  simp only [List.mem_map, List.mem_range] at hx
  obtain ⟨j, hj, rfl⟩ := hx
  rw [List.mem_singleton.1 hy]
  have : (j + 1) * g.months ≤ F * g.months := Nat.mul_le_mul_right _ hj
  omega

/-- The cells after the valuation date. -/
theorem runoff_filter (h : Standard t a n D q) (hf : GridPattern t f a n D q F) {s : Tri K}
    (w : Wide t s F) (sd : s.ddims = laterAges F t.dgrain.months) (sk : s.kdims = t.kdims)
    (sv : s.vdims = t.vdims) {S : Nat → Nat → Nat → Nat → K}
    (hs : ∀ i < t.kdims.length, ∀ c < t.vdims.length, ∀ o < n, ∀ d < F, s.values.get i c o d =
      (Num.fin (S i c o d)).numToNan) :
    ∃ y, s.getVal (fun v => v > t.vd) = .ok y ∧ WF y ∧ y.kdims = t.kdims ∧ y.vdims = t.vdims ∧
      y.keyLabels = t.keyLabels ∧ y.ograin = t.ograin ∧ y.dgrain = t.dgrain ∧ y.isVal = false ∧
      y.isPattern = false ∧ LabelBlock t.odims y.odims 0 ∧ y.odims.length = n ∧
      LabelBlock (fullAges F t.dgrain.months) y.ddims (D - q * (n - 1)) ∧
      y.ddims.length = F + 1 - (D - q * (n - 1)) ∧ y.vd = ultVal ∧
      ∀ i < t.kdims.length, ∀ c < t.vdims.length, ∀ o < n, ∀ d < F + 1, D - q * (n - 1) ≤ d →
        y.values.get i c o (d - (D - q * (n - 1))) =
          if D < q * o + d + 1 then (Num.fin (S i c o (d - 1))).numToNan else .nan := by
  have n2 := h.two_origins
  have hq := h.period
  have hD := h.two_ages
  have hrec := h.recent
  have hcov := hf.covers
  have hm := months_pos t.dgrain
  have hF : 2 ≤ F := by omega
  have hq1 : 1 ≤ q * (n - 1) := Nat.mul_pos hq (by omega)
  have hqn : ∀ o, o < n → q * o ≤ q * (n - 1) := fun o ho => Nat.mul_le_mul_left _ (by omega)
  have lO : s.odims.length = n := by rw [w.odims, h.lenO]
  have lD : s.ddims.length = F := by rw [sd, laterAges_length (by omega)]
  have hval := fun {o d : Nat} (ho : o < n) (hdF : d < F) =>
    later_valuation h hF w.isVal w.odims w.vd sd ho hdF
  have hvd : t.vd < ultVal := by
    rw [h.vd]
    have := hf.early
    have : D * t.dgrain.months ≤ (q * (n - 1) + F + 1) * t.dgrain.months :=
      Nat.mul_le_mul_right _ (by omega)
    omega
  have key : ∀ o < n, ∀ d < F, decide (s.valuation o d > t.vd) = true ↔ D < q * o + d + 2 := by
    intro o ho d hdF
    rw [decide_eq_true_iff, gt_iff_lt, hval ho hdF]
    by_cases hl : d + 1 = F
    · rw [if_pos hl]
      exact ⟨fun _ => by omega, fun _ => hvd⟩
    · rw [if_neg hl, h.vd, period_lt hm]
  have ord : Ordered s := by
    intro _
    refine ⟨?_, ?_, ?_⟩
    · intro o ho
      rw [w.odims] at ho
      rw [w.vd]
      exact le_trans ((h.ordered h.isVal).1 o ho) h.early
    · rw [sd]
      intro d hd
      unfold laterAges at hd
      simp only [List.mem_append, List.mem_map, List.mem_range, List.mem_singleton] at hd
      rcases hd with ⟨j, hj, rfl⟩ | rfl
      · have : 1 * 1 ≤ (j + 2) * t.dgrain.months := Nat.mul_le_mul (by omega) hm
        omega
      · omega
    · rw [sd]
      unfold laterAges
      rw [List.dropLast_concat]
      intro hmem
      simp only [List.mem_map, List.mem_range] at hmem
      obtain ⟨j, hj, ej⟩ := hmem
      have h1 : (j + 2) * t.dgrain.months ≤ F * t.dgrain.months := Nat.mul_le_mul_right _ (by omega)
      have := hf.short
      omega
  have dat : Dated s := fun _ => by rw [w.vd]
  have hle : ∀ o < n, ∀ d < F, s.valuation o d ≤ ultVal := by
    intro o ho d hdF
    rw [hval ho hdF]
    have he := hf.early
    have h1 := hqn o ho
    split_ifs with h2
    · exact le_rfl
    · have : (q * o + d + 2) * t.dgrain.months ≤ (q * (n - 1) + F + 1) * t.dgrain.months :=
        Nat.mul_le_mul_right _ (by omega)
      omega
  have gra : Graded s := by
    intro o o' d d' h1 h2 h3 h4
    rw [lO] at h2
    rw [lD] at h4
    by_cases hl : d' + 1 = F
    · rw [hval h2 h4, if_pos hl]
      exact hle o (by omega) d (by omega)
    · rw [hval (by omega) (by omega), hval h2 h4, if_neg hl, if_neg (by omega), period_le hm]
      have : q * o ≤ q * o' := Nat.mul_le_mul_left _ h1
      omega
  obtain ⟨y, hy, yw, yk, yv, yl, yo, yg, yi, yp, -, ybo, ylo, ybd, yld, ycell, yval, m, ⟨mo, md, hmo, hmd,
    hmk, hme⟩, hmx, yvd⟩ := getVal_block w.wf ord dat gra (by omega) (P := fun v => v > t.vd)
    (Or.inr fun v w' hvw hw => by simp only [decide_eq_true_eq] at hw ⊢; omega)
    (so := 0) (ko := n) (sd := D - 1 - q * (n - 1)) (kd := F - (D - 1 - q * (n - 1))) (by omega)
    (by omega) (by omega)
    (by
      intro o ho
      rw [lO] at ho
      rw [lD]
      constructor
      · exact fun _ => ⟨Nat.zero_le _, by omega⟩
      · intro _
        exact ⟨F - 1, by omega, (key o ho (F - 1) (by omega)).2 (by omega)⟩)
    (by
      intro d hdF
      rw [lD] at hdF
      rw [lO]
      constructor
      · rintro ⟨o, ho, hk⟩
        have := (key o ho d hdF).1 hk
        have := hqn o ho
        omega
      · rintro ⟨hk, -⟩
        exact ⟨n - 1, by omega, (key (n - 1) (by omega) d hdF).2 (by omega)⟩)
  have s0 : s.values.d0 = t.kdims.length := by rw [w.wf.1, sk]
  have s1 : s.values.d1 = t.vdims.length := by rw [w.wf.2.1, sv]
  refine ⟨y, hy, yw, yk.trans sk, yv.trans sv, yl.trans w.keyLabels, yo.trans w.ograin, yg.trans w.dgrain,
    yi.trans w.isVal, yp.trans w.noPattern, by rw [← w.odims]; exact ybo, ylo, ?_, by omega, ?_, ?_⟩
  · refine ⟨by rw [fullAges_length]; omega, ?_⟩
    intro k hk
    rw [ybd.2 k hk, sd]
    rw [yld] at hk
    by_cases hl : D - 1 - q * (n - 1) + k + 1 = F
    · rw [show D - 1 - q * (n - 1) + k = F - 1 by omega, show D - q * (n - 1) + k = F by omega,
        laterAges_at (by omega), fullAges_at]
    · rw [laterAges_get (by omega), fullAges_get (by omega),
        show D - 1 - q * (n - 1) + k + 2 = D - q * (n - 1) + k + 1 by omega]
  · have h1 := hmx 0 (F - 1) (by omega) (by omega) ((key 0 (by omega) (F - 1) (by omega)).2 (by omega))
    rw [hval (by omega) (by omega), if_pos (by omega)] at h1
    rw [yvd, w.vd]; exact min_eq_right h1
  · intro i hi c hc o ho d hd hr
    rw [ycell i c o _ (by omega) (by omega) ho (by omega), Nat.zero_add,
      show D - 1 - q * (n - 1) + (d - (D - q * (n - 1))) = d - 1 by omega,
      hs i hi c hc o ho _ (by omega)]
    have k := key o ho (d - 1) (by omega)
    by_cases hk : D < q * o + d + 1
    · rw [if_pos (k.2 (by omega)), if_pos hk]
      by_cases hz : S i c o (d - 1) = 0
      · rw [hz, Num.numToNan_zero']; rfl
      · rw [Num.numToNan_fin_of_ne hz, Num.numToNan_fin_of_ne hz]
    · rw [if_neg (fun hh => hk (by have := k.1 hh; omega)), if_neg hk]

/-- The amount of origin `o` at the end of `d` periods after its start, for a later `d`: the latest
amount and the emerged share of the rest. -/
def emerged (t f : Tri K) (U : Nat → Nat → Nat → K) (D q F i c o d : Nat) : K :=
  t.latest D q i c o +
    if U i c o = 0 ∨ f.growth i c (D - 1 - q * o) F = 1 then 0
    else f.share D q F i c o d * (U i c o - t.latest D q i c o)

/-- All cells of the full triangle of a cumulative triangle. -/
theorem full_spec (h : Standard t a n D q) (hc : t.isCum = some true) (hf : GridPattern t f a n D q F)
    (h2 : 2 ≤ linkRows n D q) (hu : UltAmounts t u U) :
    ∃ z, fullTriangle t f u true = .ok z ∧ WF z ∧ z.kdims = t.kdims ∧ z.vdims = t.vdims ∧
      z.odims = t.odims ∧ z.ddims = fullAges F t.dgrain.months ∧ z.vd = ultVal ∧ z.isVal = false ∧
      z.isCum = some true ∧ z.isPattern = false ∧ z.dgrain = t.dgrain ∧ z.ograin = t.ograin ∧
      z.keyLabels = t.keyLabels ∧
      ∀ i < t.kdims.length, ∀ c < t.vdims.length, ∀ o < n, ∀ d < F + 1, z.values.get i c o d =
        if q * o + d + 1 ≤ D then (t.values.get i c o d).numToNan
        else (Num.fin (emerged t f U D q F i c o d)).numToNan := by
  have hF : 2 ≤ F := le_trans h.two_ages hf.covers
  have hcov := hf.covers
  have n2 := h.two_origins
  have hq := h.period
  have hrec := h.recent
  have hD := h.two_ages
  have hm := months_pos t.dgrain
  have hq1 : 1 ≤ q * (n - 1) := Nat.mul_pos hq (by omega)
  have hqn : ∀ o, o < n → q * o ≤ q * (n - 1) := fun o ho => Nat.mul_le_mul_left _ (by omega)
  obtain ⟨g, hg, gw, gd, gcell⟩ := emergence_spec h hf h2 hu
  obtain ⟨l, hl, ld, lv⟩ := h.diag
  have lv' : l.vd ≤ ultVal := by rw [lv]; exact h.early
  obtain ⟨r, hr, rd, rv⟩ := remaining hu ld lv'
  obtain ⟨p, hp, pw, pd, pcell⟩ := runoff_prod h hF gw gd rd rv
  obtain ⟨s, hs, sw, sd, sk, sv, scell⟩ := runoff_sum h hf ld lv' pw pd
    (P := fun i c o d => if U i c o = 0 ∨ f.growth i c (D - 1 - q * o) F = 1 then 0
      else f.share D q F i c o (d + 1) * (U i c o - t.latest D q i c o))
    (by
      intro i hi c hc o ho d hd
      rw [pcell i hi c hc o ho d hd, gcell i hi c hc o ho d hd]
      split_ifs with h0
      · rw [Num.nan_mul]; rfl
      · by_cases hz : U i c o - t.latest D q i c o = 0
        · rw [hz, Num.numToNan_zero', Num.mul_nan, mul_zero]; rfl
        · rw [Num.numToNan_fin_of_ne hz, Num.fin_mul_fin]; rfl)
  obtain ⟨y, hy, yw, yk, yv, yl, yo, yg, yi, yp, ybo, ylo, ybd, yld, yvd, ycell⟩ :=
    runoff_filter h hf sw sd sk sv scell
  obtain ⟨x, hx⟩ : ∃ x : Tri K, x = { y with isCum := some true } := ⟨_, rfl⟩
  have xo : x.odims = y.odims := by rw [hx]
  have xd : x.ddims = y.ddims := by rw [hx]
  have xg : x.values = y.values := by rw [hx]
  have same : SameButDates t x := by
    rw [hx]
    exact ⟨yk.symm, yl.symm, yv.symm, h.isVal.trans yi.symm, yo.symm, yg.symm⟩
  obtain ⟨z, hz, zeq, zw, z0, z1, zcell⟩ := add_blocks same h.wf (by rw [hx]; exact yw)
    h.toGrid.odims_sorted (fullAges_sorted (g := t.dgrain) hf.short) (ox := 0) (dx := 0) (oy := 0)
    (dy := D - q * (n - 1)) (LabelBlock.refl _)
    ⟨by rw [h.lenD, fullAges_length]; omega, fun k hk => by
      rw [h.lenD] at hk
      rw [Nat.zero_add, h.getDv hk, fullAges_get (by omega)]⟩
    (by rw [xo]; exact ybo) (by rw [xd]; exact ybd) (by rw [h.lenO]; exact n2) (by rw [h.lenD]; exact hD)
    (by rw [xo]; omega) (by rw [xd]; omega) (fullAges_le hf.short)
    (by intro k hk; left; omega)
    (by intro k hk; rw [fullAges_length] at hk; rw [xd, yld, h.lenD]; omega)
    (by rw [xo, xd, yld, h.lenD]; omega)
  have zo : z.odims = t.odims := by rw [zeq]
  have zd : z.ddims = fullAges F t.dgrain.months := by rw [zeq]
  have zi : z.isVal = false := by rw [zeq]; exact h.isVal
  have zv : z.vd = ultVal := by
    rw [zeq]; show max t.vd x.vd = ultVal
    rw [hx]; show max t.vd y.vd = ultVal
    rw [yvd]; exact max_eq_right h.early
  refine ⟨z, ?_, zw, by rw [zeq], by rw [zeq], zo, zd, zv, zi, by rw [zeq]; exact hc, ?_, by rw [zeq], by rw [zeq],
    by rw [zeq], ?_⟩
  · unfold fullTriangle
    have ic : t.incrToCum = t := by unfold incrToCum; rw [if_pos hc]
    simp only [hg, ic, hl, hr, hp, hs, hy, bind, Except.bind, if_true]
    rw [← hx, hz]
  · rw [zeq]; show (t.isPattern && x.isPattern) = false
    rw [h.noPattern]; rfl
  · intro i hi c hc o ho d hd
    have nt : z.nanTri o d = 1 := by
      rcases nanTri_eq z o d with e | ⟨-, e⟩
      · exact e
      · exfalso
        unfold Tri.valuation valuationOf at e
        rw [zi, zo, zd, zv, fullAges_last, fullAges_length] at e
        simp only [Bool.false_eq_true, if_false, true_and] at e
        have he := hf.early
        have hqo := hqn o ho
        by_cases hl : d + 1 = F + 1
        · rw [if_pos hl] at e; omega
        · rw [if_neg hl, h.getO ho, min_eq_left (le_trans (h.origin_le ho) h.early),
            fullAges_get (by omega)] at e
          have h3 : (q * o + d + 1) * t.dgrain.months ≤ (q * (n - 1) + F + 1) * t.dgrain.months :=
            Nat.mul_le_mul_right _ (by omega)
          have h4 : (q * o + d + 1) * t.dgrain.months =
            o * q * t.dgrain.months + (d + 1) * t.dgrain.months := by ring
          omega
    have hqo := hqn o ho
    rw [zcell i c o d (by rw [h.lenO]; exact ho) (by rw [fullAges_length]; exact hd), nt]
    have hfin : ∀ v : K, ((Num.fin v).numToNan).nanToNum = .fin v := by
      intro v
      by_cases hv : v = 0
      · rw [hv, Num.numToNan_zero']; rfl
      · rw [Num.numToNan_fin_of_ne hv]; rfl
    have bt : (blockCell t 0 0 i c o d).nanToNum =
        if q * o + d + 1 ≤ D then .fin (t.values.get i c o d).amt else .fin 0 := by
      unfold blockCell
      rw [h.lenO, h.lenD]
      by_cases hk : q * o + d + 1 ≤ D
      · rw [if_pos ⟨⟨by omega, by omega⟩, by omega, by omega⟩, if_pos hk, Nat.sub_zero, Nat.sub_zero]
        have := h.finite i (by rw [h.wf.1]; exact hi) c (by rw [h.wf.2.1]; exact hc) o
          (by rw [h.wf.2.2.1, h.lenO]; exact ho) d (by rw [h.wf.2.2.2, h.lenD]; omega)
        rcases Num.noInf_cases this with e | ⟨v, e⟩ <;> rw [e] <;> rfl
      · rw [if_neg hk]
        split_ifs with hb
        · rw [Nat.sub_zero, Nat.sub_zero, h.known i hi c hc o ho d (by omega) (by omega)]; rfl
        · rfl
    have bx : (blockCell x 0 (D - q * (n - 1)) i c o d).nanToNum =
        if q * o + d + 1 ≤ D then .fin 0 else .fin (emerged t f U D q F i c o d) := by
      unfold blockCell
      rw [xo, xd, xg, ylo, yld]
      by_cases hk : D - q * (n - 1) ≤ d
      · rw [if_pos ⟨⟨by omega, by omega⟩, by omega, by omega⟩, Nat.sub_zero,
          ycell i hi c hc o ho d hd hk]
        by_cases hk' : q * o + d + 1 ≤ D
        · rw [if_neg (by omega), if_pos hk']; rfl
        · rw [if_pos (by omega), if_neg hk', hfin, show d - 1 + 1 = d by omega]
          rfl
      · rw [if_neg (by omega), if_pos (by omega)]; rfl
    rw [bt, bx]
    split_ifs with hk
    · rw [Num.fin_add_fin, add_zero]
      show (Num.fin _ * Num.fin 1 : Num K).numToNan = _
      rw [Num.fin_mul_fin, mul_one]
      exact (numToNan_amt (h.finite i (by rw [h.wf.1]; exact hi) c (by rw [h.wf.2.1]; exact hc) o
          (by rw [h.wf.2.2.1, h.lenO]; exact ho) d (by rw [h.wf.2.2.2, h.lenD]; omega))).symm
    · rw [Num.fin_add_fin, zero_add]
      show (Num.fin _ * Num.fin 1 : Num K).numToNan = _
      rw [Num.fin_mul_fin, mul_one]

end Tri
end CL
