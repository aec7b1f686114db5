import Verif.Model.Predict
import Verif.Lemmas.Union
import Verif.Lemmas.BcastUp
import Verif.Spec.Methods

set_option linter.unusedSectionVars false

/-! # Extending a triangle to the ages of another one -/

namespace CL

theorem Num.mul_zero_nanToNum {K : Type} [Field K] [LinearOrder K] [IsStrictOrderedRing K]
    (v : Num K) : (v * 0).nanToNum = 0 := by
  cases v with
  | nan => rfl
  | ninf => show (Num.mul .ninf (.fin 0)).nanToNum = _; simp [Num.mul, Num.infMul, Num.nanToNum, Num.zero_def]
  | pinf => show (Num.mul .pinf (.fin 0)).nanToNum = _; simp [Num.mul, Num.infMul, Num.nanToNum, Num.zero_def]
  | fin a => simp [Num.nanToNum, Num.zero_def]

namespace Tri
variable {K : Type} [Field K] [LinearOrder K] [IsStrictOrderedRing K]

/-- The row of zeros added by `predict`. -/
structure ZeroRow (m y : Tri K) : Prop where
  wf : WF y
  kdims : y.kdims.length = 1
  vdims : y.vdims.length = 1
  odims : y.odims.length = 1
  ddims : y.ddims = m.ddims
  isVal : y.isVal = m.isVal
  ograin : y.ograin = m.ograin
  dgrain : y.dgrain = m.dgrain
  keyLabels : y.keyLabels = m.keyLabels
  vd : y.vd ≤ m.vd
  zero : ∀ i c o d, (y.values.get i c o d).nanToNum = 0

theorem addAges_eq {m : Tri K} (wf : WF m) (h0 : 1 ≤ m.kdims.length) (h1 : 1 ≤ m.vdims.length)
    (h2 : 1 ≤ m.odims.length) (h3 : 2 ≤ m.ddims.length) :
    ∃ y, ZeroRow m y ∧ ∀ x : Tri K, x.addAges m = x.add y := by
  obtain ⟨w0, w1, w2, w3⟩ := wf
  have e := pick_eq m [0] [0] (List.range m.values.d2) (List.range m.values.d3)
    (Or.inr (by intro e; have := congrArg List.length e; simp at this; omega))
  set v := (((m.picked [0] [0] (List.range m.values.d2) (List.range m.values.d3)
    m.vd).valuations.max?).elim m.vd fun a => min a m.vd) with hv
  have hvle : v ≤ m.vd := by
    rw [hv]
    cases ((m.picked [0] [0] (List.range m.values.d2) (List.range m.values.d3)
      m.vd).valuations.max?) with
    | none => exact le_refl _
    | some a => exact min_le_right _ _
  set b := m.picked [0] [0] (List.range m.values.d2) (List.range m.values.d3) v with hb
  have el : m.iloc (.int 0) (.int 0) (.slc .all) (.slc .all) = .ok b := by
    rw [← e]
    exact iloc_of_sel (selS_nat m.values.d0 0 (by omega)).sel (selS_nat m.values.d1 0 (by omega)).sel
      (selS_all _) (selS_all _)
  have b2 : b.values.d2 = m.values.d2 := by show (List.range _).length = _; simp
  have b3 : b.values.d3 = m.values.d3 := by show (List.range _).length = _; simp
  have hod : b.odims = m.odims := by
    show (List.range m.values.d2).map (m.odims.getD · 0) = m.odims
    rw [w2]; exact map_getD_range _ _
  have hdd : b.ddims = m.ddims := by
    show (List.range m.values.d3).map (m.ddims.getD · 0) = m.ddims
    rw [w3]; exact map_getD_range _ _
  have hrel : ∃ od : List Int, od.length = 1 ∧ b.relabelAgg .origin = { b with odims := od } := by
    unfold relabelAgg
    dsimp only
    by_cases hl : b.odims.length > 1
    · rw [if_pos hl]; exact ⟨_, by rw [List.length_take]; omega, rfl⟩
    · rw [if_neg hl]; exact ⟨b.odims, by rw [hod] at hl ⊢; omega, rfl⟩
  obtain ⟨od, hol, hrel⟩ := hrel
  have hs : b.sum .origin = .tri (b.sumKeep .origin) := by
    unfold sum toAgg
    rw [if_neg]
    rintro ⟨-, -, -, h⟩
    have : b.values.d3 = 1 := h
    omega
  have hk : b.sumKeep .origin = { b with
      odims := od
      values := (b.values.nansum .origin).map Num.numToNan } := by
    unfold sumKeep
    rw [hrel]
  refine ⟨{ b with
      odims := od
      values := ((b.values.nansum .origin).map Num.numToNan).map (· * 0) },
    ⟨⟨rfl, rfl, hol.symm, ?_⟩, rfl, rfl, hol, hdd, rfl, rfl, rfl, rfl, hvle, ?_⟩, ?_⟩
  · show b.values.d3 = b.ddims.length
    rw [b3, hdd, w3]
  · intro i c o d
    exact Num.mul_zero_nanToNum _
  · intro x
    unfold addAges
    simp only [el, bind, Except.bind, hs, hk, mulArr, zipArr, Arr.zip_scalar]
    rfl

/-- The axes of `x` when it is extended to the ages `dd`; the cells are `g`. -/
def extended (x : Tri K) (v : Int) (p : Bool) (dd : List Int) (g : Nat → Nat → Nat → Nat → Num K) :
    Tri K :=
  { x with
    isPattern := p
    vd := v
    ddims := dd
    values := ⟨x.values.d0, x.values.d1, x.values.d2, dd.length, g⟩ }

private theorem prefix_ne {l : List Int} {k : Nat} (h : 2 ≤ (l.take k).length) : l.take k ≠ [] := by
  intro e; rw [e] at h; simp at h

theorem validate_ext {x y m : Tri K} (hy : ZeroRow m y) (wx : WF x) (h0 : 1 ≤ x.kdims.length)
    (h1 : 1 ≤ x.vdims.length) (h2 : 2 ≤ x.odims.length) (h3 : 2 ≤ x.ddims.length)
    (hlt : x.ddims.length < m.ddims.length)
    (so : x.odims.Pairwise (· < ·)) (sd : m.ddims.Pairwise (· < ·))
    (hst : m.ddims.take x.ddims.length = x.ddims) (hv : x.isVal = m.isVal)
    (ho : x.ograin = m.ograin) (hd : x.dgrain = m.dgrain) (hk : x.keyLabels = m.keyLabels) :
    ∃ ya : Arr K, validate x y = .ok (x.extended (max x.vd y.vd) (x.isPattern && y.isPattern) m.ddims
        (fun i c o d => if o < x.odims.length ∧ d < x.ddims.length then x.values.get i c o d else .nan),
        ya) ∧
      Arr.Fits ya ⟨x.values.d0, x.values.d1, x.values.d2, m.ddims.length, fun _ _ _ _ => .nan⟩ ∧
      ∀ i c o d, (ya.get i c o d).nanToNum = 0 := by
  obtain ⟨w0, w1, w2, w3⟩ := wx
  obtain ⟨v0, v1, v2, v3⟩ := hy.wf
  have ey3 : y.values.d3 = m.ddims.length := by rw [v3, hy.ddims]
  have hno : x.odims.Nodup := so.imp fun h => ne_of_lt h
  have hnd : m.ddims.Nodup := sd.imp fun h => ne_of_lt h
  have hsub : x.ddims.Sublist m.ddims := by rw [← hst]; exact List.take_sublist _ _
  have hndx : x.ddims.Nodup := hnd.sublist hsub
  have eo : unionSorted x.odims x.odims = x.odims := unionSorted_eq so (by simp)
  have ed : unionSorted x.ddims m.ddims = m.ddims := unionSorted_eq sd (by
    intro z
    exact ⟨Or.inr, fun h => h.elim (fun h => hsub.subset h) id⟩)
  -- the columns
  have hc : ∃ vd', prepColumns ({ x with isPattern := x.isPattern && y.isPattern
                                         vd := max x.vd y.vd } : Tri K)
      { y with isPattern := x.isPattern && y.isPattern } =
      .ok ({ x with isPattern := x.isPattern && y.isPattern, vd := max x.vd y.vd },
        { y with isPattern := x.isPattern && y.isPattern, vdims := vd' }) := by
    unfold prepColumns
    have e1 : ¬ (x.vdims.length = 1 ∧ y.vdims.length > 1) := by rw [hy.vdims]; omega
    simp only [if_neg e1]
    by_cases e2 : x.vdims.length > 1
    · exact ⟨_, by rw [if_pos ⟨hy.vdims, e2⟩]⟩
    · rw [if_neg (fun h => e2 h.2)]
      by_cases e3 : x.vdims = y.vdims
      · rw [if_neg (fun h => h.2.2 e3), if_pos ⟨by rw [w1, v1, e3], e3⟩]
        exact ⟨y.vdims, rfl⟩
      · rw [if_pos ⟨hy.vdims, by omega, e3⟩]
        exact ⟨_, rfl⟩
  obtain ⟨vd', hc⟩ := hc
  set p := x.isPattern && y.isPattern with hp
  -- the positions
  have lo : lowPos x.odims x.odims = 0 := by
    have := lowPos_block (pre := []) (a := x.odims) (post := []) (by intro e; rw [e] at h2; simp at h2)
      (by simp)
    simpa using this
  have hi : highPos x.odims x.odims = x.odims.length := by
    have := highPos_block (pre := []) (a := x.odims) (post := [])
      (by intro e; rw [e] at h2; simp at h2) (by simp)
    simpa using this
  have lom : lowPos m.ddims m.ddims = 0 := by
    have := lowPos_block (pre := []) (a := m.ddims) (post := [])
      (by intro e; rw [e] at hlt; simp at hlt) (by simp)
    simpa using this
  have him : highPos m.ddims m.ddims = m.ddims.length := by
    have := highPos_block (pre := []) (a := m.ddims) (post := [])
      (by intro e; rw [e] at hlt; simp at hlt) (by simp)
    simpa using this
  have hsplit : m.ddims = [] ++ x.ddims ++ m.ddims.drop x.ddims.length := by
    rw [List.nil_append]
    conv_lhs => rw [← List.take_append_drop x.ddims.length m.ddims, hst]
  have hdrop : ∀ z ∈ m.ddims.drop x.ddims.length, z ∉ x.ddims := by
    intro z hz hz'
    have hn := hnd
    rw [hsplit, List.nil_append, List.nodup_append] at hn
    exact hn.2.2 z hz' z hz rfl
  have hxne : x.ddims ≠ [] := by intro e; rw [e] at h3; simp at h3
  have lox : lowPos m.ddims x.ddims = 0 := by
    have := lowPos_block (pre := []) (post := m.ddims.drop x.ddims.length) hxne (by simp)
    rw [← hsplit] at this
    exact this
  have hix : highPos m.ddims x.ddims = x.ddims.length := by
    have := highPos_block (pre := []) (post := m.ddims.drop x.ddims.length) hxne hdrop
    rw [← hsplit] at this
    simpa using this
  -- the two arrays
  have pya : ∃ ya, Arr.place y.values.d0 y.values.d1 x.odims.length m.ddims.length 0 x.odims.length 0
      m.ddims.length y.values = .ok ya ∧ ya.d0 = 1 ∧ ya.d1 = 1 ∧ ya.d2 = x.odims.length ∧
      ya.d3 = m.ddims.length ∧ ∀ i c o d, (ya.get i c o d).nanToNum = 0 := by
    refine ⟨_, if_pos ⟨Or.inl rfl, Or.inl rfl, Or.inr (by rw [v2, hy.odims]), Or.inl (by omega)⟩,
      by rw [← hy.kdims, ← v0], by rw [← hy.vdims, ← v1], rfl, rfl, ?_⟩
    intro i c o d
    dsimp only
    split_ifs
    · exact hy.zero _ _ _ _
    · rfl
  obtain ⟨ya, hya, a0, a1, a2, a3, az⟩ := pya
  have pxa : Arr.place x.values.d0 x.values.d1 x.odims.length m.ddims.length 0 x.odims.length 0
      x.ddims.length x.values = .ok ⟨x.values.d0, x.values.d1, x.odims.length, m.ddims.length,
        fun i c o d => if o < x.odims.length ∧ d < x.ddims.length then
          x.values.get i c o d else .nan⟩ := by
    unfold Arr.place
    rw [if_pos ⟨Or.inl rfl, Or.inl rfl, Or.inl (by omega), Or.inl (by omega)⟩]
    simp only [Nat.sub_zero, ← w2, ← w3, Arr.bix_self, Nat.zero_le, true_and]
  have hb : broadcastable ({ x with isPattern := p, vd := max x.vd y.vd } : Tri K)
      { y with isPattern := p, vdims := vd' } = false := by
    unfold broadcastable
    dsimp only
    have : ((x.values.d3 == y.values.d3 || x.values.d3 == 1 || y.values.d3 == 1) &&
        (x.values.d2 == y.values.d2 || x.values.d2 == 1 || y.values.d2 == 1)) = false := by
      have e1 : (x.values.d3 == y.values.d3) = false := by simp; omega
      have e2 : (x.values.d3 == 1) = false := by simp; omega
      have e3 : (y.values.d3 == 1) = false := by simp; omega
      rw [e1, e2, e3]; rfl
    rw [this]
    split_ifs <;> rfl
  have hod : prepOriginDev x.values.d0 x.values.d1
      ({ x with isPattern := p, vd := max x.vd y.vd } : Tri K)
      { y with isPattern := p, vdims := vd' } = .ok (x.extended (max x.vd y.vd) p m.ddims
        (fun i c o d => if o < x.odims.length ∧ d < x.ddims.length then x.values.get i c o d else .nan),
        { y with
          isPattern := p
          vdims := vd'
          odims := x.odims
          ograin := x.ograin
          values := ya }) := by
    unfold prepOriginDev
    rw [hb]
    have o1 : y.odims.length = 1 ∧ x.odims.length > 1 := ⟨hy.odims, by omega⟩
    have d1 : ¬ (y.ddims.length = 1 ∧ x.ddims.length > 1) := by rw [hy.ddims]; omega
    have d2 : ¬ (x.ddims.length = 1 ∧ y.ddims.length > 1) := by omega
    simp only [relabelOnes, if_pos o1, if_neg d1, if_neg d2]
    rw [if_neg (by simp), if_neg (by rw [hv, hy.isVal]; simp),
      if_neg (by rw [hy.ddims]; exact not_not.2 ⟨hno, hno, hndx, hnd⟩)]
    simp only [eo, hy.ddims, ed, lo, hi, lom, him, lox, hix, hya, pxa, bind, Except.bind]
    rw [← w2]
    rfl
  have hidx : ∃ y3 : Tri K, prepIndex (x.extended (max x.vd y.vd) p m.ddims
        (fun i c o d => if o < x.odims.length ∧ d < x.ddims.length then x.values.get i c o d else .nan))
        { y with
          isPattern := p
          vdims := vd'
          odims := x.odims
          ograin := x.ograin
          values := ya } = .ok (x.extended (max x.vd y.vd) p m.ddims
        (fun i c o d => if o < x.odims.length ∧ d < x.ddims.length then x.values.get i c o d else .nan),
          y3) ∧ y3.values = ya := by
    unfold prepIndex
    have i1 : ¬ (x.kdims.length = 1 ∧ y.kdims.length > 1) := by rw [hy.kdims]; omega
    show ∃ y3 : Tri K, (if x.kdims.length = 1 ∧ y.kdims.length > 1 then _ else _) = _ ∧ _
    rw [if_neg i1]
    by_cases i2 : x.kdims.length > 1
    · exact ⟨_, if_pos ⟨i2, hy.kdims⟩, rfl⟩
    · have i3 : x.kdims.length = 1 := by omega
      have hkk : x.keyLabels = y.keyLabels := by rw [hk, hy.keyLabels]
      rw [if_neg (fun h => i2 h.1), if_neg (fun h => h.2.2 hkk)]
      dsimp only [extended]
      have hall : (x.keyLabels.all fun l => x.keyLabels.contains l) = true := by simp
      simp only [← hkk, hall, Bool.and_self, Bool.not_true, Bool.or_self, if_true, i3, hy.kdims]
      rw [if_neg (by simp), if_neg (by simp)]
      exact ⟨_, rfl, rfl⟩
  obtain ⟨y3, hidx, hy3⟩ := hidx
  refine ⟨ya, ?_, ⟨Or.inr a0, Or.inr a1, Or.inl (by rw [a2, w2]), Or.inl a3⟩, az⟩
  unfold validate
  have g : ¬ (x.ograin ≠ y.ograin ∨ (x.dgrain ≠ y.dgrain ∧ min x.values.d3 y.values.d3 > 1)) := by
    rw [hy.ograin, hy.dgrain, ho, hd]; simp
  simp only [if_neg g, bind, Except.bind]
  rw [hc]
  dsimp only
  rw [hod]
  dsimp only
  rw [hidx]
  dsimp only
  rw [hy3]

/-- The triangle `m` has the ages of `x` and possibly later ones, and is not dated later. -/
structure Older (m x : Tri K) : Prop where
  wf : WF m
  isVal : m.isVal = false
  index_pos : 1 ≤ m.kdims.length
  columns_pos : 1 ≤ m.vdims.length
  origins_pos : 1 ≤ m.odims.length
  sorted : m.ddims.Pairwise (· < ·)
  ages : ∀ d ∈ m.ddims, 1 ≤ d ∧ d < 9999
  starts : m.ddims.take x.ddims.length = x.ddims
  ograin : x.ograin = m.ograin
  dgrain : x.dgrain = m.dgrain
  keyLabels : x.keyLabels = m.keyLabels
  date : m.vd ≤ x.vd

/-- `z` is `x` on the ages of `m`. -/
structure Extends (x m z : Tri K) : Prop where
  wf : WF z
  kdims : z.kdims = x.kdims
  keyLabels : z.keyLabels = x.keyLabels
  vdims : z.vdims = x.vdims
  odims : z.odims = x.odims
  ddims : z.ddims = m.ddims
  isVal : z.isVal = false
  ograin : z.ograin = x.ograin
  dgrain : z.dgrain = x.dgrain
  vd : z.vd = x.vd
  isCum : z.isCum = x.isCum
  isPattern : z.isPattern = false
  isAdditive : z.isAdditive = x.isAdditive
  cells : ∀ i < x.kdims.length, ∀ c < x.vdims.length, ∀ o < x.odims.length, ∀ d < m.ddims.length,
    z.values.get i c o d = if d < x.ddims.length ∧ x.valuation o d ≤ x.vd then
      (x.values.get i c o d).numToNan else .nan

theorem Older.length_le {x m : Tri K} (h : Older m x) : x.ddims.length ≤ m.ddims.length := by
  have := congrArg List.length h.starts
  rw [List.length_take] at this
  omega

theorem Older.getD {x m : Tri K} (h : Older m x) {d : Nat} (hd : d < x.ddims.length) :
    x.ddims.getD d 0 = m.ddims.getD d 0 := by
  have := h.length_le
  conv_lhs => rw [← h.starts]
  simp [List.getD_eq_getElem?_getD, List.getElem?_take, hd]

theorem valuation_plain {t : Tri K} (hv : t.isVal = false) (ha : ∀ d ∈ t.ddims, d < 9999) (o d : Nat) :
    t.valuation o d = min (t.odims.getD o 0) t.vd + t.ddims.getD d 0 - 1 := by
  unfold valuation valuationOf
  rw [hv]
  rw [if_neg (by simp), if_neg]
  rintro ⟨h, -⟩
  have := ha 9999 (List.mem_of_getLast? h)
  omega

theorem Older.valuation {x m : Tri K} (h : Older m x) (hv : x.isVal = false) (o d : Nat) :
    x.valuation o d = min (x.odims.getD o 0) x.vd + x.ddims.getD d 0 - 1 :=
  valuation_plain hv (fun a ha => (h.ages a (by
    rw [← h.starts] at ha; exact List.mem_of_mem_take ha)).2) o d

theorem Extends.valuation {x m z : Tri K} (h : Older m x) (hv : x.isVal = false) (hz : Extends x m z)
    (o : Nat) {d : Nat} (hd : d < x.ddims.length) : z.valuation o d = x.valuation o d := by
  rw [valuation_plain hz.isVal (by rw [hz.ddims]; exact fun a ha => (h.ages a ha).2),
    h.valuation hv, hz.odims, hz.vd, hz.ddims, h.getD hd]

theorem addAges_spec {x m : Tri K} (hx : CumTri x) (so : x.odims.Pairwise (· < ·))
    (h2 : 2 ≤ x.odims.length) (h : Older m x) :
    ∃ z, x.addAges m = .ok z ∧ Extends x m z := by
  have hle := h.length_le
  have h3 := hx.ages_two
  obtain ⟨w0, w1, w2, w3⟩ := hx.wf
  obtain ⟨y, hy, hadd⟩ := addAges_eq h.wf h.index_pos h.columns_pos h.origins_pos (by omega)
  obtain ⟨v0, v1, v2, v3⟩ := hy.wf
  have hvd : max x.vd y.vd = x.vd := by
    have := hy.vd; have := h.date; omega
  have hcell : ∀ v : Num K, v.NoInf → (v.nanToNum * (1 : Num K).nanToNum).numToNan = v.numToNan := by
    intro v hv
    rw [Num.nanToNum_eq hv]
    rcases Num.noInf_cases hv with e | ⟨a, e⟩ <;> rw [e] <;> simp [Num.one_def, Num.nanToNum]
  rcases Nat.lt_or_ge x.ddims.length m.ddims.length with hlt | hge
  · obtain ⟨ya, e1, e2, e3⟩ := validate_ext hy hx.wf hx.index_pos hx.columns_pos h2 h3 hlt so h.sorted
      h.starts (by rw [hx.ages, h.isVal]) h.ograin h.dgrain h.keyLabels
    refine ⟨(x.extended (max x.vd y.vd) (x.isPattern && y.isPattern) m.ddims (fun i c o d =>
        (if o < x.odims.length ∧ d < x.ddims.length then x.values.get i c o d else .nan).nanToNum
          + 0)).cleanup, ?_, ?_⟩
    · rw [hadd]
      unfold add
      simp only [e1, bind, Except.bind, addArr, zipArr]
      rw [Arr.zip_fits]
      · simp only [e3]
        rfl
      · exact e2
    · refine ⟨⟨w0, w1, w2, rfl⟩, rfl, rfl, rfl, rfl, rfl, hx.ages, rfl, rfl, hvd, rfl, ?_, rfl, ?_⟩
      · show (x.isPattern && y.isPattern) = false
        rw [hx.noPattern, Bool.false_and]
      · intro i hi c hc o ho d hd
        have hval : (x.extended (max x.vd y.vd) (x.isPattern && y.isPattern) m.ddims (fun i c o d =>
            (if o < x.odims.length ∧ d < x.ddims.length then x.values.get i c o d else .nan).nanToNum
              + 0)).valuation o d = min (x.odims.getD o 0) x.vd + m.ddims.getD d 0 - 1 := by
          rw [valuation_plain (by exact hx.ages) (by exact fun a ha => (h.ages a ha).2)]
          show min (x.odims.getD o 0) (max x.vd y.vd) + m.ddims.getD d 0 - 1 = _
          rw [hvd]
        show (((if o < x.odims.length ∧ d < x.ddims.length then x.values.get i c o d else .nan).nanToNum
              + 0) * (Tri.nanTri _ o d).nanToNum).numToNan = _
        unfold nanTri
        rw [hval]
        have e0 : ¬ min x.values.d2 m.ddims.length = 1 := by omega
        show (((if o < x.odims.length ∧ d < x.ddims.length then x.values.get i c o d else .nan).nanToNum
              + 0) * (if min x.values.d2 m.ddims.length = 1 then 1 else if
              min (x.odims.getD o 0) x.vd + m.ddims.getD d 0 - 1 > max x.vd y.vd then .nan
              else 1 : Num K).nanToNum).numToNan = _
        rw [if_neg e0, hvd, _root_.add_zero]
        by_cases hdx : d < x.ddims.length
        · rw [h.valuation hx.ages, h.getD hdx]
          simp only [ho, hdx, true_and, if_true]
          by_cases hc' : min (x.odims.getD o 0) x.vd + m.ddims.getD d 0 - 1 ≤ x.vd
          · rw [if_neg (by omega), if_pos hc']
            exact hcell _ (hx.finite i (by omega) c (by omega) o (by omega) d (by omega))
          · rw [if_pos (by omega), if_neg hc']
            rcases Num.noInf_cases (hx.finite i (by omega) c (by omega) o (by omega) d (by omega)) with
              e | ⟨a, e⟩ <;> rw [e] <;> simp [Num.nanToNum]
        · simp only [hdx, and_false, false_and, if_false]
          split_ifs <;> simp [Num.nanToNum, Num.one_def]
  · have hdd : y.ddims = x.ddims := by
      rw [hy.ddims, ← h.starts, List.take_of_length_le hge]
    have hfit : FitsIn y x := by
      refine ⟨hx.wf, hy.wf, ?_, Or.inl ?_, ?_, Or.inr ⟨hy.kdims, hx.index_pos⟩,
        Or.inr ⟨hy.vdims, hx.columns_pos⟩, Or.inr ⟨hy.odims, by omega⟩, Or.inl ⟨hdd, ?_⟩⟩
      · rw [hy.ograin, h.ograin]
      · rw [hy.dgrain, h.dgrain]
      · rw [hy.keyLabels, h.keyLabels]
      · rw [hy.isVal, h.isVal, hx.ages]
    refine ⟨_, (hadd x).trans (add_fits hfit), ⟨⟨w0, w1, w2, w3⟩, rfl, rfl, rfl, rfl, ?_, hx.ages, rfl,
      rfl, hvd, rfl, ?_, rfl, ?_⟩⟩
    · show x.ddims = m.ddims
      rw [← hdd, hy.ddims]
    · show (x.isPattern && y.isPattern) = false
      rw [hx.noPattern, Bool.false_and]
    · intro i hi c hc o ho d hd
      have hdx : d < x.ddims.length := by omega
      have hval : (zipped (fun a b => a.nanToNum + b.nanToNum) x y).valuation o d =
          x.valuation o d := by
        show valuationOf x.isVal x.odims x.ddims (max x.vd y.vd) o d = _
        rw [hvd]; rfl
      show (((x.values.get i c o d).nanToNum + (y.values.get _ _ _ _).nanToNum) *
        (Tri.nanTri _ o d).nanToNum).numToNan = _
      rw [hy.zero, _root_.add_zero]
      unfold nanTri
      rw [hval]
      show ((x.values.get i c o d).nanToNum * (if min x.values.d2 x.values.d3 = 1 then 1 else if
              x.valuation o d > max x.vd y.vd then .nan else 1 : Num K).nanToNum).numToNan = _
      rw [if_neg (by omega), hvd]
      have hfin := hx.finite i (by omega) c (by omega) o (by omega) d (by omega)
      by_cases hc' : x.valuation o d ≤ x.vd
      · rw [if_neg (by omega), if_pos ⟨hdx, hc'⟩]
        exact hcell _ hfin
      · rw [if_pos (by omega), if_neg (fun h => hc' h.2)]
        rcases Num.noInf_cases hfin with e | ⟨a, e⟩ <;> rw [e] <;> simp [Num.nanToNum]

end Tri
end CL
