import Verif.Props.C79

set_option linter.unusedSectionVars false

/-! # C80: sums and differences of triangles with the same index labels and different rows -/

namespace CL
namespace Tri
variable {K : Type} [Field K] [LinearOrder K] [IsStrictOrderedRing K]

/-- The amount of the row with key `r`, zero when it or the row is missing. -/
def orZero (t : Tri K) (r : List String) (c o d : Nat) : Num K :=
  if r ∈ t.kdims then (t.values.get (t.kdims.idxOf r) c o d).nanToNum else 0

/-- The same labels on all axes but the index, which has the same labels and any rows.  `labels` and `keys` list
sets in any order. -/
structure Unaligned (x y : Tri K) (labels : List String) (keys : List (List String)) : Prop where
  wx : WF x
  wy : WF y
  ograin : x.ograin = y.ograin
  dgrain : x.dgrain = y.dgrain
  isVal : x.isVal = y.isVal
  vdims : x.vdims = y.vdims
  odims : x.odims = y.odims
  ddims : x.ddims = y.ddims
  dev : 1 ≤ x.ddims.length
  vd : x.vd = y.vd
  reached : ∃ o < x.odims.length, ∃ d < x.ddims.length, x.vd ≤ x.valuation o d
  xrows : 1 < x.kdims.length
  yrows : 1 < y.kdims.length
  keyLabels : x.keyLabels = y.keyLabels
  xlabels : x.keyLabels.Nodup
  xdistinct : x.kdims.Nodup
  ydistinct : y.kdims.Nodup
  xfull : ∀ r ∈ x.kdims, r.length = x.keyLabels.length
  yfull : ∀ r ∈ y.kdims, r.length = x.keyLabels.length
  common : ∀ l, l ∈ labels ↔ l ∈ x.keyLabels
  knodup : keys.Nodup
  keys : ∀ k, k ∈ keys ↔ k ∈ x.rowKeys labels ∨ k ∈ y.rowKeys labels

/-- The rows of either triangle, in sorted order, each with the sum or difference of the amounts; a missing row
counts as zero. -/
structure OuterJoined (op : BinOp) (x y u : Tri K) : Prop where
  wf : WF u
  rows : ∀ r, r ∈ u.kdims ↔ r ∈ x.kdims ∨ r ∈ y.kdims
  distinct : u.kdims.Nodup
  sorted : u.kdims.Pairwise (· ≤ ·)
  keyLabels : u.keyLabels = x.keyLabels
  vdims : u.vdims = x.vdims
  odims : u.odims = x.odims
  ddims : u.ddims = x.ddims
  isVal : u.isVal = x.isVal
  vd : u.vd = x.vd
  cells : ∀ n r, u.kdims[n]? = some r →
    ∀ c < x.vdims.length, ∀ o < x.odims.length, ∀ d < x.ddims.length,
      u.values.get n c o d = op.cell (x.nanTri o d) (x.orZero r c o d) (y.orZero r c o d)

/-- The key of a row under `labels`. -/
def keyOf (labels own : List String) (r : List String) : List String :=
  labels.map fun l => r.getD (own.idxOf l) ""

theorem keyOf_inj {labels own : List String} (hn : own.Nodup) (hl : ∀ l, l ∈ labels ↔ l ∈ own) {r s : List String}
    (hr : r.length = own.length) (hs : s.length = own.length) (e : keyOf labels own r = keyOf labels own s) :
    r = s := by
  unfold keyOf at e
  rw [List.map_inj_left] at e
  apply List.ext_getElem (hr.trans hs.symm)
  intro q h1 h2
  have hq : q < own.length := by rw [← hr]; exact h1
  have := e own[q] ((hl _).mpr (List.getElem_mem hq))
  rw [← pos_unique hn (List.getElem?_eq_getElem hq), List.getD_eq_getElem _ _ h1,
    List.getD_eq_getElem _ _ h2] at this
  exact this

theorem keyOf_own {own r : List String} (hn : own.Nodup) (hr : r.length = own.length) : keyOf own own r = r := by
  apply List.ext_getElem (by simp [keyOf, hr])
  intro q h1 h2
  have hq : q < own.length := by rw [← hr]; exact h2
  simp only [keyOf, List.getElem_map]
  rw [← pos_unique hn (List.getElem?_eq_getElem hq), List.getD_eq_getElem _ _ h2]

theorem valuations_rows (t : Tri K) (wf : WF t) (l : List Nat) :
    (t.picked l (List.range t.values.d1) (List.range t.values.d2) (List.range t.values.d3) t.vd).valuations =
      t.valuations := by
  obtain ⟨w0, w1, w2, w3⟩ := wf
  have e2 : (List.range t.values.d2).map (t.odims.getD · 0) = t.odims := by
    rw [w2]; exact map_getD_range _ _
  have e3 : (List.range t.values.d3).map (t.ddims.getD · 0) = t.ddims := by
    rw [w3]; exact map_getD_range _ _
  unfold valuations valuation picked
  simp only [e2, e3]

theorem ilocAx_reached {t : Tri K} (wf : WF t) (hr : ∃ o < t.odims.length, ∃ d < t.ddims.length, t.vd ≤ t.valuation o d)
    {l : List Nat} {key : Key} (hs : Sel t.values.d0 key l) : t.ilocAx .index key = .ok (t.rowsOf l t.vd) := by
  have wf' := wf
  obtain ⟨w0, w1, w2, w3⟩ := wf'
  obtain ⟨o, ho, d, hd, hv⟩ := hr
  have e1 : (List.range t.values.d1).map (t.vdims.getD · "") = t.vdims := by
    rw [w1]; exact map_getD_range _ _
  have e2 : (List.range t.values.d2).map (t.odims.getD · 0) = t.odims := by
    rw [w2]; exact map_getD_range _ _
  have e3 : (List.range t.values.d3).map (t.ddims.getD · 0) = t.ddims := by
    rw [w3]; exact map_getD_range _ _
  have hne : t.isVal = true ∨ List.range t.values.d3 ≠ [] := by
    right
    intro h
    have := congrArg List.length h
    rw [List.length_range, List.length_nil, w3] at this
    omega
  have hmax : (t.valuations.max?).elim t.vd (fun m => min m t.vd) = t.vd := by
    cases hm : t.valuations.max? with
    | none => rfl
    | some m =>
      have hmem : t.valuation o d ∈ t.valuations := by
        unfold valuations
        rw [List.mem_flatMap]
        exact ⟨d, List.mem_range.mpr hd, List.mem_map.mpr ⟨o, List.mem_range.mpr ho, rfl⟩⟩
      have := (List.max?_eq_some_iff.mp hm).2 _ hmem
      exact min_eq_right (hv.trans this)
  have hrun : t.ilocAx .index key =
      .ok (t.picked l (List.range t.values.d1) (List.range t.values.d2) (List.range t.values.d3) t.vd) := by
    unfold ilocAx
    rw [iloc_of_sel hs (selS_all _).sel (selS_all _) (selS_all _), pick_eq _ _ _ _ _ hne, valuations_rows t wf, hmax]
  rw [hrun]
  unfold picked rowsOf
  rw [e1, e2, e3]

/-- One row `r` of `t`, or zeros under its key. -/
structure SliceOk (t : Tri K) (r : List String) (p : Tri K) : Prop where
  wf : WF p
  kdims : p.kdims = [r]
  keyLabels : p.keyLabels = t.keyLabels
  vdims : p.vdims = t.vdims
  odims : p.odims = t.odims
  ddims : p.ddims = t.ddims
  isVal : p.isVal = t.isVal
  ograin : p.ograin = t.ograin
  dgrain : p.dgrain = t.dgrain
  vd : p.vd = t.vd
  cells : ∀ c < t.vdims.length, ∀ o < t.odims.length, ∀ d < t.ddims.length,
    (p.values.get 0 c o d).nanToNum = t.orZero r c o d

theorem nanToNum_zero (z : Num K) : (z * 0).nanToNum = 0 := by
  cases z with
  | fin a => show Num.fin (a * 0) = Num.fin 0; rw [mul_zero]
  | nan => rfl
  | pinf =>
    show (Num.infMul true (0 : K)).nanToNum = 0
    rw [Num.infMul, if_pos rfl]; rfl
  | ninf =>
    show (Num.infMul false (0 : K)).nanToNum = 0
    rw [Num.infMul, if_pos rfl]; rfl

theorem slice_ok {t s : Tri K} {labels : List String} (wf : WF t)
    (hr : ∃ o < t.odims.length, ∃ d < t.ddims.length, t.vd ≤ t.valuation o d)
    (h0 : 1 ≤ t.kdims.length) (hk : t.keyLabels = s.keyLabels) (hn : t.keyLabels.Nodup)
    (hl : ∀ l, l ∈ labels ↔ l ∈ t.keyLabels) (ht : t.kdims.Nodup) (hs : s.kdims.Nodup)
    (ft : ∀ r ∈ t.kdims, r.length = t.keyLabels.length) (fs : ∀ r ∈ s.kdims, r.length = t.keyLabels.length)
    {r : List String} (hm : r ∈ t.kdims ∨ r ∈ s.kdims) :
    ∃ p, t.sliceOrNan s labels (keyOf labels t.keyLabels r) = .ok p ∧ SliceOk t r p := by
  have fr : r.length = t.keyLabels.length := hm.elim (ft r) (fs r)
  have rk : ∀ u : Tri K, u.keyLabels = t.keyLabels →
      u.rowKeys labels = u.kdims.map (keyOf labels t.keyLabels) := by
    intro u e; unfold rowKeys keyOf; rw [e]
  have nd : ∀ l : List (List String), l.Nodup → (∀ r ∈ l, r.length = t.keyLabels.length) →
      (l.map (keyOf labels t.keyLabels)).Nodup := by
    intro l h1 h2
    exact List.Nodup.map_on (fun a ha b hb e => keyOf_inj hn hl (h2 a ha) (h2 b hb) e) h1
  have at_ : ∀ (u : Tri K), u.keyLabels = t.keyLabels → r ∈ u.kdims →
      (u.rowKeys labels)[u.kdims.idxOf r]? = some (keyOf labels t.keyLabels r) := by
    intro u e hu
    rw [rk u e, List.getElem?_map, rows_at_idxOf hu]
    rfl
  have inner : ∀ (l : List Nat), ∀ c < t.vdims.length, ∀ o < t.odims.length, ∀ d < t.ddims.length,
      (t.rowsOf l t.vd).values.get 0 c o d = t.values.get (l.getD 0 0) c o d := by
    intro l c hc o ho d hd
    show t.values.get (l.getD 0 0) ((List.range t.values.d1).getD c 0) ((List.range t.values.d2).getD o 0)
      ((List.range t.values.d3).getD d 0) = _
    rw [range_getD' (by rw [wf.2.1]; exact hc), range_getD' (by rw [wf.2.2.1]; exact ho),
      range_getD' (by rw [wf.2.2.2]; exact hd)]
  by_cases hx : r ∈ t.kdims
  · have hlt := List.idxOf_lt_length_of_mem hx
    have hg := group_single (rk t rfl ▸ nd _ ht ft) (at_ t rfl hx)
    have hmem : keyOf labels t.keyLabels r ∈ t.rowKeys labels := List.mem_of_getElem? (at_ t rfl hx)
    have hsel := ilocAx_reached wf hr (sel_positions (n := t.values.d0) (l := [t.kdims.idxOf r]) (by simp)
      (by intro i hi; rw [List.mem_singleton] at hi; subst hi; rw [wf.1]; exact hlt) (List.nodup_singleton _))
    refine ⟨t.rowsOf [t.kdims.idxOf r] t.vd, ?_, ⟨wf_rowsOf wf _ _, ?_, rfl, rfl, rfl, rfl, rfl, rfl, rfl, rfl, ?_⟩⟩
    · unfold sliceOrNan
      rw [if_pos hmem, hg]
      exact hsel
    · show [t.kdims.getD (t.kdims.idxOf r) []] = [r]
      rw [List.getD_eq_getElem _ _ hlt, List.getElem_idxOf]
    · intro c hc o ho d hd
      rw [inner _ c hc o ho d hd, orZero, if_pos hx]
      rfl
  · have hy : r ∈ s.kdims := hm.resolve_left hx
    have hnm : keyOf labels t.keyLabels r ∉ t.rowKeys labels := by
      rw [rk t rfl, List.mem_map]
      rintro ⟨a, ha, e⟩
      exact hx (keyOf_inj hn hl (ft a ha) fr e ▸ ha)
    have hg := group_single (rk s hk.symm ▸ nd _ hs fs) (at_ s hk.symm hy)
    have hall : (t.keyLabels.all fun l => s.keyLabels.contains l) = true := by
      rw [List.all_eq_true]
      intro l hl
      rw [← hk]
      simpa using hl
    have e2 : t.ilocAx .index (.upto 1) = .ok (t.rowsOf (List.range 1) t.vd) :=
      ilocAx_reached wf hr (selS_upto t.values.d0 1 (by rw [wf.1]; exact h0)).sel
    have hrow : (t.keyLabels.map fun l =>
        (s.kdims.getD (([s.kdims.idxOf r] : List Nat).getLast?.getD 0) []).getD (s.keyLabels.idxOf l) "") = r := by
      have : s.kdims.getD (([s.kdims.idxOf r] : List Nat).getLast?.getD 0) [] = r := by
        show s.kdims.getD (s.kdims.idxOf r) [] = r
        rw [List.getD_eq_getElem _ _ (List.idxOf_lt_length_of_mem hy), List.getElem_idxOf]
      rw [this, ← hk]
      exact keyOf_own hn fr
    unfold sliceOrNan
    rw [if_neg hnm, if_pos hall, e2, hg]
    simp only [bind, Except.bind, mulArr, zipArr, Arr.zip_scalar, hrow]
    have w := wf_rowsOf wf (List.range 1) t.vd
    refine ⟨_, rfl, ⟨⟨w.1, w.2.1, w.2.2.1, w.2.2.2⟩, rfl, rfl, rfl, rfl, rfl, rfl, rfl, rfl, rfl, ?_⟩⟩
    intro c hc o ho d hd
    rw [orZero, if_neg hx]
    exact nanToNum_zero _

theorem nanToNum_idem (z : Num K) : z.nanToNum.nanToNum = z.nanToNum := by
  cases z <;> rfl

theorem numToNan_idem (z : Num K) : z.numToNan.numToNan = z.numToNan := by
  cases z with
  | fin a =>
    by_cases h : a = 0
    · simp [Num.numToNan, h]
    · simp [Num.numToNan, h]
  | nan => rfl
  | pinf => rfl
  | ninf => rfl

theorem numToNan_zero (z : Num K) : (z * 0).numToNan = .nan := by
  cases z with
  | fin a =>
    show (Num.fin (a * 0)).numToNan = .nan
    rw [mul_zero]
    simp [Num.numToNan]
  | nan => rfl
  | pinf =>
    show (Num.infMul true (0 : K)).numToNan = .nan
    rw [Num.infMul, if_pos rfl]; rfl
  | ninf =>
    show (Num.infMul false (0 : K)).numToNan = .nan
    rw [Num.infMul, if_pos rfl]; rfl

theorem times_one (z : Num K) : z * 1 = z := by
  cases z with
  | fin a => show Num.fin (a * 1) = Num.fin a; rw [mul_one]
  | nan => rfl
  | pinf =>
    show Num.infMul true (1 : K) = .pinf
    simp [Num.infMul]
  | ninf =>
    show Num.infMul false (1 : K) = .ninf
    simp [Num.infMul]

/-- Masking twice is masking once. -/
theorem mask_twice (t : Tri K) (z : Num K) (o d : Nat) :
    ((z * (t.nanTri o d).nanToNum).numToNan * (t.nanTri o d).nanToNum).numToNan =
      (z * (t.nanTri o d).nanToNum).numToNan := by
  have h : t.nanTri o d = 1 ∨ t.nanTri o d = .nan := by
    unfold nanTri
    split_ifs
    · exact Or.inl rfl
    · exact Or.inr rfl
    · exact Or.inl rfl
  rcases h with e | e
  · rw [e]
    show (((z * 1).numToNan) * 1).numToNan = (z * 1).numToNan
    rw [times_one, times_one, numToNan_idem]
  · rw [e]
    show (((z * 0).numToNan) * 0).numToNan = (z * 0).numToNan
    rw [numToNan_zero, numToNan_zero]

theorem nanTri_of_axes {s t : Tri K} (ws : WF s) (wt : WF t) (ho : s.odims = t.odims) (hd : s.ddims = t.ddims)
    (hi : s.isVal = t.isVal) (hv : s.vd = t.vd) (o d : Nat) : s.nanTri o d = t.nanTri o d := by
  unfold nanTri valuation
  rw [ws.2.2.1, ws.2.2.2, wt.2.2.1, wt.2.2.2, ho, hd, hi, hv]

/-- The sum or difference of triangles with the same axes. -/
def sameCombined (op : BinOp) (p q : Tri K) : Tri K :=
  { p with
    isPattern := p.isPattern && q.isPattern
    vd := max p.vd q.vd
    values := { p.values with
      get := fun i c o d =>
        op.cell (nanTri { p with vd := max p.vd q.vd } o d) (p.values.get i c o d) (q.values.get i c o d) } }

theorem tri_same {op : BinOp} (hop : op = .add ∨ op = .sub) {p q : Tri K} (h : SameAxes p q) (wp : WF p) (wq : WF q) :
    op.tri p q = .ok (sameCombined op p q) := by
  rcases hop with rfl | rfl
  · exact add_same h wp wq
  · exact sub_same h wp wq

theorem cell_nanToNum {op : BinOp} (hop : op = .add ∨ op = .sub) (m a b : Num K) :
    op.cell m a b = op.cell m a.nanToNum b.nanToNum := by
  rcases hop with rfl | rfl <;> simp only [BinOp.cell, nanToNum_idem]

theorem finish_cell {op : BinOp} (hop : op = .add ∨ op = .sub) (t : Tri K) :
    op.finish t = t.cleanup := by
  rcases hop with rfl | rfl <;> rfl

theorem cell_mask {op : BinOp} (hop : op = .add ∨ op = .sub) (t : Tri K) (a b : Num K) (o d : Nat) :
    (op.cell (t.nanTri o d) a b * (t.nanTri o d).nanToNum).numToNan = op.cell (t.nanTri o d) a b := by
  rcases hop with rfl | rfl <;> exact mask_twice t _ o d

/-- What the row `r` contributes. -/
structure RowPart (op : BinOp) (x y : Tri K) (r : List String) (b : Tri K) : Prop where
  wf : WF b
  kdims : b.kdims = [r]
  keyLabels : b.keyLabels = x.keyLabels
  vdims : b.vdims = x.vdims
  odims : b.odims = x.odims
  ddims : b.ddims = x.ddims
  isVal : b.isVal = x.isVal
  vd : b.vd = x.vd
  cells : ∀ c < x.vdims.length, ∀ o < x.odims.length, ∀ d < x.ddims.length,
    b.values.get 0 c o d = op.cell (x.nanTri o d) (x.orZero r c o d) (y.orZero r c o d)

theorem row_part {op : BinOp} (hop : op = .add ∨ op = .sub) {x y : Tri K} {labels : List String}
    {keys : List (List String)} (h : Unaligned x y labels keys) {r : List String}
    (hr : r ∈ x.kdims ∨ r ∈ y.kdims) :
    ∃ b, (do
      let a ← x.sliceOrNan y labels (keyOf labels x.keyLabels r)
      let b ← y.sliceOrNan x labels (keyOf labels x.keyLabels r)
      op.tri a b) = .ok b ∧ RowPart op x y r b := by
  have ry : ∃ o < y.odims.length, ∃ d < y.ddims.length, y.vd ≤ y.valuation o d := by
    obtain ⟨o, ho, d, hd, hv⟩ := h.reached
    refine ⟨o, h.odims ▸ ho, d, h.ddims ▸ hd, ?_⟩
    unfold valuation at hv ⊢
    rwa [← h.isVal, ← h.odims, ← h.ddims, ← h.vd]
  have hx := h.xrows
  have hy := h.yrows
  obtain ⟨p, ep, hp⟩ := slice_ok h.wx h.reached (by omega) h.keyLabels h.xlabels h.common h.xdistinct h.ydistinct
    h.xfull h.yfull hr
  obtain ⟨q, eq, hq⟩ := slice_ok (t := y) (s := x) (labels := labels) h.wy ry (by omega) h.keyLabels.symm
    (h.keyLabels ▸ h.xlabels) (h.keyLabels ▸ h.common) h.ydistinct h.xdistinct (h.keyLabels ▸ h.yfull)
    (h.keyLabels ▸ h.xfull) hr.symm
  rw [← h.keyLabels] at eq
  have hsame : SameAxes p q := ⟨hp.kdims.trans hq.kdims.symm, hp.keyLabels.trans (h.keyLabels.trans hq.keyLabels.symm),
    hp.vdims.trans (h.vdims.trans hq.vdims.symm), hp.odims.trans (h.odims.trans hq.odims.symm),
    hp.ddims.trans (h.ddims.trans hq.ddims.symm), hp.isVal.trans (h.isVal.trans hq.isVal.symm),
    hp.ograin.trans (h.ograin.trans hq.ograin.symm), hp.dgrain.trans (h.dgrain.trans hq.dgrain.symm)⟩
  have hvd : max p.vd q.vd = x.vd := by rw [hp.vd, hq.vd, ← h.vd, max_self]
  refine ⟨sameCombined op p q, ?_, ?_⟩
  · rw [ep, eq]
    exact tri_same hop hsame hp.wf hq.wf
  · refine ⟨⟨hp.wf.1, hp.wf.2.1, hp.wf.2.2.1, hp.wf.2.2.2⟩, hp.kdims, hp.keyLabels, hp.vdims, hp.odims, hp.ddims, hp.isVal, hvd, ?_⟩
    intro c hc o ho d hd
    show op.cell (nanTri { p with vd := max p.vd q.vd } o d) (p.values.get 0 c o d) (q.values.get 0 c o d) = _
    rw [nanTri_of_axes (s := { p with vd := max p.vd q.vd }) (t := x) ⟨hp.wf.1, hp.wf.2.1, hp.wf.2.2.1, hp.wf.2.2.2⟩
      h.wx hp.odims hp.ddims hp.isVal hvd, cell_nanToNum hop, hp.cells c hc o ho d hd,
      hq.cells c (h.vdims ▸ hc) o (h.odims ▸ ho) d (h.ddims ▸ hd)]

theorem foldl_max_const (v : Int) : ∀ l : List Int, (∀ a ∈ l, a = v) → l.foldl max v = v
  | [], _ => rfl
  | a :: l, h => by
    rw [List.foldl_cons, h a (by simp), max_self]
    exact foldl_max_const v l fun b hb => h b (by simp [hb])

theorem groupOp_join {op : BinOp} (hop : op = .add ∨ op = .sub) {x y : Tri K} {labels : List String}
    {keys : List (List String)} (h : Unaligned x y labels keys) :
    ∃ u, groupOp op.tri labels keys x y = .ok u ∧ OuterJoined op x y (op.finish u) := by
  have rkx : x.rowKeys labels = x.kdims.map (keyOf labels x.keyLabels) := rfl
  have rky : y.rowKeys labels = y.kdims.map (keyOf labels x.keyLabels) := by
    unfold rowKeys keyOf; rw [h.keyLabels]
  have hrow : ∀ k, ∃ r, k ∈ keys → (r ∈ x.kdims ∨ r ∈ y.kdims) ∧ keyOf labels x.keyLabels r = k := by
    intro k
    by_cases hk : k ∈ keys
    · rcases (h.keys k).mp hk with hx | hy
      · rw [rkx, List.mem_map] at hx
        obtain ⟨r, hr, e⟩ := hx
        exact ⟨r, fun _ => ⟨Or.inl hr, e⟩⟩
      · rw [rky, List.mem_map] at hy
        obtain ⟨r, hr, e⟩ := hy
        exact ⟨r, fun _ => ⟨Or.inr hr, e⟩⟩
    · exact ⟨[], fun hk' => absurd hk' hk⟩
  choose ρ hρ using hrow
  have hex : ∀ k, ∃ b, k ∈ keys → (do
      let a ← x.sliceOrNan y labels k
      let b ← y.sliceOrNan x labels k
      op.tri a b) = .ok b ∧ RowPart op x y (ρ k) b := by
    intro k
    by_cases hk : k ∈ keys
    · obtain ⟨b, hb⟩ := row_part hop h (hρ k hk).1
      rw [(hρ k hk).2] at hb
      exact ⟨b, fun _ => hb⟩
    · exact ⟨x, fun hk' => absurd hk' hk⟩
  choose g hg using hex
  have hmap := mapM_ok (fun k => (do
      let a ← x.sliceOrNan y labels k
      let b ← y.sliceOrNan x labels k
      op.tri a b : Except Err (Tri K))) g keys (fun k hk => (hg k hk).1)
  have hkey : ∀ r, (r ∈ x.kdims ∨ r ∈ y.kdims) → keyOf labels x.keyLabels r ∈ keys := by
    intro r hr
    rw [h.keys, rkx, rky]
    exact hr.imp (List.mem_map_of_mem) (List.mem_map_of_mem)
  have full : ∀ r, (r ∈ x.kdims ∨ r ∈ y.kdims) → r.length = x.keyLabels.length := fun r hr =>
    hr.elim (h.xfull r) (h.yfull r)
  have hkne : keys ≠ [] := by
    have hx := h.xrows
    obtain ⟨r, hr⟩ := List.exists_mem_of_length_pos (l := x.kdims) (by omega)
    exact List.ne_nil_of_mem (hkey r (Or.inl hr))
  have hfm : (keys.map g).flatMap Tri.kdims = keys.map ρ := by
    rw [List.flatMap_map]
    have : (keys.flatMap fun a => (g a).kdims) = keys.flatMap fun a => [ρ a] :=
      List.flatMap_congr fun k hk => (hg k hk).2.kdims
    rw [this]
    exact List.flatMap_pure_eq_map _ _
  have hnd : (keys.map ρ).Nodup := by
    refine List.Nodup.map_on ?_ h.knodup
    intro a ha b hb e
    rw [← (hρ a ha).2, ← (hρ b hb).2, e]
  have hin : ∀ r, r ∈ keys.map ρ ↔ r ∈ x.kdims ∨ r ∈ y.kdims := by
    intro r
    rw [List.mem_map]
    constructor
    · rintro ⟨k, hk, rfl⟩
      exact (hρ k hk).1
    · intro hr
      have hk := hkey r hr
      exact ⟨_, hk, keyOf_inj h.xlabels h.common (full _ (hρ _ hk).1) (full r hr) (hρ _ hk).2⟩
  have hmem : ∀ t ∈ keys.map g, ∃ k ∈ keys, t = g k := by
    intro t ht
    obtain ⟨k, hk, rfl⟩ := List.mem_map.mp ht
    exact ⟨k, hk, rfl⟩
  have hal : alignColumns .index (keys.map g) = .ok (keys.map g) := by
    unfold alignColumns
    rw [if_neg (by decide)]
    apply mapM_fill_id _ x.vdims
    intro t ht
    obtain ⟨k, hk, rfl⟩ := hmem t ht
    exact (hg k hk).2.vdims
  obtain ⟨v, ev, wv, labv, agv, colv, ⟨t0, rest, et, tv, t1, t2, -⟩, cellv⟩ := concat_core (ax := .index)
    (by simpa using hkne) hal (by simpa using hkne)
    (by
      intro t ht
      obtain ⟨k, hk, rfl⟩ := hmem t ht
      exact (hg k hk).2.wf)
    (by
      intro s hs t ht
      obtain ⟨k, hk, rfl⟩ := hmem s hs
      obtain ⟨k', hk', rfl⟩ := hmem t ht
      have a := (hg k hk).2
      have b := (hg k' hk').2
      exact ⟨fun n => absurd rfl n, fun _ => b.odims.trans a.odims.symm,
        fun _ => ⟨b.ddims.trans a.ddims.symm, b.isVal.trans a.isVal.symm⟩⟩)
    (by
      intro _ s hs t ht
      obtain ⟨k, hk, rfl⟩ := hmem s hs
      obtain ⟨k', hk', rfl⟩ := hmem t ht
      exact (hg k' hk').2.vdims.trans (hg k hk).2.vdims.symm)
    (by
      show ((keys.map g).flatMap Tri.kdims).Nodup
      rw [hfm]
      exact hnd)
  have hk0 : t0 ∈ keys.map g := by rw [et]; simp
  have vvd : v.vd = x.vd := by
    have hall : ∀ t ∈ t0 :: rest, t.vd = x.vd := by
      intro t ht
      rw [← et] at ht
      obtain ⟨k, hk, rfl⟩ := hmem t ht
      exact (hg k hk).2.vd
    rw [tv, hall t0 (by simp)]
    apply foldl_max_const
    intro a ha
    obtain ⟨t, ht, rfl⟩ := List.mem_map.mp ha
    exact hall t (by simp [ht])
  obtain ⟨k0, hkk, rfl⟩ := hmem t0 hk0
  have g0 := (hg k0 hkk).2
  have vk : v.kdims = keys.map ρ := by rw [labv.1 rfl, hfm]
  have vv : v.vdims = x.vdims := by
    rw [colv (by decide) (g k0) (List.mem_map.mpr ⟨k0, hkk, rfl⟩), g0.vdims]
  have ag0 := agv (g k0) (List.mem_map.mpr ⟨k0, hkk, rfl⟩)
  have vo : v.odims = x.odims := by rw [← ag0.2.1 (by decide), g0.odims]
  have vd : v.ddims = x.ddims := by rw [← (ag0.2.2 (by decide)).1, g0.ddims]
  have vl : v.keyLabels = x.keyLabels := t2.trans g0.keyLabels
  have vi : v.isVal = x.isVal := t1.trans g0.isVal
  have lv : v.kdims.length = keys.length := by rw [vk, List.length_map]
  have vcell : ∀ q (hq : q < keys.length), ∀ c < x.vdims.length, ∀ o < x.odims.length, ∀ d < x.ddims.length,
      v.values.get q c o d = op.cell (x.nanTri o d) (x.orZero (ρ keys[q]) c o d) (y.orZero (ρ keys[q]) c o d) := by
    intro q hq c hc o ho d hd
    have hkn : keys[q] ∈ keys := List.getElem_mem hq
    have gp := (hg keys[q] hkn).2
    have dimk : ∀ k ∈ keys, (g k).values.dim .index = 1 := by
      intro k hk
      show (g k).values.d0 = _
      rw [(hg k hk).2.wf.1, (hg k hk).2.kdims, List.length_singleton]
    have hsum : (((keys.map g).take q).map fun t => t.values.dim .index).sum = q := by
      rw [← List.map_take, List.map_map]
      have : (keys.take q).map ((fun t : Tri K => t.values.dim .index) ∘ g) = (keys.take q).map fun _ => 1 := by
        apply List.map_congr_left
        intro k hk
        exact dimk k (List.mem_of_mem_take hk)
      rw [this, List.map_const', List.sum_replicate, List.length_take]
      simp
      omega
    let p : Pos := fun b => match b with
      | .index => q
      | .columns => c
      | .origin => o
      | .development => d
    have hc' := cellv q (by simpa using hq) 0 (by simp only [List.getElem_map]; rw [dimk _ hkn]; omega) p
      (by rw [hsum]; rfl)
    have hl : v.values.get q c o d = v.values.cell p := rfl
    rw [hl, hc']
    simp only [List.getElem_map]
    exact gp.cells c hc o ho d hd
  have vreach : ∃ o < v.odims.length, ∃ d < v.ddims.length, v.vd ≤ v.valuation o d := by
    obtain ⟨o, ho, d, hd, hv⟩ := h.reached
    refine ⟨o, vo ▸ ho, d, vd ▸ hd, ?_⟩
    unfold valuation at hv ⊢
    rwa [vi, vo, vd, vvd]
  have l1 : 1 ≤ v.kdims.length := by
    rw [lv]; exact List.length_pos_iff.mpr hkne
  have ew : v.sortIndex = .ok (v.rowsOf (sortPositions v.kdims) v.vd) := by
    have hs : Sel v.values.d0 (.lst ((sortPositions v.kdims).map fun i : Nat => (i : Int)))
        (sortPositions v.kdims) := by
      apply sel_positions
      · intro e
        have := sortPositions_length v.kdims
        rw [e] at this
        simp at this
        omega
      · intro a ha
        rw [wv.1]; exact mem_sortPositions.1 ha
      · exact (sortPositions_perm v.kdims).nodup_iff.2 List.nodup_range
    exact ilocAx_reached wv vreach hs
  have hrun : groupOp op.tri labels keys x y = .ok (v.rowsOf (sortPositions v.kdims) v.vd) := by
    unfold groupOp
    rw [hmap]
    simp only [bind, Except.bind]
    rw [ev]
    exact ew
  refine ⟨_, hrun, ?_⟩
  rw [finish_cell hop]
  have hsp : (v.rowsOf (sortPositions v.kdims) v.vd).kdims.Perm v.kdims := by
    have := (sortPositions_perm v.kdims).map (v.kdims.getD · [])
    rwa [map_getD_range] at this
  have wr := wf_rowsOf wv (sortPositions v.kdims) v.vd
  refine ⟨⟨wr.1, wr.2.1, wr.2.2.1, wr.2.2.2⟩, ?_, ?_, sortPositions_sorted _, vl, vv, vo, vd, vi, vvd, ?_⟩
  · intro r
    rw [← hin r, ← vk]
    exact hsp.mem_iff
  · exact hsp.nodup_iff.mpr (vk ▸ hnd)
  · intro n r hn c hc o ho d hd
    have hn1 : ((sortPositions v.kdims).map (v.kdims.getD · []))[n]? = some r := hn
    obtain ⟨hlt, e⟩ := List.getElem?_eq_some_iff.mp hn1
    have hn' : n < (sortPositions v.kdims).length := by simpa using hlt
    simp only [List.getElem_map] at e
    have hq : (sortPositions v.kdims)[n] < v.kdims.length := mem_sortPositions.mp (List.getElem_mem hn')
    have hqk : (sortPositions v.kdims)[n] < keys.length := lv ▸ hq
    have er : ρ keys[(sortPositions v.kdims)[n]] = r := by
      rw [← e, List.getD_eq_getElem _ _ hq]
      simp only [vk, List.getElem_map]
    have hh := vcell _ hqk c hc o ho d hd
    rw [er] at hh
    have hget : (v.rowsOf (sortPositions v.kdims) v.vd).values.get n c o d =
        v.values.get (sortPositions v.kdims)[n] c o d := by
      show v.values.get ((sortPositions v.kdims).getD n 0) ((List.range v.values.d1).getD c 0)
        ((List.range v.values.d2).getD o 0) ((List.range v.values.d3).getD d 0) = _
      rw [List.getD_eq_getElem _ _ hn', range_getD' (by rw [wv.2.1, vv]; exact hc),
        range_getD' (by rw [wv.2.2.1, vo]; exact ho), range_getD' (by rw [wv.2.2.2, vd]; exact hd)]
    show ((v.rowsOf (sortPositions v.kdims) v.vd).values.get n c o d *
      ((v.rowsOf (sortPositions v.kdims) v.vd).nanTri o d).nanToNum).numToNan = _
    rw [hget, hh, nanTri_of_axes (s := v.rowsOf (sortPositions v.kdims) v.vd) (t := x) wr h.wx vo vd vi vvd,
      cell_mask hop x]

theorem orZero_congr {s t : Tri K} (ds : s.kdims.Nodup) (hp : s.kdims.Perm t.kdims) {c o d : Nat}
    (hc : ∀ i j, s.kdims[i]? = t.kdims[j]? → j < t.kdims.length → s.values.get i c o d = t.values.get j c o d)
    (r : List String) : s.orZero r c o d = t.orZero r c o d := by
  unfold orZero
  by_cases h : r ∈ t.kdims
  · have h' : r ∈ s.kdims := hp.mem_iff.mpr h
    rw [if_pos h, if_pos h', hc _ _ ((rows_at_idxOf h').trans (rows_at_idxOf h).symm) (List.idxOf_lt_length_of_mem h)]
  · have h' : r ∉ s.kdims := fun e => h (hp.mem_iff.mp e)
    rw [if_neg h, if_neg h']

/-- **C80, partial: the same columns, origins, developments and valuation date.**  A sum or difference of triangles
with the same index labels and different rows has the rows of both; a row that one of them lacks counts as
zero there. -/
theorem C80_partial {op : BinOp} (hop : op = .add ∨ op = .sub) {x y : Tri K} {labels : List String}
    {keys : List (List String)} (h : Unaligned x y labels keys)
    (hne : x.kdims.length ≠ y.kdims.length ∨ ∃ r ∈ x.kdims, r ∉ y.kdims) :
    ∃ u, arithAny op labels keys x y = .ok u ∧ OuterJoined op x y u := by
  have hp := prepared h.wx h.wy h.odims h.ddims h.isVal h.vdims (x.isPattern && y.isPattern)
    (max x.vd y.vd) x.values.d0 x.values.d1
  have hprep : prepare x y = .ok (({ x with isPattern := x.isPattern && y.isPattern, vd := max x.vd y.vd } : Tri K),
      ({ y with isPattern := x.isPattern && y.isPattern } : Tri K)) := by
    unfold prepare
    have e1 : ¬ (x.ograin ≠ y.ograin ∨ (x.dgrain ≠ y.dgrain ∧ min x.values.d3 y.values.d3 > 1)) := by
      rintro (g | g)
      · exact g h.ograin
      · exact g.1 h.dgrain
    rw [if_neg e1]
    exact hp
  have hvd : max x.vd y.vd = x.vd := by rw [← h.vd, max_self]
  rw [hvd] at hprep
  set a : Tri K := { x with isPattern := x.isPattern && y.isPattern, vd := x.vd } with ha
  set b : Tri K := { y with isPattern := x.isPattern && y.isPattern } with hb
  have h' : Unaligned a b labels keys :=
    ⟨h.wx, h.wy, h.ograin, h.dgrain, h.isVal, h.vdims, h.odims, h.ddims, h.dev, h.vd, h.reached, h.xrows, h.yrows,
      h.keyLabels, h.xlabels, h.xdistinct, h.ydistinct, h.xfull, h.yfull, h.common, h.knodup, h.keys⟩
  have hx := h.xrows
  have hy := h.yrows
  have hself : (x.keyLabels.all fun l => x.keyLabels.contains l) = true := by simp
  have hgi : a.groupsIndex b = decide (x.kdims.length ≠ y.kdims.length) := by
    unfold groupsIndex
    have e1 : ¬ (x.kdims.length = 1 ∧ y.kdims.length > 1) := by omega
    have e2 : ¬ (x.kdims.length > 1 ∧ y.kdims.length = 1) := by omega
    have e3 : ¬ (x.kdims.length = 1 ∧ y.kdims.length = 1 ∧ x.keyLabels ≠ x.keyLabels) := by omega
    simp only [ha, hb, ← h.keyLabels, hself, decide_eq_false e1, decide_eq_false e2, decide_eq_false e3]
    simp
  by_cases hlen : x.kdims.length = y.kdims.length
  · -- the rows are sorted and looked up, and one is missing
    obtain ⟨r, hrx, hry⟩ := hne.resolve_left (fun n => n hlen)
    have hs : a.sortsIndex b = true := by
      unfold sortsIndex
      refine decide_eq_true ⟨h.keyLabels, hlen, hx, ?_⟩
      intro e
      have e' : x.kdims = y.kdims := e
      exact hry (e' ▸ hrx)
    set S := sortPositions x.kdims with hS
    have lS : S.length = x.kdims.length := sortPositions_length _
    have ew : a.sortIndex = .ok (a.rowsOf S a.vd) := by
      have hsel : Sel a.values.d0 (.lst (S.map fun i : Nat => (i : Int))) S := by
        apply sel_positions
        · intro e
          rw [e] at lS
          simp at lS
          omega
        · intro i hi
          rw [h'.wx.1]; exact mem_sortPositions.1 hi
        · exact (sortPositions_perm x.kdims).nodup_iff.2 List.nodup_range
      exact ilocAx_reached h'.wx h'.reached hsel
    have hkp : (a.rowsOf S a.vd).kdims.Perm x.kdims := by
      show (S.map (x.kdims.getD · [])).Perm x.kdims
      have := (sortPositions_perm x.kdims).map (x.kdims.getD · [])
      rwa [map_getD_range] at this
    have hall : ¬ ((a.rowsOf S a.vd).kdims.all fun k => decide (k ∈ b.kdims)) = true := by
      intro e
      rw [List.all_eq_true] at e
      exact hry (of_decide_eq_true (e r (hkp.mem_iff.mpr hrx)))
    have hu : Unaligned (a.rowsOf S a.vd) b labels keys := by
      refine ⟨wf_rowsOf h'.wx _ _, h.wy, h.ograin, h.dgrain, h.isVal, h.vdims, h.odims, h.ddims, h.dev, h.vd, h.reached,
        by rw [hkp.length_eq]; exact hx, hy, h.keyLabels, h.xlabels, hkp.nodup_iff.mpr h.xdistinct, h.ydistinct,
        fun r hr => h.xfull r (hkp.mem_iff.mp hr), h.yfull, h.common, h.knodup, ?_⟩
      intro k
      rw [h.keys k]
      have : k ∈ (a.rowsOf S a.vd).rowKeys labels ↔ k ∈ x.rowKeys labels := by
        have : ((a.rowsOf S a.vd).rowKeys labels).Perm (x.rowKeys labels) := hkp.map _
        exact this.mem_iff
      rw [this]
      rfl
    obtain ⟨u, eu, ju⟩ := groupOp_join hop hu
    refine ⟨op.finish u, ?_, ⟨ju.wf, ?_, ju.distinct, ju.sorted, ju.keyLabels, ju.vdims, ju.odims, ju.ddims, ju.isVal, ju.vd, ?_⟩⟩
    · unfold arithAny
      rw [hprep]
      simp only [bind, Except.bind]
      rw [if_neg (by rw [hgi]; simpa using hlen), if_pos hs, ew]
      simp only []
      rw [if_neg hall, eu]
    · intro r
      rw [ju.rows r, hkp.mem_iff]
    · intro n r hn c hc o ho d hd
      have hh := ju.cells n r hn c hc o ho d hd
      have e1 : (a.rowsOf S a.vd).nanTri o d = x.nanTri o d :=
        nanTri_of_axes (wf_rowsOf h'.wx S a.vd) h.wx rfl rfl rfl rfl o d
      have e2 : (a.rowsOf S a.vd).orZero r c o d = x.orZero r c o d := by
        apply orZero_congr (hkp.nodup_iff.mpr h.xdistinct) hkp
        intro i j he hj
        have he' : (S.map (x.kdims.getD · []))[i]? = x.kdims[j]? := he
        rw [List.getElem?_eq_getElem hj] at he'
        obtain ⟨hi, e⟩ := List.getElem?_eq_some_iff.mp he'
        have hi' : i < S.length := by simpa using hi
        have hlt : S[i] < x.kdims.length := mem_sortPositions.mp (List.getElem_mem hi')
        rw [List.getElem_map, List.getD_eq_getElem _ _ hlt] at e
        have hij := (h.xdistinct.getElem_inj_iff).mp e
        show x.values.get (S.getD i 0) ((List.range x.values.d1).getD c 0) ((List.range x.values.d2).getD o 0)
          ((List.range x.values.d3).getD d 0) = _
        rw [range_getD' (by rw [h.wx.2.1]; exact hc), range_getD' (by rw [h.wx.2.2.1]; exact ho),
          range_getD' (by rw [h.wx.2.2.2]; exact hd), List.getD_eq_getElem _ _ hi', hij]
      rw [e1, e2] at hh
      exact hh
  · obtain ⟨u, eu, ju⟩ := groupOp_join hop h'
    refine ⟨op.finish u, ?_, ⟨ju.wf, ju.rows, ju.distinct, ju.sorted, ju.keyLabels, ju.vdims, ju.odims, ju.ddims, ju.isVal, ju.vd, ju.cells⟩⟩
    unfold arithAny
    rw [hprep]
    simp only [bind, Except.bind]
    rw [if_pos (by rw [hgi]; exact decide_eq_true hlen), eu]

theorem Unaligned.swap {x y : Tri K} {labels : List String} {keys : List (List String)}
    (h : Unaligned x y labels keys) : Unaligned y x labels keys := by
  have ry : ∃ o < y.odims.length, ∃ d < y.ddims.length, y.vd ≤ y.valuation o d := by
    obtain ⟨o, ho, d, hd, hv⟩ := h.reached
    refine ⟨o, h.odims ▸ ho, d, h.ddims ▸ hd, ?_⟩
    unfold valuation at hv ⊢
    rwa [← h.isVal, ← h.odims, ← h.ddims, ← h.vd]
  exact ⟨h.wy, h.wx, h.ograin.symm, h.dgrain.symm, h.isVal.symm, h.vdims.symm, h.odims.symm, h.ddims.symm,
    h.ddims ▸ h.dev, h.vd.symm, ry, h.yrows, h.xrows, h.keyLabels.symm, h.keyLabels ▸ h.xlabels, h.ydistinct,
    h.xdistinct, h.keyLabels ▸ h.yfull, h.keyLabels ▸ h.xfull, h.keyLabels ▸ h.common, h.knodup,
    fun k => (h.keys k).trans or_comm⟩

/-- Two triangles that look the same: labels, valuation date and amounts. -/
structure Alike (u w : Tri K) : Prop where
  kdims : u.kdims = w.kdims
  keyLabels : u.keyLabels = w.keyLabels
  vdims : u.vdims = w.vdims
  odims : u.odims = w.odims
  ddims : u.ddims = w.ddims
  isVal : u.isVal = w.isVal
  vd : u.vd = w.vd
  cells : ∀ n < u.kdims.length, ∀ c < u.vdims.length, ∀ o < u.odims.length, ∀ d < u.ddims.length,
    u.values.get n c o d = w.values.get n c o d

theorem OuterJoined.kdims_unique {op op' : BinOp} {x y x' y' u w : Tri K} (hu : OuterJoined op x y u)
    (hw : OuterJoined op' x' y' w) (h : ∀ r, (r ∈ x.kdims ∨ r ∈ y.kdims) ↔ (r ∈ x'.kdims ∨ r ∈ y'.kdims)) :
    u.kdims = w.kdims := by
  have hp : u.kdims.Perm w.kdims := by
    rw [List.perm_ext_iff_of_nodup hu.distinct hw.distinct]
    intro r
    rw [hu.rows, hw.rows, h]
  exact hp.eq_of_pairwise (fun _ _ _ _ => le_antisymm) hu.sorted hw.sorted

/-- **C80 (sets), partial as above.**  The order in which Python lists the common labels and the keys does not
matter. -/
theorem C80_sets_partial {op : BinOp} (hop : op = .add ∨ op = .sub) {x y : Tri K} {labels labels' : List String}
    {keys keys' : List (List String)} (h : Unaligned x y labels keys) (h' : Unaligned x y labels' keys')
    (hne : x.kdims.length ≠ y.kdims.length ∨ ∃ r ∈ x.kdims, r ∉ y.kdims) :
    ∃ u w, arithAny op labels keys x y = .ok u ∧ arithAny op labels' keys' x y = .ok w ∧ Alike u w := by
  obtain ⟨u, eu, hu⟩ := C80_partial hop h hne
  obtain ⟨w, ew, hw⟩ := C80_partial hop h' hne
  have hk := hu.kdims_unique hw fun _ => Iff.rfl
  refine ⟨u, w, eu, ew, hk, hu.keyLabels.trans hw.keyLabels.symm, hu.vdims.trans hw.vdims.symm,
    hu.odims.trans hw.odims.symm, hu.ddims.trans hw.ddims.symm, hu.isVal.trans hw.isVal.symm,
    hu.vd.trans hw.vd.symm, ?_⟩
  intro n hn c hc o ho d hd
  have hr := List.getElem?_eq_getElem hn
  rw [hu.vdims] at hc
  rw [hu.odims] at ho
  rw [hu.ddims] at hd
  rw [hu.cells n _ hr c hc o ho d hd, hw.cells n _ (by rw [← hk]; exact hr) c hc o ho d hd]

theorem cell_comm (m a b : Num K) : BinOp.add.cell m a b = BinOp.add.cell m b a := by
  have h : a.nanToNum + b.nanToNum = b.nanToNum + a.nanToNum := by
    cases a <;> cases b <;> exact congrArg Num.fin (add_comm _ _)
  show ((a.nanToNum + b.nanToNum) * m.nanToNum).numToNan = ((b.nanToNum + a.nanToNum) * m.nanToNum).numToNan
  rw [h]

/-- **C80 (order of the operands), partial as above.**  `x + y` and `y + x` have the same rows and amounts. -/
theorem C80_comm_partial {x y : Tri K} {labels : List String} {keys : List (List String)}
    (h : Unaligned x y labels keys) (hne : x.kdims.length ≠ y.kdims.length ∨ ∃ r ∈ x.kdims, r ∉ y.kdims) :
    ∃ u w, arithAny .add labels keys x y = .ok u ∧ arithAny .add labels keys y x = .ok w ∧ Alike u w := by
  have hne' : y.kdims.length ≠ x.kdims.length ∨ ∃ r ∈ y.kdims, r ∉ x.kdims := by
    by_cases hl : y.kdims.length = x.kdims.length
    · right
      by_contra hno
      push Not at hno
      obtain ⟨r, hrx, hry⟩ := hne.resolve_left (fun n => n hl.symm)
      have hsp : y.kdims.Subperm x.kdims := h.ydistinct.subperm fun r hr => hno r hr
      exact hry ((hsp.perm_of_length_le (by omega)).mem_iff.mpr hrx)
    · exact Or.inl hl
  obtain ⟨u, eu, hu⟩ := C80_partial (Or.inl rfl) h hne
  obtain ⟨w, ew, hw⟩ := C80_partial (Or.inl rfl) h.swap hne'
  have hk := hu.kdims_unique hw fun _ => or_comm
  refine ⟨u, w, eu, ew, hk, hu.keyLabels.trans (h.keyLabels.trans hw.keyLabels.symm),
    hu.vdims.trans (h.vdims.trans hw.vdims.symm), hu.odims.trans (h.odims.trans hw.odims.symm),
    hu.ddims.trans (h.ddims.trans hw.ddims.symm), hu.isVal.trans (h.isVal.trans hw.isVal.symm),
    hu.vd.trans (h.vd.trans hw.vd.symm), ?_⟩
  intro n hn c hc o ho d hd
  have hr := List.getElem?_eq_getElem hn
  rw [hu.vdims] at hc
  rw [hu.odims] at ho
  rw [hu.ddims] at hd
  rw [hu.cells n _ hr c hc o ho d hd, hw.cells n _ (by rw [← hk]; exact hr) c (h.vdims ▸ hc) o (h.odims ▸ ho) d (h.ddims ▸ hd),
    nanTri_of_axes h.wx h.wy h.odims h.ddims h.isVal h.vd, cell_comm]

/-- The total of a column at one origin and development. -/
def rowTotal (t : Tri K) (c o d : Nat) : K :=
  ((List.range t.kdims.length).map fun i => (t.values.get i c o d).amt).sum

theorem amt_nanToNum' {z : Num K} (h : z.NoInf) : z.nanToNum.amt = z.amt := by
  cases z with
  | fin a => rfl
  | nan => rfl
  | pinf => exact absurd h (by simp [Num.NoInf])
  | ninf => exact absurd h (by simp [Num.NoInf])

theorem rowTotal_orZero {t : Tri K} (hn : t.kdims.Nodup) {c o d : Nat} (hf : ∀ i, (t.values.get i c o d).NoInf) :
    t.rowTotal c o d = (t.kdims.map fun r => (t.orZero r c o d).amt).sum := by
  unfold rowTotal
  congr 1
  apply List.ext_getElem (by simp)
  intro n h1 h2
  have hn' : n < t.kdims.length := by simpa using h1
  simp only [List.getElem_map, List.getElem_range]
  rw [orZero, if_pos (List.getElem_mem hn'), hn.idxOf_getElem, amt_nanToNum' (hf _)]

theorem sum_over_rows {all part : List (List String)} (ha : all.Nodup) (hp : part.Nodup) (hs : ∀ r ∈ part, r ∈ all)
    (f : List String → K) (h0 : ∀ r, r ∉ part → f r = 0) : (all.map f).sum = (part.map f).sum := by
  rw [← List.sum_toFinset f ha, ← List.sum_toFinset f hp]
  symm
  apply Finset.sum_subset
  · intro r hr
    rw [List.mem_toFinset] at hr ⊢
    exact hs r hr
  · intro r _ hr
    rw [List.mem_toFinset] at hr
    exact h0 r hr

/-- **C80 (totals), partial as above.**  No amount is lost or counted twice: at each known cell the total of `x + y`
over the rows is the total of `x` plus the total of `y`. -/
theorem C80_total_partial {x y : Tri K} {labels : List String} {keys : List (List String)}
    (h : Unaligned x y labels keys) (hne : x.kdims.length ≠ y.kdims.length ∨ ∃ r ∈ x.kdims, r ∉ y.kdims) :
    ∃ u, arithAny .add labels keys x y = .ok u ∧
      ∀ c < x.vdims.length, ∀ o < x.odims.length, ∀ d < x.ddims.length, x.nanTri o d = 1 →
        (∀ i, (x.values.get i c o d).NoInf) → (∀ j, (y.values.get j c o d).NoInf) →
        u.rowTotal c o d = x.rowTotal c o d + y.rowTotal c o d := by
  obtain ⟨u, eu, hu⟩ := C80_partial (Or.inl rfl) h hne
  refine ⟨u, eu, ?_⟩
  intro c hc o ho d hd hm fx fy
  have hcell : ∀ n (hn : n < u.kdims.length), (u.values.get n c o d).amt =
      (x.orZero u.kdims[n] c o d).amt + (y.orZero u.kdims[n] c o d).amt := by
    intro n hn
    rw [hu.cells n _ (List.getElem?_eq_getElem hn) c hc o ho d hd, hm]
    have hz : ∀ (t : Tri K) (r : List String), ∃ a : K, t.orZero r c o d = .fin a := by
      intro t r
      unfold orZero
      split_ifs
      · cases t.values.get (t.kdims.idxOf r) c o d <;> exact ⟨_, rfl⟩
      · exact ⟨0, rfl⟩
    obtain ⟨a, ea⟩ := hz x u.kdims[n]
    obtain ⟨b, eb⟩ := hz y u.kdims[n]
    rw [ea, eb]
    show (((Num.fin a + Num.fin b) * 1 : Num K).numToNan).amt = _
    rw [times_one, Num.amt_numToNan]
    rfl
  have hsum : u.rowTotal c o d =
      (u.kdims.map fun r => (x.orZero r c o d).amt + (y.orZero r c o d).amt).sum := by
    unfold rowTotal
    congr 1
    apply List.ext_getElem (by simp)
    intro n h1 h2
    have hn' : n < u.kdims.length := by simpa using h1
    simp only [List.getElem_map, List.getElem_range]
    exact hcell n hn'
  have z : ∀ (t : Tri K) (r : List String), r ∉ t.kdims → (t.orZero r c o d).amt = 0 := by
    intro t r hr
    rw [orZero, if_neg hr]
    rfl
  rw [hsum, List.sum_map_add, sum_over_rows hu.distinct h.xdistinct (fun r hr => (hu.rows r).mpr (Or.inl hr)) _ (z x),
    sum_over_rows hu.distinct h.ydistinct (fun r hr => (hu.rows r).mpr (Or.inr hr)) _ (z y),
    rowTotal_orZero h.xdistinct fx, rowTotal_orZero h.ydistinct fy]

/-! ## Examples -/

/-- Two rows. -/
private def own : Tri ℚ :=
  { Ex.tri3 (some true) Ex.cum3 with
    kdims := [["b", "auto"], ["a", "home"]]
    keyLabels := ["company", "lob"]
    values := ⟨2, 1, 3, 3, fun i _ o d => Ex.cum3 o d * .fin (i + 1)⟩ }

/-- Two rows, one of them with the same key. -/
private def bought : Tri ℚ :=
  { own with
    kdims := [["c", "auto"], ["b", "auto"]]
    values := ⟨2, 1, 3, 3, fun i _ o d => Ex.cum3 o d * .fin (10 ^ (i + 1))⟩ }

/-- The hypotheses of `C80_partial` hold of these triangles, with the labels in another order. -/
theorem example_unaligned :
    Unaligned own bought ["lob", "company"] [["auto", "c"], ["home", "a"], ["auto", "b"]] ∧
      ["a", "home"] ∈ own.kdims ∧ ["a", "home"] ∉ bought.kdims := by
  refine ⟨?_, by decide, by decide⟩
  refine ⟨⟨rfl, rfl, rfl, rfl⟩, ⟨rfl, rfl, rfl, rfl⟩, rfl, rfl, rfl, rfl, rfl, rfl, by decide, rfl, ⟨2, by decide, 2, by decide, by decide⟩,
    by decide, by decide, rfl, by decide, by decide, by decide, by decide, by decide, ?_, by decide, ?_⟩
  · intro l
    show l ∈ ["lob", "company"] ↔ l ∈ ["company", "lob"]
    simp only [List.mem_cons, List.not_mem_nil, or_false]
    exact or_comm
  · intro k
    have e1 : own.rowKeys ["lob", "company"] = [["auto", "b"], ["home", "a"]] := by decide +kernel
    have e2 : bought.rowKeys ["lob", "company"] = [["auto", "c"], ["auto", "b"]] := by decide +kernel
    rw [e1, e2]
    simp only [List.mem_cons, List.not_mem_nil, or_false]
    tauto

/-- The difference: two companies have one side only. -/
example : ∃ u : Tri ℚ, arithAny .sub ["lob", "company"] [["auto", "c"], ["home", "a"], ["auto", "b"]] own bought = .ok u ∧
    u.kdims = [["a", "home"], ["b", "auto"], ["c", "auto"]] ∧ u.values.get 0 0 0 0 = .fin 200 ∧
    u.values.get 1 0 0 0 = .fin (-9900) ∧ u.values.get 2 0 0 0 = .fin (-1000) ∧ u.values.get 2 0 2 2 = .nan :=
  ok_of (x := arithAny .sub ["lob", "company"] [["auto", "c"], ["home", "a"], ["auto", "b"]] own bought)
    (fun u : Tri ℚ => u.kdims = [["a", "home"], ["b", "auto"], ["c", "auto"]] ∧ u.values.get 0 0 0 0 = .fin 200 ∧
      u.values.get 1 0 0 0 = .fin (-9900) ∧ u.values.get 2 0 0 0 = .fin (-1000) ∧ u.values.get 2 0 2 2 = .nan)
    (by decide +kernel)

end Tri
end CL
