import Verif.Lemmas.LinkGrid
import Verif.Props.C11

set_option linter.unusedSectionVars false

/-! # Sums of triangles that cover blocks of a common grid -/

namespace CL
namespace Tri
variable {K : Type} [Field K] [LinearOrder K] [IsStrictOrderedRing K]

/-- `l` consists of the entries of `O` from position `s` on. -/
def LabelBlock (O l : List Int) (s : Nat) : Prop :=
  s + l.length ≤ O.length ∧ ∀ j < l.length, l.getD j 0 = O.getD (s + j) 0

theorem getD_inj {l : List Int} (h : l.Pairwise (· < ·)) {j k : Nat} (hj : j < l.length)
    (hk : k < l.length) (e : l.getD j 0 = l.getD k 0) : j = k := by
  rw [List.getD_eq_getElem _ _ hj, List.getD_eq_getElem _ _ hk] at e
  exact (nodup_of_lt h).getElem_inj_iff.1 e

theorem getD_lt {l : List Int} (h : l.Pairwise (· < ·)) {j k : Nat} (hj : j < l.length)
    (hk : k < l.length) : l.getD j 0 < l.getD k 0 ↔ j < k := by
  have key : ∀ {j k : Nat}, j < k → k < l.length → l.getD j 0 < l.getD k 0 := by
    intro j k hjk hk
    rw [List.getD_eq_getElem _ _ (by omega), List.getD_eq_getElem _ _ hk]
    exact List.pairwise_iff_getElem.1 h _ _ _ _ hjk
  constructor
  · intro e
    rcases Nat.lt_trichotomy j k with c | c | c
    · exact c
    · subst c; exact absurd e (lt_irrefl _)
    · have := key c hj; omega
  · exact fun c => key c hk

theorem LabelBlock.sorted {O l : List Int} {s : Nat} (b : LabelBlock O l s) (h : O.Pairwise (· < ·)) :
    l.Pairwise (· < ·) := by
  rw [List.pairwise_iff_getElem]
  intro i j hi hj hij
  have e1 := b.2 i hi
  have e2 := b.2 j hj
  rw [List.getD_eq_getElem _ _ hi] at e1
  rw [List.getD_eq_getElem _ _ hj] at e2
  have := b.1
  rw [e1, e2]
  exact (getD_lt h (by omega) (by omega)).2 (by omega)

theorem LabelBlock.mem {O l : List Int} {s : Nat} (b : LabelBlock O l s) (h : O.Pairwise (· < ·)) {k : Nat}
    (hk : k < O.length) : O.getD k 0 ∈ l ↔ s ≤ k ∧ k < s + l.length := by
  constructor
  · intro hm
    obtain ⟨j, hj, e⟩ := List.getElem_of_mem hm
    have := b.1
    have e1 := b.2 j hj
    rw [List.getD_eq_getElem _ _ hj, e] at e1
    have := getD_inj h hk (by omega) e1
    omega
  · rintro ⟨h1, h2⟩
    have e1 := b.2 (k - s) (by omega)
    rw [show s + (k - s) = k by omega] at e1
    rw [← e1, List.getD_eq_getElem _ _ (by omega)]
    exact List.getElem_mem _

theorem LabelBlock.idxOf {O l : List Int} {s : Nat} (b : LabelBlock O l s) (h : O.Pairwise (· < ·)) {k : Nat}
    (h1 : s ≤ k) (h2 : k < s + l.length) : l.idxOf (O.getD k 0) = k - s := by
  have e1 := b.2 (k - s) (by omega)
  rw [show s + (k - s) = k by omega] at e1
  rw [← e1, List.getD_eq_getElem _ _ (by omega)]
  exact (nodup_of_lt (b.sorted h)).idxOf_getElem _ _

theorem LabelBlock.mem_of {O l : List Int} {s : Nat} (b : LabelBlock O l s) {x : Int} (hx : x ∈ l) :
    ∃ k, k < O.length ∧ x = O.getD k 0 ∧ s ≤ k ∧ k < s + l.length := by
  obtain ⟨j, hj, e⟩ := List.getElem_of_mem hx
  have := b.1
  have e1 := b.2 j hj
  rw [List.getD_eq_getElem _ _ hj, e] at e1
  exact ⟨s + j, by omega, e1, by omega, by omega⟩

theorem LabelBlock.noGap {O l l' : List Int} {s s' : Nat} (b : LabelBlock O l s) (b' : LabelBlock O l' s')
    (h : O.Pairwise (· < ·)) : NoGap l l' := by
  intro x hx p hp q hq h1 h2
  obtain ⟨kx, k1, rfl, -⟩ := b'.mem_of hx
  obtain ⟨kp, k2, rfl, k3, k4⟩ := b.mem_of hp
  obtain ⟨kq, k5, rfl, k6, k7⟩ := b.mem_of hq
  have := (getD_lt h k2 k1).1 h1
  have := (getD_lt h k1 k5).1 h2
  exact (b.mem h k1).2 ⟨by omega, by omega⟩

theorem LabelBlock.union {O l l' : List Int} {s s' : Nat} (b : LabelBlock O l s) (b' : LabelBlock O l' s')
    (h : O.Pairwise (· < ·))
    (cover : ∀ k < O.length, (s ≤ k ∧ k < s + l.length) ∨ (s' ≤ k ∧ k < s' + l'.length)) :
    unionSorted l l' = O := by
  refine unionSorted_eq h fun x => ?_
  constructor
  · intro hx
    obtain ⟨k, hk, e⟩ := List.getElem_of_mem hx
    rw [← List.getD_eq_getElem _ 0 hk] at e
    rw [← e, b.mem h hk, b'.mem h hk]
    exact cover k hk
  · rintro (hx | hx)
    · obtain ⟨k, hk, rfl, -⟩ := b.mem_of hx
      rw [List.getD_eq_getElem _ _ hk]; exact List.getElem_mem _
    · obtain ⟨k, hk, rfl, -⟩ := b'.mem_of hx
      rw [List.getD_eq_getElem _ _ hk]; exact List.getElem_mem _

theorem LabelBlock.refl (O : List Int) : LabelBlock O O 0 := ⟨by omega, fun j _ => by rw [Nat.zero_add]⟩

theorem LabelBlock.of_at {O l : List Int} {s k : Nat} (h : At O l (List.range' s k)) (hk : s + k ≤ O.length) :
    LabelBlock O l s ∧ l.length = k := by
  have hl : l.length = k := by rw [h.1, List.length_range']
  refine ⟨⟨by omega, fun j hj => ?_⟩, hl⟩
  have := h.2 j (by rw [List.length_range']; omega)
  rw [List.getElem_range'] at this
  rw [List.getD_eq_getElem?_getD, List.getD_eq_getElem?_getD, this, Nat.one_mul]

/-- A cell of a block of a larger array, missing outside the block. -/
def blockCell (x : Tri K) (ox dx : Nat) (i c o d : Nat) : Num K :=
  if (ox ≤ o ∧ o < ox + x.odims.length) ∧ (dx ≤ d ∧ d < dx + x.ddims.length) then
    x.values.get i c (o - ox) (d - dx) else .nan

/-- Alignment of two triangles on blocks of a grid that is covered by the two. -/
theorem validate_blocks {x y : Tri K} (h : SameButDates x y) (wx : WF x) (wy : WF y) {O D : List Int}
    (hO : O.Pairwise (· < ·)) (hD : D.Pairwise (· < ·)) {ox dx oy dy : Nat} (bxo : LabelBlock O x.odims ox)
    (bxd : LabelBlock D x.ddims dx) (byo : LabelBlock O y.odims oy) (byd : LabelBlock D y.ddims dy)
    (nxo : 2 ≤ x.odims.length) (nxd : 2 ≤ x.ddims.length) (nyo : 2 ≤ y.odims.length)
    (nyd : 2 ≤ y.ddims.length) (h9 : ∀ d ∈ D, d ≤ 9999)
    (cO : ∀ k < O.length, (ox ≤ k ∧ k < ox + x.odims.length) ∨ (oy ≤ k ∧ k < oy + y.odims.length))
    (cD : ∀ k < D.length, (dx ≤ k ∧ k < dx + x.ddims.length) ∨ (dy ≤ k ∧ k < dy + y.ddims.length))
    (ap : ox ≠ oy ∨ x.odims.length ≠ y.odims.length ∨ dx ≠ dy ∨ x.ddims.length ≠ y.ddims.length) :
    ∃ xa ya, validate x y = .ok ({ x with
        isPattern := x.isPattern && y.isPattern
        vd := max x.vd y.vd
        odims := O
        ddims := D
        values := xa }, ya) ∧
      (xa.d0 = x.values.d0 ∧ xa.d1 = x.values.d1 ∧ xa.d2 = O.length ∧ xa.d3 = D.length) ∧
      Arr.SameShape xa ya ∧ ∀ i c o d, o < O.length → d < D.length →
        xa.get i c o d = blockCell x ox dx i c o d ∧ ya.get i c o d = blockCell y oy dy i c o d := by
  have mem9 : ∀ {l : List Int} {s : Nat}, LabelBlock D l s → ∀ d ∈ l, d ≤ 9999 := by
    intro l s b d hd
    obtain ⟨k, hk, rfl, -⟩ := b.mem_of hd
    exact h9 _ (by rw [List.getD_eq_getElem _ _ hk]; exact List.getElem_mem _)
  have lx : Labelled x := ⟨bxo.sorted hO, bxd.sorted hD, nxo, nxd, fun _ => mem9 bxd⟩
  have ly : Labelled y := ⟨byo.sorted hO, byd.sorted hD, nyo, nyd, fun _ => mem9 byd⟩
  have apart : ∀ {G l l' : List Int} {s s' : Nat}, G.Pairwise (· < ·) → LabelBlock G l s → LabelBlock G l' s' →
      s ≠ s' ∨ l.length ≠ l'.length → Apart l l' := by
    intro G l l' s s' hG b b' hne
    by_cases hl : l.length = l'.length
    · refine Or.inr fun k hk e => ?_
      rw [b.2 k hk, b'.2 k (by omega)] at e
      have := b.1
      have := b'.1
      have := getD_inj hG (by omega) (by omega) e
      omega
    · exact Or.inl hl
  have hb : Apart x.odims y.odims ∨ Apart x.ddims y.ddims := by
    rcases ap with e | e | e | e
    · exact Or.inl (apart hO bxo byo (Or.inl e))
    · exact Or.inl (apart hO bxo byo (Or.inr e))
    · exact Or.inr (apart hD bxd byd (Or.inl e))
    · exact Or.inr (apart hD bxd byd (Or.inr e))
  obtain ⟨xa, ya, ev, ⟨x0, x1, x2, x3⟩, hs, hxa, hya⟩ := validate_union h wx wy lx ly
    (bxo.noGap byo hO) (byo.noGap bxo hO) (bxd.noGap byd hD) (byd.noGap bxd hD)
    (not_broadcastable wx wy lx ly h.isVal hb)
  rw [bxo.union byo hO cO] at ev x2 hxa hya
  rw [bxd.union byd hD cD] at ev x3 hxa hya
  refine ⟨xa, ya, ev, ⟨x0, x1, x2, x3⟩, hs, ?_⟩
  intro i c o d ho hd
  have ex : xa.get i c o d = blockCell x ox dx i c o d := by
    rw [hxa i c o d ho hd]
    unfold blockCell
    by_cases hin : (ox ≤ o ∧ o < ox + x.odims.length) ∧ (dx ≤ d ∧ d < dx + x.ddims.length)
    · rw [if_pos hin, if_pos ⟨(bxo.mem hO ho).2 hin.1, (bxd.mem hD hd).2 hin.2⟩,
        bxo.idxOf hO hin.1.1 hin.1.2, bxd.idxOf hD hin.2.1 hin.2.2]
    · rw [if_neg hin, if_neg]
      exact fun h => hin ⟨(bxo.mem hO ho).1 h.1, (bxd.mem hD hd).1 h.2⟩
  have ey : ya.get i c o d = blockCell y oy dy i c o d := by
    rw [hya i c o d ho hd]
    unfold blockCell
    by_cases hin : (oy ≤ o ∧ o < oy + y.odims.length) ∧ (dy ≤ d ∧ d < dy + y.ddims.length)
    · rw [if_pos hin, if_pos ⟨(byo.mem hO ho).2 hin.1, (byd.mem hD hd).2 hin.2⟩,
        byo.idxOf hO hin.1.1 hin.1.2, byd.idxOf hD hin.2.1 hin.2.2]
    · rw [if_neg hin, if_neg]
      exact fun h => hin ⟨(byo.mem hO ho).1 h.1, (byd.mem hD hd).1 h.2⟩
  exact ⟨ex, ey⟩

/-- The sum of two triangles on blocks of a grid that is covered by the two. -/
theorem add_blocks {x y : Tri K} (h : SameButDates x y) (wx : WF x) (wy : WF y) {O D : List Int}
    (hO : O.Pairwise (· < ·)) (hD : D.Pairwise (· < ·)) {ox dx oy dy : Nat} (bxo : LabelBlock O x.odims ox)
    (bxd : LabelBlock D x.ddims dx) (byo : LabelBlock O y.odims oy) (byd : LabelBlock D y.ddims dy)
    (nxo : 2 ≤ x.odims.length) (nxd : 2 ≤ x.ddims.length) (nyo : 2 ≤ y.odims.length)
    (nyd : 2 ≤ y.ddims.length) (h9 : ∀ d ∈ D, d ≤ 9999)
    (cO : ∀ k < O.length, (ox ≤ k ∧ k < ox + x.odims.length) ∨ (oy ≤ k ∧ k < oy + y.odims.length))
    (cD : ∀ k < D.length, (dx ≤ k ∧ k < dx + x.ddims.length) ∨ (dy ≤ k ∧ k < dy + y.ddims.length))
    (ap : ox ≠ oy ∨ x.odims.length ≠ y.odims.length ∨ dx ≠ dy ∨ x.ddims.length ≠ y.ddims.length) :
    ∃ z, x.add y = .ok z ∧ z = { x with
        isPattern := x.isPattern && y.isPattern
        vd := max x.vd y.vd
        odims := O
        ddims := D
        values := z.values } ∧ WF z ∧ z.values.d0 = x.values.d0 ∧ z.values.d1 = x.values.d1 ∧
      ∀ i c o d, o < O.length → d < D.length → z.values.get i c o d =
        (((blockCell x ox dx i c o d).nanToNum + (blockCell y oy dy i c o d).nanToNum) *
          (z.nanTri o d).nanToNum).numToNan := by
  obtain ⟨xa, ya, ev, ⟨x0, x1, x2, x3⟩, hs, hcell⟩ := validate_blocks h wx wy hO hD bxo bxd byo byd nxo nxd nyo nyd h9 cO cD ap
  simp only [add, ev, bind, Except.bind]
  rw [addArr_same (by exact hs)]
  refine ⟨_, rfl, rfl, ⟨x0.trans wx.1, x1.trans wx.2.1, x2, x3⟩, x0, x1, ?_⟩
  intro i c o d ho hd
  rw [← (hcell i c o d ho hd).1, ← (hcell i c o d ho hd).2]
  rfl

/-- The difference of two triangles on blocks of a grid that is covered by the two. -/
theorem sub_blocks {x y : Tri K} (h : SameButDates x y) (wx : WF x) (wy : WF y) {O D : List Int}
    (hO : O.Pairwise (· < ·)) (hD : D.Pairwise (· < ·)) {ox dx oy dy : Nat} (bxo : LabelBlock O x.odims ox)
    (bxd : LabelBlock D x.ddims dx) (byo : LabelBlock O y.odims oy) (byd : LabelBlock D y.ddims dy)
    (nxo : 2 ≤ x.odims.length) (nxd : 2 ≤ x.ddims.length) (nyo : 2 ≤ y.odims.length)
    (nyd : 2 ≤ y.ddims.length) (h9 : ∀ d ∈ D, d ≤ 9999)
    (cO : ∀ k < O.length, (ox ≤ k ∧ k < ox + x.odims.length) ∨ (oy ≤ k ∧ k < oy + y.odims.length))
    (cD : ∀ k < D.length, (dx ≤ k ∧ k < dx + x.ddims.length) ∨ (dy ≤ k ∧ k < dy + y.ddims.length))
    (ap : ox ≠ oy ∨ x.odims.length ≠ y.odims.length ∨ dx ≠ dy ∨ x.ddims.length ≠ y.ddims.length) :
    ∃ z, x.sub y = .ok z ∧ z = { x with
        isPattern := x.isPattern && y.isPattern
        vd := max x.vd y.vd
        odims := O
        ddims := D
        values := z.values } ∧ WF z ∧ z.values.d0 = x.values.d0 ∧ z.values.d1 = x.values.d1 ∧
      ∀ i c o d, o < O.length → d < D.length → z.values.get i c o d =
        (((blockCell x ox dx i c o d).nanToNum - (blockCell y oy dy i c o d).nanToNum) *
          (z.nanTri o d).nanToNum).numToNan := by
  obtain ⟨xa, ya, ev, ⟨x0, x1, x2, x3⟩, hs, hcell⟩ := validate_blocks h wx wy hO hD bxo bxd byo byd nxo nxd nyo nyd h9 cO cD ap
  simp only [sub, ev, bind, Except.bind]
  rw [subArr_same (by exact hs)]
  refine ⟨_, rfl, rfl, ⟨x0.trans wx.1, x1.trans wx.2.1, x2, x3⟩, x0, x1, ?_⟩
  intro i c o d ho hd
  rw [← (hcell i c o d ho hd).1, ← (hcell i c o d ho hd).2]
  rfl

/-- A valuation filter that selects a block of origins and of developments. -/
theorem getVal_block {t : Tri K} (wf : WF t) (ord : Ordered t) (dated : Dated t) (g : Graded t)
    (hd : 2 ≤ t.ddims.length) {P : Int → Bool} (hp : HalfLine P) {so ko sd kd : Nat} (hko : 1 ≤ ko)
    (eo : so + ko ≤ t.odims.length) (ed : sd + kd ≤ t.ddims.length)
    (rows : ∀ o < t.odims.length, (∃ d < t.ddims.length, P (t.valuation o d) = true) ↔
      so ≤ o ∧ o < so + ko)
    (cols : ∀ d < t.ddims.length, (∃ o < t.odims.length, P (t.valuation o d) = true) ↔
      sd ≤ d ∧ d < sd + kd) :
    ∃ u, t.getVal P = .ok u ∧ WF u ∧ u.kdims = t.kdims ∧ u.vdims = t.vdims ∧
      u.keyLabels = t.keyLabels ∧ u.ograin = t.ograin ∧ u.dgrain = t.dgrain ∧ u.isVal = t.isVal ∧
      u.isPattern = t.isPattern ∧ u.isCum = t.isCum ∧
      LabelBlock t.odims u.odims so ∧ u.odims.length = ko ∧ LabelBlock t.ddims u.ddims sd ∧
      u.ddims.length = kd ∧
      (∀ i c o d, i < t.values.d0 → c < t.values.d1 → o < ko → d < kd → u.values.get i c o d =
        if P (t.valuation (so + o) (sd + d)) then
          (t.values.get i c (so + o) (sd + d)).numToNan else .nan) ∧
      (∀ o d, o < ko → d < kd → u.valuation o d = t.valuation (so + o) (sd + d)) ∧
      (∃ m, (∃ o d, o < t.odims.length ∧ d < t.ddims.length ∧ P (t.valuation o d) = true ∧
          t.valuation o d = m) ∧
        (∀ o d, o < t.odims.length → d < t.ddims.length → P (t.valuation o d) = true →
          t.valuation o d ≤ m) ∧ u.vd = min m t.vd) := by
  obtain ⟨d0, hd0, hk0⟩ := (rows so (by omega)).2 ⟨le_rfl, by omega⟩
  obtain ⟨u, hu⟩ := C15_succeeds wf ord dated g hd hp (by omega) hd0 hk0
  obtain ⟨rs, cs, hs⟩ := C15_filter_partial wf ord dated hd hu
  have hrs : rs = List.range' so ko := by
    refine List.Pairwise.eq_of_mem_iff hs.rows_inc List.pairwise_lt_range' fun o => ?_
    rw [hs.mem_rows, List.mem_range'_1]
    constructor
    · rintro ⟨ho, he⟩
      exact (rows o ho).1 he
    · intro he
      exact ⟨by omega, (rows o (by omega)).2 he⟩
  have hcs : cs = List.range' sd kd := by
    refine List.Pairwise.eq_of_mem_iff hs.cols_inc List.pairwise_lt_range' fun d => ?_
    rw [hs.mem_cols, List.mem_range'_1]
    constructor
    · rintro ⟨ho, he⟩
      exact (cols d ho).1 he
    · intro he
      exact ⟨by omega, (cols d (by omega)).2 he⟩
  subst hrs hcs
  have hk := getVal_keeps hu
  obtain ⟨bo, lo⟩ := LabelBlock.of_at hs.origins eo
  obtain ⟨bd, ld⟩ := LabelBlock.of_at hs.developments ed
  refine ⟨u, hu, hs.wf, hs.index, hs.columns, hk.1, hk.2.1, hk.2.2.1, hs.isVal, hk.2.2.2.1, hk.2.2.2.2, bo, lo, bd, ld,
    ?_, ?_, hs.vd⟩
  · intro i c o d hi hc ho hd
    have := hs.cells i c o d hi hc (by rw [List.length_range']; exact ho)
      (by rw [List.length_range']; exact hd)
    simpa only [List.getElem_range', Nat.one_mul] using this
  · intro o d ho hd
    have := hs.dates o d (by rw [List.length_range']; exact ho)
      (by rw [List.length_range']; exact hd)
    simpa only [List.getElem_range', Nat.one_mul] using this

end Tri
end CL
