import Verif.Lemmas.Union
import Verif.Props.C09

set_option linter.unusedSectionVars false

/-! # C11: binary arithmetic aligns origins and developments by label -/

namespace CL
namespace Tri
variable {K : Type} [Field K] [LinearOrder K] [IsStrictOrderedRing K]

private theorem place_block {t : Tri K} (wf : WF t) {ou du preO postO preD postD : List Int}
    (eo : ou = preO ++ t.odims ++ postO) (ed : du = preD ++ t.ddims ++ postD)
    (ho1 : ∀ x ∈ preO, x ∉ t.odims) (ho2 : ∀ x ∈ postO, x ∉ t.odims)
    (hd1 : ∀ x ∈ preD, x ∉ t.ddims) (hd2 : ∀ x ∈ postD, x ∉ t.ddims)
    (no : t.odims.Nodup) (nd : t.ddims.Nodup) (neo : t.odims ≠ []) (ned : t.ddims ≠ []) :
    ∃ r, Arr.place t.values.d0 t.values.d1 ou.length du.length (lowPos ou t.odims)
        (highPos ou t.odims) (lowPos du t.ddims) (highPos du t.ddims) t.values = .ok r ∧
      r.d0 = t.values.d0 ∧ r.d1 = t.values.d1 ∧ r.d2 = ou.length ∧ r.d3 = du.length ∧
      ∀ i c o d, o < ou.length → d < du.length → r.get i c o d =
        if ou.getD o 0 ∈ t.odims ∧ du.getD d 0 ∈ t.ddims then
          t.values.get i c (t.odims.idxOf (ou.getD o 0)) (t.ddims.idxOf (du.getD d 0))
        else .nan := by
  obtain ⟨w0, w1, w2, w3⟩ := wf
  have l1 : lowPos ou t.odims = preO.length := by rw [eo]; exact lowPos_block neo ho1
  have l2 : highPos ou t.odims = preO.length + t.odims.length := by
    rw [eo]; exact highPos_block neo ho2
  have l3 : lowPos du t.ddims = preD.length := by rw [ed]; exact lowPos_block ned hd1
  have l4 : highPos du t.ddims = preD.length + t.ddims.length := by
    rw [ed]; exact highPos_block ned hd2
  have s2 : preO.length + t.odims.length - preO.length = t.odims.length := by omega
  have s3 : preD.length + t.ddims.length - preD.length = t.ddims.length := by omega
  rw [l1, l2, l3, l4]
  refine ⟨_, if_pos ?_, rfl, rfl, rfl, rfl, ?_⟩
  · rw [s2, s3, w2, w3]; simp
  · intro i c o d hoo hdd
    have hO := block_label no ho1 ho2 (o := o) (by rw [← eo]; exact hoo)
    have hD := block_label nd hd1 hd2 (o := d) (by rw [← ed]; exact hdd)
    rw [← eo] at hO
    rw [← ed] at hD
    have bO : ∀ k, Arr.bix t.values.d2 (preO.length + t.odims.length - preO.length) k = k := by
      intro k; rw [s2, w2]; simp [Arr.bix]
    have bD : ∀ k, Arr.bix t.values.d3 (preD.length + t.ddims.length - preD.length) k = k := by
      intro k; rw [s3, w3]; simp [Arr.bix]
    have bS : ∀ n k, Arr.bix n n k = k := by intro n k; simp [Arr.bix]
    simp only [bO, bD, bS]
    by_cases h : ou.getD o 0 ∈ t.odims ∧ du.getD d 0 ∈ t.ddims
    · obtain ⟨a1, a2⟩ := hO.1.2 h.1
      obtain ⟨b1, b2⟩ := hD.1.2 h.2
      rw [if_pos h, hO.2 a1 a2, hD.2 b1 b2, if_pos ⟨a1, by omega, b1, by omega⟩]
    · rw [if_neg h, if_neg]
      rintro ⟨a1, a2, b1, b2⟩
      exact h ⟨hO.1.1 ⟨a1, by omega⟩, hD.1.1 ⟨b1, by omega⟩⟩

/-- The operands have the same index, columns, grains and kind of development axis; only origin and
development labels may differ. -/
structure SameButDates (x y : Tri K) : Prop where
  kdims : x.kdims = y.kdims
  keyLabels : x.keyLabels = y.keyLabels
  vdims : x.vdims = y.vdims
  isVal : x.isVal = y.isVal
  ograin : x.ograin = y.ograin
  dgrain : x.dgrain = y.dgrain

/-- Increasing labels, at least two on each axis, ages up to the ultimate one. -/
structure Labelled (t : Tri K) : Prop where
  origins : t.odims.Pairwise (· < ·)
  developments : t.ddims.Pairwise (· < ·)
  two_origins : 2 ≤ t.odims.length
  two_developments : 2 ≤ t.ddims.length
  ages : t.isVal = false → ∀ d ∈ t.ddims, d ≤ 9999

/-- No label of `b` falls strictly between labels of `a` without being one of them. -/
def NoGap (a b : List Int) : Prop := ∀ x ∈ b, ∀ p ∈ a, ∀ q ∈ a, p < x → x < q → x ∈ a

/-- The two axes have different lengths, or differ at every position. -/
def Apart (a b : List Int) : Prop :=
  a.length ≠ b.length ∨ ∀ k < a.length, a.getD k 0 ≠ b.getD k 0

private theorem allDiffer_iff {a b : List Int} (h : a.length = b.length) :
    allDiffer a b = true ↔ ∀ k < a.length, a.getD k 0 ≠ b.getD k 0 := by
  unfold allDiffer
  rw [List.all_eq_true]
  constructor
  · intro H k hk
    have := H (a[k], b[k]) (by
      rw [← List.getElem_zip (h := by simp; omega)]
      exact List.getElem_mem _)
    simpa [List.getElem?_eq_getElem hk, List.getElem?_eq_getElem (h ▸ hk)] using this
  · intro H p hp
    obtain ⟨k, hk, rfl⟩ := List.getElem_of_mem hp
    simp only [List.length_zip] at hk
    have := H k (by omega)
    rw [List.getD_eq_getElem _ _ (by omega), List.getD_eq_getElem _ _ (by omega)] at this
    simpa using this

theorem not_broadcastable {x y : Tri K} (wx : WF x) (wy : WF y) (lx : Labelled x)
    (ly : Labelled y) (hv : x.isVal = y.isVal)
    (h : Apart x.odims y.odims ∨ Apart x.ddims y.ddims) : broadcastable x y = false := by
  have a1 := lx.two_origins
  have a2 := lx.two_developments
  have b1 := ly.two_origins
  have b2 := ly.two_developments
  unfold broadcastable
  rw [wx.2.2.1, wx.2.2.2, wy.2.2.1, wy.2.2.2, hv]
  by_cases hl : x.odims.length = y.odims.length ∧ x.ddims.length = y.ddims.length
  · rw [if_pos hl]
    have c1 : 1 < x.odims.length := by omega
    have c2 : 1 < x.ddims.length := by omega
    rcases h with h | h
    · rcases h with h | h
      · exact absurd hl.1 h
      · rw [(allDiffer_iff hl.1).2 h]; simp [c1]
    · rcases h with h | h
      · exact absurd hl.2 h
      · rw [(allDiffer_iff hl.2).2 h]; simp [c2]
  · rw [if_neg hl]
    have c1 : x.odims.length ≠ 1 := by omega
    have c2 : y.odims.length ≠ 1 := by omega
    have c3 : x.ddims.length ≠ 1 := by omega
    have c4 : y.ddims.length ≠ 1 := by omega
    by_cases h1 : x.odims.length = y.odims.length
    · have h2 : x.ddims.length ≠ y.ddims.length := fun e => hl ⟨h1, e⟩
      simp [h2, c3, c4]
    · simp [h1, c1, c2]

theorem nodup_of_lt {l : List Int} (h : l.Pairwise (· < ·)) : l.Nodup :=
  h.imp fun h => ne_of_lt h

private theorem union_block {a b : List Int} (ha : a.Pairwise (· < ·)) (hn : 2 ≤ a.length)
    (hg : NoGap a b) (u : List Int) (hu : u.Pairwise (· < ·)) (hm : ∀ x, x ∈ u ↔ x ∈ a ∨ x ∈ b) :
    ∃ pre post, u = pre ++ a ++ post ∧ (∀ x ∈ pre, x ∉ a) ∧ ∀ x ∈ post, x ∉ a := by
  refine block_of_convex hu ha ?_ (fun x hx => (hm x).2 (Or.inl hx)) ?_
  · intro e; rw [e] at hn; simp at hn
  · intro x hx p hp q hq h1 h2
    rcases (hm x).1 hx with h | h
    · exact h
    · exact hg x h p hp q hq h1 h2

theorem validate_union {x y : Tri K} (h : SameButDates x y) (wx : WF x) (wy : WF y)
    (lx : Labelled x) (ly : Labelled y) (gxo : NoGap x.odims y.odims) (gyo : NoGap y.odims x.odims)
    (gxd : NoGap x.ddims y.ddims) (gyd : NoGap y.ddims x.ddims)
    (hb : broadcastable x y = false) :
    ∃ xa ya : Arr K, validate x y = .ok ({ x with
        isPattern := x.isPattern && y.isPattern
        vd := max x.vd y.vd
        odims := unionSorted x.odims y.odims
        ddims := unionSorted x.ddims y.ddims
        values := xa }, ya) ∧
      (xa.d0 = x.values.d0 ∧ xa.d1 = x.values.d1 ∧ xa.d2 = (unionSorted x.odims y.odims).length ∧
        xa.d3 = (unionSorted x.ddims y.ddims).length) ∧ Arr.SameShape xa ya ∧
      (∀ i c o d, o < (unionSorted x.odims y.odims).length →
        d < (unionSorted x.ddims y.ddims).length → xa.get i c o d =
          if (unionSorted x.odims y.odims).getD o 0 ∈ x.odims ∧
            (unionSorted x.ddims y.ddims).getD d 0 ∈ x.ddims then
            x.values.get i c (x.odims.idxOf ((unionSorted x.odims y.odims).getD o 0))
              (x.ddims.idxOf ((unionSorted x.ddims y.ddims).getD d 0))
          else .nan) ∧
      (∀ i c o d, o < (unionSorted x.odims y.odims).length →
        d < (unionSorted x.ddims y.ddims).length → ya.get i c o d =
          if (unionSorted x.odims y.odims).getD o 0 ∈ y.odims ∧
            (unionSorted x.ddims y.ddims).getD d 0 ∈ y.ddims then
            y.values.get i c (y.odims.idxOf ((unionSorted x.odims y.odims).getD o 0))
              (y.ddims.idxOf ((unionSorted x.ddims y.ddims).getD d 0))
          else .nan) := by
  have a1 := lx.two_origins
  have a2 := lx.two_developments
  have b1 := ly.two_origins
  have b2 := ly.two_developments
  have s1 : x.values.d1 = y.values.d1 := by rw [wx.2.1, wy.2.1, h.vdims]
  have s0 : x.values.d0 = y.values.d0 := by rw [wx.1, wy.1, h.kdims]
  have hou := unionSorted_sorted x.odims y.odims
  have hdu := unionSorted_sorted x.ddims y.ddims
  obtain ⟨p1, q1, e1, m1, n1⟩ := union_block lx.origins a1 gxo _ hou fun _ => unionSorted_mem
  obtain ⟨p2, q2, e2, m2, n2⟩ := union_block lx.developments a2 gxd _ hdu fun _ => unionSorted_mem
  obtain ⟨p3, q3, e3, m3, n3⟩ := union_block ly.origins b1 gyo _ hou fun _ =>
    unionSorted_mem.trans or_comm
  obtain ⟨p4, q4, e4, m4, n4⟩ := union_block ly.developments b2 gyd _ hdu fun _ =>
    unionSorted_mem.trans or_comm
  have ne : ∀ l : List Int, 2 ≤ l.length → l ≠ [] := by
    intro l hl e; rw [e] at hl; simp at hl
  obtain ⟨xa, hxa, x0, x1, x2, x3, xg⟩ := place_block wx e1 e2 m1 n1 m2 n2 (nodup_of_lt lx.origins)
    (nodup_of_lt lx.developments) (ne _ a1) (ne _ a2)
  obtain ⟨ya, hya, y0, y1, y2, y3, yg⟩ := place_block wy e3 e4 m3 n3 m4 n4 (nodup_of_lt ly.origins)
    (nodup_of_lt ly.developments) (ne _ b1) (ne _ b2)
  refine ⟨xa, ya, ?_, ⟨x0, x1, x2, x3⟩, ⟨by omega, by omega, by omega, by omega⟩, xg, yg⟩
  have hc : prepColumns ({ x with isPattern := x.isPattern && y.isPattern, vd := max x.vd y.vd } :
      Tri K) { y with isPattern := x.isPattern && y.isPattern } =
      .ok ({ x with isPattern := x.isPattern && y.isPattern, vd := max x.vd y.vd },
        { y with isPattern := x.isPattern && y.isPattern }) := by
    unfold prepColumns
    have e1 : ¬ (y.vdims.length = 1 ∧ y.vdims.length > 1) := by omega
    simp only [h.vdims, e1, if_false, ne_eq, not_true_eq_false, and_false, s1, and_self, if_true]
  have ho : prepOriginDev x.values.d0 x.values.d1
      ({ x with isPattern := x.isPattern && y.isPattern, vd := max x.vd y.vd } :
      Tri K) { y with isPattern := x.isPattern && y.isPattern } =
      .ok ({ x with
        isPattern := x.isPattern && y.isPattern
        vd := max x.vd y.vd
        odims := unionSorted x.odims y.odims
        ddims := unionSorted x.ddims y.ddims
        values := xa },
        { y with
          isPattern := x.isPattern && y.isPattern
          values := ya }) := by
    unfold prepOriginDev
    have hb' : broadcastable
        ({ x with isPattern := x.isPattern && y.isPattern, vd := max x.vd y.vd } : Tri K)
        { y with isPattern := x.isPattern && y.isPattern } = false := hb
    rw [hb']
    have d1 : ¬ (y.odims.length = 1 ∧ x.odims.length > 1) := by omega
    have d2 : ¬ (x.odims.length = 1 ∧ y.odims.length > 1) := by omega
    have d3 : ¬ (y.ddims.length = 1 ∧ x.ddims.length > 1) := by omega
    have d4 : ¬ (x.ddims.length = 1 ∧ y.ddims.length > 1) := by omega
    have d5 : ¬ x.isVal ≠ y.isVal := by simp [h.isVal]
    have d6 : ¬ ¬ (x.odims.Nodup ∧ y.odims.Nodup ∧ x.ddims.Nodup ∧ y.ddims.Nodup) :=
      not_not.2 ⟨nodup_of_lt lx.origins, nodup_of_lt ly.origins, nodup_of_lt lx.developments,
        nodup_of_lt ly.developments⟩
    simp only [relabelOnes, d1, d2, d3, d4, if_false, Bool.false_eq_true]
    rw [if_neg d5, if_neg d6, hya, hxa]
    rfl
  have hi : prepIndex
      ({ x with
        isPattern := x.isPattern && y.isPattern
        vd := max x.vd y.vd
        odims := unionSorted x.odims y.odims
        ddims := unionSorted x.ddims y.ddims
        values := xa } : Tri K)
      { y with
        isPattern := x.isPattern && y.isPattern
        values := ya } =
      .ok ({ x with
        isPattern := x.isPattern && y.isPattern
        vd := max x.vd y.vd
        odims := unionSorted x.odims y.odims
        ddims := unionSorted x.ddims y.ddims
        values := xa },
        { y with
          isPattern := x.isPattern && y.isPattern
          values := ya }) := by
    unfold prepIndex
    have e1 : ¬ (y.kdims.length = 1 ∧ y.kdims.length > 1) := by omega
    have e2 : ¬ (y.kdims.length > 1 ∧ y.kdims.length = 1) := by omega
    simp only [h.kdims, h.keyLabels, e1, e2, if_false, ne_eq, not_true_eq_false, and_false]
    simp
  unfold validate
  have e1 : ¬ (x.ograin ≠ y.ograin ∨ (x.dgrain ≠ y.dgrain ∧ min x.values.d3 y.values.d3 > 1)) := by
    simp [h.ograin, h.dgrain]
  simp only [e1, if_false, hc, ho, hi, bind, Except.bind]

/-- The cells of the sum (or difference) `z` of two triangles with different origins or developments. -/
structure Combined (f : K → K → K) (x y z : Tri K) : Prop where
  kdims : z.kdims = x.kdims
  vdims : z.vdims = x.vdims
  vd : z.vd = max x.vd y.vd
  wf : WF z
  origins : z.odims.Pairwise (· < ·)
  mem_origins : ∀ l, l ∈ z.odims ↔ l ∈ x.odims ∨ l ∈ y.odims
  developments : z.ddims.Pairwise (· < ·)
  mem_developments : ∀ l, l ∈ z.ddims ↔ l ∈ x.ddims ∨ l ∈ y.ddims
  flags : z.isVal = x.isVal ∧ z.isCum = x.isCum ∧ z.ograin = x.ograin ∧ z.dgrain = x.dgrain
  amounts : ∀ i < x.values.d0, ∀ c < x.values.d1, ∀ lo ∈ z.odims, ∀ ld ∈ z.ddims,
    amtAt z i c lo ld = f (amtAt x i c lo ld) (amtAt y i c lo ld)

/-- Both operations: an aligned operation and `_arithmetic_cleanup`. -/
theorem aligned_op {x y : Tri K} (h : SameButDates x y) (hx : Regular x) (hy : Regular y)
    (lx : Labelled x) (ly : Labelled y) (gxo : NoGap x.odims y.odims) (gyo : NoGap y.odims x.odims)
    (gxd : NoGap x.ddims y.ddims) (gyd : NoGap y.ddims x.ddims)
    (hb : Apart x.odims y.odims ∨ Apart x.ddims y.ddims) {f : K → K → K} {op : Num K → Num K → Num K}
    (hop : ∀ a b, op (.fin a) (.fin b) = .fin (f a b)) (hz : f 0 0 = 0)
    (run : Tri K → Arr K → Except Err (Tri K))
    (hrun : ∀ (u : Tri K) (a : Arr K), Arr.SameShape u.values a → run u a =
      .ok (cleanup { u with
        values := { u.values with
          get := fun i c o d => op (u.values.get i c o d).nanToNum (a.get i c o d).nanToNum } })) :
    ∃ z, (validate x y >>= fun p => run p.1 p.2) = .ok z ∧ Combined f x y z := by
  obtain ⟨xa, ya, ev, ⟨x0, x1, x2, x3⟩, hs, hxa, hya⟩ := validate_union h hx.wf hy.wf lx ly gxo gyo
    gxd gyd (not_broadcastable hx.wf hy.wf lx ly h.isVal hb)
  have s1 : x.values.d1 = y.values.d1 := by rw [hx.wf.2.1, hy.wf.2.1, h.vdims]
  have s0 : x.values.d0 = y.values.d0 := by rw [hx.wf.1, hy.wf.1, h.kdims]
  simp only [ev, bind, Except.bind]
  rw [hrun _ _ (by exact hs)]
  set ou := unionSorted x.odims y.odims with hou
  set du := unionSorted x.ddims y.ddims with hdu
  have hous : ou.Pairwise (· < ·) := unionSorted_sorted _ _
  have hdus : du.Pairwise (· < ·) := unionSorted_sorted _ _
  have noU := nodup_of_lt hous
  have ndU := nodup_of_lt hdus
  refine ⟨_, rfl, rfl, rfl, rfl, ?_, hous, fun _ => unionSorted_mem, hdus,
    fun _ => unionSorted_mem, ⟨rfl, rfl, rfl, rfl⟩, ?_⟩
  · exact ⟨x0.trans hx.wf.1, x1.trans hx.wf.2.1, x2, x3⟩
  intro i hi c hc lo hlo ld hld
  have hlo' : lo ∈ ou := hlo
  have hld' : ld ∈ du := hld
  have hO := List.idxOf_lt_length_iff.2 hlo'
  have hD := List.idxOf_lt_length_iff.2 hld'
  have gO : ou.getD (ou.idxOf lo) 0 = lo := by
    rw [List.getD_eq_getElem _ _ hO]; exact List.getElem_idxOf hO
  have gD : du.getD (du.idxOf ld) 0 = ld := by
    rw [List.getD_eq_getElem _ _ hD]; exact List.getElem_idxOf hD
  have ex := hxa i c _ _ hO hD
  have ey := hya i c _ _ hO hD
  rw [gO, gD] at ex ey
  -- amounts of the aligned arrays
  have fin : ∀ {t : Tri K}, Regular t → i < t.values.d0 → c < t.values.d1 → lo ∈ t.odims →
      ld ∈ t.ddims → (t.values.get i c (t.odims.idxOf lo) (t.ddims.idxOf ld)).NoInf := by
    intro t ht h0 h1 h2 h3
    exact ht.finite i h0 c h1 _ (by rw [ht.wf.2.2.1]; exact List.idxOf_lt_length_iff.2 h2) _
      (by rw [ht.wf.2.2.2]; exact List.idxOf_lt_length_iff.2 h3)
  have ax : (xa.get i c (ou.idxOf lo) (du.idxOf ld)).NoInf ∧
      (xa.get i c (ou.idxOf lo) (du.idxOf ld)).amt = amtAt x i c lo ld := by
    rw [ex, amtAt]
    split_ifs with hin
    · exact ⟨fin hx hi hc hin.1 hin.2, rfl⟩
    · simp
  have ay : (ya.get i c (ou.idxOf lo) (du.idxOf ld)).NoInf ∧
      (ya.get i c (ou.idxOf lo) (du.idxOf ld)).amt = amtAt y i c lo ld := by
    rw [ey, amtAt]
    split_ifs with hin
    · exact ⟨fin hy (by omega) (by omega) hin.1 hin.2, rfl⟩
    · simp
  rw [amtAt, if_pos ⟨hlo, hld⟩]
  show (op (xa.get i c (ou.idxOf lo) (du.idxOf ld)).nanToNum
      (ya.get i c (ou.idxOf lo) (du.idxOf ld)).nanToNum * (nanTri _ (ou.idxOf lo)
        (du.idxOf ld)).nanToNum).numToNan.amt = _
  rw [Num.nanToNum_eq ax.1, Num.nanToNum_eq ay.1, ax.2, ay.2, hop]
  rcases nanTri_eq ({ x with
      isPattern := x.isPattern && y.isPattern
      vd := max x.vd y.vd
      odims := ou
      ddims := du
      values := { xa with
        get := fun i c o d => op (xa.get i c o d).nanToNum (ya.get i c o d).nanToNum } } : Tri K) (ou.idxOf lo)
      (du.idxOf ld) with hm | ⟨hm, hv⟩
  · rw [hm, Num.one_def]; simp
  · -- after the valuation date both amounts are 0
    have hages : x.isVal = false → ∀ d ∈ du, d ≤ 9999 := by
      intro hf d hd
      rcases unionSorted_mem.1 hd with h1 | h1
      · exact lx.ages hf d h1
      · exact ly.ages (h.isVal ▸ hf) d h1
    have h9 : ∀ l : List Int, l.Pairwise (· < ·) → (∀ d ∈ l, d ≤ 9999) →
        (9999 : Int) ∉ l.dropLast := by
      intro l hl hle hmem
      rcases List.eq_nil_or_concat l with rfl | ⟨m, b, rfl⟩
      · simp at hmem
      · rw [List.concat_eq_append] at hmem hl hle
        rw [List.dropLast_concat] at hmem
        have h1 := (List.pairwise_append.1 hl).2.2 _ hmem b (by simp)
        have h2 := hle b (by simp)
        omega
    have hO9 : x.isVal = false → (9999 : Int) ∉ du.dropLast := fun hf => h9 _ hdus (hages hf)
    have hv' : valuationOf x.isVal ou du (max x.vd y.vd) (ou.idxOf lo) (du.idxOf ld) >
        max x.vd y.vd := hv
    rw [valuation_label hO9 hD, gO, gD] at hv'
    have zero : ∀ {t : Tri K}, Regular t → t.isVal = x.isVal → t.vd ≤ max x.vd y.vd →
        i < t.values.d0 → c < t.values.d1 → amtAt t i c lo ld = 0 := by
      intro t ht hval hle h0 h1
      unfold amtAt
      split_ifs with hin
      · have hO' := List.idxOf_lt_length_iff.2 hin.1
        have hD' := List.idxOf_lt_length_iff.2 hin.2
        have : t.values.get i c (t.odims.idxOf lo) (t.ddims.idxOf ld) = .nan := by
          apply ht.known i h0 c h1 _ (by rw [ht.wf.2.2.1]; exact hO') _
            (by rw [ht.wf.2.2.2]; exact hD')
          unfold valuation
          rw [valuation_label (fun hf => (ht.ordered hf).2.2) hD', List.getD_eq_getElem _ _ hD',
            List.getD_eq_getElem _ _ hO', List.getElem_idxOf, List.getElem_idxOf, hval]
          by_cases hf : x.isVal = true
          · rw [hf] at hv' ⊢; simp only [if_true] at hv' ⊢; omega
          · have hf' : x.isVal = false := by simpa using hf
            rw [hf'] at hv' ⊢
            simp only [Bool.false_eq_true, if_false] at hv' ⊢
            have := (ht.ordered (hval.trans hf')).1 lo hin.1
            split_ifs at hv' ⊢ with h4
            · omega
            · rw [min_eq_left this]
              rw [min_eq_left (le_trans this hle)] at hv'
              omega
        rw [this]; simp
      · rfl
    rw [zero hx rfl (le_max_left _ _) hi hc,
      zero hy h.isVal.symm (le_max_right _ _) (by omega) (by omega), hm, hz]
    simp

/-- **C11** (partial: both operands have at least two origins and developments with increasing
labels, neither has a gap filled by the other, and the origins or developments have different
lengths or differ at every position; see `C11_overlap_false` and `C11_gap_false`).
The sum has exactly the labels of the two operands, and under each of them the sum of the amounts
the operands have under these labels. -/
theorem C11_add_partial {x y : Tri K} (h : SameButDates x y) (hx : Regular x) (hy : Regular y)
    (lx : Labelled x) (ly : Labelled y) (gxo : NoGap x.odims y.odims) (gyo : NoGap y.odims x.odims)
    (gxd : NoGap x.ddims y.ddims) (gyd : NoGap y.ddims x.ddims)
    (hb : Apart x.odims y.odims ∨ Apart x.ddims y.ddims) :
    ∃ z, x.add y = .ok z ∧ z.kdims = x.kdims ∧ z.vdims = x.vdims ∧ z.vd = max x.vd y.vd ∧ WF z ∧
      z.odims.Pairwise (· < ·) ∧ (∀ l, l ∈ z.odims ↔ l ∈ x.odims ∨ l ∈ y.odims) ∧
      z.ddims.Pairwise (· < ·) ∧ (∀ l, l ∈ z.ddims ↔ l ∈ x.ddims ∨ l ∈ y.ddims) ∧
      ∀ i < x.values.d0, ∀ c < x.values.d1, ∀ lo ∈ z.odims, ∀ ld ∈ z.ddims,
        amtAt z i c lo ld = amtAt x i c lo ld + amtAt y i c lo ld := by
  obtain ⟨z, hz, c⟩ := aligned_op h hx hy lx ly gxo gyo gxd gyd hb (f := (· + ·)) (op := (· + ·))
    (fun _ _ => rfl) (add_zero _) addArr (fun u a hs => addArr_same hs)
  exact ⟨z, hz, c.kdims, c.vdims, c.vd, c.wf, c.origins, c.mem_origins, c.developments, c.mem_developments,
    c.amounts⟩

/-- **C11** (difference, partial as `C11_add_partial`): under each label of either operand the difference of the
amounts, a label an operand does not have counting as zero. -/
theorem C11_sub_partial {x y : Tri K} (h : SameButDates x y) (hx : Regular x) (hy : Regular y)
    (lx : Labelled x) (ly : Labelled y) (gxo : NoGap x.odims y.odims) (gyo : NoGap y.odims x.odims)
    (gxd : NoGap x.ddims y.ddims) (gyd : NoGap y.ddims x.ddims)
    (hb : Apart x.odims y.odims ∨ Apart x.ddims y.ddims) :
    ∃ z, x.sub y = .ok z ∧ Combined (· - ·) x y z := by
  obtain ⟨z, hz, c⟩ := aligned_op h hx hy lx ly gxo gyo gxd gyd hb (f := (· - ·)) (op := (· - ·))
    (fun a b => Num.fin_sub_fin a b) (sub_zero _) subArr (fun u a hs => subArr_same hs)
  exact ⟨z, hz, c⟩

/-- Origins 2021 to 2023, ages 12 and 24. -/
def C11_next : Tri ℚ where
  kdims := [["Total"]]
  keyLabels := ["Total"]
  vdims := ["paid"]
  odims := [24252, 24264, 24276]
  ddims := [12, 24]
  isVal := false
  ograin := .Y
  dgrain := .Y
  vd := 24287
  isCum := some true
  isPattern := false
  isAdditive := none
  values := ⟨1, 1, 3, 2, fun _ _ o d => if o + d < 3 then .fin (10 * o + d + 1) else .nan⟩

example : ∃ z, (Ex.tri3 (some true) Ex.cum3).add C11_next = .ok z ∧
    amtAt z 0 0 24252 24 = 170 ∧ amtAt z 0 0 24240 36 = 165 ∧ amtAt z 0 0 24276 12 = 21 := by
  obtain ⟨z, e, -, -, -, -, -, ho, -, hd, h⟩ := C11_add_partial (x := Ex.tri3 (some true) Ex.cum3)
    (y := C11_next) ⟨rfl, rfl, rfl, rfl, rfl, rfl⟩ (Ex.proper_tri3 (some true)).regular
    ⟨by decide, by decide, by decide, by decide⟩
    ⟨by decide, by decide, by decide, by decide, by decide⟩
    ⟨by decide, by decide, by decide, by decide, by decide⟩
    (by unfold NoGap; decide) (by unfold NoGap; decide) (by unfold NoGap; decide)
    (by unfold NoGap; decide) (Or.inr (Or.inl (by decide)))
  refine ⟨z, e, ?_, ?_, ?_⟩
  · rw [h 0 (by decide) 0 (by decide) _ ((ho _).2 (by decide)) _ ((hd _).2 (by decide))]
    decide +kernel
  · rw [h 0 (by decide) 0 (by decide) _ ((ho _).2 (by decide)) _ ((hd _).2 (by decide))]
    decide +kernel
  · rw [h 0 (by decide) 0 (by decide) _ ((ho _).2 (by decide)) _ ((hd _).2 (by decide))]
    decide +kernel

example : ∃ z, (Ex.tri3 (some true) Ex.cum3).sub C11_next = .ok z ∧
    amtAt z 0 0 24252 24 = 166 ∧ amtAt z 0 0 24240 36 = 165 ∧ amtAt z 0 0 24276 12 = -21 := by
  obtain ⟨z, e, -, -, -, -, -, ho, -, hd, -, h⟩ := C11_sub_partial (x := Ex.tri3 (some true) Ex.cum3)
    (y := C11_next) ⟨rfl, rfl, rfl, rfl, rfl, rfl⟩ (Ex.proper_tri3 (some true)).regular
    ⟨by decide, by decide, by decide, by decide⟩
    ⟨by decide, by decide, by decide, by decide, by decide⟩
    ⟨by decide, by decide, by decide, by decide, by decide⟩
    (by unfold NoGap; decide) (by unfold NoGap; decide) (by unfold NoGap; decide)
    (by unfold NoGap; decide) (Or.inr (Or.inl (by decide)))
  refine ⟨z, e, ?_, ?_, ?_⟩
  · rw [h 0 (by decide) 0 (by decide) _ ((ho _).2 (by decide)) _ ((hd _).2 (by decide))]
    decide +kernel
  · rw [h 0 (by decide) 0 (by decide) _ ((ho _).2 (by decide)) _ ((hd _).2 (by decide))]
    decide +kernel
  · rw [h 0 (by decide) 0 (by decide) _ ((ho _).2 (by decide)) _ ((hd _).2 (by decide))]
    decide +kernel

/-- **C11 is false for axes of the same length that share a position**: the first two ages plus
every other age of one triangle puts the amount of age 36 under age 24. -/
theorem C11_overlap_false : ∃ t x y z : Tri ℚ, Proper t ∧ t.ilocD (.upto 2) = .ok x ∧
    t.ilocD (.lst [0, 2]) = .ok y ∧ x.add y = .ok z ∧
    y.ddims = [12, 36] ∧ amtAt x 0 0 24240 24 = 150 ∧ amtAt y 0 0 24240 24 = 0 ∧
    z.ddims = [12, 24] ∧ amtAt z 0 0 24240 24 = 315 := by
  have ex : (Ex.tri3 (some true) Ex.cum3).ilocD (.upto 2) = .ok
      ((Ex.tri3 (some true) Ex.cum3).picked [0] [0] [0, 1, 2] [0, 1] 24275) := rfl
  have ey : (Ex.tri3 (some true) Ex.cum3).ilocD (.lst [0, 2]) = .ok
      ((Ex.tri3 (some true) Ex.cum3).picked [0] [0] [0, 1, 2] [0, 2] 24275) := rfl
  refine ⟨Ex.tri3 (some true) Ex.cum3, _, _, _, Ex.proper_tri3 _, ex, ey, rfl, ?_⟩
  decide +kernel

/-- **C11 is false when one operand fills a gap of the other**: the sum raises. -/
theorem C11_gap_false : ∃ t y : Tri ℚ, Proper t ∧
    t.ilocD (.lst [0, 2]) = .ok y ∧ y.ddims = [12, 36] ∧
    t.add y = .error .valueError := by
  have ey : (Ex.tri3 (some true) Ex.cum3).ilocD (.lst [0, 2]) = .ok
      ((Ex.tri3 (some true) Ex.cum3).picked [0] [0] [0, 1, 2] [0, 2] 24275) := rfl
  refine ⟨Ex.tri3 (some true) Ex.cum3, _, Ex.proper_tri3 _, ey, rfl, ?_⟩
  have e1 : unionSorted [24240, 24252, 24264] [24240, 24252, 24264] = [24240, 24252, 24264] :=
    unionSorted_eq (by decide) (by simp)
  have e2 : unionSorted [12, 24, 36] [12, 36] = [12, 24, 36] :=
    unionSorted_eq (by decide) (by intro x; simp; omega)
  have e3 : validate (Ex.tri3 (some true) Ex.cum3)
      ((Ex.tri3 (some true) Ex.cum3).picked [0] [0] [0, 1, 2] [0, 2] 24275) =
      .error .valueError := by
    have e4 : prepOriginDev 1 1 (Ex.tri3 (some true) Ex.cum3)
        ((Ex.tri3 (some true) Ex.cum3).picked [0] [0] [0, 1, 2] [0, 2] 24275) =
        .error .valueError := by
      have hb : broadcastable (Ex.tri3 (some true) Ex.cum3)
        ((Ex.tri3 (some true) Ex.cum3).picked [0] [0] [0, 1, 2] [0, 2] 24275) = false := by
        decide
      unfold prepOriginDev
      have hr : relabelOnes (Ex.tri3 (some true) Ex.cum3)
          ((Ex.tri3 (some true) Ex.cum3).picked [0] [0] [0, 1, 2] [0, 2] 24275) =
          (Ex.tri3 (some true) Ex.cum3,
            (Ex.tri3 (some true) Ex.cum3).picked [0] [0] [0, 1, 2] [0, 2] 24275) := rfl
      rw [hb, hr]
      simp only [picked, Ex.tri3, List.map_cons, List.map_nil, List.getD_cons_zero,
        List.getD_cons_succ, e1, e2]
      rfl
    show (do
      let ((x2 : Tri ℚ), (y2 : Tri ℚ)) ← prepOriginDev 1 1 (Ex.tri3 (some true) Ex.cum3)
        ((Ex.tri3 (some true) Ex.cum3).picked [0] [0] [0, 1, 2] [0, 2] 24275)
      let ((x3 : Tri ℚ), (y3 : Tri ℚ)) ← prepIndex x2 y2
      (.ok (x3, y3.values) : Except Err (Tri ℚ × Arr ℚ))) = _
    rw [e4]
    rfl
  unfold add
  rw [e3]
  rfl

end Tri
end CL
