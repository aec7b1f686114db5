import Verif.Props.C78

set_option linter.unusedSectionVars false

/-! # C79: arithmetic between triangles with the same rows in another order -/

namespace CL
namespace Tri
variable {K : Type} [Field K] [LinearOrder K] [IsStrictOrderedRing K]

/-- The cell of a result: sums and differences take missing amounts as zero and are masked with the
`nan_triangle` `m`. -/
def BinOp.cell (op : BinOp) (m a b : Num K) : Num K :=
  match op with
  | .add => ((a.nanToNum + b.nanToNum) * m.nanToNum).numToNan
  | .sub => ((a.nanToNum - b.nanToNum) * m.nanToNum).numToNan
  | .mul => a * b
  | .div => a / b

/-- The same labels on all axes, but the rows in another order. -/
structure Shuffled (x y : Tri K) : Prop where
  wx : WF x
  wy : WF y
  ograin : x.ograin = y.ograin
  dgrain : x.dgrain = y.dgrain
  isVal : x.isVal = y.isVal
  vdims : x.vdims = y.vdims
  odims : x.odims = y.odims
  ddims : x.ddims = y.ddims
  dev : 1 ≤ x.ddims.length
  keyLabels : x.keyLabels = y.keyLabels
  rows : x.kdims.Perm y.kdims
  other : x.kdims ≠ y.kdims
  distinct : x.kdims.Nodup

/-- Each row of `x` is combined with the row of `y` that has the same key; the rows are sorted. -/
structure Aligned (op : BinOp) (x y u : Tri K) : Prop where
  wf : WF u
  rows : u.kdims.Perm x.kdims
  sorted : u.kdims.Pairwise (· ≤ ·)
  keyLabels : u.keyLabels = x.keyLabels
  vdims : u.vdims = x.vdims
  odims : u.odims = x.odims
  ddims : u.ddims = x.ddims
  isVal : u.isVal = x.isVal
  cells : ∀ n i j, i < x.kdims.length → u.kdims[n]? = x.kdims[i]? → u.kdims[n]? = y.kdims[j]? →
    ∀ c < x.vdims.length, ∀ o < x.odims.length, ∀ d < x.ddims.length,
      u.values.get n c o d = op.cell (u.nanTri o d) (x.values.get i c o d) (y.values.get j c o d)

theorem rows_at_idxOf {l : List (List String)} {a : List String} (h : a ∈ l) : l[l.idxOf a]? = some a := by
  have := List.idxOf_lt_length_of_mem h
  rw [List.getElem?_eq_getElem this, List.getElem_idxOf]

/-- Two rows of different keys are at different positions. -/
theorem idxOf_nodup {l m : List (List String)} (hm : m.Nodup) (h : ∀ a ∈ m, a ∈ l) : (m.map l.idxOf).Nodup := by
  refine List.Nodup.map_on ?_ hm
  intro a ha b hb e
  have h1 := rows_at_idxOf (h a ha)
  have h2 := rows_at_idxOf (h b hb)
  rw [e, h2] at h1
  exact (Option.some.inj h1).symm

theorem not_one {α : Type} {a b : List α} (h : a.Perm b) (hne : a ≠ b) : 1 < a.length := by
  by_contra hlt
  have : a.length = 0 ∨ a.length = 1 := by omega
  rcases this with e | e
  · rw [List.length_eq_zero_iff] at e
    subst e
    exact hne (List.nil_perm.mp h).symm
  · obtain ⟨z, rfl⟩ := List.length_eq_one_iff.mp e
    exact hne (List.singleton_perm.mp h)

theorem zip_equal (f : Num K → Num K → Num K) {a b : Arr K} (h0 : b.d0 = a.d0) (h1 : b.d1 = a.d1)
    (h2 : b.d2 = a.d2) (h3 : b.d3 = a.d3) :
    Arr.zip f a b = .ok { a with get := fun i c o d => f (a.get i c o d) (b.get i c o d) } := by
  unfold Arr.zip
  simp [Arr.bdim, h0, h1, h2, h3, Arr.bix]

theorem arr_equal (op : BinOp) {t : Tri K} {b : Arr K} (h0 : b.d0 = t.values.d0) (h1 : b.d1 = t.values.d1)
    (h2 : b.d2 = t.values.d2) (h3 : b.d3 = t.values.d3) :
    op.arr t b = .ok { t with values := { t.values with
      get := fun i c o d => op.cell (t.nanTri o d) (t.values.get i c o d) (b.get i c o d) } } := by
  cases op <;>
  · simp only [BinOp.arr, addArr, subArr, mulArr, divArr, zipArr, zip_equal _ h0 h1 h2 h3, bind, Except.bind]
    rfl

/-- **C79, partial: the same columns, origins and developments.**  `x + y`, `x - y`, `x * y` and `x / y`
of triangles with the same rows in another order combine the rows by their keys, not by their places. -/
theorem C79_partial (op : BinOp) (labels : List String) (keys : List (List String)) {x y : Tri K}
    (h : Shuffled x y) : ∃ u, arithAny op labels keys x y = .ok u ∧ Aligned op x y u := by
  have hp := prepared h.wx h.wy h.odims h.ddims h.isVal h.vdims (x.isPattern && y.isPattern)
    (max x.vd y.vd) x.values.d0 x.values.d1
  have hprep : prepare x y = .ok (({ x with isPattern := x.isPattern && y.isPattern, vd := max x.vd y.vd } : Tri K),
      ({ y with isPattern := x.isPattern && y.isPattern } : Tri K)) := by
    unfold prepare
    have e1 : ¬ (x.ograin ≠ y.ograin ∨ (x.dgrain ≠ y.dgrain ∧ min x.values.d3 y.values.d3 > 1)) := by
      rintro (g | g)
      · exact g h.ograin
      · exact g.1 h.dgrain
    rw [if_neg e1]
    exact hp
  have hlen := not_one h.rows h.other
  have hll : x.kdims.length = y.kdims.length := h.rows.length_eq
  set a : Tri K := { x with isPattern := x.isPattern && y.isPattern, vd := max x.vd y.vd } with ha
  set b : Tri K := { y with isPattern := x.isPattern && y.isPattern } with hb
  have hg : a.groupsIndex b = false := by
    have hself : (y.keyLabels.all fun l => y.keyLabels.contains l) = true := by simp
    simp only [groupsIndex, ha, hb, h.keyLabels, hll, hself]
    simp
  have hs : a.sortsIndex b = true := by
    unfold sortsIndex
    exact decide_eq_true ⟨h.keyLabels, hll, hlen, h.other⟩
  obtain ⟨w, ew⟩ := sortIndex_spec (t := a) h.wx (by show 1 ≤ x.kdims.length; omega) h.dev
  set S := sortPositions x.kdims with hS
  have ew' : a.sortIndex = .ok (a.rowsOf S w) := ew
  have hkp : (a.rowsOf S w).kdims.Perm x.kdims := by
    show (S.map (x.kdims.getD · [])).Perm x.kdims
    have := (sortPositions_perm x.kdims).map (x.kdims.getD · [])
    rwa [map_getD_range] at this
  have hin : ∀ k ∈ (a.rowsOf S w).kdims, k ∈ y.kdims := fun k hk =>
    h.rows.mem_iff.mp (hkp.mem_iff.mp hk)
  have hall : ((a.rowsOf S w).kdims.all fun k => decide (k ∈ b.kdims)) = true := by
    rw [List.all_eq_true]
    intro k hk
    exact decide_eq_true (hin k hk)
  have lS : S.length = x.kdims.length := sortPositions_length _
  set R := (a.rowsOf S w).kdims.map y.kdims.idxOf with hR
  have lR : R.length = x.kdims.length := by
    rw [hR, List.length_map, hkp.length_eq]
  obtain ⟨v, ev⟩ := ilocAx_rows (t := b) h.wy (by show 1 ≤ y.ddims.length; rw [← h.ddims]; exact h.dev) (l := R)
    (by intro e; rw [e] at lR; simp at lR; omega)
    (by
      intro i hi
      obtain ⟨k, hk, rfl⟩ := List.mem_map.mp hi
      exact List.idxOf_lt_length_of_mem (hin k hk))
    (idxOf_nodup (hkp.nodup_iff.mpr h.distinct) hin)
  have hmm : R.map (fun i : Nat => (i : Int)) = (a.rowsOf S w).kdims.map fun k => (b.kdims.idxOf k : Int) := by
    rw [hR, List.map_map]; rfl
  rw [hmm] at ev
  have q0 : (b.rowsOf R v).values.d0 = (a.rowsOf S w).values.d0 := by
    show R.length = S.length; rw [lR, lS]
  have q1 : (b.rowsOf R v).values.d1 = (a.rowsOf S w).values.d1 := by
    show (List.range y.values.d1).length = (List.range x.values.d1).length
    rw [List.length_range, List.length_range, h.wx.2.1, h.wy.2.1, h.vdims]
  have q2 : (b.rowsOf R v).values.d2 = (a.rowsOf S w).values.d2 := by
    show (List.range y.values.d2).length = (List.range x.values.d2).length
    rw [List.length_range, List.length_range, h.wx.2.2.1, h.wy.2.2.1, h.odims]
  have q3 : (b.rowsOf R v).values.d3 = (a.rowsOf S w).values.d3 := by
    show (List.range y.values.d3).length = (List.range x.values.d3).length
    rw [List.length_range, List.length_range, h.wx.2.2.2, h.wy.2.2.2, h.ddims]
  have harr := arr_equal op q0 q1 q2 q3
  have hrun : arithAny op labels keys x y = op.arr (a.rowsOf S w) (b.rowsOf R v).values := by
    unfold arithAny
    rw [hprep]
    simp only [bind, Except.bind]
    rw [if_neg (by rw [hg]; decide), if_pos hs, ew']
    simp only []
    rw [if_pos hall, ev]
  refine ⟨_, hrun.trans harr, ?_⟩
  have wr := wf_rowsOf (t := a) h.wx S w
  refine ⟨⟨wr.1, wr.2.1, wr.2.2.1, wr.2.2.2⟩, hkp, sortPositions_sorted _, rfl, rfl, rfl, rfl, rfl, ?_⟩
  intro n i j hi he he' c hc o ho d hd
  have hn : n < (a.rowsOf S w).kdims.length := by
    have : (a.rowsOf S w).kdims[n]? = x.kdims[i]? := he
    rw [List.getElem?_eq_getElem hi] at this
    exact (List.getElem?_eq_some_iff.mp this).1
  have hnS : n < S.length := by rw [lS, ← hkp.length_eq]; exact hn
  have hnR : n < R.length := by rw [lR, ← hkp.length_eq]; exact hn
  have k1 : (a.rowsOf S w).kdims[n]? = some (a.rowsOf S w).kdims[n] := List.getElem?_eq_getElem hn
  have e1 : S[n] = i := by
    have hlt : S[n] < x.kdims.length := mem_sortPositions.mp (List.getElem_mem hnS)
    have e : (a.rowsOf S w).kdims[n]? = some x.kdims[S[n]] := by
      show (S.map (x.kdims.getD · []))[n]? = _
      rw [List.getElem?_map, List.getElem?_eq_getElem hnS, Option.map_some, List.getD_eq_getElem _ _ hlt]
    have he1 : (a.rowsOf S w).kdims[n]? = x.kdims[i]? := he
    rw [e, List.getElem?_eq_getElem hi, Option.some_inj] at he1
    exact (h.distinct.getElem_inj_iff).mp he1
  have e2 : R[n] = j := by
    have he2 : (a.rowsOf S w).kdims[n]? = y.kdims[j]? := he'
    rw [k1] at he2
    obtain ⟨hj, ej⟩ := List.getElem?_eq_some_iff.mp he2.symm
    have hmem := hin _ (List.getElem_mem hn)
    obtain ⟨h4, h5⟩ := List.getElem?_eq_some_iff.mp (rows_at_idxOf hmem)
    have : R[n] = y.kdims.idxOf (a.rowsOf S w).kdims[n] := by
      simp only [hR, List.getElem_map]
    rw [this]
    exact ((h.rows.nodup_iff.mp h.distinct).getElem_inj_iff).mp (h5.trans ej.symm)
  have r1 : c < x.values.d1 := by rw [h.wx.2.1]; exact hc
  have r2 : o < x.values.d2 := by rw [h.wx.2.2.1]; exact ho
  have r3 : d < x.values.d3 := by rw [h.wx.2.2.2]; exact hd
  have s1 : c < y.values.d1 := by rw [h.wy.2.1, ← h.vdims]; exact hc
  have s2 : o < y.values.d2 := by rw [h.wy.2.2.1, ← h.odims]; exact ho
  have s3 : d < y.values.d3 := by rw [h.wy.2.2.2, ← h.ddims]; exact hd
  have g1 : (a.rowsOf S w).values.get n c o d = x.values.get i c o d := by
    show x.values.get (S.getD n 0) ((List.range x.values.d1).getD c 0) ((List.range x.values.d2).getD o 0)
      ((List.range x.values.d3).getD d 0) = _
    rw [range_getD' r1, range_getD' r2, range_getD' r3, List.getD_eq_getElem _ _ hnS, e1]
  have g2 : (b.rowsOf R v).values.get n c o d = y.values.get j c o d := by
    show y.values.get (R.getD n 0) ((List.range y.values.d1).getD c 0) ((List.range y.values.d2).getD o 0)
      ((List.range y.values.d3).getD d 0) = _
    rw [range_getD' s1, range_getD' s2, range_getD' s3, List.getD_eq_getElem _ _ hnR, e2]
  show op.cell ((a.rowsOf S w).nanTri o d) ((a.rowsOf S w).values.get n c o d)
    ((b.rowsOf R v).values.get n c o d) = _
  rw [g1, g2]
  rfl

/-! ## Examples -/

/-- Three rows. -/
private def earlier : Tri ℚ :=
  { Ex.tri3 (some true) Ex.cum3 with
    kdims := [["b", "auto"], ["a", "home"], ["a", "auto"]]
    keyLabels := ["company", "lob"]
    values := ⟨3, 1, 3, 3, fun i _ o d => Ex.cum3 o d * .fin (i + 1)⟩ }

/-- The same rows in another order. -/
private def later : Tri ℚ :=
  { Ex.tri3 (some true) Ex.cum3 with
    kdims := [["a", "home"], ["b", "auto"], ["a", "auto"]]
    keyLabels := ["company", "lob"]
    values := ⟨3, 1, 3, 3, fun i _ _ _ => .fin (10 ^ i)⟩ }

/-- The hypotheses of `C79_partial` hold of these triangles. -/
theorem example_shuffled : Shuffled earlier later where
  wx := ⟨rfl, rfl, rfl, rfl⟩
  wy := ⟨rfl, rfl, rfl, rfl⟩
  ograin := rfl
  dgrain := rfl
  isVal := rfl
  vdims := rfl
  odims := rfl
  ddims := rfl
  dev := by decide
  keyLabels := rfl
  rows := List.Perm.swap _ _ _
  other := by decide
  distinct := by decide

/-- **C79 is false of the order of the rows**: the product keeps neither the order of `x` nor that of `y`.  The
sum has no amounts beyond the valuation date, although `y` does. -/
theorem C79_order_false : ∃ x y u w : Tri ℚ, Shuffled x y ∧ arithAny .mul [] [] x y = .ok u ∧
    u.kdims ≠ x.kdims ∧ u.kdims ≠ y.kdims ∧ u.kdims = [["a", "auto"], ["a", "home"], ["b", "auto"]] ∧
    u.values.get 0 0 0 0 = .fin 30000 ∧ u.values.get 1 0 0 0 = .fin 200 ∧ u.values.get 2 0 0 0 = .fin 1000 ∧
    arithAny .add [] [] x y = .ok w ∧ w.values.get 0 0 0 0 = .fin 400 ∧ w.values.get 0 0 2 2 = .nan := by
  obtain ⟨u, h1, h2, h3, h4, h5⟩ := ok_of (x := arithAny .mul [] [] earlier later)
    (fun u : Tri ℚ => u.kdims = [["a", "auto"], ["a", "home"], ["b", "auto"]] ∧
      u.values.get 0 0 0 0 = .fin 30000 ∧ u.values.get 1 0 0 0 = .fin 200 ∧
      u.values.get 2 0 0 0 = .fin 1000) (by decide +kernel)
  obtain ⟨w, h6, h7, h8⟩ := ok_of (x := arithAny .add [] [] earlier later)
    (fun u : Tri ℚ => u.values.get 0 0 0 0 = .fin 400 ∧ u.values.get 0 0 2 2 = .nan) (by decide +kernel)
  refine ⟨earlier, later, u, w, example_shuffled, h1, ?_, ?_, h2, h3, h4, h5, h6, h7, h8⟩
  · rw [h2]; decide
  · rw [h2]; decide

/-- Trade between two countries. -/
private def trade : Tri ℚ :=
  { Ex.tri3 (some true) Ex.cum3 with
    kdims := [["us", "fr"], ["fr", "us"]]
    keyLabels := ["from", "to"]
    values := ⟨2, 1, 3, 3, fun i _ o d => Ex.cum3 o d * .fin (i + 1)⟩ }

/-- The same amounts with the labels of the index in the other order. -/
private def tradeSwapped : Tri ℚ :=
  { trade with
    keyLabels := ["to", "from"]
    values := ⟨2, 1, 3, 3, fun i _ o d => Ex.cum3 o d * .fin (2 - i)⟩ }

/-- **C79 is false when the index labels come in another order.**  `_prep_index` compares the sets of labels and the
keys, but not the order of the labels: here the keys are the same lists under swapped labels, and the amounts
from `us` to `fr` are added to those from `fr` to `us`. -/
theorem C79_labels_false : ∃ x y u : Tri ℚ, WF x ∧ WF y ∧ x.keyLabels.Perm y.keyLabels ∧
    x.vdims = y.vdims ∧ x.odims = y.odims ∧ x.ddims = y.ddims ∧
    SharesKey x 0 y 1 ∧ ¬ SharesKey x 0 y 0 ∧ arithAny .add [] [] x y = .ok u ∧ u.kdims = x.kdims ∧
    u.keyLabels = x.keyLabels ∧ u.values.get 0 0 0 0 = x.values.get 0 0 0 0 + y.values.get 0 0 0 0 ∧
    u.values.get 0 0 0 0 ≠ x.values.get 0 0 0 0 + y.values.get 1 0 0 0 := by
  obtain ⟨u, h1, h2, h3, h4, h5⟩ := ok_of (x := arithAny .add [] [] trade tradeSwapped)
    (fun u : Tri ℚ => u.kdims = trade.kdims ∧ u.keyLabels = trade.keyLabels ∧
      u.values.get 0 0 0 0 = trade.values.get 0 0 0 0 + tradeSwapped.values.get 0 0 0 0 ∧
      u.values.get 0 0 0 0 ≠ trade.values.get 0 0 0 0 + tradeSwapped.values.get 1 0 0 0) (by decide +kernel)
  refine ⟨trade, tradeSwapped, u, ⟨rfl, rfl, rfl, rfl⟩, ⟨rfl, rfl, rfl, rfl⟩, List.Perm.swap _ _ _, rfl, rfl, rfl, ?_, ?_,
    h1, h2, h3, h4, h5⟩
  · intro p q l hp hq
    have hp2 : p < 2 := (List.getElem?_eq_some_iff.mp hp).1
    have hq2 : q < 2 := (List.getElem?_eq_some_iff.mp hq).1
    have e : trade.keyLabels[p]? = tradeSwapped.keyLabels[q]? := hp.trans hq.symm
    match p, hp2, q, hq2, e with
    | 0, _, 0, _, e => exact absurd e (by decide)
    | 0, _, 1, _, _ => decide
    | 1, _, 0, _, _ => decide
    | 1, _, 1, _, e => exact absurd e (by decide)
  · intro h
    exact absurd (h 0 1 "from" rfl rfl) (by decide)

end Tri
end CL
