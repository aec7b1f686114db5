import Verif.Props.C09
import Verif.Props.C14
import Verif.Lemmas.Filter

set_option linter.unusedSectionVars false

/-! # C12: binary arithmetic aligns columns by name -/

namespace CL
namespace Tri
variable {K : Type} [Field K] [LinearOrder K] [IsStrictOrderedRing K]

/-- `t` with empty columns appended. -/
private def addCols (t : Tri K) (cols : List String) : Tri K :=
  { t with
    vdims := t.vdims ++ cols
    values := { t.values with
      d1 := t.values.d1 + cols.length
      get := fun i c o d => if c < t.values.d1 then t.values.get i c o d else .nan } }

private theorem zeroed (v m : Num K) :
    (((v * 0).nanToNum + (0 : Num K).nanToNum) * m.nanToNum).numToNan = .nan := by
  obtain ⟨a, ha⟩ := Num.nanToNum_isFin m
  have hv : (v * 0).nanToNum = .fin 0 := by
    cases v <;> simp [Num.zero_def, Num.pinf_mul_fin, Num.ninf_mul_fin, Num.infMul]
  rw [ha, hv]
  simp [Num.zero_def]

private theorem append_eq {t : Tri K} (key : String) (h1 : 0 < t.values.d1)
    (hd : t.isVal = true ∨ 0 < t.values.d3) :
    t.appendScalarCol key 0 = .ok (addCols t [key]) := by
  have hS : ∀ n, Sel n (.slc .all) (List.range n) := fun n => (selS_all n).sel
  have hdr : t.isVal = true ∨ List.range t.values.d3 ≠ [] := by
    rcases hd with h | h
    · exact Or.inl h
    · right; apply List.ne_nil_of_mem (a := 0); simpa using h
  have s0 : Sel t.values.d1 (.int 0) [0] := by
    refine ⟨.int 0, .slc ⟨some 0, some 1, none⟩, ?_, rfl, ?_⟩
    · have h2 : ¬ ((0 : Int) ≥ t.values.d1 ∨ (0 : Int) < -(t.values.d1 : Int)) := by omega
      simp only [normalizeKey, sparseNormalize, if_neg h2]
      simp
    · have hb : min (1 : Int) t.values.d1 = 1 := by omega
      simp [Key.positions, PySlice.positions, PySlice.indices, hb, pyRange_one]
  unfold appendScalarCol
  rw [iloc_of_sel (hS _) s0 (selS_all _) (selS_all _), pick_eq t _ _ _ _ hdr]
  simp only [bind, Except.bind, mulArr, addArr, zipArr]
  rw [Arr.zip_scalar]
  simp only
  rw [Arr.zip_scalar]
  simp only [addCols, List.length_cons, List.length_nil]
  congr 2
  congr 1
  funext i c o d
  split_ifs
  · rfl
  · exact zeroed _ _

private theorem reindex_eq {t : Tri K} (wf : WF t) (h1 : 0 < t.values.d1)
    (hd : t.isVal = true ∨ 0 < t.values.d3) (cols : List String) (hne : cols ≠ []) (hn : cols.Nodup)
    (hx : ∀ c ∈ cols, c ∉ t.vdims) : t.reindex (t.vdims ++ cols) 0 = .ok (addCols t cols) := by
  unfold reindex
  rw [List.foldlM_append]
  have e1 : ∀ l : List String, (∀ c ∈ l, c ∈ t.vdims) → l.foldlM (fun t c =>
      if t.vdims.contains c then .ok t else t.appendScalarCol c 0) t = (.ok t : Except Err (Tri K)) := by
    intro l
    induction l with
    | nil => intro _; rfl
    | cons a l ih =>
      intro h
      have ha : t.vdims.contains a = true := by simpa using h a (by simp)
      rw [List.foldlM_cons, if_pos ha]
      exact ih fun c hc => h c (by simp [hc])
  rw [e1 _ fun c hc => hc]
  have e2 : ∀ (l done : List String), (done ++ l).Nodup → (∀ c ∈ done ++ l, c ∉ t.vdims) →
      l.foldlM (fun t c => if t.vdims.contains c then .ok t else t.appendScalarCol c 0)
        (addCols t done) = (.ok (addCols t (done ++ l)) : Except Err (Tri K)) := by
    intro l
    induction l with
    | nil => intro done _ _; simp; rfl
    | cons a l ih =>
      intro done hn hx
      have ha : (addCols t done).vdims.contains a = false := by
        have h1 := hx a (by simp)
        have h2 : a ∉ done := by
          intro h
          exact (List.nodup_append.1 hn).2.2 a h a (by simp) rfl
        simp [addCols, h1, h2]
      rw [List.foldlM_cons, if_neg (by rw [ha]; simp), append_eq a (by simp [addCols]; omega)
        (by exact hd)]
      have e : addCols (addCols t done) [a] = addCols t (done ++ [a]) := by
        simp only [addCols, List.append_assoc, List.length_append, List.length_cons,
          List.length_nil, zero_add, Nat.add_assoc]
        congr 2
        funext i c o d
        by_cases h : c < t.values.d1
        · have h' : c < t.values.d1 + done.length := by omega
          simp only [h, h', if_true]
        · simp only [h, if_false, ite_self]
      simp only [bind, Except.bind]
      rw [e]
      have := ih (done ++ [a]) (by simpa using hn) (by simpa using hx)
      rw [this]
      simp
  cases cols with
  | nil => exact absurd rfl hne
  | cons a l =>
    have ha : t.vdims.contains a = false := by
      have := hx a (by simp)
      simpa using this
    have hh : (do
        let t ← (.ok t : Except Err (Tri K))
        (a :: l).foldlM (fun (t : Tri K) c => if t.vdims.contains c then .ok t else t.appendScalarCol c 0) t) =
        .ok (addCols t (a :: l)) := by
      simp only [bind, Except.bind]
      rw [List.foldlM_cons, if_neg (by rw [ha]; simp), append_eq a h1 hd]
      exact e2 l [a] (by simpa using hn) (by simpa using hx)
    exact hh

private theorem getCols_eq {t : Tri K} (wf : WF t) (hd : t.isVal = true ∨ 0 < t.values.d3)
    {cols : List String} (hn : cols.Nodup) (h2 : 2 ≤ cols.length) (hx : ∀ c ∈ cols, c ∈ t.vdims) :
    ∃ v, t.getCols cols = .ok (t.picked (List.range t.values.d0) (cols.map t.vdims.idxOf)
      (List.range t.values.d2) (List.range t.values.d3) v) ∧
      v = ((t.picked (List.range t.values.d0) (cols.map t.vdims.idxOf)
        (List.range t.values.d2) (List.range t.values.d3) t.vd).valuations.max?).elim t.vd
          fun m => min m t.vd := by
  have hS : ∀ n, Sel n (.slc .all) (List.range n) := fun n => (selS_all n).sel
  have hdr : t.isVal = true ∨ List.range t.values.d3 ≠ [] := by
    rcases hd with h | h
    · exact Or.inl h
    · right; apply List.ne_nil_of_mem (a := 0); simpa using h
  have hall : (cols.all fun c => t.vdims.contains c) = true := by
    simpa using hx
  have hlt : ∀ c ∈ cols, t.vdims.idxOf c < t.values.d1 := by
    intro c hc
    rw [wf.2.1]; exact List.idxOf_lt_length_iff.2 (hx c hc)
  have hfs : fromStart t.values.d1 (cols.map fun c => (t.vdims.idxOf c : Int)) =
      cols.map t.vdims.idxOf := by
    unfold fromStart
    rw [List.map_map]
    apply List.map_congr_left
    intro c _
    simp only [Function.comp]
    rw [if_neg (by omega)]
    omega
  have hin : InAxis t.values.d1 (cols.map fun c => (t.vdims.idxOf c : Int)) := by
    refine ⟨?_, ?_⟩
    · intro e; rw [List.map_eq_nil_iff] at e; rw [e] at h2; simp at h2
    · intro x hx'
      obtain ⟨c, hc, rfl⟩ := List.mem_map.1 hx'
      have := hlt c hc
      omega
  have hsel : Sel t.values.d1 (.lst (cols.map fun c => (t.vdims.idxOf c : Int)))
      (cols.map t.vdims.idxOf) := by
    rw [← hfs]
    apply sel_lst hin
    rintro ⟨-, h⟩
    rw [hfs] at h
    match cols, hn, h2, hx, h with
    | a :: b :: l, hn, _, hx, h =>
      have := h (t.vdims.idxOf a) (by simp) (t.vdims.idxOf b) (by simp)
      have := (List.idxOf_inj (hx a (by simp))).1 this
      subst this
      simp at hn
  refine ⟨_, ?_, rfl⟩
  unfold getCols
  rw [if_pos hall, iloc_of_sel (hS _) hsel (selS_all _) (selS_all _), pick_eq t _ _ _ _ hdr]

/-- The operands differ at most in their columns, amounts and valuation date. -/
structure SameButColumns (x y : Tri K) : Prop where
  kdims : x.kdims = y.kdims
  keyLabels : x.keyLabels = y.keyLabels
  odims : x.odims = y.odims
  ddims : x.ddims = y.ddims
  isVal : x.isVal = y.isVal
  ograin : x.ograin = y.ograin
  dgrain : x.dgrain = y.dgrain

/-- The amount in a column given by name, 0 if there is no such column. -/
def colAmt (t : Tri K) (i : Nat) (name : String) (o d : Nat) : K :=
  if name ∈ t.vdims then (t.values.get i (t.vdims.idxOf name) o d).amt else 0

private theorem prepIndex_same {x y : Tri K} (a : x.kdims = y.kdims)
    (b : x.keyLabels = y.keyLabels) : prepIndex x y = .ok (x, y) := by
  unfold prepIndex
  have e1 : ¬ (y.kdims.length = 1 ∧ y.kdims.length > 1) := by omega
  have e2 : ¬ (y.kdims.length > 1 ∧ y.kdims.length = 1) := by omega
  simp only [a, b, e1, e2, if_false, ne_eq, not_true_eq_false, and_false]
  simp

private theorem prepOriginDev_same {x y : Tri K} (s0 s1 : Nat) (wx : WF x) (wy : WF y)
    (d : x.odims = y.odims) (e : x.ddims = y.ddims) (f : x.isVal = y.isVal) :
    prepOriginDev s0 s1 x y = .ok (x, y) := by
  have hb : broadcastable x y = true := by
    unfold broadcastable
    rw [wx.2.2.1, wx.2.2.2, wy.2.2.1, wy.2.2.2, d, e, f]
    simp only [beq_self_eq_true, Bool.true_or, Bool.and_self, if_true, bne_self_eq_false,
      Bool.false_or, Bool.true_and]
    by_cases l1 : y.ddims.length > 1
    · by_cases l2 : y.odims.length > 1
      · simp [allDiffer_self, l1, l2]
      · simp [allDiffer_self, l1, l2]
    · by_cases l2 : y.odims.length > 1
      · simp [allDiffer_self, l1, l2]
      · simp [l1, l2]
  unfold prepOriginDev
  rw [hb]
  have e1 : ¬ (y.odims.length = 1 ∧ y.odims.length > 1) := by omega
  have e2 : ¬ (y.ddims.length = 1 ∧ y.ddims.length > 1) := by omega
  simp only [relabelOnes, d, e, e1, e2, if_false]
  rfl

private theorem prepColumns_eq {x y : Tri K} (wx : WF x) (wy : WF y)
    (hdx : x.isVal = true ∨ 0 < x.values.d3) (hdy : y.isVal = true ∨ 0 < y.values.d3)
    (nx : x.vdims.Nodup) (ny : y.vdims.Nodup) (lx : 2 ≤ x.vdims.length) (ly : 2 ≤ y.vdims.length)
    {addX : List String} (hX : addX = y.vdims.filter fun c => !x.vdims.contains c)
    (hne : addX ≠ []) : ∃ y' : Tri K, (y' = y ∨ ∃ l, y' = addCols y l) ∧
      (∀ c, c ∈ y'.vdims ↔ c ∈ y.vdims ∨ c ∈ x.vdims) ∧ WF y' ∧
      (∀ c ∈ y'.vdims, ∀ i o d, (y'.values.get i (y'.vdims.idxOf c) o d) =
        if c ∈ y.vdims then y.values.get i (y.vdims.idxOf c) o d else .nan) ∧
      prepColumns x y = (do
        let x'' ← (addCols x addX).getCols (x.vdims ++ addX)
        let y'' ← y'.getCols (x.vdims ++ addX)
        .ok (x'', y'')) := by
  have p1 : 0 < x.values.d1 := by rw [wx.2.1]; omega
  have p2 : 0 < y.values.d1 := by rw [wy.2.1]; omega
  have ex : x.reindex (x.vdims ++ addX) 0 = .ok (addCols x addX) := by
    refine reindex_eq wx p1 hdx addX hne ?_ ?_
    · rw [hX]; exact ny.filter _
    · intro c hc; rw [hX] at hc; simpa using (List.mem_filter.1 hc).2
  have hvd : x.vdims ≠ y.vdims := by
    intro e
    apply hne
    rw [hX, List.filter_eq_nil_iff]
    intro c hc
    simp [e, hc]
  set addY := x.vdims.filter (fun c => !y.vdims.contains c) with hY
  have c1 : ¬ (x.vdims.length = 1 ∧ y.vdims.length > 1) := by omega
  have c2 : ¬ (y.vdims.length = 1 ∧ x.vdims.length > 1) := by omega
  have c3 : ¬ (y.vdims.length = 1 ∧ x.vdims.length = 1 ∧ x.vdims ≠ y.vdims) := by omega
  have c4 : ¬ (x.values.d1 = y.values.d1 ∧ x.vdims = y.vdims) := fun h => hvd h.2
  by_cases hy : addY = []
  · refine ⟨y, Or.inl rfl, ?_, wy, ?_, ?_⟩
    · intro c
      refine ⟨Or.inl, ?_⟩
      rintro (h | h)
      · exact h
      · by_contra hc
        have : c ∈ addY := by rw [hY]; exact List.mem_filter.2 ⟨h, by simpa using hc⟩
        rw [hy] at this
        simp at this
    · intro c hc i o d
      rw [if_pos hc]
    · unfold prepColumns
      rw [if_neg c1, if_neg c2, if_neg c3, if_neg c4]
      simp only [← hX, ← hY, hne, hy, if_true, if_false, ex, bind, Except.bind, pure, Except.pure]
  · have hyx : ∀ c ∈ addY, c ∉ y.vdims := by
      intro c hc; rw [hY] at hc; simpa using (List.mem_filter.1 hc).2
    have ey : y.reindex (y.vdims ++ addY) 0 = .ok (addCols y addY) := by
      refine reindex_eq wy p2 hdy addY hy ?_ hyx
      rw [hY]; exact nx.filter _
    refine ⟨addCols y addY, Or.inr ⟨_, rfl⟩, ?_, ?_, ?_, ?_⟩
    · intro c
      show c ∈ y.vdims ++ addY ↔ _
      rw [List.mem_append]
      constructor
      · rintro (h | h)
        · exact Or.inl h
        · rw [hY] at h; exact Or.inr (List.mem_filter.1 h).1
      · rintro (h | h)
        · exact Or.inl h
        · by_cases hc : c ∈ y.vdims
          · exact Or.inl hc
          · right; rw [hY]; exact List.mem_filter.2 ⟨h, by simpa using hc⟩
    · exact ⟨wy.1, by simp [addCols, wy.2.1], wy.2.2.1, wy.2.2.2⟩
    · intro c hc i o d
      simp only [addCols]
      by_cases hin : c ∈ y.vdims
      · rw [if_pos hin, List.idxOf_append_of_mem hin, if_pos]
        rw [wy.2.1]; exact List.idxOf_lt_length_iff.2 hin
      · rw [if_neg hin, if_neg]
        rw [List.idxOf_append_of_notMem hin, wy.2.1]
        omega
    · unfold prepColumns
      rw [if_neg c1, if_neg c2, if_neg c3, if_neg c4]
      simp only [← hX, ← hY, hne, hy, if_false, ex, ey, bind, Except.bind]

private theorem picked_cols {t : Tri K} (wf : WF t) {cols : List String} (hx : ∀ c ∈ cols, c ∈ t.vdims)
    (v : Int) : (t.picked (List.range t.values.d0) (cols.map t.vdims.idxOf)
      (List.range t.values.d2) (List.range t.values.d3) v).vdims = cols ∧
    (t.picked (List.range t.values.d0) (cols.map t.vdims.idxOf)
      (List.range t.values.d2) (List.range t.values.d3) v).kdims = t.kdims ∧
    (t.picked (List.range t.values.d0) (cols.map t.vdims.idxOf)
      (List.range t.values.d2) (List.range t.values.d3) v).odims = t.odims ∧
    (t.picked (List.range t.values.d0) (cols.map t.vdims.idxOf)
      (List.range t.values.d2) (List.range t.values.d3) v).ddims = t.ddims := by
  obtain ⟨w0, w1, w2, w3⟩ := wf
  simp only [picked]
  rw [w0, w2, w3]
  refine ⟨?_, map_getD_range _ _, map_getD_range _ _, map_getD_range _ _⟩
  rw [List.map_map]
  conv_rhs => rw [← List.map_id cols]
  apply List.map_congr_left
  intro c hc
  have := List.idxOf_lt_length_iff.2 (hx c hc)
  simp only [Function.comp, id]
  rw [List.getD_eq_getElem _ _ this, List.getElem_idxOf]

private theorem picked_wf {t : Tri K} (pi pc po pd : List Nat) (v : Int) :
    WF (t.picked pi pc po pd v) := by
  refine ⟨?_, ?_, ?_, ?_⟩ <;> simp [picked, Arr.take]

private theorem elim_le (l : List Int) (V : Int) : (l.max?).elim V (fun m => min m V) ≤ V := by
  cases l.max? with
  | none => exact le_refl _
  | some m => exact min_le_right _ _

private theorem elim_ge {l : List Int} {v : Int} (h : v ∈ l) (V : Int) :
    min v V ≤ (l.max?).elim V (fun m => min m V) := by
  cases hm : l.max? with
  | none => exact min_le_right _ _
  | some m =>
    have := (List.max?_eq_some_iff.1 hm).2 _ h
    simp only [Option.elim]
    omega

/-- **C12** (partial: the second operand has a column the first does not have; see
`C12_subset_false`).  The sum of two triangles with several columns has the columns of the first
followed by the new ones of the second, and in each column the sum of the amounts of the like-named
columns. -/
theorem C12_add_partial {x y : Tri K} (h : SameButColumns x y) (hx : Regular x) (hy : Regular y)
    (nx : x.vdims.Nodup) (ny : y.vdims.Nodup) (lx : 2 ≤ x.vdims.length) (ly : 2 ≤ y.vdims.length)
    (hd : 0 < x.ddims.length) (hnew : ∃ c ∈ y.vdims, c ∉ x.vdims) :
    ∃ z, x.add y = .ok z ∧ WF z ∧ z.kdims = x.kdims ∧ z.odims = x.odims ∧ z.ddims = x.ddims ∧
      z.isVal = x.isVal ∧
      z.vdims = x.vdims ++ y.vdims.filter (fun c => decide (c ∉ x.vdims)) ∧
      z.vd ≤ max x.vd y.vd ∧
      ∀ i < x.values.d0, ∀ c ∈ z.vdims, ∀ o < x.values.d2, ∀ d < x.values.d3,
        colAmt z i c o d = colAmt x i c o d + colAmt y i c o d := by
  set V := max x.vd y.vd with hV
  set addX := y.vdims.filter (fun c => !x.vdims.contains c) with hX
  have hXeq : addX = y.vdims.filter (fun c => decide (c ∉ x.vdims)) := by
    rw [hX]; apply List.filter_congr; intro c _; simp
  have hne : addX ≠ [] := by
    obtain ⟨c, h1, h2⟩ := hnew
    apply List.ne_nil_of_mem (a := c)
    rw [hX]; exact List.mem_filter.2 ⟨h1, by simpa using h2⟩
  set x1 : Tri K := { x with isPattern := x.isPattern && y.isPattern, vd := V } with hx1
  set y1 : Tri K := { y with isPattern := x.isPattern && y.isPattern } with hy1
  have wx1 : WF x1 := hx.wf
  have wy1 : WF y1 := hy.wf
  have hdx : x1.isVal = true ∨ 0 < x1.values.d3 := Or.inr (by
    show 0 < x.values.d3; rw [hx.wf.2.2.2]; exact hd)
  have hdy : y1.isVal = true ∨ 0 < y1.values.d3 := Or.inr (by
    show 0 < y.values.d3; rw [hy.wf.2.2.2, ← h.ddims]; exact hd)
  obtain ⟨y', hy', hyv, wy', hyc, hpc⟩ := prepColumns_eq (x := x1) (y := y1) wx1 wy1 hdx hdy nx ny lx
    ly hX hne
  have hyo : y'.kdims = y.kdims ∧ y'.keyLabels = y.keyLabels ∧ y'.odims = y.odims ∧
      y'.ddims = y.ddims ∧ y'.isVal = y.isVal ∧ y'.values.d0 = y.values.d0 ∧
      y'.values.d2 = y.values.d2 ∧ y'.values.d3 = y.values.d3 := by
    rcases hy' with e | ⟨l, e⟩ <;> rw [e] <;> exact ⟨rfl, rfl, rfl, rfl, rfl, rfl, rfl, rfl⟩
  obtain ⟨k1, k2, k3, k4, k5, k6, k7, k8⟩ := hyo
  have wxa : WF (addCols x1 addX) :=
    ⟨hx.wf.1, by simp [addCols, hx1, hx.wf.2.1], hx.wf.2.2.1, hx.wf.2.2.2⟩
  have hmemX : ∀ c ∈ x.vdims ++ addX, c ∈ (addCols x1 addX).vdims := fun c hc => hc
  have hmemY : ∀ c ∈ x.vdims ++ addX, c ∈ y'.vdims := by
    intro c hc
    rw [hyv]
    rcases List.mem_append.1 hc with h1 | h1
    · exact Or.inr h1
    · rw [hX] at h1; exact Or.inl (List.mem_filter.1 h1).1
  have hnd : (x.vdims ++ addX).Nodup := by
    rw [List.nodup_append]
    refine ⟨nx, ny.filter _, ?_⟩
    rintro a ha b hb rfl
    rw [hX] at hb
    have := (List.mem_filter.1 hb).2
    simp [ha] at this
  have hlen : 2 ≤ (x.vdims ++ addX).length := by simp; omega
  obtain ⟨vx, gx, ex⟩ := getCols_eq wxa hdx hnd hlen hmemX
  obtain ⟨vy, gy, -⟩ := getCols_eq wy' (by rw [k5, k8]; exact hdy) hnd hlen hmemY
  obtain ⟨px1, px2, px3, px4⟩ := picked_cols wxa hmemX vx
  obtain ⟨py1, py2, py3, py4⟩ := picked_cols wy' hmemY vy
  set x2 := (addCols x1 addX).picked (List.range (addCols x1 addX).values.d0)
    ((x.vdims ++ addX).map (addCols x1 addX).vdims.idxOf)
    (List.range (addCols x1 addX).values.d2) (List.range (addCols x1 addX).values.d3) vx with hx2
  set y2 := y'.picked (List.range y'.values.d0) ((x.vdims ++ addX).map y'.vdims.idxOf)
    (List.range y'.values.d2) (List.range y'.values.d3) vy with hy2
  have wx2 : WF x2 := picked_wf _ _ _ _ _
  have wy2 : WF y2 := picked_wf _ _ _ _ _
  have hval : validate x y = .ok (x2, y2.values) := by
    unfold validate
    have e1 : ¬ (x.ograin ≠ y.ograin ∨ (x.dgrain ≠ y.dgrain ∧ min x.values.d3 y.values.d3 > 1)) :=
      by simp [h.ograin, h.dgrain]
    rw [if_neg e1]
    show (do
      let ((a : Tri K), (b : Tri K)) ← prepColumns x1 y1
      let ((a : Tri K), (b : Tri K)) ← prepOriginDev x.values.d0 x.values.d1 a b
      let ((a : Tri K), (b : Tri K)) ← prepIndex a b
      (.ok (a, b.values) : Except Err (Tri K × Arr K))) = _
    rw [hpc]
    have gx' : (addCols x1 addX).getCols (x1.vdims ++ addX) = .ok x2 := gx
    have gy' : y'.getCols (x1.vdims ++ addX) = .ok y2 := gy
    rw [gx', gy']
    simp only [bind, Except.bind]
    have q1 : prepOriginDev x.values.d0 x.values.d1 x2 y2 = .ok (x2, y2) := by
      refine prepOriginDev_same _ _ wx2 wy2 ?_ ?_ ?_
      · rw [px3, py3, k3]; exact h.odims
      · rw [px4, py4, k4]; exact h.ddims
      · exact h.isVal.trans k5.symm
    have q2 : prepIndex x2 y2 = .ok (x2, y2) := by
      refine prepIndex_same ?_ ?_
      · rw [px2, py2, k1]; exact h.kdims
      · exact h.keyLabels.trans k2.symm
    rw [q1]
    simp only
    rw [q2]
  have sh : Arr.SameShape x2.values y2.values := by
    refine ⟨?_, ?_, ?_, ?_⟩
    · rw [wx2.1, wy2.1, px2, py2, k1]; exact congrArg _ h.kdims
    · rw [wx2.2.1, wy2.2.1, px1, py1]
    · rw [wx2.2.2.1, wy2.2.2.1, px3, py3, k3]; exact congrArg _ h.odims
    · rw [wx2.2.2.2, wy2.2.2.2, px4, py4, k4]; exact congrArg _ h.ddims
  have s0 : y.values.d0 = x.values.d0 := by rw [hx.wf.1, hy.wf.1, h.kdims]
  have s2 : y.values.d2 = x.values.d2 := by rw [hx.wf.2.2.1, hy.wf.2.2.1, h.odims]
  have s3 : y.values.d3 = x.values.d3 := by rw [hx.wf.2.2.2, hy.wf.2.2.2, h.ddims]
  simp only [add, hval, bind, Except.bind]
  rw [addArr_same sh]
  refine ⟨_, rfl, wx2, px2, px3, px4, rfl, ?_, ?_, ?_⟩
  · rw [← hXeq]; exact px1
  · show vx ≤ V
    rw [ex]
    show Option.elim _ V (fun m => min m V) ≤ V
    exact elim_le _ V
  intro i hi c hc o ho d hdd
  have hc' : c ∈ x.vdims ++ addX := by rw [← px1]; exact hc
  have hci := List.idxOf_lt_length_iff.2 hc'
  have hmap : ∀ f : String → Nat, ((x.vdims ++ addX).map f).getD ((x.vdims ++ addX).idxOf c) 0 =
      f c := by
    intro f
    rw [List.getD_eq_getElem _ _ (by simpa using hci), List.getElem_map, List.getElem_idxOf]
  have gX : x2.values.get i ((x.vdims ++ addX).idxOf c) o d =
      if c ∈ x.vdims then x.values.get i (x.vdims.idxOf c) o d else .nan := by
    show (addCols x1 addX).values.get ((List.range x.values.d0).getD i 0)
      (((x.vdims ++ addX).map (x.vdims ++ addX).idxOf).getD ((x.vdims ++ addX).idxOf c) 0)
      ((List.range x.values.d2).getD o 0) ((List.range x.values.d3).getD d 0) = _
    rw [hmap, getD_range _ _ hi, getD_range _ _ ho, getD_range _ _ hdd]
    show (if (x.vdims ++ addX).idxOf c < x.values.d1 then
      x.values.get i ((x.vdims ++ addX).idxOf c) o d else Num.nan) = _
    by_cases hin : c ∈ x.vdims
    · rw [if_pos hin, List.idxOf_append_of_mem hin, if_pos]
      rw [hx.wf.2.1]; exact List.idxOf_lt_length_iff.2 hin
    · rw [if_neg hin, if_neg]
      rw [List.idxOf_append_of_notMem hin, hx.wf.2.1]
      omega
  have gY : y2.values.get i ((x.vdims ++ addX).idxOf c) o d =
      if c ∈ y.vdims then y.values.get i (y.vdims.idxOf c) o d else .nan := by
    show y'.values.get ((List.range y'.values.d0).getD i 0)
      (((x.vdims ++ addX).map y'.vdims.idxOf).getD ((x.vdims ++ addX).idxOf c) 0)
      ((List.range y'.values.d2).getD o 0) ((List.range y'.values.d3).getD d 0) = _
    rw [hmap, getD_range _ _ (by omega), getD_range _ _ (by omega), getD_range _ _ (by omega),
      hyc c (hmemY c hc')]
  have ax : (x2.values.get i ((x.vdims ++ addX).idxOf c) o d).NoInf ∧
      (x2.values.get i ((x.vdims ++ addX).idxOf c) o d).amt = colAmt x i c o d := by
    rw [gX, colAmt]
    split_ifs with hin
    · refine ⟨hx.finite i hi _ ?_ o ho d hdd, rfl⟩
      rw [hx.wf.2.1]; exact List.idxOf_lt_length_iff.2 hin
    · simp
  have ay : (y2.values.get i ((x.vdims ++ addX).idxOf c) o d).NoInf ∧
      (y2.values.get i ((x.vdims ++ addX).idxOf c) o d).amt = colAmt y i c o d := by
    rw [gY, colAmt]
    split_ifs with hin
    · refine ⟨hy.finite i (by omega) _ ?_ o (by omega) d (by omega), rfl⟩
      rw [hy.wf.2.1]; exact List.idxOf_lt_length_iff.2 hin
    · simp
  rw [colAmt, if_pos hc]
  show (((x2.values.get i (x2.vdims.idxOf c) o d).nanToNum +
    (y2.values.get i (x2.vdims.idxOf c) o d).nanToNum) * (nanTri _ o d).nanToNum).numToNan.amt = _
  have e1 : x2.vdims.idxOf c = (x.vdims ++ addX).idxOf c := by rw [px1]
  rw [e1, Num.nanToNum_eq ax.1, Num.nanToNum_eq ay.1, ax.2, ay.2]
  rcases nanTri_eq ({ x2 with
      values := { x2.values with get := fun i c o d =>
        (x2.values.get i c o d).nanToNum + (y2.values.get i c o d).nanToNum } } : Tri K) o d with
    hm | ⟨hm, hv⟩
  · rw [hm, Num.one_def]; simp
  · -- after the valuation date both amounts are 0
    have hv' : valuationOf x.isVal x2.odims x2.ddims vx o d > vx := hv
    rw [px3, px4] at hv'
    change valuationOf x.isVal x.odims x.ddims vx o d > vx at hv'
    have hdl : d < x.ddims.length := by rw [← hx.wf.2.2.2]; exact hdd
    have hol : o < x.odims.length := by rw [← hx.wf.2.2.1]; exact ho
    have hmemV : valuationOf x.isVal x.odims x.ddims V o d ∈ ((addCols x1 addX).picked
        (List.range (addCols x1 addX).values.d0)
        ((x.vdims ++ addX).map (addCols x1 addX).vdims.idxOf)
        (List.range (addCols x1 addX).values.d2) (List.range (addCols x1 addX).values.d3)
          (addCols x1 addX).vd).valuations := by
      obtain ⟨-, -, r3, r4⟩ := picked_cols wxa hmemX (addCols x1 addX).vd
      rw [mem_valuations]
      refine ⟨o, d, by rw [r3]; exact hol, by rw [r4]; exact hdl, ?_⟩
      unfold valuation
      rw [r3, r4]
      rfl
    have hgt : valuationOf x.isVal x.odims x.ddims V o d > V := by
      have hle := elim_ge hmemV V
      have hle' : min (valuationOf x.isVal x.odims x.ddims V o d) V ≤ vx := by rw [ex]; exact hle
      have hvV : vx ≤ V := by rw [ex]; exact elim_le _ V
      by_contra hcon
      have hcon' : valuationOf x.isVal x.odims x.ddims V o d ≤ V := by omega
      rw [min_eq_left hcon'] at hle'
      rw [valuation_label (fun hf => (hx.ordered hf).2.2) hdl] at hv' hle'
      by_cases hf : x.isVal = true
      · simp only [hf, if_true] at hv' hle'; omega
      · have hf' : x.isVal = false := by simpa using hf
        simp only [hf', Bool.false_eq_true, if_false] at hv' hle'
        have hom : x.odims.getD o 0 ∈ x.odims := by
          rw [List.getD_eq_getElem _ _ hol]; exact List.getElem_mem _
        have := (hx.ordered hf').1 _ hom
        have hmx : x.vd ≤ V := le_max_left _ _
        split_ifs at hv' hle' with h9
        · omega
        · omega
    have kx := known_later hx.ordered hx.known hx.wf (le_max_left x.vd y.vd)
    have ky := known_later hy.ordered hy.known hy.wf (le_max_right x.vd y.vd)
    have zx : colAmt x i c o d = 0 := by
      unfold colAmt
      split_ifs with hin
      · have : x.values.get i (x.vdims.idxOf c) o d = .nan :=
          kx i hi _ (by
            show _ < x.values.d1
            rw [hx.wf.2.1]; exact List.idxOf_lt_length_iff.2 hin) o ho d hdd hgt
        rw [this]; simp
      · rfl
    have zy : colAmt y i c o d = 0 := by
      unfold colAmt
      split_ifs with hin
      · rw [h.isVal, h.odims, h.ddims] at hgt
        have : y.values.get i (y.vdims.idxOf c) o d = .nan :=
          ky i (show _ < y.values.d0 by omega) _ (by
            show _ < y.values.d1
            rw [hy.wf.2.1]; exact List.idxOf_lt_length_iff.2 hin) o (show _ < y.values.d2 by omega)
            d (show _ < y.values.d3 by omega) hgt
        rw [this]; simp
      · rfl
    rw [zx, zy, hm]
    simp

/-- Columns paid (from `g`) and incurred (twice `g`). -/
def C12_two (n1 n2 : String) (g : Nat → Nat → Num ℚ) : Tri ℚ :=
  { Ex.tri3 (some true) Ex.cum3 with
    vdims := [n1, n2]
    values := ⟨1, 2, 3, 3, fun _ c o d => if c = 0 then g o d else g o d + g o d⟩ }

example : ∃ z, (C12_two "paid" "incurred" Ex.cum3).add (C12_two "reported" "paid" Ex.cum3) = .ok z ∧
    z.vdims = ["paid", "incurred", "reported"] ∧ colAmt z 0 "paid" 0 0 = 300 ∧
    colAmt z 0 "incurred" 0 0 = 200 ∧ colAmt z 0 "reported" 0 0 = 100 := by
  obtain ⟨z, e, -, -, -, -, -, hc, -, h⟩ := C12_add_partial
    (x := C12_two "paid" "incurred" Ex.cum3) (y := C12_two "reported" "paid" Ex.cum3)
    ⟨rfl, rfl, rfl, rfl, rfl, rfl, rfl⟩ ⟨by decide, by decide, by decide, by decide⟩
    ⟨by decide, by decide, by decide, by decide⟩ (by decide) (by decide) (by decide) (by decide)
    (by decide) ⟨"reported", by decide, by decide⟩
  have hc' : z.vdims = ["paid", "incurred", "reported"] := by rw [hc]; decide
  refine ⟨z, e, hc', ?_, ?_, ?_⟩
  all_goals
    rw [h 0 (by decide) _ (by rw [hc']; simp) 0 (by decide) 0 (by decide)]
    decide +kernel

/-- **C12 is false when the second operand has no new column**: the sum of any two ordinary
triangles with several, not identical, columns raises `UnboundLocalError` when the columns of the
second are among those of the first; in particular for the same columns in another order. -/
theorem C12_subset_false {x y : Tri K} (h : SameButColumns x y) (hx : Regular x) (hy : Regular y)
    (nx : x.vdims.Nodup) (lx : 2 ≤ x.vdims.length) (ly : 2 ≤ y.vdims.length)
    (hd : 0 < x.ddims.length) (hne : x.vdims ≠ y.vdims) (hsub : ∀ c ∈ y.vdims, c ∈ x.vdims) :
    x.add y = .error .unboundLocalError := by
  set x1 : Tri K := { x with isPattern := x.isPattern && y.isPattern, vd := max x.vd y.vd } with hx1
  set y1 : Tri K := { y with isPattern := x.isPattern && y.isPattern } with hy1
  have c1 : ¬ (x.vdims.length = 1 ∧ y.vdims.length > 1) := by omega
  have c2 : ¬ (y.vdims.length = 1 ∧ x.vdims.length > 1) := by omega
  have c3 : ¬ (y.vdims.length = 1 ∧ x.vdims.length = 1 ∧ x.vdims ≠ y.vdims) := by omega
  have c4 : ¬ (x.values.d1 = y.values.d1 ∧ x.vdims = y.vdims) := fun h => hne h.2
  have hX : (y.vdims.filter fun c => !x.vdims.contains c) = [] := by
    rw [List.filter_eq_nil_iff]
    intro c hc
    simp [hsub c hc]
  have hp : prepColumns x1 y1 = .error .unboundLocalError := by
    unfold prepColumns
    rw [if_neg c1, if_neg c2, if_neg c3, if_neg c4]
    by_cases hY : (x.vdims.filter fun c => !y.vdims.contains c) = []
    · simp only [hx1, hy1, hX, hY, if_true, bind, Except.bind, pure, Except.pure]
    · have ey : y1.reindex (y1.vdims ++ x.vdims.filter fun c => !y.vdims.contains c) 0 =
          .ok (addCols y1 (x.vdims.filter fun c => !y.vdims.contains c)) := by
        refine reindex_eq (t := y1) hy.wf ?_ (Or.inr ?_) _ hY (nx.filter _) ?_
        · show 0 < y.values.d1
          rw [hy.wf.2.1]; omega
        · show 0 < y.values.d3
          rw [hy.wf.2.2.2, ← h.ddims]; exact hd
        · intro c hc; simpa using (List.mem_filter.1 hc).2
      have ey' : ({ y with isPattern := x.isPattern && y.isPattern } : Tri K).reindex
          (y.vdims ++ x.vdims.filter fun c => !y.vdims.contains c) 0 =
          .ok (addCols y1 (x.vdims.filter fun c => !y.vdims.contains c)) := ey
      simp only [hx1, hy1, hX, hY, if_true, if_false, bind, Except.bind, pure, Except.pure, ey']
  unfold add validate
  have e1 : ¬ (x.ograin ≠ y.ograin ∨ (x.dgrain ≠ y.dgrain ∧ min x.values.d3 y.values.d3 > 1)) :=
    by simp [h.ograin, h.dgrain]
  rw [if_neg e1]
  simp only [← hx1, ← hy1, hp, bind, Except.bind]

/-- An instance: the same two columns in the other order. -/
example : (C12_two "paid" "incurred" Ex.cum3).add (C12_two "incurred" "paid" Ex.cum3) =
    .error .unboundLocalError :=
  C12_subset_false ⟨rfl, rfl, rfl, rfl, rfl, rfl, rfl⟩ ⟨by decide, by decide, by decide, by decide⟩
    ⟨by decide, by decide, by decide, by decide⟩ (by decide) (by decide) (by decide) (by decide)
    (by decide) (by decide)

end Tri
end CL
