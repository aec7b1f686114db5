import Verif.Lemmas.Methods
import Verif.Lemmas.BcastUp
import Verif.Lemmas.Contig
import Mathlib.Algebra.BigOperators.Ring.Finset
import Mathlib.Tactic.FieldSimp

set_option linter.unusedSectionVars false

/-! # Sorting the index, `_align_cdf` with exposures, and the powers of `Benktander` -/

namespace CL
namespace Tri
variable {K : Type} [Field K] [LinearOrder K] [IsStrictOrderedRing K]

/-! ## `sort_index` -/

theorem sortPositions_perm (l : List (List String)) :
    (sortPositions l).Perm (List.range l.length) := List.perm_insertionSort _ _

theorem sortPositions_length (l : List (List String)) : (sortPositions l).length = l.length := by
  rw [(sortPositions_perm l).length_eq, List.length_range]

theorem mem_sortPositions {l : List (List String)} {i : Nat} : i ∈ sortPositions l ↔ i < l.length := by
  rw [(sortPositions_perm l).mem_iff, List.mem_range]

theorem sortPositions_sorted (l : List (List String)) :
    ((sortPositions l).map (l.getD · [])).Pairwise (· ≤ ·) := by
  rw [List.pairwise_map]
  unfold sortPositions
  haveI : Std.Total (fun i j : Nat => l.getD i [] ≤ l.getD j []) := ⟨fun _ _ => le_total _ _⟩
  haveI : IsTrans Nat (fun i j : Nat => l.getD i [] ≤ l.getD j []) := ⟨fun _ _ _ => le_trans⟩
  exact List.pairwise_insertionSort (fun i j : Nat => l.getD i [] ≤ l.getD j []) _

theorem sortPositions_one {l : List (List String)} (h : l.length = 1) : sortPositions l = [0] := by
  unfold sortPositions
  rw [h]
  rfl

/-- An index in increasing order stays as it is. -/
theorem sortPositions_of_sorted {l : List (List String)} (h : l.Pairwise (· ≤ ·)) :
    sortPositions l = List.range l.length := by
  unfold sortPositions
  apply List.Pairwise.insertionSort_eq
  rw [List.pairwise_iff_getElem]
  intro i j hi hj hij
  rw [List.length_range] at hi hj
  rw [List.getElem_range, List.getElem_range, List.getD_eq_getElem _ _ hi, List.getD_eq_getElem _ _ hj]
  exact List.pairwise_iff_getElem.1 h i j hi hj hij

theorem sel_positions {n : Nat} {l : List Nat} (hne : l ≠ []) (hin : ∀ x ∈ l, x < n) (hnd : l.Nodup) :
    Sel n (.lst (l.map fun i : Nat => (i : Int))) l := by
  have hin' : ∀ x ∈ l.map (fun i : Nat => (i : Int)), 0 ≤ x ∧ x < n := by
    intro x hx
    obtain ⟨y, hy, rfl⟩ := List.mem_map.1 hx
    have := hin y hy
    omega
  have hz : ¬ (2 ≤ (l.map fun i : Nat => (i : Int)).length ∧
      ∀ x ∈ l.map (fun i : Nat => (i : Int)), ∀ y ∈ l.map (fun i : Nat => (i : Int)), x = y) := by
    rintro ⟨h2, he⟩
    rw [List.length_map] at h2
    have e := he (l[0] : Nat) (List.mem_map.2 ⟨_, List.getElem_mem (by omega), rfl⟩) (l[1] : Nat)
      (List.mem_map.2 ⟨_, List.getElem_mem (by omega), rfl⟩)
    have e' : l[0] = l[1] := by exact_mod_cast e
    have := (List.Nodup.getElem_inj_iff hnd).1 e'
    omega
  obtain ⟨k, h1, h2⟩ := contig_positions (n := n) (by simpa using hne) hin' hz
  refine ⟨.lst (l.map fun i : Nat => (i : Int)), k, ?_, h1, ?_⟩
  · have ha : ((l.map fun i : Nat => (i : Int)).any fun i => decide (i ≥ n ∨ i < -(n : Int))) = false := by
      rw [List.any_eq_false]
      intro x hx
      have := hin' x hx
      simp only [decide_eq_true_eq]
      omega
    have hm : List.map ((fun i : Int => if i < 0 then i + (n : Int) else i) ∘ fun i : Nat => (i : Int)) l =
        l.map fun i : Nat => (i : Int) := by
      apply List.map_congr_left
      intro x _
      have : ¬ ((x : Int) < 0) := by omega
      simp [this]
    simp only [normalizeKey, sparseNormalize, ha, Bool.false_eq_true, if_false, List.map_map, hm]
  · rw [h2, List.map_map]
    have : List.map (Int.toNat ∘ fun i : Nat => (i : Int)) l = l := by
      conv_rhs => rw [← List.map_id l]
      apply List.map_congr_left
      intro x _
      simp
    rw [this]

/-- `sort_index` permutes the index. -/
theorem sortIndex_spec {t : Tri K} (wf : WF t) (h0 : 1 ≤ t.kdims.length) (h3 : 1 ≤ t.ddims.length) :
    ∃ v, t.sortIndex = .ok { t with
      kdims := (sortPositions t.kdims).map (t.kdims.getD · [])
      vd := v
      values := t.values.take (sortPositions t.kdims) (List.range t.values.d1)
        (List.range t.values.d2) (List.range t.values.d3) } := by
  obtain ⟨w0, w1, w2, w3⟩ := wf
  have hs : Sel t.values.d0 (.lst ((sortPositions t.kdims).map fun i : Nat => (i : Int)))
      (sortPositions t.kdims) := by
    apply sel_positions
    · intro h
      have := sortPositions_length t.kdims
      rw [h] at this
      simp at this
      omega
    · intro x hx
      rw [w0]; exact mem_sortPositions.1 hx
    · exact (sortPositions_perm t.kdims).nodup_iff.2 List.nodup_range
  have e1 : (List.range t.values.d1).map (t.vdims.getD · "") = t.vdims := by
    rw [w1]; exact map_getD_range _ _
  have e2 : (List.range t.values.d2).map (t.odims.getD · 0) = t.odims := by
    rw [w2]; exact map_getD_range _ _
  have e3 : (List.range t.values.d3).map (t.ddims.getD · 0) = t.ddims := by
    rw [w3]; exact map_getD_range _ _
  have hne : t.isVal = true ∨ List.range t.values.d3 ≠ [] := by
    right
    intro h
    have := congrArg List.length h
    rw [List.length_range, List.length_nil, w3] at this
    omega
  obtain ⟨v, hrun⟩ : ∃ v, t.sortIndex = .ok (t.picked (sortPositions t.kdims)
      (List.range t.values.d1) (List.range t.values.d2) (List.range t.values.d3) v) := by
    unfold sortIndex
    rw [iloc_of_sel hs (selS_all _).sel (selS_all _) (selS_all _)]
    exact ⟨_, pick_eq _ _ _ _ _ hne⟩
  refine ⟨v, hrun.trans ?_⟩
  unfold picked
  rw [e1, e2, e3]

/-! ## `_align_cdf` with exposures -/

/-- A later valuation date does not change the valuation of a cell. -/
theorem valuationOf_later {t : Tri K} (ord : Ordered t) {v : Int} (hv : t.vd ≤ v) {o : Nat}
    (ho : o < t.odims.length) (d : Nat) :
    valuationOf t.isVal t.odims t.ddims v o d = t.valuation o d := by
  unfold valuation valuationOf
  by_cases hi : t.isVal = true
  · simp [hi]
  · have hi' : t.isVal = false := by simpa using hi
    have := (ord hi').1 (t.odims.getD o 0) (by
      rw [List.getD_eq_getElem _ _ ho]; exact List.getElem_mem ho)
    simp only [hi', Bool.false_eq_true, if_false]
    rw [min_eq_left this, min_eq_left (le_trans this hv)]

theorem alignCdf_some {t f v w : Tri K} (wf : WF t) (ord : Ordered t) (dated : Dated t)
    (dv : DistinctValuations t) (fin : Finite t) (hd : 2 ≤ t.ddims.length)
    (hp : t.isPattern = false) (h : t.getVal (· == t.vd) = .ok v)
    {rows : List Nat} (hr : DiagonalOf t (v.sumKeep .development) rows) (hf : PatternFor t f)
    (hw : ExposureFor t w)
    (h0 : 1 ≤ t.kdims.length) (h1 : 1 ≤ t.vdims.length) (h2 : 1 ≤ t.odims.length) :
    ∃ s, t.alignCdf f (some w) = .ok s.toAgg ∧ WF s ∧
      SameAxes s (v.sumKeep .development) ∧ s.vd = t.vd ∧ s.isPattern = false ∧
      ∀ i c o d, i < t.values.d0 → c < t.values.d1 → (ho : o < rows.length) → d < t.ddims.length →
        t.valuation rows[o] d = t.vd → s.values.get i c o 0 =
          if (t.values.get i c rows[o] d).amt + w.exposure i c rows[o] = 0 then .nan
          else .fin (f.toUlt i c d) := by
  obtain ⟨cdf, e, -, -⟩ := cdf_spec wf hf h0 h1 h2 (by omega)
  obtain ⟨a, ea, hfa, hva, hpa, ad0, ad1, ad2, ad3, hga⟩ :=
    alignOnes_spec wf ord dated h0 h1 (by omega)
  have em := mul_fits hfa
  have had : t.ddims = a.ddims ∧ t.isVal = a.isVal := by
    have w3 := hfa.wy.2.2.2
    rcases hfa.ddims with q | q
    · exact ⟨q.1.symm, q.2.symm⟩
    · have := wf.2.2.2
      omega
  have hao : t.odims.length = a.odims.length := by
    rw [← hfa.wy.2.2.1, ad2, wf.2.2.1]
  have hak : a.kdims.length = 1 := by rw [← hfa.wy.1, ad0]
  have hac : a.vdims.length = 1 := by rw [← hfa.wy.2.1, ad1]
  have hgr : t.dgrain = a.dgrain := by
    rcases hfa.dgrain with q | q
    · exact q
    · rw [ad3, wf.2.2.2] at q; omega
  have haod : a.odims = t.odims ∨ t.odims.length = 1 := by
    rcases hfa.odims with q | q
    · exact Or.inl q
    · right; omega
  have wk1 : 1 ≤ w.kdims.length := by rcases hw.index with q | q <;> [rw [q]; rw [q]] <;> omega
  have wc1 : 1 ≤ w.vdims.length := by rcases hw.columns with q | q <;> [rw [q]; rw [q]] <;> omega
  have wo1 : 1 ≤ w.odims.length := by rcases hw.origins with q | q <;> [rw [q]; rw [q]] <;> omega
  -- the exposures on the observed part
  have hcw : Compat w a := by
    refine ⟨hw.wf, hfa.wy, by rw [hw.ograin, hfa.ograin], Or.inr ?_, by rw [hw.keyLabels, hfa.keyLabels],
      Or.inr (Or.inl ⟨hak, wk1⟩), Or.inr (Or.inl ⟨hac, wc1⟩), ?_, Or.inr (Or.inr ⟨hw.one, ?_⟩), ?_⟩
    · rw [hw.wf.2.2.2, hw.one]; omega
    · rcases haod with q | q
      · rcases hw.origins with q' | q'
        · exact Or.inl (by rw [q, q'])
        · exact Or.inr (Or.inr ⟨q', by omega⟩)
      · refine Or.inr (Or.inl ⟨by omega, wo1⟩)
    · rw [← had.1]; omega
    · rw [hw.one]; omega
  have ey := mul_compat hcw
  set y := combined (· * ·) w a with hy
  have yk : y.kdims = w.kdims := by
    show longer w.kdims a.kdims = _
    unfold longer; rw [if_neg (by omega)]
  have yc : y.vdims = w.vdims := by
    show longer w.vdims a.vdims = _
    unfold longer; rw [if_neg (by omega)]
  have yd : y.ddims = t.ddims := by
    show longer w.ddims a.ddims = _
    unfold longer; rw [if_pos ⟨hw.one, by rw [← had.1]; omega⟩, had.1]
  have yv : y.isVal = t.isVal := by
    show (if w.ddims.length = 1 ∧ a.ddims.length > 1 then a.isVal else w.isVal) = _
    rw [if_pos ⟨hw.one, by rw [← had.1]; omega⟩, had.2]
  have yg : y.dgrain = t.dgrain := by
    show (if w.ddims.length = 1 ∧ a.ddims.length > 1 then a.dgrain else w.dgrain) = _
    rw [if_pos ⟨hw.one, by rw [← had.1]; omega⟩, hgr]
  have yo : y.odims = t.odims ∨ (y.odims.length = 1 ∧ t.odims.length = 1) := by
    show longer w.odims a.odims = _ ∨ ((longer w.odims a.odims).length = 1 ∧ _)
    unfold longer
    split_ifs with hc
    · rcases haod with q | q
      · exact Or.inl q
      · omega
    · rcases hw.origins with q | q
      · exact Or.inl q
      · right; refine ⟨q, ?_⟩; omega
  have yol : y.odims.length = t.odims.length := by
    rcases yo with q | q
    · rw [q]
    · omega
  have hfy : FitsIn y (zipped (· * ·) t a) := by
    refine ⟨wf, wf_combined _ _ _, ?_, Or.inl yg.symm, ?_, ?_, ?_, ?_, Or.inl ⟨yd, yv⟩⟩
    · show t.ograin = w.ograin; rw [hw.ograin]
    · show t.keyLabels = w.keyLabels; rw [hw.keyLabels]
    · show y.kdims = t.kdims ∨ _
      rw [yk]
      rcases hw.index with q | q
      · exact Or.inl q
      · exact Or.inr ⟨q, h0⟩
    · show y.vdims = t.vdims ∨ _
      rw [yc]
      rcases hw.columns with q | q
      · exact Or.inl q
      · exact Or.inr ⟨q, h1⟩
    · show y.odims = t.odims ∨ _
      rcases yo with q | q
      · exact Or.inl q
      · exact Or.inr ⟨q.1, h2⟩
  have eadd := add_fits hfy
  have hone : ∀ i c o d, o < t.values.d2 → d < t.values.d3 → t.valuation o d = t.vd →
      a.values.get i c o d = 1 := by
    intro i c o d ho hd' hv
    rw [hga i c o d ho hd']
    rcases nanTri_eq t o d with h | ⟨-, h⟩
    · exact h
    · omega
  set g : Nat → Nat → Nat → Nat → Num K := fun i c o d =>
    ((t.values.get i c o d * bcell a.values t.values i c o d).nanToNum +
      (bcell y.values t.values i c o d).nanToNum) *
      ((zipped (fun a b => a.nanToNum + b.nanToNum) (zipped (· * ·) t a) y).nanTri o d).nanToNum with hg
  have hcell : ∀ i c o d, i < t.values.d0 → c < t.values.d1 → o < t.values.d2 → d < t.values.d3 →
      t.valuation o d = t.vd →
      (g i c o d).numToNan.NoInf ∧
      (g i c o d).numToNan.amt = (t.values.get i c o d).amt + w.exposure i c o := by
    intro i c o d hi hc ho hd' hv
    have b1 : bcell a.values t.values i c o d = 1 := by
      unfold bcell
      rw [ad2, ad3, Arr.bix_self, Arr.bix_self]
      exact hone _ _ o d ho hd' hv
    have hn : (zipped (fun a b => a.nanToNum + b.nanToNum) (zipped (· * ·) t a) y).nanTri o d = 1 := by
      rcases nanTri_eq (zipped (fun a b => a.nanToNum + b.nanToNum) (zipped (· * ·) t a) y) o d with
        q | ⟨-, q⟩
      · exact q
      · exfalso
        have e1 := valuationOf_later ord (v := max (max t.vd a.vd) y.vd)
          (le_trans (le_max_left _ _) (le_max_left _ _)) (o := o) (by rw [← wf.2.2.1]; exact ho) d
        have e2 : (zipped (fun a b => a.nanToNum + b.nanToNum) (zipped (· * ·) t a) y).valuation o d =
          valuationOf t.isVal t.odims t.ddims (max (max t.vd a.vd) y.vd) o d := rfl
        have e3 : (zipped (fun a b => a.nanToNum + b.nanToNum) (zipped (· * ·) t a) y).vd =
          max (max t.vd a.vd) y.vd := rfl
        rw [e2, e1, hv, e3] at q
        have : t.vd ≤ max (max t.vd a.vd) y.vd := le_trans (le_max_left _ _) (le_max_left _ _)
        omega
    have wx : w.exposure i c o = (w.values.get (if w.kdims.length = 1 then 0 else i)
      (if w.vdims.length = 1 then 0 else c) (if w.odims.length = 1 then 0 else o) 0).amt := rfl
    have wfin : (w.values.get (if w.kdims.length = 1 then 0 else i)
        (if w.vdims.length = 1 then 0 else c) (if w.odims.length = 1 then 0 else o) 0).NoInf := by
      obtain ⟨q0, q1, q2, q3⟩ := hw.wf
      apply hw.finite
      · split_ifs with hk
        · omega
        · rcases hw.index with q | q
          · rw [q0, q, ← wf.1]; exact hi
          · exact absurd q hk
      · split_ifs with hk
        · omega
        · rcases hw.columns with q | q
          · rw [q1, q, ← wf.2.1]; exact hc
          · exact absurd q hk
      · split_ifs with hk
        · omega
        · rcases hw.origins with q | q
          · rw [q2, q, ← wf.2.2.1]; exact ho
          · exact absurd q hk
      · rw [q3, hw.one]; omega
    have by1 : bcell y.values t.values i c o d = w.values.get (if w.kdims.length = 1 then 0 else i)
        (if w.vdims.length = 1 then 0 else c) (if w.odims.length = 1 then 0 else o) 0 := by
      obtain ⟨q0, q1, q2, q3⟩ := hw.wf
      obtain ⟨a0, a1, a2, a3⟩ := hfa.wy
      have y2 : y.values.d2 = t.values.d2 := by
        show y.odims.length = _
        rw [yol, wf.2.2.1]
      have y3 : y.values.d3 = t.values.d3 := by
        show y.ddims.length = _
        rw [yd, wf.2.2.2]
      unfold bcell
      rw [y2, y3, Arr.bix_self, Arr.bix_self]
      show w.values.get (Arr.bix w.values.d0 (longer w.kdims a.kdims).length _)
        (Arr.bix w.values.d1 (longer w.vdims a.vdims).length _)
        (Arr.bix w.values.d2 (longer w.odims a.odims).length o)
        (Arr.bix w.values.d3 (longer w.ddims a.ddims).length d) *
        a.values.get _ _ (Arr.bix a.values.d2 (longer w.odims a.odims).length o)
        (Arr.bix a.values.d3 (longer w.ddims a.ddims).length d) = _
      have l0 : (longer w.kdims a.kdims).length = w.values.d0 := by
        rw [q0]; exact congrArg List.length yk
      have l1 : (longer w.vdims a.vdims).length = w.values.d1 := by
        rw [q1]; exact congrArg List.length yc
      have l2 : (longer w.odims a.odims).length = t.values.d2 := by
        rw [wf.2.2.1, ← yol]; rfl
      have l3 : (longer w.ddims a.ddims).length = t.values.d3 := by
        rw [wf.2.2.2, ← yd]; rfl
      rw [l0, l1, l2, l3, ad2, ad3, Arr.bix_self, Arr.bix_self, Arr.bix_self, Arr.bix_self,
        hone _ _ o d ho hd' hv]
      have hm1 : ∀ z : Num K, z.NoInf → z * 1 = z := by
        intro z hz
        rcases Num.noInf_cases hz with e | ⟨x, e⟩ <;> rw [e] <;> simp [Num.one_def]
      have i0 : Arr.bix y.values.d0 t.values.d0 i = if w.kdims.length = 1 then 0 else i := by
        have : y.values.d0 = w.kdims.length := congrArg List.length yk
        unfold Arr.bix
        rw [this, wf.1]
        rcases hw.index with q | q
        · rw [q, if_pos rfl]
          split_ifs
          · rw [wf.1] at hi; omega
          · rfl
        · rw [q]
          simp only [if_true]
          split_ifs
          · rw [wf.1] at hi; omega
          · rfl
      have i1 : Arr.bix y.values.d1 t.values.d1 c = if w.vdims.length = 1 then 0 else c := by
        have : y.values.d1 = w.vdims.length := congrArg List.length yc
        unfold Arr.bix
        rw [this, wf.2.1]
        rcases hw.columns with q | q
        · rw [q, if_pos rfl]
          split_ifs
          · rw [wf.2.1] at hc; omega
          · rfl
        · rw [q]
          simp only [if_true]
          split_ifs
          · rw [wf.2.1] at hc; omega
          · rfl
      have i2 : Arr.bix w.values.d2 t.values.d2 o = if w.odims.length = 1 then 0 else o := by
        unfold Arr.bix
        rw [q2, wf.2.2.1]
        rcases hw.origins with q | q
        · rw [q, if_pos rfl]
          split_ifs
          · rw [wf.2.2.1] at ho; omega
          · rfl
        · rw [q]
          simp only [if_true]
          split_ifs
          · rw [wf.2.2.1] at ho; omega
          · rfl
      have i3 : Arr.bix w.values.d3 t.values.d3 d = 0 := by
        unfold Arr.bix
        rw [q3, hw.one, wf.2.2.2]
        split_ifs
        · omega
        · rfl
      rw [i0, i1, i2, i3]
      exact hm1 _ wfin
    have hgv : g i c o d = ((t.values.get i c o d * bcell a.values t.values i c o d).nanToNum +
      (bcell y.values t.values i c o d).nanToNum) *
      ((zipped (fun a b => a.nanToNum + b.nanToNum) (zipped (· * ·) t a) y).nanTri o d).nanToNum := rfl
    rw [hgv, hn, b1, by1, wx]
    have tf := fin i hi c hc o ho d hd'
    have hm1 : t.values.get i c o d * 1 = t.values.get i c o d := by
      rcases Num.noInf_cases tf with e | ⟨x, e⟩ <;> rw [e] <;> simp [Num.one_def]
    rw [hm1, Num.nanToNum_eq tf, Num.nanToNum_eq wfin, Num.one_def]
    simp only [Num.nanToNum_fin, Num.fin_add_fin, Num.fin_mul_fin, mul_one]
    exact ⟨Num.noInf_numToNan (by simp), by simp⟩
  obtain ⟨r1, r, s, q1, q2, q3, q4, q5, q6, q7, q8⟩ := align_core wf ord dated dv hd h hr hf h0 h1 h2 e
    (zipped (fun a b => a.nanToNum + b.nanToNum) (zipped (· * ·) t a) y).cleanup
    (fun i c o d => (g i c o d).numToNan)
    (max (max t.vd a.vd) y.vd) (by unfold zipped cleanup; simp only [hp, Bool.false_and]; rfl)
    (by
      intro i c o d hi hc ho hd' hv
      exact (hcell i c o d hi hc ho hd' hv).1)
  refine ⟨s, ?_, q4, q5, q6, q7, ?_⟩
  · unfold alignCdf
    simp only [e, ea, em, ey, eadd, bind, Except.bind, q1, q2, q3]
  · intro i c o d hi hc ho hd' hv
    have hro := ((hr.mem_rows _).1 (List.getElem_mem ho)).1
    rw [q8 i c o d hi hc ho hd' hv]
    rw [(hcell i c rows[o] d hi hc (by rw [wf.2.2.1]; exact hro) (by rw [wf.2.2.2]; exact hd') hv).2]

/-! ## The powers -/

/-- The powers of the code are the powers of `1 - 1 / cdf`, except that all of them are missing when
the factor is missing or `1 - 1 / cdf` is exactly `-1e-16`. -/
theorem benkPow_fin {x : K} (h : x + 1 / 10 ^ 16 ≠ 0) (k : Nat) : benkPow (.fin x) k = .fin (x ^ k) := by
  unfold benkPow
  rw [Num.fin_add_fin, Num.fin_div_fin_of_ne _ h, Num.fin_mul_fin]
  show (Num.fin x).npow k = _
  induction k with
  | zero => simp [Num.npow]
  | succ k ih => rw [Num.npow, ih, Num.fin_mul_fin, pow_succ]

theorem benkPow_nan (k : Nat) : benkPow (K := K) .nan k = .nan := by
  unfold benkPow
  simp

/-- Closed form of the credibility iteration. -/
theorem benkIter_eq (latest cdf e : K) (n : Nat) : benkIter latest cdf e n =
    (∑ k ∈ Finset.range n, (1 - 1 / cdf) ^ k) * latest + (1 - 1 / cdf) ^ n * e := by
  induction n with
  | zero => simp [benkIter]
  | succ n ih =>
    rw [benkIter, ih, Finset.sum_range_succ', pow_succ']
    simp only [pow_succ', pow_zero, ← Finset.mul_sum]
    ring

/-- One cell of the array of ultimates. -/
def benkCell (n : Nat) (cdf ld e : Num K) : Num K :=
  ((∑ k ∈ Finset.range n, (benkPow (1 - 1 / cdf.numToNan) k).nanToNum) * ld.nanToNum +
    (benkPow (1 - 1 / cdf.numToNan) n).nanToNum * e.nanToNum).numToNan

theorem benkArr_eq (n : Nat) {cdf ld e : Arr K} (hl : Arr.SameShape ld cdf) (he : Arr.Fits e cdf) :
    benkArr n cdf ld e = .ok { cdf with
      get := fun i c o d => benkCell n (cdf.get i c o d) (ld.get i c o d)
        (e.get (Arr.bix e.d0 cdf.d0 i) (Arr.bix e.d1 cdf.d1 c) (Arr.bix e.d2 cdf.d2 o)
          (Arr.bix e.d3 cdf.d3 d)) } := by
  obtain ⟨l0, l1, l2, l3⟩ := hl
  have z1 := Arr.zip_fits (· * ·) (a := (cdf.map fun x => 1 - 1 / x.numToNan).map fun x =>
    ∑ k ∈ Finset.range n, (benkPow x k).nanToNum) (b := ld.map Num.nanToNum)
    ⟨Or.inl l0, Or.inl l1, Or.inl l2, Or.inl l3⟩
  have z2 := Arr.zip_fits (· * ·) (a := (cdf.map fun x => 1 - 1 / x.numToNan).map fun x =>
    (benkPow x n).nanToNum) (b := e.map Num.nanToNum) he
  unfold benkArr
  simp only [bind, Except.bind, z1, z2]
  rw [Arr.zip_same]
  · simp only [Arr.map, Arr.bix_self, l0, l1, l2, l3]
    rfl
  · exact ⟨rfl, rfl, rfl, rfl⟩

/-- With a factor, the cell is the credibility iteration. -/
theorem benkCell_fin (n : Nat) {f : K} (hf : f ≠ 0) (hq : 1 - 1 / f + 1 / 10 ^ 16 ≠ 0) {l e : Num K}
    (hl : l.NoInf) (he : e.NoInf) :
    benkCell n (.fin f) l e = (Num.fin (benkIter l.amt f e.amt n)).numToNan := by
  unfold benkCell
  have h1 : (1 : Num K) - 1 / (Num.fin f).numToNan = .fin (1 - 1 / f) := by
    rw [Num.numToNan_fin, if_neg hf, Num.one_def, Num.fin_div_fin_of_ne _ hf, Num.fin_sub_fin]
  rw [h1, Num.nanToNum_eq hl, Num.nanToNum_eq he, benkIter_eq]
  simp only [benkPow_fin hq, Num.nanToNum_fin, Num.sum_fin, Num.fin_mul_fin, Num.fin_add_fin]

/-- Without a factor, the cell is missing. -/
theorem benkCell_nan (n : Nat) {l e : Num K} (hl : l.NoInf) (he : e.NoInf) :
    benkCell n .nan l e = .nan := by
  unfold benkCell
  have h1 : (1 : Num K) - 1 / (Num.nan : Num K).numToNan = .nan := by simp
  rw [h1, Num.nanToNum_eq hl, Num.nanToNum_eq he]
  simp only [benkPow_nan, Num.nanToNum_nan, Num.sum_fin, Num.fin_mul_fin, Num.fin_add_fin]
  simp

end Tri
end CL
