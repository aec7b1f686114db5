import Verif.Spec.ByLabel
import Verif.Lemmas.Json
import Verif.Props.C02

set_option linter.unusedSectionVars false

/-! # Amounts by label, selection of all columns and sorted index -/

namespace CL
namespace Tri
variable {K : Type} [Field K] [LinearOrder K] [IsStrictOrderedRing K]

/-- Cell `(i, c, r, d)` has these labels. -/
def HasLabels (t : Tri K) (k : List String) (col : String) (o v : Int) (i c r d : Nat) : Prop :=
  t.kdims[i]? = some k ∧ t.vdims[c]? = some col ∧ t.odims[r]? = some o ∧ t.valuation r d = v ∧
    d < t.ddims.length

theorem amountAt_none {t : Tri K} {k : List String} {col : String} {o v : Int}
    (h : ∀ i c r d, HasLabels t k col o v i c r d → (t.values.get i c r d).amt = 0) :
    t.amountAt k col o v = 0 := by
  unfold amountAt
  refine Finset.sum_eq_zero fun i _ => Finset.sum_eq_zero fun c _ => Finset.sum_eq_zero fun r _ =>
    Finset.sum_eq_zero fun d hd => ?_
  split_ifs with hl
  · exact h i c r d ⟨hl.1, hl.2.1, hl.2.2.1, hl.2.2.2, Finset.mem_range.mp hd⟩
  · rfl

theorem getElem?_inj {α : Type} {l : List α} (hn : l.Nodup) {i j : Nat} {x : α} (hi : l[i]? = some x)
    (hj : l[j]? = some x) : i = j := by
  obtain ⟨h1, e1⟩ := List.getElem?_eq_some_iff.mp hi
  obtain ⟨h2, e2⟩ := List.getElem?_eq_some_iff.mp hj
  exact (List.Nodup.getElem_inj_iff hn).mp (e1.trans e2.symm)

/-- With distinct labels, the amount at the labels of a cell is that of the cell. -/
theorem amountAt_some {t : Tri K} {k : List String} {col : String} {o v : Int} {i c r d : Nat}
    (hk : t.kdims.Nodup) (hv : t.vdims.Nodup) (ho : t.odims.Nodup)
    (hd : ∀ d' < t.ddims.length, t.valuation r d' = v → d' = d)
    (h : HasLabels t k col o v i c r d) : t.amountAt k col o v = (t.values.get i c r d).amt := by
  obtain ⟨h1, h2, h3, h4, h5⟩ := h
  have l1 : i < t.kdims.length := (List.getElem?_eq_some_iff.mp h1).1
  have l2 : c < t.vdims.length := (List.getElem?_eq_some_iff.mp h2).1
  have l3 : r < t.odims.length := (List.getElem?_eq_some_iff.mp h3).1
  unfold amountAt
  rw [Finset.sum_eq_single_of_mem i (Finset.mem_range.mpr l1),
    Finset.sum_eq_single_of_mem c (Finset.mem_range.mpr l2),
    Finset.sum_eq_single_of_mem r (Finset.mem_range.mpr l3),
    Finset.sum_eq_single_of_mem d (Finset.mem_range.mpr h5), if_pos ⟨h1, h2, h3, h4⟩]
  · intro d' hd' hne
    rw [if_neg]
    exact fun hl => hne (hd d' (Finset.mem_range.mp hd') hl.2.2.2)
  · intro r' _ hne
    refine Finset.sum_eq_zero fun d' _ => ?_
    rw [if_neg]
    exact fun hl => hne (getElem?_inj ho hl.2.2.1 h3)
  · intro c' _ hne
    refine Finset.sum_eq_zero fun r' _ => Finset.sum_eq_zero fun d' _ => ?_
    rw [if_neg]
    exact fun hl => hne (getElem?_inj hv hl.2.1 h2)
  · intro i' _ hne
    refine Finset.sum_eq_zero fun c' _ => Finset.sum_eq_zero fun r' _ => Finset.sum_eq_zero fun d' _ => ?_
    rw [if_neg]
    exact fun hl => hne (getElem?_inj hk hl.1 h1)

/-- Taking index positions and columns keeps the valuation date when a cell has it or a later one. -/
theorem pick_labels {t : Tri K} (wf : WF t) (pi pc : List Nat)
    (h : ∃ o < t.odims.length, ∃ d < t.ddims.length, t.vd ≤ t.valuation o d) :
    t.pick pi pc (List.range t.values.d2) (List.range t.values.d3) = .ok { t with
      kdims := pi.map (t.kdims.getD · [])
      vdims := pc.map (t.vdims.getD · "")
      values := t.values.take pi pc (List.range t.values.d2) (List.range t.values.d3) } := by
  obtain ⟨w0, w1, w2, w3⟩ := wf
  obtain ⟨o, ho, d, hd, hv⟩ := h
  have e2 : (List.range t.values.d2).map (t.odims.getD · 0) = t.odims := by
    rw [w2]; exact map_getD_range _ _
  have e3 : (List.range t.values.d3).map (t.ddims.getD · 0) = t.ddims := by
    rw [w3]; exact map_getD_range _ _
  rw [pick_eq _ _ _ _ _ (Or.inr (by
    intro e
    have := congrArg List.length e
    rw [List.length_range, List.length_nil, w3] at this
    omega))]
  have hval : (t.picked pi pc (List.range t.values.d2) (List.range t.values.d3) t.vd).valuations =
      t.valuations := by
    unfold valuations picked valuation
    rw [e2, e3]
  rw [hval]
  have hm : ((t.valuations.max?).elim t.vd fun m => min m t.vd) = t.vd := by
    cases e : t.valuations.max? with
    | none => rfl
    | some m =>
      have := (List.max?_eq_some_iff.mp e).2 _ (mem_valuations.mpr ⟨o, d, ho, hd, rfl⟩)
      show min m t.vd = t.vd
      exact min_eq_right (le_trans hv this)
  rw [hm]
  unfold picked
  rw [e2, e3]

/-- All columns in their order. -/
theorem getCols_self {t : Tri K} (wf : WF t) (hn : t.vdims.Nodup) (hne : t.vdims ≠ [])
    (h : ∃ o < t.odims.length, ∃ d < t.ddims.length, t.vd ≤ t.valuation o d) :
    t.getCols t.vdims = .ok { t with
      values := t.values.take (List.range t.values.d0) (List.range t.values.d1)
        (List.range t.values.d2) (List.range t.values.d3) } := by
  have hidx : t.vdims.map t.vdims.idxOf = List.range t.values.d1 := by
    rw [wf.2.1]
    refine List.ext_getElem (by simp) fun i h1 h2 => ?_
    simp only [List.getElem_map, List.getElem_range]
    exact List.Nodup.idxOf_getElem hn i (by simpa using h1)
  have hsel : Sel t.values.d1 (.lst (t.vdims.map fun c => (t.vdims.idxOf c : Int)))
      (List.range t.values.d1) := by
    have := sel_positions (n := t.values.d1) (l := List.range t.values.d1) (by
      intro e
      have := congrArg List.length e
      rw [List.length_range, List.length_nil, wf.2.1] at this
      exact hne (List.length_eq_zero_iff.mp this)) (by simp) List.nodup_range
    rw [← hidx, List.map_map] at this
    rw [← hidx]
    exact this
  unfold getCols
  rw [if_pos (by simp), iloc_of_sel (selS_all _).sel hsel (selS_all _) (selS_all _), pick_labels wf _ _ h]
  have e0 : (List.range t.values.d0).map (t.kdims.getD · []) = t.kdims := by
    rw [wf.1]; exact map_getD_range _ _
  have e1 : (List.range t.values.d1).map (t.vdims.getD · "") = t.vdims := by
    rw [wf.2.1]; exact map_getD_range _ _
  rw [e0, e1]

/-- `sort_index`. -/
theorem sortIndex_eq {t : Tri K} (wf : WF t) (hne : t.kdims ≠ [])
    (h : ∃ o < t.odims.length, ∃ d < t.ddims.length, t.vd ≤ t.valuation o d) :
    t.sortIndex = .ok { t with
      kdims := (sortPositions t.kdims).map (t.kdims.getD · [])
      values := t.values.take (sortPositions t.kdims) (List.range t.values.d1)
        (List.range t.values.d2) (List.range t.values.d3) } := by
  have hs : Sel t.values.d0 (.lst ((sortPositions t.kdims).map fun i : Nat => (i : Int)))
      (sortPositions t.kdims) := by
    apply sel_positions
    · intro e
      have := sortPositions_length t.kdims
      rw [e] at this
      exact hne (List.length_eq_zero_iff.mp this.symm)
    · intro x hx
      rw [wf.1]; exact mem_sortPositions.1 hx
    · exact (sortPositions_perm t.kdims).nodup_iff.2 List.nodup_range
  unfold sortIndex
  rw [iloc_of_sel hs (selS_all _).sel (selS_all _) (selS_all _), pick_labels wf _ _ h]
  have e1 : (List.range t.values.d1).map (t.vdims.getD · "") = t.vdims := by
    rw [wf.2.1]; exact map_getD_range _ _
  rw [e1]

/-- Selecting the columns and sorting the index moves cells to the sorted position of their key. -/
theorem select_sort {t : Tri K} (wf : WF t) (hn : t.vdims.Nodup) (hne : t.vdims ≠ [])
    (hk : t.kdims ≠ []) (hkn : t.kdims.Nodup)
    (h : ∃ o < t.odims.length, ∃ d < t.ddims.length, t.vd ≤ t.valuation o d) :
    ∃ y, (t.getCols t.vdims >>= fun s => s.sortIndex) = .ok y ∧ y = { t with
        kdims := y.kdims
        values := y.values } ∧ y.kdims.Perm t.kdims ∧ y.kdims.Pairwise (· < ·) ∧ WF y ∧
      ∀ i i' c o d, t.kdims[i]? = y.kdims[i']? → i' < y.kdims.length → c < t.vdims.length →
        o < t.odims.length → d < t.ddims.length → y.values.get i' c o d = t.values.get i c o d := by
  obtain ⟨s, hs⟩ : ∃ s : Tri K, s = { t with
      values := t.values.take (List.range t.values.d0) (List.range t.values.d1)
        (List.range t.values.d2) (List.range t.values.d3) } := ⟨_, rfl⟩
  have hsw : WF s := by
    rw [hs]
    refine ⟨?_, ?_, ?_, ?_⟩ <;> simp [Arr.take, wf.1, wf.2.1, wf.2.2.1, wf.2.2.2]
  have hsk : s.kdims = t.kdims := by rw [hs]
  have hs1 : s.values.d1 = t.values.d1 ∧ s.values.d2 = t.values.d2 ∧ s.values.d3 = t.values.d3 := by
    rw [hs]; simp [Arr.take]
  have hcell : ∀ i c o d, i < t.values.d0 → c < t.values.d1 → o < t.values.d2 → d < t.values.d3 →
      s.values.get i c o d = t.values.get i c o d := by
    intro i c o d h0 h1 h2 h3
    rw [hs]
    simp [Arr.take, h0, h1, h2, h3]
  have hsv : ∃ o < s.odims.length, ∃ d < s.ddims.length, s.vd ≤ s.valuation o d := by rw [hs]; exact h
  have e1 : t.getCols t.vdims = .ok s := by rw [hs]; exact getCols_self wf hn hne h
  have e2 := sortIndex_eq hsw (by rw [hsk]; exact hk) hsv
  rw [hsk] at e2
  have hperm : ((sortPositions t.kdims).map (t.kdims.getD · [])).Perm t.kdims := by
    have := (sortPositions_perm t.kdims).map (t.kdims.getD · [])
    rwa [map_getD_range] at this
  refine ⟨_, by rw [e1]; exact e2, ?_, hperm, ?_, ?_, ?_⟩
  · rw [hs]
  · have hle := sortPositions_sorted t.kdims
    have hnd := hperm.nodup_iff.mpr hkn
    exact List.Pairwise.imp₂ (fun a b h1 h2 => lt_of_le_of_ne h1 h2) hle hnd
  · refine ⟨?_, ?_, ?_, ?_⟩
    · simp [Arr.take]
    · show (List.range s.values.d1).length = s.vdims.length
      rw [List.length_range, hsw.2.1]
    · show (List.range s.values.d2).length = s.odims.length
      rw [List.length_range, hsw.2.2.1]
    · show (List.range s.values.d3).length = s.ddims.length
      rw [List.length_range, hsw.2.2.2]
  · intro i i' c o d hii hi' hc ho hd
    show (s.values.take _ _ _ _).get i' c o d = _
    have hl : ((sortPositions t.kdims).map (t.kdims.getD · [])).length = t.kdims.length := by
      rw [List.length_map, sortPositions_length]
    have hi2 : i' < (sortPositions t.kdims).length := by simpa using hi'
    have hp : (sortPositions t.kdims).getD i' 0 = i := by
      have hm : (sortPositions t.kdims)[i'] < t.kdims.length := mem_sortPositions.mp (List.getElem_mem hi2)
      have e3 : ((sortPositions t.kdims).map (t.kdims.getD · []))[i']? =
          some (t.kdims.getD (sortPositions t.kdims)[i'] []) := by
        rw [List.getElem?_map, List.getElem?_eq_getElem hi2]; rfl
      have hii' : t.kdims[i]? = ((sortPositions t.kdims).map (t.kdims.getD · []))[i']? := hii
      rw [e3] at hii'
      rw [List.getD_eq_getElem _ _ hi2]
      refine getElem?_inj hkn ?_ hii'
      rw [List.getElem?_eq_getElem hm, List.getD_eq_getElem _ _ hm]
    have hi : i < t.kdims.length := by
      rw [← hp, List.getD_eq_getElem _ _ hi2]
      exact mem_sortPositions.mp (List.getElem_mem hi2)
    show s.values.get ((sortPositions t.kdims).getD i' 0) ((List.range s.values.d1).getD c 0)
      ((List.range s.values.d2).getD o 0) ((List.range s.values.d3).getD d 0) = _
    rw [hp, hs1.1, hs1.2.1, hs1.2.2]
    have r : ∀ {m k : Nat}, k < m → (List.range m).getD k 0 = k := by
      intro m k hk; simp [hk]
    have b1 : c < t.values.d1 := by rw [wf.2.1]; exact hc
    have b2 : o < t.values.d2 := by rw [wf.2.2.1]; exact ho
    have b3 : d < t.values.d3 := by rw [wf.2.2.2]; exact hd
    rw [r b1, r b2, r b3]
    exact hcell i c o d (by rw [wf.1]; exact hi) b1 b2 b3

end Tri
end CL
