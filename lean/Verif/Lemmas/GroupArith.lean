import Verif.Model.GroupArith
import Verif.Lemmas.BcastUp
import Verif.Lemmas.Benktander
import Verif.Lemmas.Along
import Verif.Lemmas.AxSel
import Verif.Lemmas.Concat
import Verif.Props.C20

set_option linter.unusedSectionVars false

/-! # Arithmetic between a triangle and one with fewer index labels -/

namespace CL
namespace Tri
variable {K : Type} [Field K] [LinearOrder K] [IsStrictOrderedRing K]

/-- The rows `l` of a triangle. -/
def rowsOf (t : Tri K) (l : List Nat) (v : Int) : Tri K :=
  { t with
    kdims := l.map (t.kdims.getD · [])
    vd := v
    values := t.values.take l (List.range t.values.d1) (List.range t.values.d2) (List.range t.values.d3) }

theorem wf_rowsOf {t : Tri K} (wf : WF t) (l : List Nat) (v : Int) : WF (t.rowsOf l v) := by
  obtain ⟨w0, w1, w2, w3⟩ := wf
  refine ⟨by simp [rowsOf, Arr.take], ?_, ?_, ?_⟩ <;> simp [rowsOf, Arr.take, w1, w2, w3]

theorem ilocAx_of_sel {t : Tri K} (wf : WF t) (h3 : 1 ≤ t.ddims.length) {l : List Nat} {key : Key}
    (hs : Sel t.values.d0 key l) : ∃ v, t.ilocAx .index key = .ok (t.rowsOf l v) := by
  obtain ⟨w0, w1, w2, w3⟩ := wf
  have e1 : (List.range t.values.d1).map (t.vdims.getD · "") = t.vdims := by
    rw [w1]; exact map_getD_range _ _
  have e2 : (List.range t.values.d2).map (t.odims.getD · 0) = t.odims := by
    rw [w2]; exact map_getD_range _ _
  have e3 : (List.range t.values.d3).map (t.ddims.getD · 0) = t.ddims := by
    rw [w3]; exact map_getD_range _ _
  have hne : t.isVal = true ∨ List.range t.values.d3 ≠ [] := by
    right
    intro h
    have := congrArg List.length h
    rw [List.length_range, List.length_nil, w3] at this
    omega
  obtain ⟨v, hrun⟩ : ∃ v, t.ilocAx .index key =
      .ok (t.picked l (List.range t.values.d1) (List.range t.values.d2) (List.range t.values.d3) v) := by
    unfold ilocAx
    rw [iloc_of_sel hs (selS_all _).sel (selS_all _) (selS_all _)]
    exact ⟨_, pick_eq _ _ _ _ _ hne⟩
  refine ⟨v, hrun.trans ?_⟩
  unfold picked rowsOf
  rw [e1, e2, e3]

theorem ilocAx_rows {t : Tri K} (wf : WF t) (h3 : 1 ≤ t.ddims.length) {l : List Nat} (hl : l ≠ [])
    (hlt : ∀ i ∈ l, i < t.kdims.length) (hn : l.Nodup) :
    ∃ v, t.ilocAx .index (.lst (l.map fun i : Nat => (i : Int))) = .ok (t.rowsOf l v) :=
  ilocAx_of_sel wf h3 (sel_positions hl (by rw [wf.1]; exact hlt) hn)

/-- `y` has one row, fewer index labels and otherwise the axes of `x`. -/
structure OneRow (x y : Tri K) : Prop where
  wx : WF x
  wy : WF y
  rows : 1 ≤ x.kdims.length
  one : y.kdims.length = 1
  fewer : y.keyLabels.length < x.keyLabels.length
  ograin : x.ograin = y.ograin
  dgrain : x.dgrain = y.dgrain
  isVal : x.isVal = y.isVal
  vdims : x.vdims = y.vdims
  odims : x.odims = y.odims
  ddims : x.ddims = y.ddims

/-- The two triangles have the same columns, origins and developments. -/
theorem broadcastable_same {x y : Tri K} (wx : WF x) (wy : WF y) (ho : x.odims = y.odims)
    (hd : x.ddims = y.ddims) (hv : x.isVal = y.isVal) : broadcastable x y = true := by
  have e2 : x.values.d2 = y.values.d2 := by rw [wx.2.2.1, wy.2.2.1, ho]
  have e3 : x.values.d3 = y.values.d3 := by rw [wx.2.2.2, wy.2.2.2, hd]
  unfold broadcastable
  have h1 : ∀ a : List Int, (allDiffer a a && decide (a.length > 1)) = false := by
    intro a
    by_cases h : a.length > 1
    · rw [allDiffer_self a h]; rfl
    · simp [h]
  simp [e2, e3, ho, hd, hv, h1]

theorem prepared {x y : Tri K} (wx : WF x) (wy : WF y) (ho : x.odims = y.odims)
    (hd : x.ddims = y.ddims) (hv : x.isVal = y.isVal) (hc : x.vdims = y.vdims) (p : Bool) (v : Int) (s0 s1 : Nat) :
    (do
      let (x1, y1) ← prepColumns ({ x with isPattern := p, vd := v } : Tri K) { y with isPattern := p }
      prepOriginDev s0 s1 x1 y1) =
    .ok (({ x with isPattern := p, vd := v } : Tri K), ({ y with isPattern := p } : Tri K)) := by
  have h1 : prepColumns ({ x with isPattern := p, vd := v } : Tri K) { y with isPattern := p } =
      .ok (({ x with isPattern := p, vd := v } : Tri K), ({ y with isPattern := p } : Tri K)) := by
    unfold prepColumns
    dsimp only
    rw [if_neg (by rw [hc]; omega), if_neg (by rw [hc]; omega), if_neg (by rw [hc]; simp),
      if_pos ⟨by rw [wx.2.1, wy.2.1, hc], hc⟩]
  have h2 : prepOriginDev s0 s1 ({ x with isPattern := p, vd := v } : Tri K) { y with isPattern := p } =
      .ok (({ x with isPattern := p, vd := v } : Tri K), ({ y with isPattern := p } : Tri K)) := by
    unfold prepOriginDev
    have hb : broadcastable ({ x with isPattern := p, vd := v } : Tri K) { y with isPattern := p } = true :=
      broadcastable_same (x := { x with isPattern := p, vd := v }) (y := { y with isPattern := p }) wx wy ho hd hv
    have hr : relabelOnes ({ x with isPattern := p, vd := v } : Tri K) { y with isPattern := p } =
        (({ x with isPattern := p, vd := v } : Tri K), ({ y with isPattern := p } : Tri K)) := by
      unfold relabelOnes
      dsimp only
      have o1 : ¬ (y.odims.length = 1 ∧ x.odims.length > 1) := by rw [ho]; omega
      have o2 : ¬ (x.odims.length = 1 ∧ y.odims.length > 1) := by rw [ho]; omega
      have d1 : ¬ (y.ddims.length = 1 ∧ x.ddims.length > 1) := by rw [hd]; omega
      have d2 : ¬ (x.ddims.length = 1 ∧ y.ddims.length > 1) := by rw [hd]; omega
      simp only [if_neg o1, if_neg o2, if_neg d1, if_neg d2]
    rw [hb, hr]
    rfl
  rw [h1]
  exact h2

/-- The result of an operation with the single row of `y`. -/
def rowCombined (f : Num K → Num K → Num K) (x y : Tri K) : Tri K :=
  { x with
    isPattern := x.isPattern && y.isPattern
    vd := max x.vd y.vd
    values := { x.values with
      get := fun i c o d =>
        f (x.values.get (Arr.bix x.values.d0 x.values.d0 i) (Arr.bix x.values.d1 x.values.d1 c)
            (Arr.bix x.values.d2 x.values.d2 o) (Arr.bix x.values.d3 x.values.d3 d))
          (y.values.get (Arr.bix y.values.d0 x.values.d0 i) (Arr.bix y.values.d1 x.values.d1 c)
            (Arr.bix y.values.d2 x.values.d2 o) (Arr.bix y.values.d3 x.values.d3 d)) } }

theorem validate_row {x y : Tri K} (h : OneRow x y) :
    validate x y = .ok ({ x with isPattern := x.isPattern && y.isPattern, vd := max x.vd y.vd }, y.values) := by
  have hp := prepared h.wx h.wy h.odims h.ddims h.isVal h.vdims (x.isPattern && y.isPattern)
    (max x.vd y.vd) x.values.d0 x.values.d1
  have hi : ∃ y3 : Tri K, prepIndex ({ x with isPattern := x.isPattern && y.isPattern, vd := max x.vd y.vd } : Tri K)
      { y with isPattern := x.isPattern && y.isPattern } =
      .ok ({ x with isPattern := x.isPattern && y.isPattern, vd := max x.vd y.vd }, y3) ∧ y3.values = y.values := by
    unfold prepIndex
    dsimp only
    have h1 := h.one
    have h2 := h.rows
    rw [if_neg (by omega)]
    by_cases e : x.kdims.length > 1 ∧ y.kdims.length = 1
    · rw [if_pos e]; exact ⟨_, rfl, rfl⟩
    · rw [if_neg e]
      have hx : x.kdims.length = 1 := by omega
      have hne : x.keyLabels ≠ y.keyLabels := by
        intro e
        have := h.fewer
        rw [e] at this
        omega
      rw [if_pos ⟨hx, h1, hne⟩, if_pos h.fewer]
      exact ⟨_, rfl, rfl⟩
  obtain ⟨y3, h3, v3⟩ := hi
  unfold validate
  have e1 : ¬ (x.ograin ≠ y.ograin ∨ (x.dgrain ≠ y.dgrain ∧ min x.values.d3 y.values.d3 > 1)) := by
    rintro (g | g)
    · exact g h.ograin
    · exact g.1 h.dgrain
  rw [if_neg e1]
  dsimp only
  cases hpc : prepColumns ({ x with isPattern := x.isPattern && y.isPattern, vd := max x.vd y.vd } : Tri K)
      { y with isPattern := x.isPattern && y.isPattern } with
  | error e => rw [hpc] at hp; cases hp
  | ok r =>
    rw [hpc] at hp
    simp only [bind, Except.bind] at hp ⊢
    rw [hp]
    dsimp only
    rw [h3]
    dsimp only
    rw [v3]

theorem zip_row (f : Num K → Num K → Num K) {x y : Tri K} (h : OneRow x y) :
    Arr.zip f x.values y.values = .ok (rowCombined f x y).values := by
  have e1 : x.values.d1 = y.values.d1 := by rw [h.wx.2.1, h.wy.2.1, h.vdims]
  have e2 : x.values.d2 = y.values.d2 := by rw [h.wx.2.2.1, h.wy.2.2.1, h.odims]
  have e3 : x.values.d3 = y.values.d3 := by rw [h.wx.2.2.2, h.wy.2.2.2, h.ddims]
  have e0 : y.values.d0 = 1 := by rw [h.wy.1, h.one]
  have hb : ∀ n, Arr.bdim n n = some n := fun n => by simp [Arr.bdim]
  have hb1 : ∀ n, Arr.bdim n 1 = some n := fun n => by
    unfold Arr.bdim
    split_ifs with a b <;> first | rfl | (rw [a]) | (exact absurd rfl ‹_›)
  unfold Arr.zip rowCombined
  simp only [← e1, ← e2, ← e3, e0, hb, hb1]

theorem mul_row {x y : Tri K} (h : OneRow x y) : x.mul y = .ok (rowCombined (· * ·) x y) := by
  unfold mul
  simp only [validate_row h, bind, Except.bind, mulArr, zipArr]
  rw [zip_row (· * ·) h]
  rfl

theorem div_row {x y : Tri K} (h : OneRow x y) : x.div y = .ok (rowCombined (· / ·) x y) := by
  unfold div
  simp only [validate_row h, bind, Except.bind, divArr, zipArr]
  rw [zip_row (· / ·) h]
  rfl

/-! ## Positions in a list of lists -/

/-- Each position of a concatenation of lists lies in one of them. -/
theorem flatMap_at {α β : Type} (f : α → List β) : ∀ (l : List α) (q : Nat), q < (l.flatMap f).length →
    ∃ k j, ∃ hk : k < l.length, ∃ hj : j < (f l[k]).length,
      q = ((l.take k).map fun a => (f a).length).sum + j ∧ (l.flatMap f)[q]? = some (f l[k])[j]
  | [], q, h => by simp at h
  | a :: l, q, h => by
    rw [List.flatMap_cons] at h ⊢
    by_cases hq : q < (f a).length
    · refine ⟨0, q, by simp, by simpa using hq, by simp, ?_⟩
      rw [List.getElem?_append_left hq]
      simp [hq]
    · have hge : (f a).length ≤ q := by omega
      rw [List.length_append] at h
      obtain ⟨k, j, hk, hj, e1, e2⟩ := flatMap_at f l (q - (f a).length) (by omega)
      refine ⟨k + 1, j, by simpa using hk, by simpa using hj, ?_, ?_⟩
      · simp only [List.take_succ_cons, List.map_cons, List.sum_cons]
        omega
      · rw [List.getElem?_append_right hge, e2]
        simp

theorem key_of_mem {κ : Type} [LinearOrder κ] {rows : List κ} {k : κ} {i : Nat} (h : i ∈ groupIndices rows k) :
    rows[i]? = some k := of_decide_eq_true (List.mem_filter.mp h).2

/-- The rows of the groups, one group after the other, are all rows. -/
theorem groups_perm {κ : Type} [LinearOrder κ] {rows keys : List κ} (hn : keys.Nodup)
    (hk : ∀ k ∈ rows, k ∈ keys) :
    (keys.flatMap fun k => groupIndices rows k).Perm (List.range rows.length) := by
  rw [List.perm_ext_iff_of_nodup _ List.nodup_range]
  · intro i
    rw [List.mem_flatMap, List.mem_range]
    constructor
    · rintro ⟨k, -, h⟩
      exact groupIndices_lt h
    · intro h
      refine ⟨rows[i], hk _ (List.getElem_mem h), ?_⟩
      unfold groupIndices
      rw [List.mem_filter, List.mem_range]
      exact ⟨h, by simp [h]⟩
  · rw [List.nodup_flatMap]
    refine ⟨fun k _ => ((groupIndices_inc rows k).imp fun h => Nat.ne_of_lt h), ?_⟩
    refine hn.imp ?_
    intro a b hab i ha hb
    unfold groupIndices at ha hb
    rw [List.mem_filter] at ha hb
    have h1 := ha.2
    have h2 := hb.2
    simp only [decide_eq_true_eq] at h1 h2
    rw [h1] at h2
    exact hab (Option.some.inj h2)

end Tri
end CL
