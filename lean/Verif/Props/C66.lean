import Verif.Model.Sort
import Verif.Lemmas.Benktander
import Verif.Lemmas.Concat
import Verif.Props.C20
import Verif.Spec.Examples

set_option linter.unusedSectionVars false

/-! # C66: sorting an axis -/

namespace CL
namespace Tri
variable {K : Type} [Field K] [LinearOrder K] [IsStrictOrderedRing K]

/-- `t` has the amount `x` at these four labels. -/
def HasCell (t : Tri K) (k : List String) (col : String) (o a : Int) (x : Num K) : Prop :=
  ∃ i c r d, t.kdims[i]? = some k ∧ t.vdims[c]? = some col ∧ t.odims[r]? = some o ∧ t.ddims[d]? = some a ∧
    t.values.get i c r d = x

section sorting
variable {α : Type} [LinearOrder α]

theorem sortBy_perm (key : Nat → α) (n : Nat) : (sortBy key n).Perm (List.range n) :=
  List.perm_insertionSort _ _

theorem sortBy_sorted (key : Nat → α) (n : Nat) : ((sortBy key n).map key).Pairwise (· ≤ ·) := by
  rw [List.pairwise_map]
  unfold sortBy
  haveI : Std.Total (fun i j : Nat => key i ≤ key j) := ⟨fun _ _ => le_total _ _⟩
  haveI : IsTrans Nat (fun i j : Nat => key i ≤ key j) := ⟨fun _ _ _ => le_trans⟩
  exact List.pairwise_insertionSort (fun i j : Nat => key i ≤ key j) _

end sorting

/-- Positions that are a permutation: the same labels, and each keeps its position. -/
theorem moved {β : Type} {l : List β} {z : β} {s : List Nat} (hs : s.Perm (List.range l.length)) (b : β) (P : Nat → Prop) :
    (∃ j, (s.map (l.getD · z))[j]? = some b ∧ P (s.getD j 0)) ↔ ∃ i, l[i]? = some b ∧ P i := by
  constructor
  · rintro ⟨j, hj, hP⟩
    obtain ⟨hlt, e⟩ := List.getElem?_eq_some_iff.mp hj
    rw [List.length_map] at hlt
    rw [List.getElem_map] at e
    have hm : s[j] < l.length := List.mem_range.mp (hs.mem_iff.mp (List.getElem_mem hlt))
    rw [List.getD_eq_getElem _ _ hlt] at hP
    exact ⟨s[j], by rw [List.getElem?_eq_getElem hm, ← e, List.getD_eq_getElem _ _ hm], hP⟩
  · rintro ⟨i, hi, hP⟩
    obtain ⟨hlt, e⟩ := List.getElem?_eq_some_iff.mp hi
    obtain ⟨j, hj, ej⟩ := List.getElem_of_mem (hs.mem_iff.mpr (List.mem_range.mpr hlt))
    refine ⟨j, ?_, ?_⟩
    · rw [List.getElem?_eq_getElem (by simpa using hj), List.getElem_map, ej, List.getD_eq_getElem _ _ hlt, e]
    · rw [List.getD_eq_getElem _ _ hj, ej]; exact hP

theorem range_getD {n j : Nat} (h : j < n) : (List.range n).getD j 0 = j := by
  rw [List.getD_eq_getElem _ _ (by simpa using h), List.getElem_range]

theorem lt_of_label {β : Type} {l : List β} {i : Nat} {b : β} (h : l[i]? = some b) : i < l.length :=
  (List.getElem?_eq_some_iff.mp h).1

theorem perm_labels {β : Type} {l : List β} {z : β} {s : List Nat} (hs : s.Perm (List.range l.length)) :
    (s.map (l.getD · z)).Perm l := by
  have := hs.map (l.getD · z)
  rwa [map_getD_range] at this

/-- The labels of an axis. -/
structure SortedAxis (ax : Axis) (u t : Tri K) : Prop where
  wf : WF u
  kdims : u.kdims.Perm t.kdims ∧ (ax ≠ .index → u.kdims = t.kdims)
  vdims : u.vdims.Perm t.vdims ∧ (ax ≠ .columns → u.vdims = t.vdims)
  odims : u.odims.Perm t.odims ∧ (ax ≠ .origin → u.odims = t.odims)
  ddims : u.ddims.Perm t.ddims ∧ (ax ≠ .development → u.ddims = t.ddims)
  keyLabels : u.keyLabels = t.keyLabels
  isVal : u.isVal = t.isVal
  isCum : u.isCum = t.isCum
  isPattern : u.isPattern = t.isPattern
  grains : u.ograin = t.ograin ∧ u.dgrain = t.dgrain
  cells : ∀ k col o a x, HasCell u k col o a x ↔ HasCell t k col o a x

theorem sortDev_perm (t : Tri K) : t.sortDev.Perm (List.range t.ddims.length) := by
  unfold sortDev
  split_ifs
  · exact sortBy_perm _ _
  · exact sortBy_perm _ _

theorem picked_cells {t : Tri K} {s0 s1 s2 s3 : List Nat} (p0 : s0.Perm (List.range t.kdims.length))
    (p1 : s1.Perm (List.range t.vdims.length)) (p2 : s2.Perm (List.range t.odims.length))
    (p3 : s3.Perm (List.range t.ddims.length)) (v : Int) (k : List String) (col : String) (o a : Int)
    (x : Num K) : HasCell (t.picked s0 s1 s2 s3 v) k col o a x ↔ HasCell t k col o a x := by
  have e1 : HasCell (t.picked s0 s1 s2 s3 v) k col o a x ↔
      ∃ j, (s0.map (t.kdims.getD · []))[j]? = some k ∧ ∃ c, (s1.map (t.vdims.getD · ""))[c]? = some col ∧
        ∃ r, (s2.map (t.odims.getD · 0))[r]? = some o ∧ ∃ d, (s3.map (t.ddims.getD · 0))[d]? = some a ∧
          t.values.get (s0.getD j 0) (s1.getD c 0) (s2.getD r 0) (s3.getD d 0) = x := by
    constructor
    · rintro ⟨i, c, r, d, h1, h2, h3, h4, h5⟩
      exact ⟨i, h1, c, h2, r, h3, d, h4, h5⟩
    · rintro ⟨i, h1, c, h2, r, h3, d, h4, h5⟩
      exact ⟨i, c, r, d, h1, h2, h3, h4, h5⟩
  rw [e1, moved p0 k fun i => ∃ c, (s1.map (t.vdims.getD · ""))[c]? = some col ∧
        ∃ r, (s2.map (t.odims.getD · 0))[r]? = some o ∧ ∃ d, (s3.map (t.ddims.getD · 0))[d]? = some a ∧
          t.values.get i (s1.getD c 0) (s2.getD r 0) (s3.getD d 0) = x]
  have e2 : ∀ i, (∃ c, (s1.map (t.vdims.getD · ""))[c]? = some col ∧
        ∃ r, (s2.map (t.odims.getD · 0))[r]? = some o ∧ ∃ d, (s3.map (t.ddims.getD · 0))[d]? = some a ∧
          t.values.get i (s1.getD c 0) (s2.getD r 0) (s3.getD d 0) = x) ↔
      ∃ c, t.vdims[c]? = some col ∧ ∃ r, t.odims[r]? = some o ∧ ∃ d, t.ddims[d]? = some a ∧
        t.values.get i c r d = x := by
    intro i
    rw [moved p1 col fun c => ∃ r, (s2.map (t.odims.getD · 0))[r]? = some o ∧
      ∃ d, (s3.map (t.ddims.getD · 0))[d]? = some a ∧ t.values.get i c (s2.getD r 0) (s3.getD d 0) = x]
    refine exists_congr fun c => and_congr_right fun _ => ?_
    rw [moved p2 o fun r => ∃ d, (s3.map (t.ddims.getD · 0))[d]? = some a ∧
      t.values.get i c r (s3.getD d 0) = x]
    refine exists_congr fun r => and_congr_right fun _ => ?_
    rw [moved p3 a fun d => t.values.get i c r d = x]
  constructor
  · rintro ⟨i, h1, h⟩
    obtain ⟨c, h2, r, h3, d, h4, h5⟩ := (e2 i).mp h
    exact ⟨i, c, r, d, h1, h2, h3, h4, h5⟩
  · rintro ⟨i, c, r, d, h1, h2, h3, h4, h5⟩
    exact ⟨i, h1, (e2 i).mpr ⟨c, h2, r, h3, d, h4, h5⟩⟩

/-- The positions on each axis after sorting. -/
def order (t : Tri K) (ax x : Axis) : List Nat :=
  match x with
  | .index => if ax = .index then sortPositions t.kdims else List.range t.kdims.length
  | .columns => if ax = .columns then sortBy (t.vdims.getD · "") t.vdims.length else List.range t.vdims.length
  | .origin => if ax = .origin then sortBy (t.odims.getD · 0) t.odims.length else List.range t.odims.length
  | .development => if ax = .development then t.sortDev else List.range t.ddims.length

theorem sortAxis_eq {t : Tri K} (wf : WF t) (h0 : 1 ≤ t.kdims.length) (h3 : 1 ≤ t.ddims.length) (ax : Axis) :
    ∃ v, t.sortAxis ax = .ok (t.picked (t.order ax .index) (t.order ax .columns) (t.order ax .origin)
      (t.order ax .development) v) := by
  have wf' := wf
  obtain ⟨w0, w1, w2, w3⟩ := wf
  have e0 : (List.range t.kdims.length).map (t.kdims.getD · []) = t.kdims := map_getD_range _ _
  have e1 : (List.range t.vdims.length).map (t.vdims.getD · "") = t.vdims := map_getD_range _ _
  have e2 : (List.range t.odims.length).map (t.odims.getD · 0) = t.odims := map_getD_range _ _
  have e3 : (List.range t.ddims.length).map (t.ddims.getD · 0) = t.ddims := map_getD_range _ _
  cases ax with
  | index =>
    obtain ⟨v, hv⟩ := sortIndex_spec wf' h0 h3
    refine ⟨v, ?_⟩
    show t.sortIndex = _
    rw [hv]
    simp only [picked, order, reduceCtorEq, if_true, if_false, e1, e2, e3, w1, w2, w3]
  | columns =>
    refine ⟨t.vd, ?_⟩
    simp only [sortAxis, picked, order, reduceCtorEq, if_true, if_false, e0, e2, e3, w0, w2, w3]
  | origin =>
    refine ⟨t.vd, ?_⟩
    simp only [sortAxis, picked, order, reduceCtorEq, if_true, if_false, e0, e1, e3, w0, w1, w3]
  | development =>
    refine ⟨t.vd, ?_⟩
    simp only [sortAxis, picked, order, reduceCtorEq, if_true, if_false, e0, e1, e2, w0, w1, w2]

/-- **C66 (amounts)**: `sort_axis` moves the amounts with their labels; no label is lost. -/
theorem C66_amounts {t : Tri K} (wf : WF t) (h0 : 1 ≤ t.kdims.length) (h3 : 1 ≤ t.ddims.length) (ax : Axis) :
    ∃ u, t.sortAxis ax = .ok u ∧ SortedAxis ax u t := by
  obtain ⟨v, hv⟩ := sortAxis_eq wf h0 h3 ax
  have p0 : (t.order ax .index).Perm (List.range t.kdims.length) := by
    unfold order; dsimp only; split_ifs
    · exact sortPositions_perm _
    · exact .refl _
  have p1 : (t.order ax .columns).Perm (List.range t.vdims.length) := by
    unfold order; dsimp only; split_ifs
    · exact sortBy_perm _ _
    · exact .refl _
  have p2 : (t.order ax .origin).Perm (List.range t.odims.length) := by
    unfold order; dsimp only; split_ifs
    · exact sortBy_perm _ _
    · exact .refl _
  have p3 : (t.order ax .development).Perm (List.range t.ddims.length) := by
    unfold order; dsimp only; split_ifs
    · exact sortDev_perm _
    · exact .refl _
  refine ⟨_, hv, ⟨?_, ⟨perm_labels p0, fun h => ?_⟩, ⟨perm_labels p1, fun h => ?_⟩,
    ⟨perm_labels p2, fun h => ?_⟩, ⟨perm_labels p3, fun h => ?_⟩, rfl, rfl, rfl, rfl, ⟨rfl, rfl⟩,
    fun k col o a x => picked_cells p0 p1 p2 p3 v k col o a x⟩⟩
  · refine ⟨?_, ?_, ?_, ?_⟩ <;> simp [picked, Arr.take]
  · simp only [picked, order, if_neg h]; exact map_getD_range _ _
  · simp only [picked, order, if_neg h]; exact map_getD_range _ _
  · simp only [picked, order, if_neg h]; exact map_getD_range _ _
  · simp only [picked, order, if_neg h]; exact map_getD_range _ _

/-- The labels of the axis are in increasing order; for index keys, the order of the code points. -/
def Increasing (u : Tri K) : Axis → Prop
  | .index => u.kdims.Pairwise (· ≤ ·)
  | .columns => u.vdims.Pairwise (· ≤ ·)
  | .origin => u.odims.Pairwise (· ≤ ·)
  | .development => u.ddims.Pairwise (· ≤ ·)

/-- **C66 (order), partial: not the developments of a pattern.**  After `sort_axis` the labels of the axis
increase. -/
theorem C66_order_partial {t u : Tri K} (wf : WF t) (h0 : 1 ≤ t.kdims.length) (h3 : 1 ≤ t.ddims.length)
    {ax : Axis} (hp : ax = .development → t.isPattern = false ∨ t.isVal = true) (h : t.sortAxis ax = .ok u) :
    Increasing u ax := by
  obtain ⟨v, hv⟩ := sortAxis_eq wf h0 h3 ax
  rw [hv] at h
  cases h
  cases ax with
  | index => exact sortPositions_sorted _
  | columns => exact sortBy_sorted _ _
  | origin => exact sortBy_sorted _ _
  | development =>
    have : ¬ (¬ t.isVal = true ∧ t.isPattern = true) := by
      rcases hp rfl with h | h <;> simp [h]
    show (t.sortDev.map (t.ddims.getD · 0)).Pairwise _
    unfold sortDev
    rw [if_neg this]
    exact sortBy_sorted _ _

/-- An axis in increasing order stays as it is. -/
theorem C66_sorted_partial {t u : Tri K} (wf : WF t) (h0 : 1 ≤ t.kdims.length) (h3 : 1 ≤ t.ddims.length)
    {ax : Axis} (hp : ax = .development → t.isPattern = false ∨ t.isVal = true) (hi : Increasing t ax)
    (h : t.sortAxis ax = .ok u) :
    u.kdims = t.kdims ∧ u.vdims = t.vdims ∧ u.odims = t.odims ∧ u.ddims = t.ddims := by
  obtain ⟨u', hu, hs⟩ := C66_amounts wf h0 h3 ax
  have hinc := C66_order_partial wf h0 h3 hp h
  rw [hu] at h
  cases h
  refine ⟨?_, ?_, ?_, ?_⟩
  · by_cases hx : ax = .index
    · subst hx; exact hs.kdims.1.eq_of_pairwise (fun _ _ _ _ => le_antisymm) hinc hi
    · exact hs.kdims.2 hx
  · by_cases hx : ax = .columns
    · subst hx; exact hs.vdims.1.eq_of_pairwise (fun _ _ _ _ => le_antisymm) hinc hi
    · exact hs.vdims.2 hx
  · by_cases hx : ax = .origin
    · subst hx; exact hs.odims.1.eq_of_pairwise (fun _ _ _ _ => le_antisymm) hinc hi
    · exact hs.odims.2 hx
  · by_cases hx : ax = .development
    · subst hx; exact hs.ddims.1.eq_of_pairwise (fun _ _ _ _ => le_antisymm) hinc hi
    · exact hs.ddims.2 hx

/-! ## Concatenation with `sort=True` -/

/-- A position. -/
def pos (i c r d : Nat) : Pos
  | .index => i
  | .columns => c
  | .origin => r
  | .development => d

/-- A concatenation has the cells of both triangles. -/
theorem concat_cells {ax : Axis} {t s : Tri K} (wt : WF t) (ws : WF s) (hag : AgreeBut ax t s)
    (hv : t.isVal = s.isVal) (hcol : ax ≠ .columns → t.vdims = s.vdims) (hdis : Distinct ax [t, s]) :
    ∃ u, concat ax [t, s] = .ok u ∧ WF u ∧ Labels ax [t, s] u ∧ AgreeBut ax u t ∧
      (ax ≠ .columns → u.vdims = t.vdims) ∧ u.isVal = t.isVal ∧ u.isPattern = t.isPattern ∧
      ∀ k col o a x, HasCell u k col o a x ↔ HasCell t k col o a x ∨ HasCell s k col o a x := by
  obtain ⟨u, eu, wu, lab, ag, u5, -, iv, -, -, -, -, ip, -, ca, cb⟩ := concat_two wt ws hag hv hcol hdis
  refine ⟨u, eu, wu, lab, ag, u5, iv, ip, ?_⟩
  intro k col o a x
  obtain ⟨lab1, lab2, lab3, lab4⟩ := lab
  obtain ⟨g1, g2, g3⟩ := ag
  obtain ⟨a1, a2, a3⟩ := hag
  cases ax with
  | index =>
    have el : u.kdims = t.kdims ++ s.kdims := by
      rw [lab1 rfl]; simp
    have wl : t.values.dim .index = t.kdims.length := wt.1
    have wl' : s.values.dim .index = s.kdims.length := ws.1
    have q2 : t.vdims = u.vdims := (u5 (by decide)).symm
    have z2 : s.vdims = t.vdims := (hcol (by decide)).symm
    have q3 : t.odims = u.odims := g2 (by decide)
    have z3 : s.odims = t.odims := a2 (by decide)
    have q4 : t.ddims = u.ddims := (g3 (by decide)).1
    have z4 : s.ddims = t.ddims := (a3 (by decide)).1
    constructor
    · rintro ⟨i, c, r, d, h1, h2, h3, h4, h5⟩
      rw [el] at h1
      by_cases hlt : i < t.kdims.length
      · left
        have e := ca (pos i c r d) (by rw [wl]; exact hlt)
        exact ⟨i, c, r, d, by rw [List.getElem?_append_left hlt] at h1; exact h1, by rw [q2]; exact h2, by rw [q3]; exact h3, by rw [q4]; exact h4, e.symm.trans h5⟩
      · right
        have hge : t.kdims.length ≤ i := by omega
        have hlt' := lt_of_label h1
        rw [List.length_append] at hlt'
        have e := cb (pos i c r d) (i - t.kdims.length) (by rw [wl']; omega)
          (by show i = _; rw [wl]; omega)
        exact ⟨i - t.kdims.length, c, r, d, by rw [List.getElem?_append_right hge] at h1; exact h1, by rw [z2, q2]; exact h2, by rw [z3, q3]; exact h3, by rw [z4, q4]; exact h4, e.symm.trans h5⟩
    · rintro (⟨i, c, r, d, h1, h2, h3, h4, h5⟩ | ⟨i, c, r, d, h1, h2, h3, h4, h5⟩)
      · have e := ca (pos i c r d) (by rw [wl]; exact lt_of_label h1)
        exact ⟨i, c, r, d, by rw [el, List.getElem?_append_left (lt_of_label h1)]; exact h1, by rw [← q2]; exact h2, by rw [← q3]; exact h3, by rw [← q4]; exact h4, e.trans h5⟩
      · have e := cb (pos (t.kdims.length + i) c r d) i (by rw [wl']; exact lt_of_label h1)
          (by show t.kdims.length + i = _; rw [wl])
        exact ⟨t.kdims.length + i, c, r, d, by rw [el, List.getElem?_append_right (Nat.le_add_right _ _), Nat.add_sub_cancel_left]; exact h1, by rw [← q2, ← z2]; exact h2, by rw [← q3, ← z3]; exact h3, by rw [← q4, ← z4]; exact h4, e.trans h5⟩
  | columns =>
    have el : u.vdims = t.vdims ++ s.vdims := by
      rw [lab2 rfl]; simp
    have wl : t.values.dim .columns = t.vdims.length := wt.2.1
    have wl' : s.values.dim .columns = s.vdims.length := ws.2.1
    have q1 : t.kdims = u.kdims := g1 (by decide)
    have z1 : s.kdims = t.kdims := a1 (by decide)
    have q3 : t.odims = u.odims := g2 (by decide)
    have z3 : s.odims = t.odims := a2 (by decide)
    have q4 : t.ddims = u.ddims := (g3 (by decide)).1
    have z4 : s.ddims = t.ddims := (a3 (by decide)).1
    constructor
    · rintro ⟨i, c, r, d, h1, h2, h3, h4, h5⟩
      rw [el] at h2
      by_cases hlt : c < t.vdims.length
      · left
        have e := ca (pos i c r d) (by rw [wl]; exact hlt)
        exact ⟨i, c, r, d, by rw [q1]; exact h1, by rw [List.getElem?_append_left hlt] at h2; exact h2, by rw [q3]; exact h3, by rw [q4]; exact h4, e.symm.trans h5⟩
      · right
        have hge : t.vdims.length ≤ c := by omega
        have hlt' := lt_of_label h2
        rw [List.length_append] at hlt'
        have e := cb (pos i c r d) (c - t.vdims.length) (by rw [wl']; omega)
          (by show c = _; rw [wl]; omega)
        exact ⟨i, c - t.vdims.length, r, d, by rw [z1, q1]; exact h1, by rw [List.getElem?_append_right hge] at h2; exact h2, by rw [z3, q3]; exact h3, by rw [z4, q4]; exact h4, e.symm.trans h5⟩
    · rintro (⟨i, c, r, d, h1, h2, h3, h4, h5⟩ | ⟨i, c, r, d, h1, h2, h3, h4, h5⟩)
      · have e := ca (pos i c r d) (by rw [wl]; exact lt_of_label h2)
        exact ⟨i, c, r, d, by rw [← q1]; exact h1, by rw [el, List.getElem?_append_left (lt_of_label h2)]; exact h2, by rw [← q3]; exact h3, by rw [← q4]; exact h4, e.trans h5⟩
      · have e := cb (pos i (t.vdims.length + c) r d) c (by rw [wl']; exact lt_of_label h2)
          (by show t.vdims.length + c = _; rw [wl])
        exact ⟨i, t.vdims.length + c, r, d, by rw [← q1, ← z1]; exact h1, by rw [el, List.getElem?_append_right (Nat.le_add_right _ _), Nat.add_sub_cancel_left]; exact h2, by rw [← q3, ← z3]; exact h3, by rw [← q4, ← z4]; exact h4, e.trans h5⟩
  | origin =>
    have el : u.odims = t.odims ++ s.odims := by
      rw [lab3 rfl]; simp
    have wl : t.values.dim .origin = t.odims.length := wt.2.2.1
    have wl' : s.values.dim .origin = s.odims.length := ws.2.2.1
    have q1 : t.kdims = u.kdims := g1 (by decide)
    have z1 : s.kdims = t.kdims := a1 (by decide)
    have q2 : t.vdims = u.vdims := (u5 (by decide)).symm
    have z2 : s.vdims = t.vdims := (hcol (by decide)).symm
    have q4 : t.ddims = u.ddims := (g3 (by decide)).1
    have z4 : s.ddims = t.ddims := (a3 (by decide)).1
    constructor
    · rintro ⟨i, c, r, d, h1, h2, h3, h4, h5⟩
      rw [el] at h3
      by_cases hlt : r < t.odims.length
      · left
        have e := ca (pos i c r d) (by rw [wl]; exact hlt)
        exact ⟨i, c, r, d, by rw [q1]; exact h1, by rw [q2]; exact h2, by rw [List.getElem?_append_left hlt] at h3; exact h3, by rw [q4]; exact h4, e.symm.trans h5⟩
      · right
        have hge : t.odims.length ≤ r := by omega
        have hlt' := lt_of_label h3
        rw [List.length_append] at hlt'
        have e := cb (pos i c r d) (r - t.odims.length) (by rw [wl']; omega)
          (by show r = _; rw [wl]; omega)
        exact ⟨i, c, r - t.odims.length, d, by rw [z1, q1]; exact h1, by rw [z2, q2]; exact h2, by rw [List.getElem?_append_right hge] at h3; exact h3, by rw [z4, q4]; exact h4, e.symm.trans h5⟩
    · rintro (⟨i, c, r, d, h1, h2, h3, h4, h5⟩ | ⟨i, c, r, d, h1, h2, h3, h4, h5⟩)
      · have e := ca (pos i c r d) (by rw [wl]; exact lt_of_label h3)
        exact ⟨i, c, r, d, by rw [← q1]; exact h1, by rw [← q2]; exact h2, by rw [el, List.getElem?_append_left (lt_of_label h3)]; exact h3, by rw [← q4]; exact h4, e.trans h5⟩
      · have e := cb (pos i c (t.odims.length + r) d) r (by rw [wl']; exact lt_of_label h3)
          (by show t.odims.length + r = _; rw [wl])
        exact ⟨i, c, t.odims.length + r, d, by rw [← q1, ← z1]; exact h1, by rw [← q2, ← z2]; exact h2, by rw [el, List.getElem?_append_right (Nat.le_add_right _ _), Nat.add_sub_cancel_left]; exact h3, by rw [← q4, ← z4]; exact h4, e.trans h5⟩
  | development =>
    have el : u.ddims = t.ddims ++ s.ddims := by
      rw [lab4 rfl]; simp
    have wl : t.values.dim .development = t.ddims.length := wt.2.2.2
    have wl' : s.values.dim .development = s.ddims.length := ws.2.2.2
    have q1 : t.kdims = u.kdims := g1 (by decide)
    have z1 : s.kdims = t.kdims := a1 (by decide)
    have q2 : t.vdims = u.vdims := (u5 (by decide)).symm
    have z2 : s.vdims = t.vdims := (hcol (by decide)).symm
    have q3 : t.odims = u.odims := g2 (by decide)
    have z3 : s.odims = t.odims := a2 (by decide)
    constructor
    · rintro ⟨i, c, r, d, h1, h2, h3, h4, h5⟩
      rw [el] at h4
      by_cases hlt : d < t.ddims.length
      · left
        have e := ca (pos i c r d) (by rw [wl]; exact hlt)
        exact ⟨i, c, r, d, by rw [q1]; exact h1, by rw [q2]; exact h2, by rw [q3]; exact h3, by rw [List.getElem?_append_left hlt] at h4; exact h4, e.symm.trans h5⟩
      · right
        have hge : t.ddims.length ≤ d := by omega
        have hlt' := lt_of_label h4
        rw [List.length_append] at hlt'
        have e := cb (pos i c r d) (d - t.ddims.length) (by rw [wl']; omega)
          (by show d = _; rw [wl]; omega)
        exact ⟨i, c, r, d - t.ddims.length, by rw [z1, q1]; exact h1, by rw [z2, q2]; exact h2, by rw [z3, q3]; exact h3, by rw [List.getElem?_append_right hge] at h4; exact h4, e.symm.trans h5⟩
    · rintro (⟨i, c, r, d, h1, h2, h3, h4, h5⟩ | ⟨i, c, r, d, h1, h2, h3, h4, h5⟩)
      · have e := ca (pos i c r d) (by rw [wl]; exact lt_of_label h4)
        exact ⟨i, c, r, d, by rw [← q1]; exact h1, by rw [← q2]; exact h2, by rw [← q3]; exact h3, by rw [el, List.getElem?_append_left (lt_of_label h4)]; exact h4, e.trans h5⟩
      · have e := cb (pos i c r (t.ddims.length + d)) d (by rw [wl']; exact lt_of_label h4)
          (by show t.ddims.length + d = _; rw [wl])
        exact ⟨i, c, r, t.ddims.length + d, by rw [← q1, ← z1]; exact h1, by rw [← q2, ← z2]; exact h2, by rw [← q3, ← z3]; exact h3, by rw [el, List.getElem?_append_right (Nat.le_add_right _ _), Nat.add_sub_cancel_left]; exact h4, e.trans h5⟩

/-- The concatenated axis has the same labels whichever triangle comes first. -/
theorem Labels.perm {ax : Axis} {t s u v : Tri K} (hu : Labels ax [t, s] u) (hv : Labels ax [s, t] v) :
    (ax = .index → u.kdims.Perm v.kdims) ∧ (ax = .columns → u.vdims.Perm v.vdims) ∧
      (ax = .origin → u.odims.Perm v.odims) ∧ (ax = .development → u.ddims.Perm v.ddims) := by
  obtain ⟨a1, a2, a3, a4⟩ := hu
  obtain ⟨b1, b2, b3, b4⟩ := hv
  refine ⟨fun e => ?_, fun e => ?_, fun e => ?_, fun e => ?_⟩
  · rw [a1 e, b1 e]; simpa using List.perm_append_comm
  · rw [a2 e, b2 e]; simpa using List.perm_append_comm
  · rw [a3 e, b3 e]; simpa using List.perm_append_comm
  · rw [a4 e, b4 e]; simpa using List.perm_append_comm

/-- **C66 (concatenation), partial: not the developments of a pattern.**  `concat(..., sort=True)` has the
amounts of both triangles at their labels, the labels of the axis increase, and the result does not depend on
the order of the triangles. -/
theorem C66_concat_partial {ax : Axis} {t s : Tri K} (wt : WF t) (ws : WF s) (hag : AgreeBut ax t s)
    (hv : t.isVal = s.isVal) (hcol : ax ≠ .columns → t.vdims = s.vdims) (hdis : Distinct ax [t, s])
    (h0 : 1 ≤ t.kdims.length) (h3 : 1 ≤ t.ddims.length) (h0' : 1 ≤ s.kdims.length) (h3' : 1 ≤ s.ddims.length)
    (hp : ax = .development → t.isPattern = false ∧ s.isPattern = false ∨ t.isVal = true) :
    ∃ u v, concatSort ax [t, s] = .ok u ∧ concatSort ax [s, t] = .ok v ∧ Increasing u ax ∧
      u.kdims = v.kdims ∧ u.vdims = v.vdims ∧ u.odims = v.odims ∧ u.ddims = v.ddims ∧
      ∀ k col o a x,
        (HasCell u k col o a x ↔ HasCell t k col o a x ∨ HasCell s k col o a x) ∧
        (HasCell v k col o a x ↔ HasCell t k col o a x ∨ HasCell s k col o a x) := by
  have hag' : AgreeBut ax s t := ⟨fun e => (hag.1 e).symm, fun e => (hag.2.1 e).symm,
    fun e => ⟨(hag.2.2 e).1.symm, (hag.2.2 e).2.symm⟩⟩
  have hdis' : Distinct ax [s, t] := by
    cases ax with
    | index =>
      have h : (t.kdims ++ s.kdims).Nodup := by simpa [Distinct] using hdis
      have h' := List.perm_append_comm.nodup_iff.mp h
      show ([s, t].flatMap Tri.kdims).Nodup
      simpa using h'
    | columns =>
      have h : (t.vdims ++ s.vdims).Nodup := by simpa [Distinct] using hdis
      have h' := List.perm_append_comm.nodup_iff.mp h
      show ([s, t].flatMap Tri.vdims).Nodup
      simpa using h'
    | origin =>
      have h : (t.odims ++ s.odims).Nodup := by simpa [Distinct] using hdis
      have h' := List.perm_append_comm.nodup_iff.mp h
      show ([s, t].flatMap Tri.odims).Nodup
      simpa using h'
    | development =>
      obtain ⟨hn, hval⟩ := hdis
      have h : (t.ddims ++ s.ddims).Nodup := by simpa using hn
      have h' := List.perm_append_comm.nodup_iff.mp h
      refine ⟨?_, ?_⟩
      · show ([s, t].flatMap Tri.ddims).Nodup
        simpa using h'
      · intro p hp q hq
        exact hval p (by simpa [or_comm] using hp) q (by simpa [or_comm] using hq)
  obtain ⟨x, ex, wx, lx, gx, cx, vx, px, hx⟩ := concat_cells wt ws hag hv hcol hdis
  obtain ⟨y, ey, wy, ly, gy, cy, vy, py, hy⟩ := concat_cells ws wt hag' hv.symm (fun e => (hcol e).symm) hdis'
  have kx : 1 ≤ x.kdims.length := by
    by_cases e : ax = .index
    · rw [lx.1 e]; simp; omega
    · rw [← gx.1 e]; exact h0
  have ky : 1 ≤ y.kdims.length := by
    by_cases e : ax = .index
    · rw [ly.1 e]; simp; omega
    · rw [← gy.1 e]; exact h0'
  have dx : 1 ≤ x.ddims.length := by
    by_cases e : ax = .development
    · rw [lx.2.2.2 e]; simp; omega
    · rw [← (gx.2.2 e).1]; exact h3
  have dy : 1 ≤ y.ddims.length := by
    by_cases e : ax = .development
    · rw [ly.2.2.2 e]; simp; omega
    · rw [← (gy.2.2 e).1]; exact h3'
  obtain ⟨u, eu, su⟩ := C66_amounts wx kx dx ax
  obtain ⟨v, ev, sv⟩ := C66_amounts wy ky dy ax
  have iu : Increasing u ax := C66_order_partial wx kx dx (fun e => by
    rw [px, vx]; exact (hp e).imp And.left id) eu
  have iv : Increasing v ax := C66_order_partial wy ky dy (fun e => by
    rw [py, vy, ← hv]; exact (hp e).imp And.right id) ev
  obtain ⟨l1, l2, l3, l4⟩ := Labels.perm lx ly
  refine ⟨u, v, by simp only [concatSort, ex, bind, Except.bind, eu],
    by simp only [concatSort, ey, bind, Except.bind, ev], iu, ?_, ?_, ?_, ?_, fun k col o a z =>
      ⟨(su.cells k col o a z).trans (hx k col o a z),
        ((sv.cells k col o a z).trans (hy k col o a z)).trans or_comm⟩⟩
  · by_cases e : ax = .index
    · subst e
      exact ((su.kdims.1.trans (l1 rfl)).trans sv.kdims.1.symm).eq_of_pairwise
        (fun _ _ _ _ => le_antisymm) iu iv
    · rw [su.kdims.2 e, sv.kdims.2 e, ← gx.1 e, ← gy.1 e, hag.1 e]
  · by_cases e : ax = .columns
    · subst e
      exact ((su.vdims.1.trans (l2 rfl)).trans sv.vdims.1.symm).eq_of_pairwise
        (fun _ _ _ _ => le_antisymm) iu iv
    · rw [su.vdims.2 e, sv.vdims.2 e, cx e, cy e, hcol e]
  · by_cases e : ax = .origin
    · subst e
      exact ((su.odims.1.trans (l3 rfl)).trans sv.odims.1.symm).eq_of_pairwise
        (fun _ _ _ _ => le_antisymm) iu iv
    · rw [su.odims.2 e, sv.odims.2 e, ← gx.2.1 e, ← gy.2.1 e, hag.2.1 e]
  · by_cases e : ax = .development
    · subst e
      exact ((su.ddims.1.trans (l4 rfl)).trans sv.ddims.1.symm).eq_of_pairwise
        (fun _ _ _ _ => le_antisymm) iu iv
    · rw [su.ddims.2 e, sv.ddims.2 e, ← (gx.2.2 e).1, ← (gy.2.2 e).1, (hag.2.2 e).1]

/-! ## Examples -/

/-- Factors 6/5 and 11/10 at ages 96 and 108. -/
private def late : Tri ℚ :=
  { Ex.pat3 (some false) Ex.fac3 with
    ddims := [96, 108]
    values := ⟨1, 1, 1, 2, fun _ _ _ d => if d = 0 then .fin (6 / 5) else .fin (11 / 10)⟩ }

/-- **C66 is false for the developments of a pattern**: the labels are compared as strings, and `'108-120'`
comes before `'96-108'`; `sort_axis` disorders ages that were in order. -/
theorem C66_pattern_false : ∃ t u : Tri ℚ, WF t ∧ Increasing t .development ∧
    t.sortAxis .development = .ok u ∧ u.ddims = [108, 96] ∧ ¬ Increasing u .development := by
  refine ⟨late, _, ⟨rfl, rfl, rfl, rfl⟩, ?_, rfl, ?_, ?_⟩
  · show late.ddims.Pairwise _
    decide +kernel
  · decide +kernel
  · show ¬ ((late.sortDev.map (late.ddims.getD · 0)).Pairwise _)
    decide +kernel

/-- Origins 2021, 2020 and 2022, in this order. -/
private def mixed : Tri ℚ :=
  { Ex.tri3 (some true) Ex.cum3 with
    odims := [24252, 24240, 24264]
    values := ⟨1, 1, 3, 3, fun _ _ o d => Ex.cum3 (if o = 0 then 1 else if o = 1 then 0 else o) d⟩ }

/-- Sorted, the triangle is the usual one. -/
example : ∃ u, mixed.sortAxis .origin = .ok u ∧ u.odims = [24240, 24252, 24264] ∧
    u.values.get 0 0 0 2 = .fin 165 ∧ u.values.get 0 0 1 1 = .fin 168 ∧ u.values.get 0 0 2 0 = .fin 120 :=
  ok_of (fun u : Tri ℚ => u.odims = [24240, 24252, 24264] ∧
    u.values.get 0 0 0 2 = .fin 165 ∧ u.values.get 0 0 1 1 = .fin 168 ∧ u.values.get 0 0 2 0 = .fin 120)
    (by decide +kernel)

/-- The latest origin and the two before it. -/
private def last1 : Tri ℚ := Ex.tri1 (some true) fun _ d => Ex.cum3 2 d
private def first2 : Tri ℚ :=
  { Ex.tri3 (some true) Ex.cum3 with
    odims := [24240, 24252]
    values := ⟨1, 1, 2, 3, fun _ _ o d => Ex.cum3 o d⟩ }

/-- `concat((last, first), axis='origin', sort=True)` puts the origins in order. -/
example : ∃ u, concatSort .origin [last1, first2] = .ok u ∧ u.odims = [24240, 24252, 24264] ∧
    u.values.get 0 0 2 0 = .fin 120 ∧ u.values.get 0 0 0 0 = .fin 100 :=
  ok_of (fun u : Tri ℚ => u.odims = [24240, 24252, 24264] ∧
    u.values.get 0 0 2 0 = .fin 120 ∧ u.values.get 0 0 0 0 = .fin 100) (by decide +kernel)

/-- The hypotheses of `C66_concat_partial` hold. -/
example : ∃ u v, concatSort .origin [last1, first2] = .ok u ∧ concatSort .origin [first2, last1] = .ok v ∧
    Increasing u .origin ∧ u.odims = v.odims := by
  obtain ⟨u, v, h1, h2, h3, -, -, h4, -⟩ := C66_concat_partial (ax := .origin) (t := last1) (s := first2)
    ⟨rfl, rfl, rfl, rfl⟩ ⟨rfl, rfl, rfl, rfl⟩ ⟨fun _ => rfl, fun h => absurd rfl h, fun _ => ⟨rfl, rfl⟩⟩ rfl
    (fun _ => rfl) (by show ([last1, first2].flatMap Tri.odims).Nodup; decide +kernel) (by decide) (by decide) (by decide) (by decide)
    (fun h => by cases h)
  exact ⟨u, v, h1, h2, h3, h4⟩

end Tri
end CL
