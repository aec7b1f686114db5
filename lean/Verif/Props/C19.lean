import Verif.Lemmas.AxSel
import Verif.Spec.Examples

set_option linter.unusedSectionVars false

/-! # C19: sum and groupby conserve totals -/

namespace CL
namespace Tri
variable {K : Type} [Field K] [LinearOrder K] [IsStrictOrderedRing K]

theorem finite_cell {t : Tri K} (fin : Finite t) {p : Pos} (h : ∀ b, p b < t.values.dim b) :
    (t.values.cell p).NoInf :=
  fin _ (h .index) _ (h .columns) _ (h .origin) _ (h .development)

/-- The total of the amounts along an axis. -/
def along (t : Tri K) (ax : Axis) (p : Pos) : K :=
  ∑ j ∈ Finset.range (t.values.dim ax), (t.values.cell (p.set ax j)).amt

private theorem sumKeep_cell (t : Tri K) (ax : Axis) (p : Pos) :
    (t.sumKeep ax).values.cell p =
      (∑ j ∈ Finset.range (t.values.dim ax), (t.values.cell (p.set ax j)).nan0).numToNan := by
  cases ax <;> simp [sumKeep, Arr.nansum, Arr.map, Arr.cell, Arr.dim, Pos.set]

private theorem amt_sum {s : Finset Nat} {f : Nat → Num K} (h : ∀ j ∈ s, (f j).NoInf) :
    ((∑ j ∈ s, (f j).nan0).numToNan).amt = ∑ j ∈ s, (f j).amt := by
  rw [Num.amt_numToNan, Num.sum_nan0 s f h]
  rfl

theorem wf_axis {t : Tri K} (wf : WF t) (ax : Axis) : t.values.dim ax = t.axisLen ax := by
  obtain ⟨h0, h1, h2, h3⟩ := wf
  cases ax <;> simp [Arr.dim, axisLen, *]

theorem wf_of_axes {t : Tri K} (h : ∀ ax, t.values.dim ax = t.axisLen ax) : WF t :=
  ⟨h .index, h .columns, h .origin, h .development⟩

/-- **C19, sum.** The total over an axis, kept as a triangle: one label is left on the axis, the
other axes keep theirs, and each cell is the total along the axis, missing if the total is 0. -/
theorem C19_sum {t : Tri K} (wf : WF t) (fin : Finite t) (ax : Axis) (h0 : 0 < t.axisLen ax) :
    WF (t.sumKeep ax) ∧ (t.sumKeep ax).axisLen ax = 1 ∧
    (∀ b, b ≠ ax → (t.sumKeep ax).axisLen b = t.axisLen b) ∧
    (ax ≠ .index → (t.sumKeep ax).kdims = t.kdims) ∧
    (ax ≠ .columns → (t.sumKeep ax).vdims = t.vdims) ∧
    (ax ≠ .origin → (t.sumKeep ax).odims = t.odims) ∧
    (ax ≠ .development → (t.sumKeep ax).ddims = t.ddims) ∧
    ∀ p, t.values.InsideBut ax p →
      (t.sumKeep ax).values.cell p = (Num.fin (t.along ax p)).numToNan := by
  have hcell : ∀ p, t.values.InsideBut ax p →
      (t.sumKeep ax).values.cell p = (Num.fin (t.along ax p)).numToNan := by
    intro p hp
    rw [sumKeep_cell, Num.sum_nan0 _ _ (fun j hj => finite_cell fin (fun b => by
      by_cases hb : b = ax
      · subst hb; rw [Pos.set_self]; simpa using hj
      · rw [Pos.set_ne _ _ hb]; exact hp b hb))]
    rfl
  obtain ⟨w0, w1, w2, w3⟩ := wf
  refine ⟨?_, ?_, ?_, ?_, ?_, ?_, ?_, hcell⟩
  · cases ax <;> simp only [axisLen] at h0 <;>
      simp only [WF, sumKeep, relabelAgg, Arr.nansum, Arr.map] <;> split_ifs <;>
      refine ⟨?_, ?_, ?_, ?_⟩ <;> first | omega | (simp; done) | (simp; omega)
  · cases ax <;> simp only [axisLen] at h0 <;>
      simp only [axisLen, sumKeep, relabelAgg] <;> split_ifs <;>
      first | omega | (simp; done) | (simp; omega)
  · intro b hb
    cases ax <;> cases b <;> simp at hb <;> simp only [axisLen, sumKeep, relabelAgg] <;>
      split_ifs <;> rfl
  all_goals
    intro hb
    cases ax <;> simp at hb <;> simp only [sumKeep, relabelAgg] <;> split_ifs <;> rfl

/-- `tri.sum(axis)` returns that triangle, or its only amount when a single cell is left. -/
theorem C19_sum_result (t : Tri K) (ax : Axis) :
    ((∀ b, (t.sumKeep ax).values.dim b = 1) →
      t.sum ax = .scalar ((t.sumKeep ax).values.cell fun _ => 0)) ∧
    ((¬ ∀ b, (t.sumKeep ax).values.dim b = 1) → t.sum ax = .tri (t.sumKeep ax)) := by
  unfold sum toAgg
  have : (∀ b, (t.sumKeep ax).values.dim b = 1) ↔ ((t.sumKeep ax).values.d0 = 1 ∧
      (t.sumKeep ax).values.d1 = 1 ∧ (t.sumKeep ax).values.d2 = 1 ∧
      (t.sumKeep ax).values.d3 = 1) := by
    constructor
    · intro h; exact ⟨h .index, h .columns, h .origin, h .development⟩
    · rintro ⟨h1, h2, h3, h4⟩ b; cases b <;> assumption
  refine ⟨fun h => ?_, fun h => ?_⟩
  · rw [if_pos (this.1 h)]; rfl
  · rw [if_neg (fun h' => h (this.2 h'))]

/-- `u` is `t` grouped along `ax` by `keys`; `L` are the group labels. -/
structure Grouped {κ : Type} [LinearOrder κ] (t u : Tri K) (ax : Axis) (keys L : List κ) :
    Prop where
  /-- one group per distinct key, in ascending order -/
  sorted : L.Pairwise (· < ·)
  mem : ∀ g, g ∈ L ↔ g ∈ keys
  dim : u.values.dim ax = L.length
  other : ∀ b, b ≠ ax → u.values.dim b = t.values.dim b
  index : ax ≠ .index → u.kdims = t.kdims
  columns : ax ≠ .columns → u.vdims = t.vdims
  origins : ax ≠ .origin → u.odims = t.odims
  developments : ax ≠ .development → u.ddims = t.ddims ∧ u.isVal = t.isVal
  kept : u.dgrain = t.dgrain ∧ u.isCum = t.isCum ∧ u.isPattern = t.isPattern ∧
    u.isAdditive = t.isAdditive
  /-- the amount of a group is the total of its members, missing if the total is 0 -/
  cells : ∀ p, t.values.InsideBut ax p → ∀ g (hg : g < L.length),
    u.values.cell (p.set ax g) = (Num.fin (∑ j ∈ Finset.range (t.values.dim ax),
      if keys[j]? = some L[g] then (t.values.cell (p.set ax j)).amt else 0)).numToNan

/-- Every group can be selected: on the origin and development axes the members of a group must be
evenly spaced. -/
def Selectable {κ : Type} [LinearOrder κ] (ax : Axis) (keys : List κ) : Prop :=
  (ax = .origin ∨ ax = .development) → ∀ g ∈ keys, Even (groupIndices keys g)

private theorem fromStart_cast (n : Nat) (l : List Nat) :
    fromStart n (l.map fun i : Nat => (i : Int)) = l := by
  unfold fromStart
  rw [List.map_map]
  conv_rhs => rw [← List.map_id l]
  apply List.map_congr_left
  intro x _
  simp only [Function.comp]
  rw [if_neg (by omega)]
  simp

private theorem ilocAx_eq {t : Tri K} {ax : Axis} {l : List Nat} (hl : l ≠ [])
    (hlt : ∀ j ∈ l, j < t.values.dim ax) (hinc : l.Pairwise (· < ·))
    (he : ax = .origin ∨ ax = .development → Even l)
    (hd : t.isVal = true ∨ 0 < t.values.d3) :
    t.ilocAx ax (.lst (l.map fun i : Nat => (i : Int))) = .ok (axPart t ax l (axVd t ax l)) := by
  have hin : InAxis (t.values.dim ax) (l.map fun i : Nat => (i : Int)) := by
    refine ⟨by simpa using hl, ?_⟩
    intro x hx
    obtain ⟨j, hj, rfl⟩ := List.mem_map.1 hx
    have := hlt j hj
    constructor <;> omega
  have hr : ¬ OnlyRepeats (t.values.dim ax) (l.map fun i : Nat => (i : Int)) := by
    rintro ⟨h1, h2⟩
    rw [fromStart_cast] at h2
    match l, hinc, h1, h2 with
    | a :: b :: l, hinc, _, h2 =>
      have := (List.pairwise_cons.1 hinc).1 b (by simp)
      have := h2 a (by simp) b (by simp)
      omega
  have hS : ∀ n, Sel n (.slc .all) (List.range n) := fun n => (selS_all n).sel
  have hdr : t.isVal = true ∨ List.range t.values.d3 ≠ [] := by
    rcases hd with h | h
    · exact Or.inl h
    · right; apply List.ne_nil_of_mem (a := 0); simpa using h
  cases ax with
  | index =>
    have hs := sel_lst hin hr
    rw [fromStart_cast] at hs
    simp only [ilocAx]
    rw [iloc_of_sel hs (hS _) (selS_all _) (selS_all _), pick_eq t _ _ _ _ hdr]
    simp [axPart, axSel, axVd, Arr.dim]
  | columns =>
    have hs := sel_lst hin hr
    rw [fromStart_cast] at hs
    simp only [ilocAx]
    rw [iloc_of_sel (hS _) hs (selS_all _) (selS_all _), pick_eq t _ _ _ _ hdr]
    simp [axPart, axSel, axVd, Arr.dim]
  | origin =>
    have hs := selS_lst hin hr (by rw [fromStart_cast]; exact he (Or.inl rfl))
    rw [fromStart_cast] at hs
    simp only [ilocAx]
    rw [iloc_of_sel (hS _) (hS _) hs (selS_all _), pick_eq t _ _ _ _ hdr]
    simp [axPart, axSel, axVd, Arr.dim]
  | development =>
    have hs := selS_lst hin hr (by rw [fromStart_cast]; exact he (Or.inr rfl))
    rw [fromStart_cast] at hs
    simp only [ilocAx]
    rw [iloc_of_sel (hS _) (hS _) (selS_all _) hs, pick_eq t _ _ _ _ (Or.inr hl)]
    simp [axPart, axSel, axVd, Arr.dim]

private theorem sumPart_cell {t : Tri K} (fin : Finite t) {ax : Axis} {l : List Nat}
    (hlt : ∀ j ∈ l, j < t.values.dim ax) (v : Int) (p : Pos) (hp : t.values.InsideBut ax p) :
    ((axPart t ax l v).sumKeep ax).values.cell p =
      (Num.fin (l.map fun j => (t.values.cell (p.set ax j)).amt).sum).numToNan := by
  have hc : ∀ j < l.length, (axPart t ax l v).values.cell (p.set ax j) =
      t.values.cell (p.set ax (l.getD j 0)) := by
    intro j hj
    rw [axPart_cell]
    congr 1
    funext b
    by_cases hb : b = ax
    · subst hb; simp [axSel]
    · rw [Pos.set_ne _ _ hb, Pos.set_ne _ _ hb, axSel, if_neg hb, getD_range _ _ (hp b hb)]
  rw [sumKeep_cell, axPart_dim, axSel, if_pos rfl, Num.sum_nan0, ← sum_getD]
  · congr 2
    apply Finset.sum_congr rfl
    intro j hj
    rw [hc j (by simpa using hj)]
  · intro j hj
    have hj : j < l.length := by simpa using hj
    rw [hc j hj]
    apply finite_cell fin
    intro b
    by_cases hb : b = ax
    · subst hb
      rw [Pos.set_self, List.getD_eq_getElem _ _ hj]
      exact hlt _ (List.getElem_mem hj)
    · rw [Pos.set_ne _ _ hb]; exact hp b hb

private theorem sumPart_labels {t : Tri K} (wf : WF t) (ax : Axis) (l : List Nat) (v : Int) :
    (ax ≠ .index → ((axPart t ax l v).sumKeep ax).kdims = t.kdims) ∧
    (ax ≠ .columns → ((axPart t ax l v).sumKeep ax).vdims = t.vdims) ∧
    (ax ≠ .origin → ((axPart t ax l v).sumKeep ax).odims = t.odims) ∧
    (ax ≠ .development → ((axPart t ax l v).sumKeep ax).ddims = t.ddims ∧
      ((axPart t ax l v).sumKeep ax).isVal = t.isVal) := by
  obtain ⟨w0, w1, w2, w3⟩ := wf
  have e0 : (List.range t.values.d0).map (t.kdims.getD · []) = t.kdims := by
    rw [w0]; exact map_getD_range _ _
  have e1 : (List.range t.values.d1).map (t.vdims.getD · "") = t.vdims := by
    rw [w1]; exact map_getD_range _ _
  have e2 : (List.range t.values.d2).map (t.odims.getD · 0) = t.odims := by
    rw [w2]; exact map_getD_range _ _
  have e3 : (List.range t.values.d3).map (t.ddims.getD · 0) = t.ddims := by
    rw [w3]; exact map_getD_range _ _
  refine ⟨?_, ?_, ?_, ?_⟩ <;> intro h <;> cases ax <;> simp at h <;>
    simp only [sumKeep, relabelAgg, axPart, picked, axSel, Arr.dim] <;> split_ifs <;>
    simp_all

private theorem sumPart_dim (t : Tri K) (ax : Axis) (l : List Nat) (v : Int) (b : Axis) :
    ((axPart t ax l v).sumKeep ax).values.dim b = if b = ax then 1 else t.values.dim b := by
  cases ax <;> cases b <;> simp [sumKeep, Arr.nansum, Arr.map, Arr.dim, axPart, picked, Arr.take, axSel]

private theorem sumPart_kept (t : Tri K) (ax : Axis) (l : List Nat) (v : Int) :
    ((axPart t ax l v).sumKeep ax).keyLabels = t.keyLabels ∧
    ((axPart t ax l v).sumKeep ax).ograin = t.ograin ∧
    ((axPart t ax l v).sumKeep ax).dgrain = t.dgrain ∧
    ((axPart t ax l v).sumKeep ax).isCum = t.isCum ∧
    ((axPart t ax l v).sumKeep ax).isPattern = t.isPattern ∧
    ((axPart t ax l v).sumKeep ax).isAdditive = t.isAdditive ∧
    ((axPart t ax l v).sumKeep ax).vd = v := by
  cases ax <;> simp only [sumKeep, relabelAgg] <;> split_ifs <;> simp [axPart, picked]

private theorem foldl_max_ge : ∀ (l : List Int) (a : Int), a ≤ l.foldl max a ∧ ∀ x ∈ l, x ≤ l.foldl max a
  | [], a => ⟨le_refl _, by simp⟩
  | b :: l, a => by
    obtain ⟨h1, h2⟩ := foldl_max_ge l (max a b)
    refine ⟨(le_max_left _ _).trans h1, fun x hx => ?_⟩
    rcases List.mem_cons.mp hx with rfl | hx
    · exact (le_max_right _ _).trans h1
    · exact h2 x hx

theorem groupParts_eq {κ : Type} [LinearOrder κ] {t : Tri K} (wf : WF t) (fin : Finite t)
    (hd : t.isVal = true ∨ 0 < t.ddims.length) (ax : Axis) {keys : List κ} (hk : keys ≠ [])
    (hlen : keys.length = t.axisLen ax) (hs : Selectable ax keys) :
    ∃ u, t.groupParts ax keys = .ok u ∧ Grouped t u ax keys (groupKeys keys) ∧
      (ax ≠ .index → u.keyLabels = t.keyLabels) ∧
      u.ograin = t.ograin ∧ u.vd ≤ t.vd ∧ ∀ g ∈ keys, axVd t ax (groupIndices keys g) ≤ u.vd := by
  have hlt : ∀ g, ∀ j ∈ groupIndices keys g, j < t.values.dim ax := by
    intro g j hj
    rw [wf_axis wf, ← hlen]
    exact groupIndices_lt hj
  generalize hvv : (fun g => axVd t ax (groupIndices keys g)) = v
  have hvg : ∀ g, axVd t ax (groupIndices keys g) = v g := fun g => by rw [← hvv]
  have hv : ∀ g ∈ groupKeys keys,
      t.ilocAx ax (.lst ((groupIndices keys g).map fun i : Nat => (i : Int))) =
        .ok (axPart t ax (groupIndices keys g) (v g)) := by
    intro g hg
    rw [mem_groupKeys] at hg
    rw [ilocAx_eq (t := t) (groupIndices_ne_nil hg) (hlt g) (groupIndices_inc keys g)
      (fun h => hs h g hg) (by rw [wf.2.2.2]; exact hd), hvg]
  have hm : ((groupKeys keys).mapM fun g => do
      let u ← t.ilocAx ax (.lst ((groupIndices keys g).map fun i : Nat => (i : Int)))
      pure (u.sumKeep ax)) =
      .ok ((groupKeys keys).map fun g => (axPart t ax (groupIndices keys g) (v g)).sumKeep ax) := by
    apply mapM_ok
    intro g hg
    rw [hv g hg]
    rfl
  unfold groupParts
  rw [hm]
  simp only [bind, Except.bind]
  obtain ⟨g0, L, hL⟩ : ∃ g0 L, groupKeys keys = g0 :: L := by
    cases h : groupKeys keys with
    | nil =>
      obtain ⟨a, ha⟩ := List.exists_mem_of_ne_nil _ hk
      rw [← mem_groupKeys, h] at ha
      simp at ha
    | cons a l => exact ⟨a, l, rfl⟩
  -- the parts
  have hpl := fun g => sumPart_labels wf ax (groupIndices keys g) (v g)
  have hpd := fun g => sumPart_dim t ax (groupIndices keys g) (v g)
  have hpk := fun g => sumPart_kept t ax (groupIndices keys g) (v g)
  generalize hP : (fun g => (axPart t ax (groupIndices keys g) (v g)).sumKeep ax) = P at *
  have hPg : ∀ g, P g = (axPart t ax (groupIndices keys g) (v g)).sumKeep ax := fun g => by rw [← hP]
  simp only [← hPg] at hpl hpd hpk
  obtain ⟨r, r1, r2, r3, r4, r5⟩ := Arr.foldl_cat2 ax ((L.map P).map Tri.values) (P g0).values
    (by
      intro b hb
      simp only [List.mem_map] at hb
      obtain ⟨t', ⟨g, hg, rfl⟩, rfl⟩ := hb
      refine ⟨by rw [hpd]; simp, fun x hx => ?_⟩
      rw [hpd, hpd, if_neg hx])
  have hfold : (L.map P).foldlM (fun a t => Arr.cat2 ax a t.values) (P g0).values = .ok r := by
    rw [← r1, List.foldlM_map, List.foldlM_map, List.foldlM_map]
  have hcells : ∀ p, t.values.InsideBut ax p → ∀ g (hg : g < (groupKeys keys).length),
      r.cell (p.set ax g) = (Num.fin (∑ j ∈ Finset.range (t.values.dim ax),
        if keys[j]? = some (groupKeys keys)[g] then (t.values.cell (p.set ax j)).amt
          else 0)).numToNan := by
    intro p hp g hg
    have hcell : r.cell (p.set ax g) = (P (groupKeys keys)[g]).values.cell (p.set ax 0) := by
      have hd0 : (P g0).values.dim ax = 1 := by rw [hpd]; simp
      cases g with
      | zero =>
        rw [r4 _ (by rw [Pos.set_self, hd0]; omega)]
        simp [hL]
      | succ g =>
        have hg' : g < L.length := by rw [hL] at hg; simpa using hg
        rw [r5 g (by simpa using hg') _ (by rw [Pos.set_self, hd0]; omega)]
        simp [hL]
    rw [hcell, hPg, sumPart_cell fin (hlt _) _ _ (fun b hb => by
      rw [Pos.set_ne _ _ hb]; exact hp b hb)]
    simp only [Pos.set_set]
    unfold groupIndices
    rw [sum_filter_range, hlen, ← wf_axis wf]
    congr 2
    apply Finset.sum_congr rfl
    intro j _
    simp
  have hdim : r.dim ax = (groupKeys keys).length := by
    rw [r2, hpd, hL]; simp; omega
  have hoth : ∀ b, b ≠ ax → r.dim b = t.values.dim b := by
    intro b hb; rw [r3 b hb, hpd, if_neg hb]
  rw [hL, List.map_cons]
  unfold concatIgnore
  have hfill : alignColumns ax (P g0 :: L.map P) = .ok (P g0 :: L.map P) := by
    unfold alignColumns
    by_cases hc : ax = .columns
    · rw [if_pos hc]
    · rw [if_neg hc]
      apply mapM_fill_id _ t.vdims
      intro u hu
      rw [← List.map_cons] at hu
      obtain ⟨g, -, rfl⟩ := List.mem_map.1 hu
      exact (hpl g).2.1 hc
  simp only [hfill, bind, Except.bind]
  have n1 : ¬ (ax ≠ .index ∧ (P g0 :: L.map P).any
      (fun t => decide (t.kdims ≠ (P g0).kdims)) = true) := by
    rintro ⟨h1, h2⟩
    rw [← List.map_cons] at h2
    obtain ⟨u, hu, hne⟩ := List.any_eq_true.1 h2
    obtain ⟨g, -, rfl⟩ := List.mem_map.1 hu
    rw [(hpl g).1 h1, (hpl g0).1 h1] at hne
    simp at hne
  have n2 : ¬ (ax ≠ .origin ∧ (P g0 :: L.map P).any
      (fun t => decide (t.odims ≠ (P g0).odims)) = true) := by
    rintro ⟨h1, h2⟩
    rw [← List.map_cons] at h2
    obtain ⟨u, hu, hne⟩ := List.any_eq_true.1 h2
    obtain ⟨g, -, rfl⟩ := List.mem_map.1 hu
    rw [(hpl g).2.2.1 h1, (hpl g0).2.2.1 h1] at hne
    simp at hne
  have n3 : ¬ (ax ≠ .development ∧ (P g0 :: L.map P).any
      (fun t => decide (t.ddims ≠ (P g0).ddims) || t.isVal != (P g0).isVal) = true) := by
    rintro ⟨h1, h2⟩
    rw [← List.map_cons] at h2
    obtain ⟨u, hu, hne⟩ := List.any_eq_true.1 h2
    obtain ⟨g, -, rfl⟩ := List.mem_map.1 hu
    rw [((hpl g).2.2.2 h1).1, ((hpl g0).2.2.2 h1).1, ((hpl g).2.2.2 h1).2,
      ((hpl g0).2.2.2 h1).2] at hne
    simp at hne
  rw [if_neg n1, if_neg n2, if_neg n3, hfold]
  rw [← hL]
  have h0 := hpl g0
  have k0 := hpk g0
  have hvd1 : (List.map Tri.vd (L.map P)).foldl max (P g0).vd ≤ t.vd := by
    refine foldl_max_le ?_ ?_
    · rw [k0.2.2.2.2.2.2, ← hvg]; exact axVd_le _ _ _
    · intro x hx
      simp only [List.mem_map] at hx
      obtain ⟨_, ⟨g, -, rfl⟩, rfl⟩ := hx
      rw [(hpk g).2.2.2.2.2.2, ← hvg]; exact axVd_le _ _ _
  have hvd2 : ∀ g ∈ keys, axVd t ax (groupIndices keys g) ≤
      (List.map Tri.vd (L.map P)).foldl max (P g0).vd := by
    intro g hg
    obtain ⟨m1, m2⟩ := foldl_max_ge (List.map Tri.vd (L.map P)) (P g0).vd
    rw [← mem_groupKeys, hL] at hg
    have e : axVd t ax (groupIndices keys g) = (P g).vd := by rw [(hpk g).2.2.2.2.2.2, hvg]
    rw [e]
    rcases List.mem_cons.mp hg with rfl | hg
    · exact m1
    · exact m2 _ (List.mem_map.mpr ⟨P g, List.mem_map.mpr ⟨g, hg, rfl⟩, rfl⟩)
  cases ax <;> refine ⟨_, rfl, ⟨groupKeys_sorted keys, mem_groupKeys keys, hdim, hoth, ?_, ?_, ?_,
    ?_, ⟨k0.2.2.1, k0.2.2.2.1, k0.2.2.2.2.1, k0.2.2.2.2.2.1⟩, hcells⟩, ?_, k0.2.1, hvd1, hvd2⟩ <;>
    intro hne <;> first
    | exact absurd rfl hne
    | exact h0.1 hne
    | exact h0.2.1 hne
    | exact h0.2.2.1 hne
    | exact h0.2.2.2 hne
    | exact k0.1

private theorem grouped_congr {κ : Type} [LinearOrder κ] {t u u' : Tri K} {ax : Axis}
    {keys L : List κ} (h : Grouped t u ax keys L) (hv : u'.values = u.values)
    (hi : ax ≠ .index → u'.kdims = u.kdims) (hc : ax ≠ .columns → u'.vdims = u.vdims)
    (ho : ax ≠ .origin → u'.odims = u.odims)
    (hd : ax ≠ .development → u'.ddims = u.ddims ∧ u'.isVal = u.isVal)
    (hk : u'.dgrain = u.dgrain ∧ u'.isCum = u.isCum ∧ u'.isPattern = u.isPattern ∧
      u'.isAdditive = u.isAdditive) :
    Grouped t u' ax keys L where
  sorted := h.sorted
  mem := h.mem
  dim := by rw [hv]; exact h.dim
  other := by rw [hv]; exact h.other
  index := fun n => (hi n).trans (h.index n)
  columns := fun n => (hc n).trans (h.columns n)
  origins := fun n => (ho n).trans (h.origins n)
  developments := fun n => ⟨(hd n).1.trans (h.developments n).1,
    (hd n).2.trans (h.developments n).2⟩
  kept := ⟨hk.1.trans h.kept.1, hk.2.1.trans h.kept.2.1, hk.2.2.1.trans h.kept.2.2.1,
    hk.2.2.2.trans h.kept.2.2.2⟩
  cells := by rw [hv]; exact h.cells

private theorem wf_grouped {κ : Type} [LinearOrder κ] {t u : Tri K} {ax : Axis} {keys L : List κ}
    (wf : WF t) (h : Grouped t u ax keys L) (hl : u.axisLen ax = L.length) : WF u := by
  apply wf_of_axes
  intro b
  by_cases hb : b = ax
  · subst hb; rw [h.dim, hl]
  · rw [h.other b hb, wf_axis wf]
    cases b <;> simp only [axisLen]
    · rw [h.index (Ne.symm hb)]
    · rw [h.columns (Ne.symm hb)]
    · rw [h.origins (Ne.symm hb)]
    · rw [(h.developments (Ne.symm hb)).1]

/-- **C19, groupby on the index.**  Grouping by any key succeeds, the groups are labelled by the
distinct keys in ascending order, and each holds the total of its members. -/
theorem C19_groupby_index {t : Tri K} (wf : WF t) (fin : Finite t)
    (hd : t.isVal = true ∨ 0 < t.ddims.length) (labels : List String) {rows : List (List String)}
    (hne : rows ≠ []) (hlen : rows.length = t.kdims.length) :
    ∃ u, t.groupbyIndexSum labels rows = .ok u ∧ WF u ∧ u.keyLabels = labels ∧
      Grouped t u .index rows u.kdims := by
  obtain ⟨u, hu, h, -⟩ := groupParts_eq wf fin hd .index hne hlen (by rintro (h | h) <;> cases h)
  have e : t.groupbyIndexSum labels rows = .ok { u with
    kdims := groupKeys rows
    keyLabels := labels } := by
    unfold groupbyIndexSum; rw [hu]; rfl
  have hg : Grouped t { u with
    kdims := groupKeys rows
    keyLabels := labels } .index rows (groupKeys rows) :=
    grouped_congr h rfl (fun n => absurd rfl n) (fun _ => rfl) (fun _ => rfl)
      (fun _ => ⟨rfl, rfl⟩) ⟨rfl, rfl, rfl, rfl⟩
  exact ⟨_, e, wf_grouped wf hg rfl, rfl, hg⟩

/-- **C19, groupby on the columns.** -/
theorem C19_groupby_columns {t : Tri K} (wf : WF t) (fin : Finite t)
    (hd : t.isVal = true ∨ 0 < t.ddims.length) {names : List String}
    (hne : names ≠ []) (hlen : names.length = t.vdims.length) :
    ∃ u, t.groupbyColumnsSum names = .ok u ∧ WF u ∧ Grouped t u .columns names u.vdims := by
  obtain ⟨u, hu, h, -⟩ := groupParts_eq wf fin hd .columns hne hlen (by rintro (h | h) <;> cases h)
  have e : t.groupbyColumnsSum names = .ok { u with vdims := groupKeys names } := by
    unfold groupbyColumnsSum; rw [hu]; rfl
  have hg : Grouped t { u with vdims := groupKeys names } .columns names (groupKeys names) :=
    grouped_congr h rfl (fun _ => rfl) (fun n => absurd rfl n) (fun _ => rfl)
      (fun _ => ⟨rfl, rfl⟩) ⟨rfl, rfl, rfl, rfl⟩
  exact ⟨_, e, wf_grouped wf hg rfl, hg⟩

/-- **C19, groupby on the origins**, for groups of evenly spaced origins (others raise). -/
theorem C19_groupby_origin {t : Tri K} (wf : WF t) (fin : Finite t)
    (hd : t.isVal = true ∨ 0 < t.ddims.length) {starts : List Int}
    (hne : starts ≠ []) (hlen : starts.length = t.odims.length)
    (he : ∀ g ∈ starts, Even (groupIndices starts g)) :
    ∃ u, t.groupbyOriginSum starts = .ok u ∧ WF u ∧ Grouped t u .origin starts u.odims := by
  obtain ⟨u, hu, h, -⟩ := groupParts_eq wf fin hd .origin hne hlen (fun _ => he)
  have e : t.groupbyOriginSum starts = .ok { u with
      odims := groupKeys starts
      ograin := getGrain (groupKeys starts) } := by
    unfold groupbyOriginSum; rw [hu]; rfl
  have hg : Grouped t { u with
      odims := groupKeys starts
      ograin := getGrain (groupKeys starts) } .origin starts (groupKeys starts) :=
    grouped_congr h rfl (fun _ => rfl) (fun _ => rfl) (fun n => absurd rfl n)
      (fun _ => ⟨rfl, rfl⟩) ⟨rfl, rfl, rfl, rfl⟩
  exact ⟨_, e, wf_grouped wf hg rfl, hg⟩

/-- **C19, groupby on the developments**, for groups of evenly spaced developments. -/
theorem C19_groupby_development {κ : Type} [LinearOrder κ] {t : Tri K} (wf : WF t)
    (fin : Finite t) (hd : t.isVal = true ∨ 0 < t.ddims.length) {by_ : List κ}
    (hne : by_ ≠ []) (hlen : by_.length = t.ddims.length)
    (he : ∀ g ∈ by_, Even (groupIndices by_ g)) :
    ∃ u L, t.groupbyDevelopmentSum by_ = .ok u ∧ Grouped t u .development by_ L := by
  obtain ⟨u, hu, h, -⟩ := groupParts_eq wf fin hd .development hne hlen (fun _ => he)
  exact ⟨u, _, hu, h⟩

/-- **C19, conservation.**  Summing the groups gives the ungrouped total. -/
theorem C19_total {κ : Type} [LinearOrder κ] {t u : Tri K} {ax : Axis} {keys L : List κ}
    (h : Grouped t u ax keys L) (hlen : keys.length = t.values.dim ax) {p : Pos}
    (hp : t.values.InsideBut ax p) : u.along ax p = t.along ax p := by
  unfold along
  rw [h.dim]
  have hn : L.Nodup := h.sorted.imp ne_of_lt
  calc ∑ g ∈ Finset.range L.length, (u.values.cell (p.set ax g)).amt
      = ∑ g ∈ Finset.range L.length, ∑ j ∈ Finset.range (t.values.dim ax),
          if keys[j]? = L[g]? then (t.values.cell (p.set ax j)).amt else 0 := by
        apply Finset.sum_congr rfl
        intro g hg
        have hg : g < L.length := by simpa using hg
        rw [h.cells p hp g hg, Num.amt_numToNan]
        simp [hg]
    _ = ∑ j ∈ Finset.range (t.values.dim ax), ∑ g ∈ Finset.range L.length,
          if keys[j]? = L[g]? then (t.values.cell (p.set ax j)).amt else 0 := Finset.sum_comm
    _ = _ := by
        apply Finset.sum_congr rfl
        intro j hj
        have hj : j < keys.length := by rw [hlen]; simpa using hj
        obtain ⟨g, hg, e⟩ := List.getElem_of_mem ((h.mem keys[j]).2 (List.getElem_mem hj))
        rw [Finset.sum_eq_single g]
        · rw [if_pos (by simp [hj, hg, e])]
        · intro g' hg' hne
          have hg' : g' < L.length := by simpa using hg'
          rw [if_neg]
          simp only [List.getElem?_eq_getElem hj, List.getElem?_eq_getElem hg', Option.some.injEq]
          intro e'
          exact hne (hn.getElem_inj_iff.1 (e'.symm.trans e.symm))
        · intro hg'; exact absurd (Finset.mem_range.2 hg) hg'

/-- Two lines of business in three rows, grouped by line. -/
private def lob : Tri ℚ :=
  { Ex.tri3 (some true) Ex.cum3 with
    kdims := [["A", "x"], ["B", "y"], ["A", "z"]]
    keyLabels := ["LOB", "Company"]
    values := ⟨3, 1, 3, 3, fun i _ o d => Ex.cum3 o d * .fin (i + 1)⟩ }

/-- The amounts of line A are the sum of rows 1 and 3. -/
example : ∃ u, lob.groupbyIndexSum ["LOB"] [["A"], ["B"], ["A"]] = .ok u ∧
    u.values.dim .index = u.kdims.length ∧ (∀ k, k ∈ u.kdims ↔ k ∈ [["A"], ["B"], ["A"]]) ∧
    u.along .index (fun _ => 0) = 600 := by
  obtain ⟨u, h1, h2, h3, h4⟩ := C19_groupby_index (t := lob) ⟨rfl, rfl, rfl, rfl⟩
    (by unfold Finite; decide) (Or.inr (by decide)) ["LOB"] (rows := [["A"], ["B"], ["A"]])
    (by decide) rfl
  refine ⟨u, h1, h2.1, h4.mem, ?_⟩
  rw [C19_total h4 rfl (by intro b hb; cases b <;> decide)]
  decide +kernel

end Tri
end CL
