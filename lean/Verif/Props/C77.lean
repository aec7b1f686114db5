import Verif.Lemmas.SetItem

set_option linter.unusedSectionVars false

/-! # C77: assignment to a block of cells -/

namespace CL
namespace Tri
variable {K : Type} [Field K] [LinearOrder K] [IsStrictOrderedRing K]

/-- A list of positions. -/
def IsList : Key → Bool
  | .lst _ => true
  | _ => false

/-- What a key of `iloc` selects on an axis of length `n`: an integer or a slice as in Python (where the
rewriting of the slice by the library is harmless), a list its entries. -/
def KeyPicks (n : Nat) (k : Key) (ps : List Nat) : Prop :=
  match k with
  | .lst l => InAxis n l ∧ ps = fromStart n l
  | k => SafeKey n k ∧ PySelects n k ps

theorem norm_positions_lst {n : Nat} {ps : List Nat} (h : ∀ p ∈ ps, p < n) :
    normalizeKey n (.lst (ps.map fun i : Nat => (i : Int))) = .ok (.lst (ps.map fun i : Nat => (i : Int))) ∧
      (Key.lst (ps.map fun i : Nat => (i : Int))).positions n = .ok ps := by
  have hin : ∀ x ∈ ps.map (fun i : Nat => (i : Int)), -(n : Int) ≤ x ∧ x < n := by
    intro x hx
    obtain ⟨p, hp, rfl⟩ := List.mem_map.1 hx
    have := h p hp
    omega
  have hfs : fromStart n (ps.map fun i : Nat => (i : Int)) = ps := by
    unfold fromStart
    rw [List.map_map]
    conv_rhs => rw [← List.map_id ps]
    apply List.map_congr_left
    intro p _
    simp only [Function.comp, id]
    split_ifs <;> omega
  constructor
  · rw [norm_lst hin, hfs]
  · have h1 : ((ps.map fun i : Nat => (i : Int)).any fun i => decide (i ≥ n ∨ i < -(n : Int))) = false := by
      rw [List.any_eq_false]
      intro x hx
      have := hin x hx
      simp; omega
    simp only [Key.positions, h1, Bool.false_eq_true, if_false]
    exact congrArg Except.ok hfs

theorem picks_norm {n : Nat} {k : Key} {ps : List Nat} (h : KeyPicks n k ps) :
    ∃ k' k'', normalizeKey n k = .ok k' ∧ normalizeKey n (intToSlice k') = .ok k'' ∧ k''.positions n = .ok ps ∧
      k''.isSlice = !IsList k := by
  match k, h with
  | .lst l, ⟨hin, e⟩ =>
    subst e
    obtain ⟨h1, h2⟩ := norm_positions_lst (fromStart_lt hin)
    exact ⟨_, _, norm_lst hin.2, h1, h2, rfl⟩
  | .slc s, ⟨hs, hp⟩ =>
    rcases hs with hs | hs
    · obtain ⟨s', h1, h2⟩ := normalize_pos hs
      exact ⟨_, _, h1, normalize_again_pos hs.1 h1, h2.trans hp, rfl⟩
    · obtain ⟨s', h1, h2⟩ := normalize_neg hs
      exact ⟨_, _, h1, normalize_again_neg hs h1, h2.trans hp, rfl⟩
  | .int i, ⟨_, h1, h2, h3⟩ =>
    subst h3
    have e := norm_int n i ⟨h1, h2⟩
    set j := if i < 0 then i + (n : Int) else i with hj
    have hj0 : 0 ≤ j := by rw [hj]; split_ifs <;> omega
    have hjn : j < n := by rw [hj]; split_ifs <;> omega
    have hsafe : SafePos n ⟨some j, some (j + 1), none⟩ := by
      refine ⟨by simp, ?_, Or.inl (by simp)⟩
      intro b hb
      injection hb with hb
      omega
    obtain ⟨s', h4, h5⟩ := normalize_pos hsafe
    obtain ⟨s, h6, h7⟩ := contig_int_positions n j.toNat (by omega)
    rw [Int.toNat_of_nonneg hj0] at h6
    have h8 : (PySlice.mk (some j) (some (j + 1)) none).positions n = .ok [j.toNat] := by
      simp only [contigSlice] at h6
      injection h6 with h6
      injection h6 with h6
      rw [← h6] at h7
      exact h7
    exact ⟨_, _, e, h4, h5.trans h8, rfl⟩

theorem count_not (b0 b1 b2 b3 : Bool) : [!b0, !b1, !b2, !b3].count false = [b0, b1, b2, b3].count true := by
  cases b0 <;> cases b1 <;> cases b2 <;> cases b3 <;> rfl

/-- **C77** (partial: slices as in C13, at most one list of positions; see `C77_pairs_false`).
`tri.iloc[i, c, o, d] = v` leaves the labels and all cells outside the selected block alone and puts the value,
broadcast to the block, into it.  When a list repeats a position the last value stays. -/
theorem C77_iloc_partial {t : Tri K} {ki kc ko kd : Key} {pi pc po pd : List Nat}
    (hi : KeyPicks t.values.d0 ki pi) (hc : KeyPicks t.values.d1 kc pc) (ho : KeyPicks t.values.d2 ko po)
    (hd : KeyPicks t.values.d3 kd pd)
    (hone : [IsList ki, IsList kc, IsList ko, IsList kd].count true ≤ 1)
    {v : SetVal K} {f : Nat → Nat → Nat → Nat → Num K} (hv : v.Block pi.length pc.length po.length pd.length f) :
    ∃ u, t.ilocSet ki kc ko kd v = .ok u ∧ u = { t with values := u.values } ∧
      u.values.d0 = t.values.d0 ∧ u.values.d1 = t.values.d1 ∧ u.values.d2 = t.values.d2 ∧
      u.values.d3 = t.values.d3 ∧
      (∀ i c o d j0 j1 j2 j3, LastAt pi j0 i → LastAt pc j1 c → LastAt po j2 o → LastAt pd j3 d →
        u.values.get i c o d = f j0 j1 j2 j3) ∧
      ∀ i c o d, ¬ (i ∈ pi ∧ c ∈ pc ∧ o ∈ po ∧ d ∈ pd) → u.values.get i c o d = t.values.get i c o d := by
  obtain ⟨i1, i2, ei1, ei2, ei3, ei4⟩ := picks_norm hi
  obtain ⟨c1, c2, ec1, ec2, ec3, ec4⟩ := picks_norm hc
  obtain ⟨o1, o2, eo1, eo2, eo3, eo4⟩ := picks_norm ho
  obtain ⟨d1, d2, ed1, ed2, ed3, ed4⟩ := picks_norm hd
  obtain ⟨b, e, h0, h1, h2, h3, h4, h5⟩ := setItem_block (a := t.values) ei3 ec3 eo3 ed3
    (by rw [ei4, ec4, eo4, ed4, count_not]; exact hone) hv
  refine ⟨{ t with values := b }, ?_, rfl, h0, h1, h2, h3, h4, h5⟩
  simp only [ilocSet, baseSet, ei1, ec1, eo1, ed1, ei2, ec2, eo2, ed2, e, bind, Except.bind]

/-- **C77, reading back** (partial: integers and slices as in C13).  `tri.iloc[key]` after
`tri.iloc[key] = v` is the value. -/
theorem C77_read_partial {t : Tri K} (wf : WF t) {ki kc ko kd : Key} {pi pc po pd : List Nat}
    (si : SafeKey t.values.d0 ki) (sc : SafeKey t.values.d1 kc) (so : SafeKey t.values.d2 ko)
    (sd : SafeKey t.values.d3 kd)
    (hi : PySelects t.values.d0 ki pi) (hc : PySelects t.values.d1 kc pc)
    (ho : PySelects t.values.d2 ko po) (hd : PySelects t.values.d3 kd pd)
    (hne : t.isVal = true ∨ pd ≠ [])
    {v : SetVal K} {f : Nat → Nat → Nat → Nat → Num K} (hv : v.Block pi.length pc.length po.length pd.length f) :
    ∃ u r, t.ilocSet ki kc ko kd v = .ok u ∧ u.iloc ki kc ko kd = .ok r ∧
      ∀ i c o d, i < pi.length → c < pc.length → o < po.length → d < pd.length → r.values.get i c o d = f i c o d := by
  have key : ∀ {n : Nat} {k : Key} {ps : List Nat}, SafeKey n k → PySelects n k ps →
      KeyPicks n k ps ∧ IsList k = false ∧ ps.Nodup := by
    intro n k ps h1 h2
    match k, h1, h2 with
    | .int i, h1, h2 => exact ⟨⟨h1, h2⟩, rfl, by rw [h2.2.2]; exact List.nodup_singleton _⟩
    | .slc s, h1, h2 => exact ⟨⟨h1, h2⟩, rfl, positions_nodup h2⟩
  obtain ⟨qi, li, ni⟩ := key si hi
  obtain ⟨qc, lc, nc⟩ := key sc hc
  obtain ⟨qo, lo, no⟩ := key so ho
  obtain ⟨qd, ld, nd⟩ := key sd hd
  obtain ⟨u, e, eu, h0, h1, h2, h3, h4, h5⟩ := C77_iloc_partial qi qc qo qd (by simp [li, lc, lo, ld]) hv
  have wu : WF u := by
    obtain ⟨w0, w1, w2, w3⟩ := wf
    rw [eu]
    exact ⟨h0.trans w0, h1.trans w1, h2.trans w2, h3.trans w3⟩
  have hval : u.isVal = t.isVal := by rw [eu]
  obtain ⟨r, er, -, -, -, -, -, -, h⟩ := C13_iloc_partial wu (ki := ki) (kc := kc) (ko := ko) (kd := kd)
    (by rw [h0]; exact si) (by rw [h1]; exact sc) (by rw [h2]; exact so) (by rw [h3]; exact sd)
    (by rw [h0]; exact hi) (by rw [h1]; exact hc) (by rw [h2]; exact ho) (by rw [h3]; exact hd)
    (by rw [hval]; exact hne)
  refine ⟨u, r, e, er, ?_⟩
  intro i c o d g0 g1 g2 g3
  rw [h i c o d g0 g1 g2 g3]
  exact h4 _ _ _ _ _ _ _ _ (lastAt_of_nodup ni g0) (lastAt_of_nodup nc g1) (lastAt_of_nodup no g2)
    (lastAt_of_nodup nd g3)

/-- **C77 is false for two lists**: `tri.iloc[:, lc, lo] = x` with two lists of the same length pairs their
entries; the cell of the first column of one pair and the origin of another keeps its amount, although
`tri.iloc[:, lc, lo]` selects it (C14). -/
theorem C77_pairs_false (t : Tri K) {lc lo : List Int} (hc : InAxis t.values.d1 lc) (ho : InAxis t.values.d2 lo)
    (hl : lc.length = lo.length) (nc : (fromStart t.values.d1 lc).Nodup) (no : (fromStart t.values.d2 lo).Nodup)
    (x : Num K) :
    ∃ u, t.ilocSet (.slc .all) (.lst lc) (.lst lo) (.slc .all) (.num x) = .ok u ∧
      ∀ i d k l (hk : k < (fromStart t.values.d1 lc).length) (hl : l < (fromStart t.values.d2 lo).length), k ≠ l →
        u.values.get i (fromStart t.values.d1 lc)[k] (fromStart t.values.d2 lo)[l] d =
          t.values.get i (fromStart t.values.d1 lc)[k] (fromStart t.values.d2 lo)[l] d := by
  have safe : ∀ n, KeyPicks n (.slc .all) (List.range n) := fun n =>
    ⟨Or.inl ⟨by simp [PySlice.all], by simp [PySlice.all], Or.inl (by simp [PySlice.all])⟩, positions_all n⟩
  obtain ⟨i1, i2, ei1, ei2, ei3, ei4⟩ := picks_norm (safe t.values.d0)
  obtain ⟨d1, d2, ed1, ed2, ed3, ed4⟩ := picks_norm (safe t.values.d3)
  obtain ⟨c1, c2, ec1, ec2, ec3, ec4⟩ := picks_norm (k := .lst lc) (n := t.values.d1) ⟨hc, rfl⟩
  obtain ⟨o1, o2, eo1, eo2, eo3, eo4⟩ := picks_norm (k := .lst lo) (n := t.values.d2) ⟨ho, rfl⟩
  have lpc : (fromStart t.values.d1 lc).length = lc.length := by simp [fromStart]
  have lpo : (fromStart t.values.d2 lo).length = lc.length := by simp [fromStart, hl]
  generalize fromStart t.values.d1 lc = pc at *
  generalize fromStart t.values.d2 lo = po at *
  have hlen : commonLen [pc, po] = .ok lc.length := by
    unfold commonLen
    by_cases h1 : lc.length = 1 <;> simp [lpc, lpo, h1]
  obtain ⟨b, e, -, -, -, -, hb⟩ := writeSlots_num t.values
    [⟨[(0, List.range t.values.d0)], (List.range t.values.d0).length⟩, ⟨[(1, pc), (2, po)], lc.length⟩,
      ⟨[(3, List.range t.values.d3)], (List.range t.values.d3).length⟩] x
  have e' : t.values.setItem i2 c2 o2 d2 (.num x) = .ok b := by
    unfold Arr.setItem
    simp only [split_eq ei3, split_eq ec3, split_eq eo3, split_eq ed3, bind, Except.bind, ei4, ec4, eo4, ed4]
    simp only [IsList, Bool.not_false, Bool.not_true, Bool.false_eq_true, if_true, if_false, List.append_nil,
      List.nil_append, List.cons_append, slots, List.map_cons, List.map_nil, hlen, bind, Except.bind]
    simpa using e
  refine ⟨{ t with values := b }, ?_, ?_⟩
  · simp only [ilocSet, baseSet, ei1, ec1, eo1, ed1, ei2, ec2, eo2, ed2, e', bind, Except.bind]
  intro i d k l hk hl' hne
  apply (hb i pc[k] po[l] d).2
  intro h
  obtain ⟨m, hm, h⟩ := h ⟨[(1, pc), (2, po)], lc.length⟩ (by simp)
  have hm : m < lc.length := hm
  have h1 := h (1, pc) (by simp)
  have h2 := h (2, po) (by simp)
  simp only [pos_eq (show m < pc.length by omega), cellAt] at h1
  simp only [pos_eq (show m < po.length by omega), cellAt] at h2
  have := (List.Nodup.getElem_inj_iff nc).1 h1
  have := (List.Nodup.getElem_inj_iff no).1 h2
  omega

/-- **C77 for two lists and an array**: `tri.iloc[:, lc, lo] = a` with lists of the same length takes an array with axes one, rows,
pairs and ages, and puts `a[0, i, k, d]` into the cell of the `k`-th column and the `k`-th origin. -/
theorem C77_pairs_array (t : Tri K) {lc lo : List Int} (hc : InAxis t.values.d1 lc) (ho : InAxis t.values.d2 lo)
    (hl : lc.length = lo.length) (nc : (fromStart t.values.d1 lc).Nodup)
    (a : Arr K) (a0 : a.d0 = 1) (a1 : a.d1 = t.values.d0) (a2 : a.d2 = lc.length) (a3 : a.d3 = t.values.d3) :
    ∃ u, t.ilocSet (.slc .all) (.lst lc) (.lst lo) (.slc .all) (.arr a) = .ok u ∧
      ∀ i < t.values.d0, ∀ d < t.values.d3, ∀ k (hk : k < (fromStart t.values.d1 lc).length)
        (hk' : k < (fromStart t.values.d2 lo).length),
        u.values.get i (fromStart t.values.d1 lc)[k] (fromStart t.values.d2 lo)[k] d = a.get 0 i k d := by
  have safe : ∀ n, KeyPicks n (.slc .all) (List.range n) := fun n =>
    ⟨Or.inl ⟨by simp [PySlice.all], by simp [PySlice.all], Or.inl (by simp [PySlice.all])⟩, positions_all n⟩
  obtain ⟨i1, i2, ei1, ei2, ei3, ei4⟩ := picks_norm (safe t.values.d0)
  obtain ⟨d1, d2, ed1, ed2, ed3, ed4⟩ := picks_norm (safe t.values.d3)
  obtain ⟨c1, c2, ec1, ec2, ec3, ec4⟩ := picks_norm (k := .lst lc) (n := t.values.d1) ⟨hc, rfl⟩
  obtain ⟨o1, o2, eo1, eo2, eo3, eo4⟩ := picks_norm (k := .lst lo) (n := t.values.d2) ⟨ho, rfl⟩
  have lpc : (fromStart t.values.d1 lc).length = lc.length := by simp [fromStart]
  have lpo : (fromStart t.values.d2 lo).length = lc.length := by simp [fromStart, hl]
  generalize fromStart t.values.d1 lc = pc at *
  generalize fromStart t.values.d2 lo = po at *
  have hlen : commonLen [pc, po] = .ok lc.length := by
    unfold commonLen
    by_cases h1 : lc.length = 1 <;> simp [lpc, lpo, h1]
  have e' : t.values.setItem i2 c2 o2 d2 (.arr a) = writeSlots t.values
    [⟨[(0, List.range t.values.d0)], (List.range t.values.d0).length⟩, ⟨[(1, pc), (2, po)], lc.length⟩,
      ⟨[(3, List.range t.values.d3)], (List.range t.values.d3).length⟩] (.arr a) := by
    unfold Arr.setItem
    simp only [split_eq ei3, split_eq ec3, split_eq eo3, split_eq ed3, bind, Except.bind, ei4, ec4, eo4, ed4]
    simp only [IsList, Bool.not_false, Bool.not_true, Bool.false_eq_true, if_true, if_false, List.append_nil,
      List.nil_append, List.cons_append, slots, List.map_cons, List.map_nil, hlen, bind, Except.bind]
    simp
  have hfit : (SetVal.arr a).fits [(List.range t.values.d0).length, lc.length, (List.range t.values.d3).length] = true := by
    simp [SetVal.fits, a0, a1, a2, a3]
  unfold writeSlots at e'
  simp only [List.map_cons, List.map_nil, hfit, if_true] at e'
  refine ⟨_, by simp only [ilocSet, baseSet, ei1, ec1, eo1, ed1, ei2, ec2, eo2, ed2, e', bind, Except.bind]; rfl, ?_⟩
  intro i hi d hd k hk hk'
  have fr : ∀ (ax n : Nat) (x : Nat → Nat), x ax < n →
      (⟨[(ax, List.range n)], (List.range n).length⟩ : Slot).find x = some (x ax) := by
    intro ax n x hx
    have g := lastAt_of_nodup (List.nodup_range (n := n)) (k := x ax) (by simpa using hx)
    rw [List.getElem_range] at g
    exact find_single g
  have fp : (⟨[(1, pc), (2, po)], lc.length⟩ : Slot).find (cellAt i pc[k] po[k] d) = some k := by
    unfold Slot.find
    refine find_last (show k < lc.length by omega) ?_ ?_
    · simp [pos_eq hk, pos_eq hk', cellAt]
    · intro j hj hkj
      have hj' : j < pc.length := lpc ▸ hj
      have : pc[j] ≠ pc[k] := fun h => by
        have := (List.Nodup.getElem_inj_iff nc).1 h
        omega
      simp [pos_eq hj', cellAt, this]
  have f0 := fr 0 t.values.d0 (cellAt i pc[k] po[k] d) hi
  have f3 := fr 3 t.values.d3 (cellAt i pc[k] po[k] d) hd
  simp only [List.mapM_cons, List.mapM_nil, f0, f3, fp, bind, Option.bind, pure]
  have z : ∀ n x : Nat, x < n → (if n = 1 then 0 else x) = x := by
    intro n x h
    split_ifs <;> omega
  simp [SetVal.cell, cellAt, a0, a1, a2, a3, z _ _ hi, z _ _ hd, z lc.length k (by omega)]

/-- **C77 is false for lists of different lengths**: where `tri.iloc[:, lc, lo]` can be read, the assignment raises
`IndexError`. -/
theorem C77_lengths_false (t : Tri K) {lc lo : List Int} (hc : InAxis t.values.d1 lc) (ho : InAxis t.values.d2 lo)
    (h1 : lc.length ≠ 1) (h2 : lo.length ≠ 1) (hl : lc.length ≠ lo.length) (v : SetVal K) :
    t.ilocSet (.slc .all) (.lst lc) (.lst lo) (.slc .all) v = .error .indexError := by
  have safe : ∀ n, KeyPicks n (.slc .all) (List.range n) := fun n =>
    ⟨Or.inl ⟨by simp [PySlice.all], by simp [PySlice.all], Or.inl (by simp [PySlice.all])⟩, positions_all n⟩
  obtain ⟨i1, i2, ei1, ei2, ei3, ei4⟩ := picks_norm (safe t.values.d0)
  obtain ⟨d1, d2, ed1, ed2, ed3, ed4⟩ := picks_norm (safe t.values.d3)
  obtain ⟨c1, c2, ec1, ec2, ec3, ec4⟩ := picks_norm (k := .lst lc) (n := t.values.d1) ⟨hc, rfl⟩
  obtain ⟨o1, o2, eo1, eo2, eo3, eo4⟩ := picks_norm (k := .lst lo) (n := t.values.d2) ⟨ho, rfl⟩
  have lpc : (fromStart t.values.d1 lc).length = lc.length := by simp [fromStart]
  have lpo : (fromStart t.values.d2 lo).length = lo.length := by simp [fromStart]
  have hlen : commonLen [fromStart t.values.d1 lc, fromStart t.values.d2 lo] = .error .indexError := by
    unfold commonLen
    simp [lpc, lpo, h1, h2, Ne.symm hl]
  have e' : t.values.setItem i2 c2 o2 d2 v = .error .indexError := by
    unfold Arr.setItem
    simp only [split_eq ei3, split_eq ec3, split_eq eo3, split_eq ed3, bind, Except.bind, ei4, ec4, eo4, ed4]
    simp only [IsList, Bool.not_false, Bool.not_true, Bool.false_eq_true, if_true, if_false, List.append_nil,
      List.nil_append, List.cons_append, slots, List.map_cons, List.map_nil, hlen, bind, Except.bind]
  simp only [ilocSet, baseSet, ei1, ec1, eo1, ed1, ei2, ec2, eo2, ed2, e', bind, Except.bind]

/-- A label of an axis is asked for by a key of `loc`. -/
def Asked {α : Type} (k : LocKey α) (x : Option α) : Prop :=
  match k with
  | .all => True
  | .labels l => ∃ y ∈ l, x = some y

/-- The labels of a key occur in the axis. -/
def InLabels {α : Type} (axis : List α) : LocKey α → Prop
  | .all => True
  | .labels l => ∀ x ∈ l, x ∈ axis

/-- A key of `loc` that names labels. -/
def Named {α : Type} : LocKey α → Bool
  | .all => false
  | .labels _ => true

/-- The positions of the labels. -/
def spots {α : Type} [DecidableEq α] (axis : List α) : LocKey α → List Nat
  | .all => List.range axis.length
  | .labels l => l.map fun x => axis.idxOf x

theorem mem_spots {α : Type} [DecidableEq α] {axis : List α} (hn : axis.Nodup) {k : LocKey α} (hk : InLabels axis k)
    {j : Nat} (hj : j < axis.length) : j ∈ spots axis k ↔ Asked k axis[j]? := by
  cases k with
  | all => simp [spots, Asked, hj]
  | labels l =>
    simp only [spots, Asked, List.mem_map]
    constructor
    · rintro ⟨x, hx, rfl⟩
      refine ⟨x, hx, ?_⟩
      have := hk x hx
      rw [List.getElem?_eq_getElem hj, List.getElem_idxOf]
    · rintro ⟨y, hy, e⟩
      refine ⟨y, hy, ?_⟩
      rw [List.getElem?_eq_getElem hj] at e
      injection e with e
      rw [← e]
      exact hn.idxOf_getElem j hj

theorem otherKey_eq {α : Type} [DecidableEq α] {axis : List α} {k : LocKey α} (hk : InLabels axis k) {n : Nat}
    (hn : n = axis.length) :
    ∃ k1 k2, otherKey axis k = .ok k1 ∧ normalizeKey n (intToSlice k1) = .ok k2 ∧
      k2.positions n = .ok (spots axis k) ∧ k2.isSlice = !Named k := by
  subst hn
  cases k with
  | all =>
    obtain ⟨k2, h1, h2⟩ := norm_all axis.length
    exact ⟨_, _, rfl, h1, h2, rfl⟩
  | labels l =>
    have h : ∀ p ∈ l.map (fun x => axis.idxOf x), p < axis.length := by
      intro p hp
      obtain ⟨x, hx, rfl⟩ := List.mem_map.1 hp
      exact List.idxOf_lt_length_of_mem (hk x hx)
    obtain ⟨h1, h2⟩ := norm_positions_lst h
    have e : otherKey axis (.labels l) = .ok (.lst ((l.map fun x => axis.idxOf x).map fun i : Nat => (i : Int))) := by
      show (if _ then _ else _) = _
      rw [if_pos (by simpa [InLabels] using hk), List.map_map]
      rfl
    exact ⟨_, _, e, h1, h2, rfl⟩

theorem indexKey_eq {α : Type} [DecidableEq α] {axis : List α} {k : LocKey α} (hk : InLabels axis k) {n : Nat}
    (hn : n = axis.length) :
    ∃ k1 k2, indexKey axis k = .ok k1 ∧ normalizeKey n (intToSlice k1) = .ok k2 ∧
      k2.positions n = .ok (spots axis k) ∧ k2.isSlice = false := by
  subst hn
  have h : ∀ p ∈ spots axis k, p < axis.length := by
    intro p hp
    cases k with
    | all => simpa [spots] using hp
    | labels l =>
      obtain ⟨x, hx, rfl⟩ := List.mem_map.1 hp
      exact List.idxOf_lt_length_of_mem (hk x hx)
  obtain ⟨h1, h2⟩ := norm_positions_lst h
  refine ⟨.lst ((spots axis k).map fun i : Nat => (i : Int)), _, ?_, h1, h2, rfl⟩
  cases k with
  | all => rfl
  | labels l =>
    show (if _ then _ else _) = _
    rw [if_pos (by simpa [InLabels] using hk)]
    simp only [spots, List.map_map]
    rfl

/-- The pair of a list of one on the index and the list of another axis is one axis of the selection. -/
theorem pair_at {ax n : Nat} {ps : List Nat} {x : Nat → Nat} (hn : n = ps.length) :
    (⟨[(0, [0]), (ax, ps)], n⟩ : Slot).Covers x ↔ x 0 = 0 ∧ x ax ∈ ps := by
  subst hn
  constructor
  · rintro ⟨k, hk, h⟩
    have h1 := h (0, [0]) (by simp)
    have h2 := h (ax, ps) (by simp)
    simp only [pos_eq hk] at h2
    refine ⟨?_, h2 ▸ List.getElem_mem hk⟩
    rw [← h1]
    simp [Slot.pos]
  · rintro ⟨h0, h⟩
    obtain ⟨k, hk, e⟩ := List.getElem_of_mem h
    refine ⟨k, hk, ?_⟩
    intro p hp
    rcases List.mem_pair.1 hp with rfl | rfl
    · simp [Slot.pos, h0]
    · simpa [pos_eq hk] using e

theorem commonLen_pair (ps : List Nat) : commonLen [[0], ps] = .ok ps.length := by
  unfold commonLen
  by_cases h : ps.length = 1 <;> simp [h]

/-- **C77 for `loc`** (partial: a triangle of one row, a number, labels on at most one axis; see
`C77_loc_rows_false` and `C77_loc_triangle_false`).  `tri.loc[:, c, o, d] = x` puts the number into exactly the
cells whose labels are asked for. -/
theorem C77_loc_partial {t : Tri K} (wf : WF t) (hrow : t.kdims.length = 1) {kc : LocKey String} {ko kd : LocKey Int}
    (nc : t.vdims.Nodup) (no : t.odims.Nodup) (nd : t.ddims.Nodup)
    (hc : InLabels t.vdims kc) (ho : InLabels t.odims ko) (hd : InLabels t.ddims kd)
    (hone : [Named kc, Named ko, Named kd].count true ≤ 1) (x : Num K) :
    ∃ u, t.locSet .all kc ko kd (.num x) = .ok u ∧ u = { t with values := u.values } ∧
      ∀ c o d, c < t.vdims.length → o < t.odims.length → d < t.ddims.length →
        (Asked kc t.vdims[c]? ∧ Asked ko t.odims[o]? ∧ Asked kd t.ddims[d]? → u.values.get 0 c o d = x) ∧
        (¬ (Asked kc t.vdims[c]? ∧ Asked ko t.odims[o]? ∧ Asked kd t.ddims[d]?) →
          u.values.get 0 c o d = t.values.get 0 c o d) := by
  obtain ⟨w0, w1, w2, w3⟩ := wf
  obtain ⟨i1, i2, ei1, ei2, ei3, ei4⟩ := indexKey_eq (axis := t.kdims) (k := .all) trivial w0
  obtain ⟨c1, c2, ec1, ec2, ec3, ec4⟩ := otherKey_eq hc w1
  obtain ⟨o1, o2, eo1, eo2, eo3, eo4⟩ := otherKey_eq ho w2
  obtain ⟨d1, d2, ed1, ed2, ed3, ed4⟩ := otherKey_eq hd w3
  have hs0 : spots t.kdims .all = [0] := by simp [spots, hrow]
  rw [hs0] at ei3
  have mc := fun c h => mem_spots nc hc (j := c) h
  have mo := fun o h => mem_spots no ho (j := o) h
  have md := fun d h => mem_spots nd hd (j := d) h
  generalize spots t.vdims kc = pc at *
  generalize spots t.odims ko = po at *
  generalize spots t.ddims kd = pd at *
  obtain ⟨ss, hss, hmem⟩ : ∃ ss, slots
      ((if c2.isSlice then [(1, pc)] else []) ++ (if o2.isSlice then [(2, po)] else []) ++
        (if d2.isSlice then [(3, pd)] else []))
      ([(0, [0])] ++ (if c2.isSlice then [] else [(1, pc)]) ++ (if o2.isSlice then [] else [(2, po)]) ++
        (if d2.isSlice then [] else [(3, pd)])) = .ok ss ∧
      ∀ c o d, (∀ s ∈ ss, s.Covers (cellAt 0 c o d)) ↔
        c ∈ pc ∧ o ∈ po ∧ d ∈ pd := by
    rw [ec4, eo4, ed4]
    revert hone
    cases Named kc <;> cases Named ko <;> cases Named kd <;> intro hone
    · refine ⟨[⟨[(0, [0])], [0].length⟩, ⟨[(1, pc)], pc.length⟩, ⟨[(2, po)], po.length⟩, ⟨[(3, pd)], pd.length⟩],
        by simp [slots, commonLen_one, bind, Except.bind], ?_⟩
      intro c o d
      simp only [List.forall_mem_cons, List.forall_mem_nil, single_at, cellAt]
      simp
    · refine ⟨[⟨[(0, [0]), (3, pd)], pd.length⟩, ⟨[(1, pc)], pc.length⟩, ⟨[(2, po)], po.length⟩],
        by simp [slots, commonLen_pair, bind, Except.bind], ?_⟩
      intro c o d
      simp only [List.forall_mem_cons, List.forall_mem_nil, single_at, pair_at rfl, cellAt]
      simp
      tauto
    · refine ⟨[⟨[(0, [0]), (2, po)], po.length⟩, ⟨[(1, pc)], pc.length⟩, ⟨[(3, pd)], pd.length⟩],
        by simp [slots, commonLen_pair, bind, Except.bind], ?_⟩
      intro c o d
      simp only [List.forall_mem_cons, List.forall_mem_nil, single_at, pair_at rfl, cellAt]
      simp
      tauto
    · exact absurd hone (by decide)
    · refine ⟨[⟨[(0, [0]), (1, pc)], pc.length⟩, ⟨[(2, po)], po.length⟩, ⟨[(3, pd)], pd.length⟩],
        by simp [slots, commonLen_pair, bind, Except.bind], ?_⟩
      intro c o d
      simp only [List.forall_mem_cons, List.forall_mem_nil, single_at, pair_at rfl, cellAt]
      simp
    · exact absurd hone (by decide)
    · exact absurd hone (by decide)
    · exact absurd hone (by decide)
  obtain ⟨b, e, -, -, -, -, hb⟩ := writeSlots_num t.values ss x
  have e' : t.values.setItem i2 c2 o2 d2 (.num x) = .ok b := by
    unfold Arr.setItem
    simp only [split_eq ei3, split_eq ec3, split_eq eo3, split_eq ed3, bind, Except.bind, ei4, Bool.false_eq_true,
      if_false, List.nil_append]
    rw [hss]
    exact e
  refine ⟨{ t with values := b }, ?_, rfl, ?_⟩
  · simp only [locSet, baseSet, ei1, ec1, eo1, ed1, ei2, ec2, eo2, ed2, e', bind, Except.bind]
  intro c o d h1 h2 h3
  rw [← mc c h1, ← mo o h2, ← md d h3, ← hmem]
  exact hb 0 c o d

/-- **C77 is false for `loc` with several rows**: `tri.loc[:, [a, b]] = x` on a triangle of two rows sets column `a` of the
first row and column `b` of the second; column `b` of the first row keeps its amounts. -/
theorem C77_loc_rows_false {t : Tri K} (wf : WF t) (hrow : t.kdims.length = 2) {a b : String} (ha : a ∈ t.vdims)
    (hb : b ∈ t.vdims) (hab : a ≠ b) (x : Num K) :
    ∃ u, t.locSet .all (.labels [a, b]) .all .all (.num x) = .ok u ∧
      ∀ o d, u.values.get 0 (t.vdims.idxOf b) o d = t.values.get 0 (t.vdims.idxOf b) o d := by
  obtain ⟨w0, w1, w2, w3⟩ := wf
  obtain ⟨i1, i2, ei1, ei2, ei3, ei4⟩ := indexKey_eq (axis := t.kdims) (k := .all) trivial w0
  obtain ⟨c1, c2, ec1, ec2, ec3, ec4⟩ := otherKey_eq (axis := t.vdims) (k := .labels [a, b])
    (by intro y hy; rcases List.mem_pair.1 hy with rfl | rfl <;> assumption) w1
  obtain ⟨o1, o2, eo1, eo2, eo3, eo4⟩ := otherKey_eq (axis := t.odims) (k := .all) trivial w2
  obtain ⟨d1, d2, ed1, ed2, ed3, ed4⟩ := otherKey_eq (axis := t.ddims) (k := .all) trivial w3
  have hs0 : spots t.kdims .all = [0, 1] := by simp [spots, hrow, List.range_succ]
  rw [hs0] at ei3
  obtain ⟨r, e, -, -, -, -, hr⟩ := writeSlots_num t.values
    [⟨[(0, [0, 1]), (1, spots t.vdims (.labels [a, b]))], 2⟩, ⟨[(2, spots t.odims .all)], (spots t.odims .all).length⟩,
      ⟨[(3, spots t.ddims .all)], (spots t.ddims .all).length⟩] x
  have e' : t.values.setItem i2 c2 o2 d2 (.num x) = .ok r := by
    unfold Arr.setItem
    simp only [split_eq ei3, split_eq ec3, split_eq eo3, split_eq ed3, bind, Except.bind, ei4, ec4, eo4, ed4]
    rw [← e]
    simp [Named, slots, commonLen, spots, bind, Except.bind]
  refine ⟨{ t with values := r }, ?_, ?_⟩
  · simp only [locSet, baseSet, ei1, ec1, eo1, ed1, ei2, ec2, eo2, ed2, e', bind, Except.bind]
  intro o d
  apply (hr 0 (t.vdims.idxOf b) o d).2
  intro h
  obtain ⟨m, hm, h⟩ := h _ (by simp; exact Or.inl rfl)
  have h1 := h (0, [0, 1]) (by simp)
  have h2 := h (1, spots t.vdims (.labels [a, b])) (by simp)
  have hm : m < 2 := hm
  have : m = 0 ∨ m = 1 := by omega
  rcases this with rfl | rfl
  · simp only [Slot.pos, spots, cellAt, List.map_cons, List.map_nil] at h2
    have h2 : t.vdims.idxOf a = t.vdims.idxOf b := h2
    exact hab ((List.idxOf_inj ha).1 h2)
  · simp [Slot.pos, cellAt] at h1

/-- **C77 is false for `loc` with a triangle as the value**: for one column and at least two origins,
`tri.loc[..., ages] = block` raises `ValueError` although the value has the shape of `tri.loc[..., ages]`. -/
theorem C77_loc_triangle_false {t : Tri K} (wf : WF t) (hrow : t.kdims.length = 1) (hcol : t.vdims.length = 1)
    (horg : 2 ≤ t.odims.length) {l : List Int} (hl : ∀ x ∈ l, x ∈ t.ddims) (a : Arr K) (h0 : a.d0 = 1) (h1 : a.d1 = 1)
    (h2 : a.d2 = t.odims.length) (h3 : a.d3 = l.length) :
    t.locSet .all .all .all (.labels l) (.arr a) = .error .valueError := by
  obtain ⟨w0, w1, w2, w3⟩ := wf
  obtain ⟨i1, i2, ei1, ei2, ei3, ei4⟩ := indexKey_eq (axis := t.kdims) (k := .all) trivial w0
  obtain ⟨c1, c2, ec1, ec2, ec3, ec4⟩ := otherKey_eq (axis := t.vdims) (k := .all) trivial w1
  obtain ⟨o1, o2, eo1, eo2, eo3, eo4⟩ := otherKey_eq (axis := t.odims) (k := .all) trivial w2
  obtain ⟨d1, d2, ed1, ed2, ed3, ed4⟩ := otherKey_eq (axis := t.ddims) (k := .labels l) hl w3
  have hs0 : spots t.kdims .all = [0] := by simp [spots, hrow]
  rw [hs0] at ei3
  have hlen : (spots t.ddims (.labels l)).length = l.length := by simp [spots]
  have hc1 : (spots t.vdims .all).length = 1 := by simp [spots, hcol]
  have ho1 : (spots t.odims .all).length = t.odims.length := by simp [spots]
  have e' : t.values.setItem i2 c2 o2 d2 (.arr a) = .error .valueError := by
    unfold Arr.setItem
    simp only [split_eq ei3, split_eq ec3, split_eq eo3, split_eq ed3, bind, Except.bind, ei4, ec4, eo4, ed4]
    have hne : ¬ t.odims.length = 1 := by omega
    simp [Named, slots, commonLen_pair, bind, Except.bind, writeSlots, SetVal.fits, h0, h1, h2, hc1, ho1, hne]
  simp only [locSet, baseSet, ei1, ec1, eo1, ed1, ei2, ec2, eo2, ed2, e', bind, Except.bind]

/-- **C77 for `at` with several labels**: when a list of known labels on some axis does not have exactly one entry,
`tri.at[...] = x` raises `ValueError`. -/
theorem C77_at_lists {t : Tri K} {lr : List (List String)} {lc : List String} {lo ld : List Int}
    (hr : ∀ x ∈ lr, x ∈ t.kdims) (hc : ∀ x ∈ lc, x ∈ t.vdims) (ho : ∀ x ∈ lo, x ∈ t.odims) (hd : ∀ x ∈ ld, x ∈ t.ddims)
    (h : ¬ (lr.length = 1 ∧ lc.length = 1 ∧ lo.length = 1 ∧ ld.length = 1)) (x : Num K) :
    t.atSet (.labels lr) (.labels lc) (.labels lo) (.labels ld) x = .error .valueError := by
  have e0 : ∀ {α : Type} [DecidableEq α] (axis l : List α), (∀ x ∈ l, x ∈ axis) →
      ∃ m : List Int, indexKey axis (.labels l) = .ok (.lst m) ∧ m.length = l.length := by
    intro α _ axis l hl
    refine ⟨l.map fun x => (axis.idxOf x : Int), ?_, List.length_map _⟩
    simp only [indexKey]
    rw [if_pos (by simpa using hl)]
  obtain ⟨m, e1, em⟩ := e0 _ _ hr
  have e : ∀ {α : Type} [DecidableEq α] (axis l : List α), (∀ x ∈ l, x ∈ axis) →
      otherKey axis (.labels l) = .ok (.lst (l.map fun x => (axis.idxOf x : Int))) := by
    intro α _ axis l hl
    simp only [otherKey]
    rw [if_pos (by simpa using hl)]
  simp only [atSet, e1, e _ _ hc, e _ _ ho, e _ _ hd, bind, Except.bind, List.length_map, em]
  by_cases a : lr.length = 1 <;> by_cases b : lc.length = 1 <;> by_cases c : lo.length = 1 <;>
    by_cases f : ld.length = 1 <;> simp_all

/-- **C77 for `at`**: `tri.at[row, c, o, d] = x` changes exactly the cell with these labels, for any number of rows. -/
theorem C77_at {t : Tri K} (wf : WF t) (nk : t.kdims.Nodup) (nc : t.vdims.Nodup) (no : t.odims.Nodup)
    (nd : t.ddims.Nodup) {r : List String} {c : String} {o d : Int} {i0 c0 o0 d0 : Nat} (hr : t.kdims[i0]? = some r)
    (hc : t.vdims[c0]? = some c) (ho : t.odims[o0]? = some o) (hd : t.ddims[d0]? = some d) (x : Num K) :
    ∃ u, t.atSet (.labels [r]) (.labels [c]) (.labels [o]) (.labels [d]) x = .ok u ∧
      u = { t with values := u.values } ∧ u.values.get i0 c0 o0 d0 = x ∧
      ∀ i j k l, ¬ (i = i0 ∧ j = c0 ∧ k = o0 ∧ l = d0) → u.values.get i j k l = t.values.get i j k l := by
  obtain ⟨w0, w1, w2, w3⟩ := wf
  have one : ∀ {α : Type} [DecidableEq α] {axis : List α} {y : α} {n p : Nat}, axis.Nodup → axis[p]? = some y →
      n = axis.length →
      indexKey axis (.labels [y]) = .ok (.lst [(p : Int)]) ∧
      otherKey axis (.labels [y]) = .ok (.lst [(p : Int)]) ∧
      normalizeKey n (.lst [(p : Int)]) = .ok (.lst [(p : Int)]) ∧
      (Key.lst [(p : Int)]).positions n = .ok [p] := by
    intro α _ axis y n p hnd hy hn
    subst hn
    obtain ⟨hp, hy⟩ := List.getElem?_eq_some_iff.1 hy
    subst hy
    obtain ⟨h1, h2⟩ := norm_positions_lst (n := axis.length) (ps := [p]) (by simpa using hp)
    have e := hnd.idxOf_getElem p hp
    exact ⟨by simp [indexKey, e], by simp [otherKey, e], h1, h2⟩
  obtain ⟨ei, -, fi, gi⟩ := one nk hr w0
  obtain ⟨-, ec, fc, gc⟩ := one nc hc w1
  obtain ⟨-, eo, fo, go⟩ := one no ho w2
  obtain ⟨-, ed, fd, gd⟩ := one nd hd w3
  obtain ⟨b, e, -, -, -, -, hb⟩ := writeSlots_num t.values [⟨[(0, [i0]), (1, [c0]), (2, [o0]), (3, [d0])], 1⟩] x
  have e' : t.values.setItem (.lst [(i0 : Int)]) (.lst [(c0 : Int)]) (.lst [(o0 : Int)]) (.lst [(d0 : Int)]) (.num x) =
      .ok b := by
    unfold Arr.setItem
    simp only [split_eq gi, split_eq gc, split_eq go, split_eq gd, bind, Except.bind]
    rw [← e]
    simp [Key.isSlice, slots, commonLen, bind, Except.bind]
  refine ⟨{ t with values := b }, ?_, rfl, ?_, ?_⟩
  · simp only [atSet, baseSet, intToSlice, ei, ec, eo, ed, fi, fc, fo, fd, e', bind, Except.bind, List.length_singleton,
      if_true]
  · apply (hb _ _ _ _).1
    intro s hs
    rw [List.mem_singleton] at hs
    subst hs
    refine ⟨0, by simp, ?_⟩
    simp [Slot.pos, cellAt]
  · intro i j k l hn
    apply (hb i j k l).2
    intro h
    obtain ⟨m, hm, h⟩ := h _ (List.mem_singleton.2 rfl)
    apply hn
    simp [Slot.pos, cellAt] at h
    obtain ⟨h1, h2, h3, h4⟩ := h
    exact ⟨h1.symm, h2.symm, h3.symm, h4.symm⟩

/-- `tri.iloc[..., 1:, [0, 2]] = 7` on a triangle of three origins. -/
example : ∃ u, (Ex.tri3 (some true) Ex.cum3).ilocSet (.slc .all) (.slc .all) (.slc ⟨some 1, none, none⟩) (.lst [0, -1])
    (.num (.fin 7)) = .ok u ∧ u.values.get 0 0 2 2 = .fin 7 ∧ u.values.get 0 0 1 1 = .fin 168 ∧
    u.values.get 0 0 0 0 = .fin 100 := by
  obtain ⟨u, e, -, -, -, -, -, h1, h2⟩ := C77_iloc_partial (t := Ex.tri3 (some true) Ex.cum3) (pi := [0]) (pc := [0])
    (po := [1, 2]) (pd := [0, 2]) (ki := .slc .all) (kc := .slc .all) (ko := .slc ⟨some 1, none, none⟩)
    (kd := .lst [0, -1]) (v := .num (.fin 7)) (f := fun _ _ _ _ => .fin 7)
    ⟨Or.inl ⟨by decide, by simp [PySlice.all], Or.inl rfl⟩, rfl⟩ ⟨Or.inl ⟨by decide, by simp [PySlice.all], Or.inl rfl⟩, rfl⟩
    ⟨Or.inl ⟨by decide, by simp, Or.inl rfl⟩, rfl⟩
    ⟨⟨by simp, by intro x hx; simp at hx; rcases hx with rfl | rfl <;> decide⟩, rfl⟩ (by decide) (fun _ _ _ _ => rfl)
  have l : ∀ (ps : List Nat) (k : Nat) (h : k < ps.length), ps.Nodup → LastAt ps k ps[k] := fun ps k h hn =>
    lastAt_of_nodup hn h
  refine ⟨u, e, ?_, ?_, ?_⟩
  · exact h1 0 0 2 2 0 0 1 1 (l [0] 0 (by simp) (by simp)) (l [0] 0 (by simp) (by simp))
      (l [1, 2] 1 (by simp) (by simp)) (l [0, 2] 1 (by simp) (by simp))
  · rw [h2 _ _ _ _ (by simp)]; decide +kernel
  · rw [h2 _ _ _ _ (by simp)]; decide +kernel

/-- `tri.loc[..., 24] = 0` on the same triangle. -/
example : ∃ u, (Ex.tri3 (some true) Ex.cum3).locSet .all .all .all (.labels [24]) (.num (.fin 0)) = .ok u ∧
    u.values.get 0 0 1 1 = .fin 0 ∧ u.values.get 0 0 1 0 = (Ex.tri3 (some true) Ex.cum3).values.get 0 0 1 0 := by
  obtain ⟨u, e, -, h⟩ := C77_loc_partial (t := Ex.tri3 (some true) Ex.cum3) (by decide) (by decide) (kc := .all) (ko := .all)
    (kd := .labels [24]) (by decide) (by decide) (by decide) trivial trivial
    (by intro x hx; simp at hx; subst hx; decide) (by decide) (.fin 0)
  refine ⟨u, e, ?_, ?_⟩
  · exact (h 0 1 1 (by decide) (by decide) (by decide)).1 ⟨trivial, trivial, 24, by simp, by decide⟩
  · refine (h 0 1 0 (by decide) (by decide) (by decide)).2 ?_
    rintro ⟨-, -, y, hy, e⟩
    simp at hy
    subst hy
    revert e
    decide

/-- The example triangle with a second column. -/
private def pair : Tri ℚ :=
  let t := Ex.tri3 (some true) Ex.cum3
  { t with vdims := ["a", "b"], values := { t.values with d1 := 2, get := fun i _ o d => t.values.get i 0 o d } }

/-- The first column takes the first row of the array at the last origin, the second column the second at the first origin. -/
example : ∃ u, pair.ilocSet (.slc .all) (.lst [0, 1]) (.lst [-1, 0]) (.slc .all)
      (.arr ⟨1, 1, 2, 3, fun _ _ k d => .fin (10 * k + d)⟩) = .ok u ∧
    u.values.get 0 0 2 1 = .fin 1 ∧ u.values.get 0 1 0 2 = .fin 12 := by
  obtain ⟨u, e, h⟩ := C77_pairs_array pair (lc := [0, 1]) (lo := [-1, 0])
    ⟨by simp, by intro x hx; simp at hx; rcases hx with rfl | rfl <;> decide⟩
    ⟨by simp, by intro x hx; simp at hx; rcases hx with rfl | rfl <;> decide⟩ rfl (by decide)
    ⟨1, 1, 2, 3, fun _ _ k d => .fin (10 * k + d)⟩ rfl rfl rfl rfl
  refine ⟨u, e, ?_, ?_⟩
  · refine (h 0 (by decide) 1 (by decide) 0 (by decide) (by decide)).trans ?_
    norm_num
  · refine (h 0 (by decide) 2 (by decide) 1 (by decide) (by decide)).trans ?_
    norm_num

/-- Two ages in `at`. -/
example : (Ex.tri3 (some true) Ex.cum3).atSet (.labels (Ex.tri3 (some true) Ex.cum3).kdims)
    (.labels (Ex.tri3 (some true) Ex.cum3).vdims) (.labels [(Ex.tri3 (some true) Ex.cum3).odims.getD 0 0]) (.labels [12, 24])
    (.fin 1) = .error .valueError :=
  C77_at_lists (fun _ h => h) (fun _ h => h) (by decide) (by decide) (by decide) _

end Tri
end CL
