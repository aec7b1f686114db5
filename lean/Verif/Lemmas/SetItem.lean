import Verif.Model.SetItem
import Verif.Props.C14

set_option linter.unusedSectionVars false

/-! Lemmas for C77: normalising a key twice, and the cells written through the slots -/

namespace CL
variable {K : Type} [Field K] [LinearOrder K] [IsStrictOrderedRing K]

/-- What `_normalize_index` makes of an explicit slice. -/
def normSlice (n : Nat) (a b c : Int) : PySlice :=
  let start := if a > 0 then some a else none
  let stop := if b > -1 then some b else none
  let stop := if stop = some (n : Int) then none else stop
  ⟨start, stop, if start = none ∧ stop = none then none else some c⟩

theorem normalize_of_clip {n : Nat} {s : PySlice} {a b c : Int}
    (h : clipSlice n (posifySlice n (replaceNone s n)) = (a, b, c)) :
    normalizeKey n (.slc s) = .ok (.slc (normSlice n a b c)) := by
  simp only [normalizeKey, sparseNormalize, h, normSlice]

theorem clip_norm_pos {n : Nat} {a b c : Int} (hc : 0 < c) (ha : 0 ≤ a) (hab : a ≤ b) (hb : b ≤ n) :
    ∃ c', clipSlice n (posifySlice n (replaceNone (normSlice n a b c) n)) = (a, b, c') ∧
      normSlice n a b c' = normSlice n a b c := by
  have h1 : b > -1 := by omega
  rcases ha.lt_or_eq with ha' | rfl
  · refine ⟨c, ?_, rfl⟩
    by_cases hbn : b = n
    · subst hbn
      have h2 : ¬ ((n : Int) < 0) := by omega
      have h3 : ¬ a < 0 := by omega
      have h4 : ¬ (n : Int) < a := by omega
      have h5 : max a 0 = a := by omega
      simp [normSlice, ha', h1, replaceNone, hc, posifySlice, clipSlice, h3, h4, h5]
      split_ifs <;> omega
    · have h2 : ¬ (b < 0) := by omega
      have h3 : ¬ a < 0 := by omega
      have h4 : ¬ b < a := by omega
      have h5 : max a 0 = a := by omega
      have h6 : min b n = b := by omega
      simp [normSlice, ha', h1, hbn, replaceNone, hc, posifySlice, clipSlice, h2, h3, h4, h5, h6]
  · by_cases hbn : b = n
    · subst hbn
      refine ⟨1, ?_, ?_⟩
      · have h2 : ¬ ((n : Int) < 0) := by omega
        simp [normSlice, h1, replaceNone, posifySlice, clipSlice]
        split_ifs <;> omega
      · simp [normSlice, h1]
    · refine ⟨c, ?_, rfl⟩
      have h2 : ¬ (b < 0) := by omega
      have h6 : min b n = b := by omega
      simp [normSlice, h1, hbn, replaceNone, hc, posifySlice, clipSlice, h2, h6]

/-- Normalising twice is normalising once, for a positive step. -/
theorem normalize_again_pos {n : Nat} {s : PySlice} (hc : 0 < s.step.getD 1) {k : Key}
    (h : normalizeKey n (.slc s) = .ok k) : normalizeKey n k = .ok k := by
  obtain ⟨a, b, c, e, hc', hab⟩ : ∃ a b c, clipSlice n (posifySlice n (replaceNone s n)) = (a, b, c) ∧ 0 < c ∧
      ((0 ≤ a ∧ a ≤ b ∧ b ≤ n) ∨ (a < 0 ∧ b < 0)) := by
    simp only [replaceNone, hc, gt_iff_lt, if_true, posifySlice, clipSlice]
    refine ⟨_, _, _, rfl, hc, ?_⟩
    generalize (if s.start.getD 0 < 0 then s.start.getD 0 + (n : Int) else s.start.getD 0) = a
    generalize (if ¬(0 > s.stop.getD (n : Int) ∧ s.stop.getD (n : Int) ≥ s.step.getD 1) ∧ s.stop.getD (n : Int) < 0
      then s.stop.getD (n : Int) + n else s.stop.getD (n : Int)) = b
    split_ifs <;> omega
  rw [normalize_of_clip e] at h
  injection h with h
  subst h
  rcases hab with ⟨h1, h2, h3⟩ | ⟨h1, h2⟩
  · obtain ⟨c', e', e2⟩ := clip_norm_pos hc' h1 h2 h3
    rw [normalize_of_clip e', e2]
  · have h3 : ¬ a > 0 := by omega
    have h4 : ¬ b > -1 := by omega
    have e3 : normSlice n a b c = .all := by simp [normSlice, h3, h4, PySlice.all]
    rw [e3]
    have : clipSlice n (posifySlice n (replaceNone .all n)) = (0, (n : Int), 1) := by
      simp [PySlice.all, replaceNone, posifySlice, clipSlice]
      split_ifs <;> omega
    rw [normalize_of_clip this]
    have h5 : (n : Int) > -1 := by omega
    simp [normSlice, PySlice.all, h5]

/-- The same for a negative step that starts after position 0. -/
theorem normalize_again_neg {n : Nat} {s : PySlice} (hs : SafeNeg n s) {k : Key}
    (h : normalizeKey n (.slc s) = .ok k) : normalizeKey n k = .ok k := by
  obtain ⟨hc, hstart, hn, hstop⟩ := hs
  obtain ⟨a, b, c, e, hc', h0, hb0, hba, han⟩ : ∃ a b c, clipSlice n (posifySlice n (replaceNone s n)) = (a, b, c) ∧
      c < 0 ∧ 0 < a ∧ -1 ≤ b ∧ b ≤ a ∧ (a < n ∧ b < n) := by
    have hc0 : ¬ s.step.getD 1 > 0 := by omega
    simp only [replaceNone, hc0, if_false, posifySlice, clipSlice]
    refine ⟨_, _, _, rfl, hc, ?_⟩
    cases hs : s.start with
    | none =>
      cases ht : s.stop with
      | none => simp only [Option.getD_none]; split_ifs <;> omega
      | some b =>
        have := hstop b ht
        simp only [Option.getD_none, Option.getD_some]; split_ifs <;> omega
    | some a =>
      have h1 := hstart a hs
      cases ht : s.stop with
      | none => simp only [Option.getD_none, Option.getD_some]; split_ifs <;> omega
      | some b =>
        have := hstop b ht
        simp only [Option.getD_some]; split_ifs <;> omega
  rw [normalize_of_clip e] at h
  injection h with h
  subst h
  have h3 : ¬ a < 0 := by omega
  have hc0 : ¬ 0 < c := by omega
  have h5 : min a ((n : Int) - 1) = a := by omega
  have h6 : ¬ a < b := by omega
  have hbn : ¬ b = n := by omega
  by_cases hb : b > -1
  · have h7 : ¬ b < 0 := by omega
    have h8 : max b (-1) = b := by omega
    refine (normalize_of_clip (a := a) (b := b) (c := c) ?_)
    simp [normSlice, h0, hb, hbn, replaceNone, hc0, posifySlice, clipSlice, h3, h5, h6, h7, h8]
  · have hb1 : b = -1 := by omega
    subst hb1
    refine (normalize_of_clip (a := a) (b := -1) (c := c) ?_)
    have h7 : c ≤ -1 := by omega
    have h9 : ¬ a < -1 := by omega
    simp [normSlice, h0, replaceNone, hc0, posifySlice, clipSlice, h3, h5, h7, h9]

/-- The last place of a list with a given entry. -/
def LastAt (ps : List Nat) (k x : Nat) : Prop :=
  ∃ h : k < ps.length, ps[k] = x ∧ ∀ j (hj : j < ps.length), k < j → ps[j] ≠ x

theorem lastAt_of_nodup {ps : List Nat} (hn : ps.Nodup) {k : Nat} (h : k < ps.length) : LastAt ps k ps[k] := by
  refine ⟨h, rfl, ?_⟩
  intro j hj hlt e
  have := (List.Nodup.getElem_inj_iff hn).1 e
  omega

theorem pos_eq {ps : List Nat} {k : Nat} (h : k < ps.length) : Slot.pos ps k = ps[k] := by
  unfold Slot.pos
  by_cases h1 : ps.length = 1
  · have : k = 0 := by omega
    subst this
    simp [h1]
  · simp [h1, h]

theorem find_last {p : Nat → Bool} {n k : Nat} (h : k < n) (hk : p k = true) (hl : ∀ j, j < n → k < j → p j = false) :
    (List.range n).reverse.find? p = some k := by
  induction n with
  | zero => omega
  | succ n ih =>
    rw [List.range_succ, List.reverse_append, List.reverse_singleton, List.singleton_append, List.find?_cons]
    by_cases e : k = n
    · subst e; rw [hk]
    · rw [hl n (by omega) (by omega)]
      exact ih (by omega) fun j hj => hl j (by omega)

theorem find_single {ax : Nat} {ps : List Nat} {x : Nat → Nat} {k : Nat} (h : LastAt ps k (x ax)) :
    (⟨[(ax, ps)], ps.length⟩ : Slot).find x = some k := by
  obtain ⟨hk, e, hl⟩ := h
  unfold Slot.find
  refine find_last hk (by simp [pos_eq hk, e]) ?_
  intro j hj hkj
  simp [pos_eq hj, hl j hj hkj]

theorem find_single_none {ax : Nat} {ps : List Nat} {x : Nat → Nat} (h : x ax ∉ ps) :
    (⟨[(ax, ps)], ps.length⟩ : Slot).find x = none := by
  unfold Slot.find
  rw [List.find?_eq_none]
  intro j hj
  have hj : j < ps.length := by simpa using hj
  simp only [List.all_cons, List.all_nil, Bool.and_true, decide_eq_true_eq, pos_eq hj]
  intro e
  exact h (e ▸ List.getElem_mem hj)

theorem commonLen_one (p : List Nat) : commonLen [p] = .ok p.length := by
  unfold commonLen
  by_cases h : p.length = 1 <;> simp [h]

/-- At most one of the axes is indexed by a list: the selection has the four axes of the array. -/
theorem slots_four (b0 b1 b2 b3 : Bool) (p0 p1 p2 p3 : List Nat)
    (h : [b0, b1, b2, b3].count false ≤ 1) :
    slots ((if b0 then [(0, p0)] else []) ++ (if b1 then [(1, p1)] else []) ++ (if b2 then [(2, p2)] else []) ++
        (if b3 then [(3, p3)] else []))
      ((if b0 then [] else [(0, p0)]) ++ (if b1 then [] else [(1, p1)]) ++ (if b2 then [] else [(2, p2)]) ++
        (if b3 then [] else [(3, p3)])) =
      .ok [⟨[(0, p0)], p0.length⟩, ⟨[(1, p1)], p1.length⟩, ⟨[(2, p2)], p2.length⟩, ⟨[(3, p3)], p3.length⟩] := by
  cases b0 <;> cases b1 <;> cases b2 <;> cases b3 <;>
    first
    | (exfalso; revert h; decide)
    | simp [slots, commonLen_one, bind, Except.bind]

theorem split_eq {ax n : Nat} {k : Key} {ps : List Nat} (h : k.positions n = .ok ps) :
    k.split ax n = .ok (if k.isSlice then [(ax, ps)] else [], if k.isSlice then [] else [(ax, ps)]) := by
  unfold Key.split
  simp only [h, bind, Except.bind]
  cases k.isSlice <;> rfl

/-- The block of cells a value stands for: a number everywhere, or an array in which an axis of length one is
repeated. -/
def SetVal.Block (v : SetVal K) (n0 n1 n2 n3 : Nat) (f : Nat → Nat → Nat → Nat → Num K) : Prop :=
  match v with
  | .num x => ∀ i c o d, f i c o d = x
  | .arr a => (a.d0 = n0 ∨ a.d0 = 1) ∧ (a.d1 = n1 ∨ a.d1 = 1) ∧ (a.d2 = n2 ∨ a.d2 = 1) ∧ (a.d3 = n3 ∨ a.d3 = 1) ∧
    ∀ i c o d, f i c o d =
      a.get (if a.d0 = 1 then 0 else i) (if a.d1 = 1 then 0 else c) (if a.d2 = 1 then 0 else o)
        (if a.d3 = 1 then 0 else d)

theorem Block.fits {v : SetVal K} {n0 n1 n2 n3 : Nat} {f : Nat → Nat → Nat → Nat → Num K}
    (h : v.Block n0 n1 n2 n3 f) : v.fits [n0, n1, n2, n3] = true := by
  cases v with
  | num x => rfl
  | arr a =>
    obtain ⟨h0, h1, h2, h3, -⟩ := h
    simp [SetVal.fits, h0, h1, h2, h3]

theorem Block.cell {v : SetVal K} {n0 n1 n2 n3 : Nat} {f : Nat → Nat → Nat → Nat → Num K}
    (h : v.Block n0 n1 n2 n3 f) (i c o d : Nat) : v.cell [i, c, o, d] = f i c o d := by
  cases v with
  | num x => exact (h i c o d).symm
  | arr a =>
    obtain ⟨-, -, -, -, h⟩ := h
    rw [h]
    simp [SetVal.cell]

theorem setItem_block {a : Arr K} {k0 k1 k2 k3 : Key} {p0 p1 p2 p3 : List Nat}
    (h0 : k0.positions a.d0 = .ok p0) (h1 : k1.positions a.d1 = .ok p1) (h2 : k2.positions a.d2 = .ok p2)
    (h3 : k3.positions a.d3 = .ok p3)
    (hone : [k0.isSlice, k1.isSlice, k2.isSlice, k3.isSlice].count false ≤ 1)
    {v : SetVal K} {f : Nat → Nat → Nat → Nat → Num K}
    (hv : v.Block p0.length p1.length p2.length p3.length f) :
    ∃ b, a.setItem k0 k1 k2 k3 v = .ok b ∧ b.d0 = a.d0 ∧ b.d1 = a.d1 ∧ b.d2 = a.d2 ∧ b.d3 = a.d3 ∧
      (∀ i c o d j0 j1 j2 j3, LastAt p0 j0 i → LastAt p1 j1 c → LastAt p2 j2 o → LastAt p3 j3 d →
        b.get i c o d = f j0 j1 j2 j3) ∧
      ∀ i c o d, ¬ (i ∈ p0 ∧ c ∈ p1 ∧ o ∈ p2 ∧ d ∈ p3) → b.get i c o d = a.get i c o d := by
  have e : a.setItem k0 k1 k2 k3 v = writeSlots a
      [⟨[(0, p0)], p0.length⟩, ⟨[(1, p1)], p1.length⟩, ⟨[(2, p2)], p2.length⟩, ⟨[(3, p3)], p3.length⟩] v := by
    unfold Arr.setItem
    simp only [split_eq h0, split_eq h1, split_eq h2, split_eq h3, bind, Except.bind, slots_four _ _ _ _ _ _ _ _ hone]
  rw [e]
  unfold writeSlots
  simp only [List.map_cons, List.map_nil, Block.fits hv, if_true]
  refine ⟨_, rfl, rfl, rfl, rfl, rfl, ?_, ?_⟩
  · intro i c o d j0 j1 j2 j3 l0 l1 l2 l3
    have e0 := find_single (ax := 0) (x := cellAt i c o d) l0
    have e1 := find_single (ax := 1) (x := cellAt i c o d) l1
    have e2 := find_single (ax := 2) (x := cellAt i c o d) l2
    have e3 := find_single (ax := 3) (x := cellAt i c o d) l3
    simp only [List.mapM_cons, List.mapM_nil, e0, e1, e2, e3, bind, Option.bind, pure]
    exact Block.cell hv _ _ _ _
  · intro i c o d hn
    have : List.mapM (fun s : Slot => s.find (cellAt i c o d))
        [⟨[(0, p0)], p0.length⟩, ⟨[(1, p1)], p1.length⟩, ⟨[(2, p2)], p2.length⟩, ⟨[(3, p3)], p3.length⟩] = none := by
      simp only [List.mapM_cons, List.mapM_nil]
      by_cases m0 : i ∈ p0
      · by_cases m1 : c ∈ p1
        · by_cases m2 : o ∈ p2
          · have m3 : d ∉ p3 := fun m3 => hn ⟨m0, m1, m2, m3⟩
            rw [find_single_none (ax := 3) (x := cellAt i c o d) m3]
            cases Slot.find _ _ <;> cases Slot.find _ _ <;> cases Slot.find _ _ <;> rfl
          · rw [find_single_none (ax := 2) (x := cellAt i c o d) m2]
            cases Slot.find _ _ <;> cases Slot.find _ _ <;> rfl
        · rw [find_single_none (ax := 1) (x := cellAt i c o d) m1]
          cases Slot.find _ _ <;> rfl
      · rw [find_single_none (ax := 0) (x := cellAt i c o d) m0]
        rfl
    simp only [this]

/-- The positions of a range lie between its ends. -/
theorem pyRange_between {a b c x : Int} (hx : x ∈ pyRange a b c) :
    (0 < c → a ≤ x) ∧ (c < 0 → b < x) := by
  unfold pyRange at hx
  obtain ⟨i, hi, rfl⟩ := List.mem_map.1 hx
  have hi := List.mem_range.1 hi
  constructor
  · intro hc
    have : 0 ≤ (i : Int) * c := by positivity
    omega
  · intro hc
    have hc' : ¬ c > 0 := by omega
    simp only [hc', if_false] at hi
    have hc2 : 0 < -c := by omega
    have h2 : ((i : Int) + 1) * (-c) ≤ a - b + (-c) - 1 :=
      Int.mul_le_of_le_ediv hc2 (show (i : Int) + 1 ≤ (a - b + (-c) - 1) / (-c) by omega)
    have h4 : ((i : Int) + 1) * (-c) = -((i : Int) * c) + (-c) := by ring
    rw [h4] at h2
    omega

theorem nodup_toNat {l : List Int} (hl : l.Nodup) (h : ∀ x ∈ l, 0 ≤ x) : (l.map Int.toNat).Nodup := by
  refine List.Nodup.map_on ?_ hl
  intro x hx y hy e
  have h1 := h x hx
  have h2 := h y hy
  omega

/-- A slice selects no position twice. -/
theorem positions_nodup {s : PySlice} {n : Nat} {ps : List Nat} (h : s.positions n = .ok ps) : ps.Nodup := by
  unfold PySlice.positions PySlice.indices at h
  by_cases hc0 : s.step.getD 1 = 0
  · simp [hc0] at h
  simp only [hc0, if_false] at h
  injection h with h
  subst h
  have hr : ∀ a b : Int, (pyRange a b (s.step.getD 1)).Nodup := by
    intro a b
    unfold pyRange
    refine List.Nodup.map ?_ List.nodup_range
    intro i j hij
    have hij : a + (i : Int) * s.step.getD 1 = a + (j : Int) * s.step.getD 1 := hij
    have := mul_right_cancel₀ hc0 (add_left_cancel hij)
    omega
  refine nodup_toNat (hr _ _) ?_
  · intro x hx
    have h1 := pyRange_between hx
    rcases lt_trichotomy (s.step.getD 1) 0 with hc | hc | hc
    · have h2 := h1.2 hc
      simp only [hc, if_true] at h2
      have : -1 < x := by
        refine lt_of_le_of_lt ?_ h2
        cases s.stop with
        | none => simp
        | some v => simp only; split_ifs <;> omega
      omega
    · exact absurd hc hc0
    · have h2 := h1.1 hc
      have hc' : ¬ s.step.getD 1 < 0 := by omega
      simp only [hc', if_false] at h2
      refine le_trans ?_ h2
      cases s.start with
      | none => simp
      | some v => simp only; split_ifs <;> omega

theorem mapM_some_iff {α β : Type} (f : α → Option β) (l : List α) :
    (∃ r, l.mapM f = some r) ↔ ∀ a ∈ l, ∃ b, f a = some b := by
  induction l with
  | nil => simp
  | cons a l ih =>
    rw [List.mapM_cons]
    constructor
    · rintro ⟨r, hr⟩
      cases ha : f a with
      | none => rw [ha] at hr; cases hr
      | some b =>
        rw [ha] at hr
        cases hl : l.mapM f with
        | none => rw [hl] at hr; cases hr
        | some bs =>
          intro x hx
          rcases List.mem_cons.1 hx with rfl | hx
          · exact ⟨b, ha⟩
          · exact ih.1 ⟨bs, hl⟩ x hx
    · intro h
      obtain ⟨b, hb⟩ := h a (by simp)
      obtain ⟨bs, hbs⟩ := ih.2 fun x hx => h x (by simp [hx])
      exact ⟨b :: bs, by rw [hb, hbs]; rfl⟩

/-- A cell is written through a slot when some place of the slot is at it. -/
theorem find_iff (s : Slot) (x : Nat → Nat) :
    (∃ k, s.find x = some k) ↔ ∃ k < s.len, ∀ p ∈ s.axes, Slot.pos p.2 k = x p.1 := by
  unfold Slot.find
  rw [← Option.isSome_iff_exists, List.find?_isSome]
  constructor
  · rintro ⟨k, hk, h⟩
    exact ⟨k, by simpa using hk, by simpa using h⟩
  · rintro ⟨k, hk, h⟩
    exact ⟨k, by simpa using hk, by simpa using h⟩

/-- Some place of the slot is at the cell `x`. -/
def Slot.Covers (s : Slot) (x : Nat → Nat) : Prop := ∃ k < s.len, ∀ p ∈ s.axes, Slot.pos p.2 k = x p.1

/-- Writing a number: it is in the cells that are in every slot. -/
theorem writeSlots_num (a : Arr K) (ss : List Slot) (x : Num K) :
    ∃ b, writeSlots a ss (.num x) = .ok b ∧ b.d0 = a.d0 ∧ b.d1 = a.d1 ∧ b.d2 = a.d2 ∧ b.d3 = a.d3 ∧
      ∀ i c o d,
        ((∀ s ∈ ss, s.Covers (cellAt i c o d)) → b.get i c o d = x) ∧
        ((¬ ∀ s ∈ ss, s.Covers (cellAt i c o d)) →
          b.get i c o d = a.get i c o d) := by
  unfold writeSlots
  simp only [SetVal.fits, if_true]
  refine ⟨_, rfl, rfl, rfl, rfl, rfl, ?_⟩
  intro i c o d
  have key := mapM_some_iff (fun s : Slot => s.find (cellAt i c o d)) ss
  simp only [find_iff] at key
  change _ ↔ ∀ s ∈ ss, s.Covers (cellAt i c o d) at key
  constructor
  · intro h
    obtain ⟨r, hr⟩ := key.2 h
    simp only [hr]
    rfl
  · intro h
    have : ss.mapM (fun s : Slot => s.find (cellAt i c o d)) = none := by
      rcases hm : ss.mapM (fun s : Slot => s.find (cellAt i c o d)) with - | r
      · rfl
      · exact absurd (key.1 ⟨r, hm⟩) h
    simp only [this]

/-- A slot of a single axis is at a cell when its list has the number of the cell. -/
theorem single_at {ax : Nat} {ps : List Nat} {x : Nat → Nat} :
    (⟨[(ax, ps)], ps.length⟩ : Slot).Covers x ↔ x ax ∈ ps := by
  constructor
  · rintro ⟨k, hk, h⟩
    have := h (ax, ps) (by simp)
    simp only [pos_eq hk] at this
    exact this ▸ List.getElem_mem hk
  · intro h
    obtain ⟨k, hk, e⟩ := List.getElem_of_mem h
    refine ⟨k, hk, ?_⟩
    intro p hp
    rw [List.mem_singleton] at hp
    subst hp
    simpa [pos_eq hk] using e

end CL
