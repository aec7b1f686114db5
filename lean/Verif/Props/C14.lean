import Verif.Lemmas.Contig
import Verif.Props.C13

set_option linter.unusedSectionVars false

/-! # C14: selection by a list of positions or by a mask -/

namespace CL
namespace Tri
variable {K : Type} [Field K] [LinearOrder K] [IsStrictOrderedRing K]

/-- A list of positions of an axis of length `n`, counted from the end when negative. -/
def InAxis (n : Nat) (l : List Int) : Prop := l ≠ [] ∧ ∀ x ∈ l, -(n : Int) ≤ x ∧ x < n

/-- The positions counted from the start. -/
def fromStart (n : Nat) (l : List Int) : List Nat :=
  l.map fun i => (if i < 0 then i + (n : Int) else i).toNat

/-- The same position asked for at least twice and nothing else. -/
def OnlyRepeats (n : Nat) (l : List Int) : Prop :=
  2 ≤ l.length ∧ ∀ x ∈ fromStart n l, ∀ y ∈ fromStart n l, x = y

/-- Consecutive positions differ by a constant. -/
def Even (l : List Nat) : Prop := ∃ c : Int, ∀ d ∈ diffs (l.map fun n : Nat => (n : Int)), d = c

theorem map_toNat_cast (l : List Nat) : (l.map fun i : Nat => (i : Int)).map Int.toNat = l := by
  induction l with
  | nil => rfl
  | cons a l ih => rw [List.map_cons, List.map_cons, ih]; rfl

theorem contig_even {l : List Int} {k : Key} {c : Int} (hd : ∀ d ∈ diffs l, d = c)
    (h : contigSlice (.lst l) = .ok k) : k.isSlice = true := by
  match l, hd, h with
  | [], _, h => simp [contigSlice] at h
  | [a], _, h => simp only [contigSlice] at h; injection h with h; subst h; rfl
  | a :: b :: l, hd, h =>
    have hc : b - a = c := hd _ (by simp [diffs])
    have hmax : (diffs (a :: b :: l)).foldl max (b - a) = c := by
      apply le_antisymm
      · exact foldl_max_le (by omega) fun y hy => le_of_eq (hd y hy)
      · have := (foldl_max_ge (diffs (a :: b :: l)) (b - a)).1; omega
    have hmin : (diffs (a :: b :: l)).foldl min (b - a) = c := by
      apply le_antisymm
      · have := (foldl_min_le (diffs (a :: b :: l)) (b - a)).1; omega
      · exact le_foldl_min (by omega) fun y hy => le_of_eq (hd y hy).symm
    unfold contigSlice at h
    simp only [hmax, hmin, if_true] at h
    split_ifs at h <;> (injection h with h; subst h; rfl)

theorem contig_uneven {l : List Int} (hne : l ≠ []) (hd : ¬ ∃ c, ∀ d ∈ diffs l, d = c) :
    contigSlice (.lst l) = .ok (.lst l) := by
  match l, hne, hd with
  | [a], _, hd => exact absurd ⟨0, by simp [diffs]⟩ hd
  | a :: b :: l, _, hd =>
    unfold contigSlice
    simp only
    rw [if_neg]
    intro h
    apply hd
    refine ⟨(diffs (a :: b :: l)).foldl max (b - a), ?_⟩
    intro d hdd
    have h1 := (foldl_max_ge (diffs (a :: b :: l)) (b - a)).2 d hdd
    have h2 := (foldl_min_le (diffs (a :: b :: l)) (b - a)).2 d hdd
    omega

theorem norm_lst {n : Nat} {l : List Int} (h : ∀ x ∈ l, -(n : Int) ≤ x ∧ x < n) :
    normalizeKey n (.lst l) = .ok (.lst ((fromStart n l).map fun i : Nat => (i : Int))) := by
  have h1 : (l.any fun i => decide (i ≥ n ∨ i < -(n : Int))) = false := by
    rw [List.any_eq_false]
    intro x hx
    have := h x hx
    simp; omega
  simp only [normalizeKey, sparseNormalize, h1, Bool.false_eq_true, if_false]
  congr 2
  unfold fromStart
  rw [List.map_map]
  apply List.map_congr_left
  intro x hx
  have := h x hx
  simp only [Function.comp]
  split_ifs <;> omega

theorem fromStart_lt {n : Nat} {l : List Int} (h : InAxis n l) : ∀ p ∈ fromStart n l, p < n := by
  intro p hp
  obtain ⟨x, hx, rfl⟩ := List.mem_map.1 hp
  have := h.2 x hx
  split_ifs <;> omega

theorem sel_lst {n : Nat} {l : List Int} (h : InAxis n l) (hr : ¬ OnlyRepeats n l) :
    Sel n (.lst l) (fromStart n l) := by
  have hne : (fromStart n l).map (fun i : Nat => (i : Int)) ≠ [] := by
    have := h.1
    simp [fromStart, this]
  obtain ⟨k, h1, h2⟩ := contig_positions (n := n) hne
    (by
      intro x hx
      obtain ⟨p, hp, rfl⟩ := List.mem_map.1 hx
      have := fromStart_lt h p hp
      omega)
    (by
      rintro ⟨h3, h4⟩
      apply hr
      refine ⟨by simpa [fromStart] using h3, ?_⟩
      intro x hx y hy
      have := h4 x (List.mem_map.2 ⟨x, hx, rfl⟩) y (List.mem_map.2 ⟨y, hy, rfl⟩)
      omega)
  refine ⟨_, k, norm_lst h.2, h1, ?_⟩
  rw [h2, map_toNat_cast]

theorem selS_lst {n : Nat} {l : List Int} (h : InAxis n l) (hr : ¬ OnlyRepeats n l)
    (he : Even (fromStart n l)) : SelS n (.lst l) (fromStart n l) := by
  obtain ⟨k', k'', h1, h2, h3⟩ := sel_lst h hr
  rw [norm_lst h.2] at h1
  injection h1 with h1
  subst h1
  obtain ⟨c, hc⟩ := he
  have := contig_even hc h2
  match k'', this, h2, h3 with
  | .slc s, _, h2, h3 => exact ⟨_, s, norm_lst h.2, h2, by unfold Key.positions at h3; exact h3⟩

private theorem at_map' {α : Type} (l : List α) (x : α) (ps : List Nat)
    (h : ∀ p ∈ ps, p < l.length) : At l (ps.map (l.getD · x)) ps := by
  refine ⟨by simp, ?_⟩
  intro j hj
  have := h _ (List.getElem_mem hj)
  simp [hj, List.getD_eq_getElem?_getD, this]

/-- **C14** (partial: a list repeating one position is excluded, see `C14_repeated_false`; on the
origin and development axes unevenly spaced lists are refused, see `C14_uneven_rejected`).  `iloc`
with a list of positions on each axis returns exactly those labels and cells in that order. -/
theorem C14_list_partial {t : Tri K} (wf : WF t) {li lc lo ld : List Int}
    (hi : InAxis t.values.d0 li) (hc : InAxis t.values.d1 lc) (ho : InAxis t.values.d2 lo)
    (hd : InAxis t.values.d3 ld)
    (ri : ¬ OnlyRepeats t.values.d0 li) (rc : ¬ OnlyRepeats t.values.d1 lc)
    (ro : ¬ OnlyRepeats t.values.d2 lo) (rd : ¬ OnlyRepeats t.values.d3 ld)
    (eo : Even (fromStart t.values.d2 lo)) (ed : Even (fromStart t.values.d3 ld)) :
    ∃ u, t.iloc (.lst li) (.lst lc) (.lst lo) (.lst ld) = .ok u ∧ WF u ∧
      At t.kdims u.kdims (fromStart t.values.d0 li) ∧
      At t.vdims u.vdims (fromStart t.values.d1 lc) ∧
      At t.odims u.odims (fromStart t.values.d2 lo) ∧
      At t.ddims u.ddims (fromStart t.values.d3 ld) ∧ u.vd ≤ t.vd ∧
      ∀ i c o d (h0 : i < li.length) (h1 : c < lc.length) (h2 : o < lo.length)
        (h3 : d < ld.length),
        u.values.get i c o d = t.values.get
          ((fromStart t.values.d0 li)[i]'(by simpa [fromStart] using h0))
          ((fromStart t.values.d1 lc)[c]'(by simpa [fromStart] using h1))
          ((fromStart t.values.d2 lo)[o]'(by simpa [fromStart] using h2))
          ((fromStart t.values.d3 ld)[d]'(by simpa [fromStart] using h3)) := by
  obtain ⟨w0, w1, w2, w3⟩ := wf
  have e := iloc_of_sel (sel_lst hi ri) (sel_lst hc rc) (selS_lst ho ro eo) (selS_lst hd rd ed)
  rw [pick_eq _ _ _ _ _ (Or.inr (by have := hd.1; simp [fromStart, this]))] at e
  refine ⟨_, e, ?_, ?_, ?_, ?_, ?_, ?_, ?_⟩
  · refine ⟨?_, ?_, ?_, ?_⟩ <;> simp [picked, Arr.take]
  · exact at_map' _ _ _ (by rw [← w0]; exact fromStart_lt hi)
  · exact at_map' _ _ _ (by rw [← w1]; exact fromStart_lt hc)
  · exact at_map' _ _ _ (by rw [← w2]; exact fromStart_lt ho)
  · exact at_map' _ _ _ (by rw [← w3]; exact fromStart_lt hd)
  · show Option.elim _ _ _ ≤ t.vd
    cases (t.picked (fromStart t.values.d0 li) (fromStart t.values.d1 lc)
      (fromStart t.values.d2 lo) (fromStart t.values.d3 ld) t.vd).valuations.max? with
    | none => exact le_rfl
    | some m => exact min_le_right _ _
  · intro i c o d h0 h1 h2 h3
    show t.values.get (List.getD _ i 0) (List.getD _ c 0) (List.getD _ o 0) (List.getD _ d 0) = _
    rw [List.getD_eq_getElem _ _ (by simpa [fromStart] using h0),
      List.getD_eq_getElem _ _ (by simpa [fromStart] using h1),
      List.getD_eq_getElem _ _ (by simpa [fromStart] using h2),
      List.getD_eq_getElem _ _ (by simpa [fromStart] using h3)]

/-- `tri3.iloc[[0], [0], [2, 0], [-1, -2, -3]]`. -/
example : ∃ u, (Ex.tri3 (some true) Ex.cum3).iloc (.lst [0]) (.lst [0]) (.lst [2, 0])
    (.lst [-1, -2, -3]) = .ok u ∧ u.values.get 0 0 1 0 = .fin 165 := by
  obtain ⟨u, e, -, -, -, -, -, -, h⟩ := C14_list_partial (t := Ex.tri3 (some true) Ex.cum3)
    (by decide) (li := [0]) (lc := [0]) (lo := [2, 0]) (ld := [-1, -2, -3])
    ⟨by decide, by decide⟩ ⟨by decide, by decide⟩ ⟨by decide, by decide⟩ ⟨by decide, by decide⟩
    (by unfold OnlyRepeats; decide) (by unfold OnlyRepeats; decide)
    (by unfold OnlyRepeats; decide) (by unfold OnlyRepeats; decide)
    ⟨-2, by decide⟩ ⟨-1, by decide⟩
  exact ⟨u, e, (h 0 0 1 0 (by decide) (by decide) (by decide) (by decide)).trans rfl⟩

/-- An unevenly spaced list is refused on the origin axis, never silently altered. -/
theorem C14_uneven_rejected (t : Tri K) {lo : List Int} (ho : InAxis t.values.d2 lo)
    (eo : ¬ Even (fromStart t.values.d2 lo)) : t.ilocO (.lst lo) = .error .valueError := by
  obtain ⟨k0, h0, h1⟩ := selS_all t.values.d0
  obtain ⟨a, ha, ha'⟩ := norm_all t.values.d0
  obtain ⟨b, hb, hb'⟩ := norm_all t.values.d1
  obtain ⟨c, hc, hc'⟩ := norm_all t.values.d3
  have hu := contig_uneven (l := (fromStart t.values.d2 lo).map fun i : Nat => (i : Int))
    (by have := ho.1; simp [fromStart, this]) eo
  simp only [ilocO, iloc, ha, hb, hc, norm_lst ho.2, bind, Except.bind, getIdx, contig_slc, hu]
  simp [Key.isSlice]

/-- **C14 is false for a list repeating one position**: on every triangle and every axis position
the selection fails instead of returning the position twice. -/
theorem C14_repeated_false (t : Tri K) (i : Int) (m : Nat) (h0 : -(t.values.d0 : Int) ≤ i)
    (h1 : i < t.values.d0) :
    InAxis t.values.d0 (List.replicate (m + 2) i) ∧
    t.iloc (.lst (List.replicate (m + 2) i)) (.slc .all) (.slc .all) (.slc .all) =
      .error .valueError := by
  have hin : InAxis t.values.d0 (List.replicate (m + 2) i) := by
    refine ⟨by simp [List.replicate_succ], ?_⟩
    intro x hx
    rw [List.eq_of_mem_replicate hx]; exact ⟨h0, h1⟩
  refine ⟨hin, ?_⟩
  obtain ⟨b, hb, hb'⟩ := norm_all t.values.d1
  obtain ⟨c, hc, hc'⟩ := norm_all t.values.d2
  obtain ⟨d, hd, hd'⟩ := norm_all t.values.d3
  set j := (if i < 0 then i + (t.values.d0 : Int) else i).toNat with hj
  have e : ((fromStart t.values.d0 (List.replicate (m + 2) i)).map fun n : Nat => (n : Int)) =
      List.replicate (m + 2) (j : Int) := by
    simp only [fromStart, List.map_replicate, ← hj]
  obtain ⟨k, hk, hk'⟩ := contig_repeated (n := t.values.d0) (j : Int)
    (List.replicate m (j : Int)) (fun x hx => List.eq_of_mem_replicate hx)
  rw [← List.replicate_succ, ← List.replicate_succ] at hk
  simp only [iloc, hb, hc, hd, norm_lst hin.2, bind, Except.bind, getIdx, contig_slc, e, hk, hk']
  simp [Key.isSlice]

/-- Positions where the mask is true. -/
def TruePositions (m : List Bool) : List Nat := (List.range m.length).filter fun i => m[i]? = some true

private theorem maskPositions_eq (m : List Bool) :
    maskPositions m = (TruePositions m).map fun i : Nat => (i : Int) := by
  unfold maskPositions TruePositions
  congr 1
  apply List.filter_congr
  intro i hi
  have hi : i < m.length := by simpa using hi
  simp [List.getD_eq_getElem?_getD, hi]

private theorem truePositions_lt {m : List Bool} : ∀ p ∈ TruePositions m, p < m.length := by
  intro p hp
  have := (List.mem_filter.1 hp).1
  simpa using this

theorem maskLabels_eq {α : Type} (x : α) : ∀ (l : List α) (m : List Bool),
    m.length = l.length → maskLabels l m = (TruePositions m).map (l.getD · x)
  | [], [], _ => rfl
  | a :: l, b :: m, h => by
    have ih := maskLabels_eq x l m (by simpa using h)
    have e : TruePositions (b :: m) =
        (if b = true then [0] else []) ++ (TruePositions m).map (· + 1) := by
      unfold TruePositions
      rw [List.length_cons, List.range_succ_eq_map, List.filter_cons, List.filter_map]
      cases b <;> simp [Function.comp_def]
    rw [e, List.map_append, List.map_map]
    have e2 : (TruePositions m).map ((fun p => (a :: l).getD p x) ∘ (· + 1)) =
        (TruePositions m).map (l.getD · x) := by
      apply List.map_congr_left
      intro p _
      simp [Function.comp]
    rw [e2, ← ih]
    cases b <;> simp [maskLabels]

private theorem mask_sel {m : List Bool} (hm : TruePositions m ≠ []) :
    ∃ k, contigSlice (.lst (maskPositions m)) = .ok k ∧
      k.positions m.length = .ok (TruePositions m) := by
  rw [maskPositions_eq]
  obtain ⟨k, h1, h2⟩ := contig_positions (n := m.length)
    (l := (TruePositions m).map fun i : Nat => (i : Int)) (by simpa using hm)
    (by
      intro x hx
      obtain ⟨p, hp, rfl⟩ := List.mem_map.1 hx
      have := truePositions_lt p hp
      omega)
    (by
      rintro ⟨h1, h2⟩
      have hnd : (TruePositions m).Nodup := List.nodup_range.filter _
      match hh : TruePositions m, h1, h2, hnd with
      | [], h1, _, _ => simp at h1
      | [a], h1, _, _ => simp at h1
      | a :: b :: l, _, h2, hnd =>
        have := h2 a (by simp) b (by simp)
        have hab : a = b := by omega
        rw [hab] at hnd
        simp at hnd)
  refine ⟨k, h1, ?_⟩
  rw [h2, map_toNat_cast]

/-- **C14, masks**: selecting origins by a mask with at least one true entry returns exactly the
origins where the mask is true, in order, with their cells. -/
theorem C14_mask_origin {t : Tri K} (wf : WF t) {m : List Bool} (hl : m.length = t.odims.length)
    (hm : TruePositions m ≠ []) :
    ∃ u, t.sliceOrigin m = .ok u ∧ WF u ∧ u.kdims = t.kdims ∧ u.vdims = t.vdims ∧
      u.ddims = t.ddims ∧ u.vd = t.vd ∧ At t.odims u.odims (TruePositions m) ∧
      ∀ i c o d, i < t.values.d0 → c < t.values.d1 → (h : o < (TruePositions m).length) →
        d < t.values.d3 → u.values.get i c o d = t.values.get i c (TruePositions m)[o] d := by
  obtain ⟨w0, w1, w2, w3⟩ := wf
  obtain ⟨k, h1, h2⟩ := mask_sel hm
  rw [hl, ← w2] at h2
  have e : t.sliceOrigin m = .ok { t with
      odims := maskLabels t.odims m
      values := t.values.take (List.range t.values.d0) (List.range t.values.d1)
        (TruePositions m) (List.range t.values.d3) } := by
    unfold sliceOrigin
    rw [if_neg (by omega)]
    simp only [h1, h2, bind, Except.bind]
  refine ⟨_, e, ?_, rfl, rfl, rfl, rfl, ?_, ?_⟩
  · refine ⟨by simpa [Arr.take] using w0, by simpa [Arr.take] using w1, ?_,
      by simpa [Arr.take] using w3⟩
    simp [Arr.take, maskLabels_eq 0 _ _ hl]
  · show At t.odims (maskLabels t.odims m) _
    rw [maskLabels_eq 0 _ _ hl]
    exact at_map' _ _ _ (by rw [← hl]; exact truePositions_lt)
  · intro i c o d hi hc ho hd
    show t.values.get (List.getD _ i 0) (List.getD _ c 0) (List.getD _ o 0) (List.getD _ d 0) = _
    rw [getD_range _ _ hi, getD_range _ _ hc, getD_range _ _ hd, List.getD_eq_getElem _ _ ho]

/-- The same on the development axis. -/
theorem C14_mask_development {t : Tri K} (wf : WF t) {m : List Bool}
    (hl : m.length = t.ddims.length) (hm : TruePositions m ≠ []) :
    ∃ u, t.sliceDev m = .ok u ∧ WF u ∧ u.kdims = t.kdims ∧ u.vdims = t.vdims ∧
      u.odims = t.odims ∧ u.vd = t.vd ∧ At t.ddims u.ddims (TruePositions m) ∧
      ∀ i c o d, i < t.values.d0 → c < t.values.d1 → o < t.values.d2 →
        (h : d < (TruePositions m).length) →
        u.values.get i c o d = t.values.get i c o (TruePositions m)[d] := by
  obtain ⟨w0, w1, w2, w3⟩ := wf
  obtain ⟨k, h1, h2⟩ := mask_sel hm
  rw [hl, ← w3] at h2
  have e : t.sliceDev m = .ok { t with
      ddims := maskLabels t.ddims m
      values := t.values.take (List.range t.values.d0) (List.range t.values.d1)
        (List.range t.values.d2) (TruePositions m) } := by
    unfold sliceDev
    rw [if_neg (by omega)]
    simp only [h1, h2, bind, Except.bind]
  refine ⟨_, e, ?_, rfl, rfl, rfl, rfl, ?_, ?_⟩
  · refine ⟨by simpa [Arr.take] using w0, by simpa [Arr.take] using w1,
      by simpa [Arr.take] using w2, ?_⟩
    simp [Arr.take, maskLabels_eq 0 _ _ hl]
  · show At t.ddims (maskLabels t.ddims m) _
    rw [maskLabels_eq 0 _ _ hl]
    exact at_map' _ _ _ (by rw [← hl]; exact truePositions_lt)
  · intro i c o d hi hc ho hd
    show t.values.get (List.getD _ i 0) (List.getD _ c 0) (List.getD _ o 0) (List.getD _ d 0) = _
    rw [getD_range _ _ hi, getD_range _ _ hc, getD_range _ _ ho, List.getD_eq_getElem _ _ hd]

/-- First and last origin of a 3 x 3 triangle. -/
example : ∃ u, (Ex.tri3 (some true) Ex.cum3).sliceOrigin [true, false, true] = .ok u ∧
    u.values.get 0 0 1 0 = (Ex.tri3 (some true) Ex.cum3).values.get 0 0 2 0 := by
  obtain ⟨u, e, -, -, -, -, -, -, h⟩ := C14_mask_origin (t := Ex.tri3 (some true) Ex.cum3)
    (by decide) (m := [true, false, true]) (by decide) (by decide)
  exact ⟨u, e, h 0 0 1 0 (by decide) (by decide) (by decide) (by decide)⟩

/-- A mask selecting nothing is refused. -/
theorem C14_empty_mask (t : Tri K) (m : List Bool) (hl : m.length = t.odims.length)
    (hm : TruePositions m = []) : t.sliceOrigin m = .error .valueError := by
  unfold sliceOrigin
  rw [if_neg (by omega), maskPositions_eq, hm]
  rfl

end Tri
end CL
