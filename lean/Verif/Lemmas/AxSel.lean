import Verif.Lemmas.Along
import Verif.Lemmas.Filter

set_option linter.unusedSectionVars false

namespace CL
namespace Tri
variable {K : Type} [Field K] [LinearOrder K] [IsStrictOrderedRing K]

/-- Positions selected on each axis when `l` is taken on axis `ax`. -/
def axSel (t : Tri K) (ax : Axis) (l : List Nat) (b : Axis) : List Nat :=
  if b = ax then l else List.range (t.values.dim b)

def axPart (t : Tri K) (ax : Axis) (l : List Nat) (v : Int) : Tri K :=
  t.picked (axSel t ax l .index) (axSel t ax l .columns) (axSel t ax l .origin)
    (axSel t ax l .development) v

theorem axPart_dim (t : Tri K) (ax : Axis) (l : List Nat) (v : Int) (b : Axis) :
    ((axPart t ax l v).values).dim b = (axSel t ax l b).length := by
  cases b <;> rfl

theorem axPart_cell (t : Tri K) (ax : Axis) (l : List Nat) (v : Int) (p : Pos) :
    (axPart t ax l v).values.cell p = t.values.cell fun b => (axSel t ax l b).getD (p b) 0 := rfl

/-- The valuation date after selecting positions `l` on axis `ax`. -/
def axVd (t : Tri K) (ax : Axis) (l : List Nat) : Int :=
  ((axPart t ax l t.vd).valuations.max?).elim t.vd fun m => min m t.vd

theorem ilocAx_sel {t : Tri K} {ax : Axis} {k : Key} {l : List Nat} (h : SelS (t.values.dim ax) k l)
    (hl : l ≠ []) (hd : t.isVal = true ∨ 0 < t.values.d3) :
    t.ilocAx ax k = .ok (axPart t ax l (axVd t ax l)) := by
  have hS : ∀ n, Sel n (.slc .all) (List.range n) := fun n => (selS_all n).sel
  have hdr : t.isVal = true ∨ List.range t.values.d3 ≠ [] := by
    rcases hd with h | h
    · exact Or.inl h
    · right; apply List.ne_nil_of_mem (a := 0); simpa using h
  cases ax with
  | index =>
    simp only [ilocAx]
    rw [iloc_of_sel h.sel (hS _) (selS_all _) (selS_all _), pick_eq t _ _ _ _ hdr]
    simp [axPart, axSel, axVd, Arr.dim]
  | columns =>
    simp only [ilocAx]
    rw [iloc_of_sel (hS _) h.sel (selS_all _) (selS_all _), pick_eq t _ _ _ _ hdr]
    simp [axPart, axSel, axVd, Arr.dim]
  | origin =>
    simp only [ilocAx]
    rw [iloc_of_sel (hS _) (hS _) h (selS_all _), pick_eq t _ _ _ _ hdr]
    simp [axPart, axSel, axVd, Arr.dim]
  | development =>
    simp only [ilocAx]
    rw [iloc_of_sel (hS _) (hS _) (selS_all _) h, pick_eq t _ _ _ _ (Or.inr hl)]
    simp [axPart, axSel, axVd, Arr.dim]

/-- The valuation date never rises, and stays when a selected cell reaches it. -/
theorem axVd_le (t : Tri K) (ax : Axis) (l : List Nat) : axVd t ax l ≤ t.vd := by
  unfold axVd
  cases (axPart t ax l t.vd).valuations.max? with
  | none => exact le_refl _
  | some m => exact min_le_right _ _

theorem axVd_eq {t : Tri K} (wf : WF t) (ord : Ordered t) {ax : Axis} {l : List Nat}
    (hinc : l.Pairwise (· < ·)) (hlt : ∀ j ∈ l, j < t.values.dim ax) {o d : Nat}
    (ho : o ∈ axSel t ax l .origin) (hd : d ∈ axSel t ax l .development)
    (hv : t.vd ≤ t.valuation o d) : axVd t ax l = t.vd := by
  obtain ⟨w0, w1, w2, w3⟩ := wf
  have hmem : t.valuation o d ∈ (axPart t ax l t.vd).valuations := by
    rw [mem_valuations]
    obtain ⟨a, ha, rfl⟩ := List.getElem_of_mem ho
    obtain ⟨b, hb, rfl⟩ := List.getElem_of_mem hd
    refine ⟨a, b, by simpa [axPart, picked] using ha, by simpa [axPart, picked] using hb, ?_⟩
    have hor : ∀ p ∈ axSel t ax l .origin, p < t.odims.length := by
      intro p hp
      unfold axSel at hp
      split_ifs at hp with h
      · rw [← w2]; rw [← h] at hlt; exact hlt p hp
      · rw [← w2]; simpa [Arr.dim] using hp
    rw [axPart, valuation_picked ord ?_ ?_ hor ?_ ha hb, List.getD_eq_getElem _ _ ha,
      List.getD_eq_getElem _ _ hb]
    · unfold axSel
      split_ifs
      · exact hinc
      · exact List.pairwise_lt_range
    · intro p hp
      unfold axSel at hp
      split_ifs at hp with h
      · rw [← w3]; rw [← h] at hlt; exact hlt p hp
      · rw [← w3]; simpa [Arr.dim] using hp
    · intro hb' p hp
      apply (ord hb').1
      rw [List.getD_eq_getElem _ _ (hor p hp)]
      exact List.getElem_mem _
  unfold axVd
  cases hm : (axPart t ax l t.vd).valuations.max? with
  | none => rfl
  | some m =>
    have := (List.max?_eq_some_iff.1 hm).2 _ hmem
    simp only [Option.elim]
    omega

theorem axPart_labels {t : Tri K} (wf : WF t) (ax : Axis) (l : List Nat) (v : Int) :
    (ax ≠ .index → (axPart t ax l v).kdims = t.kdims) ∧
    (ax ≠ .columns → (axPart t ax l v).vdims = t.vdims) ∧
    (ax ≠ .origin → (axPart t ax l v).odims = t.odims) ∧
    (ax ≠ .development → (axPart t ax l v).ddims = t.ddims) := by
  obtain ⟨w0, w1, w2, w3⟩ := wf
  have e0 : (List.range t.values.d0).map (t.kdims.getD · []) = t.kdims := by
    rw [w0]; exact map_getD_range _ _
  have e1 : (List.range t.values.d1).map (t.vdims.getD · "") = t.vdims := by
    rw [w1]; exact map_getD_range _ _
  have e2 : (List.range t.values.d2).map (t.odims.getD · 0) = t.odims := by
    rw [w2]; exact map_getD_range _ _
  have e3 : (List.range t.values.d3).map (t.ddims.getD · 0) = t.ddims := by
    rw [w3]; exact map_getD_range _ _
  refine ⟨?_, ?_, ?_, ?_⟩ <;> intro h <;> cases ax <;> simp at h <;>
    simp only [axPart, picked, axSel, Arr.dim, reduceCtorEq, if_false, e0, e1, e2, e3]

theorem axPart_wf {t : Tri K} (ax : Axis) (l : List Nat) (v : Int) : WF (axPart t ax l v) := by
  refine ⟨?_, ?_, ?_, ?_⟩ <;> simp [axPart, picked, Arr.take]

theorem selS_upto (n k : Nat) (hk : k ≤ n) : SelS n (.upto (k : Int)) (List.range k) := by
  have h : SafePos n ⟨none, some (k : Int), none⟩ := by
    refine ⟨by simp, by simp, by simp⟩
  obtain ⟨s, h1, h2⟩ := normalize_pos h
  refine ⟨_, s, h1, rfl, ?_⟩
  rw [h2]
  have h : ¬ ((1 : Int) < 0) := by omega
  simp only [PySlice.positions, PySlice.indices, Option.getD_none, one_ne_zero, if_false, h]
  simp only [pyRange_one, List.map_map]
  congr 1
  have : ((if (k : Int) < 0 then max ((k : Int) + n) 0 else min (k : Int) n) - 0).toNat = k := by
    split_ifs <;> omega
  rw [this]
  simp [Function.comp_def]

end Tri
end CL
