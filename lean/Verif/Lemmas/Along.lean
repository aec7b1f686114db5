import Verif.Spec.Along
import Verif.Spec.Amounts
import Verif.Model.Groupby
import Verif.Lemmas.Concat
import Verif.Props.C14
import Mathlib.Algebra.BigOperators.Group.Finset.Basic
import Mathlib.Algebra.BigOperators.Group.Finset.Sigma

set_option linter.unusedSectionVars false

namespace CL

@[simp] theorem Pos.set_self (p : Pos) (ax : Tri.Axis) (j : Nat) : p.set ax j ax = j := by
  simp [Pos.set]

theorem Pos.set_ne (p : Pos) {ax b : Tri.Axis} (j : Nat) (h : b ≠ ax) : p.set ax j b = p b := by
  simp [Pos.set, h]

@[simp] theorem Pos.set_set (p : Pos) (ax : Tri.Axis) (j k : Nat) :
    (p.set ax j).set ax k = p.set ax k := by
  funext b; simp only [Pos.set]; split_ifs <;> rfl

theorem Pos.set_eq (p : Pos) (ax : Tri.Axis) {j : Nat} (h : p ax = j) : p.set ax j = p := by
  funext b; simp only [Pos.set]; split_ifs with hb
  · rw [hb, h]
  · rfl

namespace Arr
variable {K : Type}

/-- Two arrays concatenated along an axis. -/
theorem cat2_spec (ax : Tri.Axis) {a b : Arr K} (h : ∀ x, x ≠ ax → b.dim x = a.dim x) :
    ∃ r, cat2 ax a b = .ok r ∧ r.dim ax = a.dim ax + b.dim ax ∧ (∀ x, x ≠ ax → r.dim x = a.dim x) ∧
      (∀ p, p ax < a.dim ax → r.cell p = a.cell p) ∧
      ∀ p j, p ax = a.dim ax + j → r.cell p = b.cell (p.set ax j) := by
  have hi := h .index
  have hc := h .columns
  have ho := h .origin
  have hd := h .development
  cases ax <;> simp [dim] at hi hc ho hd <;> simp only [cat2, hi, hc, ho, hd, and_self, if_true] <;>
    refine ⟨_, rfl, rfl, ?_, ?_, ?_⟩
  all_goals first
    | (intro x hx; cases x <;> first | rfl | exact absurd rfl hx)
    | (intro p hp; simp only [dim] at hp; simp [cell, hp])
    | (intro p j hp; simp only [dim] at hp; simp [cell, hp, Pos.set])

theorem foldl_cat2 (ax : Tri.Axis) (l : List (Arr K)) : ∀ (a : Arr K),
    (∀ b ∈ l, b.dim ax = 1 ∧ ∀ x, x ≠ ax → b.dim x = a.dim x) →
    ∃ r, l.foldlM (fun a b => cat2 ax a b) a = .ok r ∧ r.dim ax = a.dim ax + l.length ∧
      (∀ x, x ≠ ax → r.dim x = a.dim x) ∧ (∀ p, p ax < a.dim ax → r.cell p = a.cell p) ∧
      ∀ j (hj : j < l.length) p, p ax = a.dim ax + j → r.cell p = l[j].cell (p.set ax 0) := by
  induction l with
  | nil => intro a _; exact ⟨a, rfl, by simp, fun _ _ => rfl, fun _ _ => rfl, by simp⟩
  | cons b l ih =>
    intro a h
    obtain ⟨r, h1, h2, h3, h4, h5⟩ := cat2_spec ax (h b (by simp)).2
    have hb1 := (h b (by simp)).1
    obtain ⟨s, g1, g2, g3, g4, g5⟩ := ih r (fun b' hb' => by
      obtain ⟨q1, q2⟩ := h b' (by simp [hb'])
      exact ⟨q1, fun x hx => by rw [q2 x hx, h3 x hx]⟩)
    refine ⟨s, ?_, ?_, ?_, ?_, ?_⟩
    · rw [List.foldlM_cons, h1]; exact g1
    · rw [g2, h2, hb1, List.length_cons]; omega
    · intro x hx; rw [g3 x hx, h3 x hx]
    · intro p hp; rw [g4 p (by omega), h4 p hp]
    · intro j hj p hp
      cases j with
      | zero =>
        rw [g4 p (by omega), h5 p 0 hp]; rfl
      | succ j =>
        rw [g5 j (by simpa using hj) p (by omega)]; rfl

/-- Arrays concatenated along an axis, any lengths. -/
theorem foldl_cat2' (ax : Tri.Axis) (l : List (Arr K)) : ∀ (a : Arr K),
    (∀ b ∈ l, ∀ x, x ≠ ax → b.dim x = a.dim x) →
    ∃ r, l.foldlM (fun a b => cat2 ax a b) a = .ok r ∧
      r.dim ax = ((a :: l).map fun b => b.dim ax).sum ∧
      (∀ x, x ≠ ax → r.dim x = a.dim x) ∧
      ∀ k (hk : k < (a :: l).length) j, j < (a :: l)[k].dim ax → ∀ p,
        p ax = (((a :: l).take k).map fun b => b.dim ax).sum + j →
        r.cell p = (a :: l)[k].cell (p.set ax j) := by
  induction l with
  | nil =>
    intro a _
    refine ⟨a, rfl, by simp, fun _ _ => rfl, ?_⟩
    intro k hk j hj p hp
    have : k = 0 := by simpa using hk
    subst this
    simp at hp ⊢
    rw [Pos.set_eq p ax hp]
  | cons b l ih =>
    intro a h
    obtain ⟨r, h1, h2, h3, h4, h5⟩ := cat2_spec ax (h b (by simp))
    obtain ⟨s, g1, g2, g3, g4⟩ := ih r (fun b' hb' x hx => by
      rw [h b' (by simp [hb']) x hx, h3 x hx])
    refine ⟨s, ?_, ?_, ?_, ?_⟩
    · rw [List.foldlM_cons, h1]; exact g1
    · rw [g2]; simp only [List.map_cons, List.sum_cons, h2]; omega
    · intro x hx; rw [g3 x hx, h3 x hx]
    · intro k hk j hj p hp
      match k, hk, hj, hp with
      | 0, hk, hj, hp =>
        simp at hj hp ⊢
        rw [g4 0 (by simp) j (by simp; omega) p (by simpa using hp)]
        simp only [List.getElem_cons_zero]
        rw [Pos.set_eq p ax hp, h4 p (by omega)]
      | 1, hk, hj, hp =>
        simp at hj hp ⊢
        rw [g4 0 (by simp) (a.dim ax + j) (by simp; omega) p (by simpa using hp)]
        simp only [List.getElem_cons_zero]
        rw [Pos.set_eq p ax (by omega), h5 p j hp]
      | k + 2, hk, hj, hp =>
        simp at hk hj
        simp only [List.take_succ_cons, List.map_cons, List.sum_cons] at hp
        have := g4 (k + 1) (by simpa using hk) j (by simpa using hj) p
          (by simp only [List.take_succ_cons, List.map_cons, List.sum_cons, h2]; omega)
        simpa using this

end Arr

theorem sum_getD {M : Type} [AddCommMonoid M] (f : Nat → M) (l : List Nat) :
    ∑ j ∈ Finset.range l.length, f (l.getD j 0) = (l.map f).sum := by
  induction l with
  | nil => simp
  | cons a l ih =>
    rw [List.length_cons, Finset.sum_range_succ', List.map_cons, List.sum_cons, add_comm]
    simp only [List.getD_cons_zero, List.getD_cons_succ, ih]

theorem sum_filter_range {M : Type} [AddCommMonoid M] (f : Nat → M) (q : Nat → Bool) (n : Nat) :
    (((List.range n).filter q).map f).sum =
      ∑ j ∈ Finset.range n, if q j = true then f j else 0 := by
  induction n with
  | zero => simp
  | succ n ih =>
    rw [List.range_succ, List.filter_append, List.map_append, List.sum_append, ih,
      Finset.sum_range_succ]
    congr 1
    by_cases h : q n = true <;> simp [h]

/-- Strictly ascending list of the distinct keys. -/
theorem groupKeys_sorted {κ : Type} [LinearOrder κ] (keys : List κ) :
    (groupKeys keys).Pairwise (· < ·) := by
  have h1 : (groupKeys keys).Pairwise (· ≤ ·) := by
    exact List.pairwise_insertionSort (fun a b : κ => a ≤ b) keys.dedup
  have h2 : (groupKeys keys).Nodup :=
    (List.perm_insertionSort _ _).nodup_iff.2 (List.nodup_dedup keys)
  exact (h1.and h2).imp fun h => lt_of_le_of_ne h.1 h.2

theorem mem_groupKeys {κ : Type} [LinearOrder κ] (keys : List κ) (g : κ) :
    g ∈ groupKeys keys ↔ g ∈ keys := by
  rw [groupKeys, (List.perm_insertionSort _ _).mem_iff, List.mem_dedup]

theorem groupIndices_ne_nil {κ : Type} [LinearOrder κ] {keys : List κ} {g : κ} (h : g ∈ keys) :
    groupIndices keys g ≠ [] := by
  obtain ⟨j, hj, rfl⟩ := List.getElem_of_mem h
  apply List.ne_nil_of_mem (a := j)
  simp [groupIndices, hj]

theorem groupIndices_lt {κ : Type} [LinearOrder κ] {keys : List κ} {g : κ} {j : Nat}
    (h : j ∈ groupIndices keys g) : j < keys.length := by
  simpa using (List.mem_filter.1 h).1

theorem groupIndices_inc {κ : Type} [LinearOrder κ] (keys : List κ) (g : κ) :
    (groupIndices keys g).Pairwise (· < ·) := List.Pairwise.filter _ List.pairwise_lt_range

theorem mapM_ok {α β ε : Type} (f : α → Except ε β) (g : α → β) (l : List α)
    (h : ∀ a ∈ l, f a = .ok (g a)) : l.mapM f = .ok (l.map g) := by
  induction l with
  | nil => rfl
  | cons a l ih =>
    rw [List.mapM_cons, h a (by simp), ih (fun b hb => h b (by simp [hb]))]
    rfl

end CL
