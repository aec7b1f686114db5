import Verif.Lemmas.Slice
import Mathlib.Data.List.GetD

/-! # `_contig_slice` -/

namespace CL

/-- The list `a, a+c, ..., a+(m-1)c`. -/
def ap (a c : Int) (m : Nat) : List Int := (List.range m).map fun i : Nat => a + (i : Int) * c

theorem ap_succ (a c : Int) (m : Nat) : ap a c (m + 1) = a :: ap (a + c) c m := by
  unfold ap
  rw [List.range_succ_eq_map]
  simp only [List.map_cons, List.map_map]
  congr 1
  · simp
  · apply List.map_congr_left
    intro i _
    simp [Function.comp]; ring

theorem foldl_max_ge (l : List Int) (x : Int) : x ≤ l.foldl max x ∧ ∀ y ∈ l, y ≤ l.foldl max x := by
  induction l generalizing x with
  | nil => simp
  | cons a l ih =>
    obtain ⟨h1, h2⟩ := ih (max x a)
    simp only [List.foldl_cons]
    refine ⟨le_trans (le_max_left _ _) h1, ?_⟩
    intro y hy
    rcases List.mem_cons.1 hy with rfl | hy
    · exact le_trans (le_max_right _ _) h1
    · exact h2 y hy

theorem foldl_min_le (l : List Int) (x : Int) : l.foldl min x ≤ x ∧ ∀ y ∈ l, l.foldl min x ≤ y := by
  induction l generalizing x with
  | nil => simp
  | cons a l ih =>
    obtain ⟨h1, h2⟩ := ih (min x a)
    simp only [List.foldl_cons]
    refine ⟨le_trans h1 (min_le_left _ _), ?_⟩
    intro y hy
    rcases List.mem_cons.1 hy with rfl | hy
    · exact le_trans h1 (min_le_right _ _)
    · exact h2 y hy

theorem foldl_max_le {l : List Int} {x b : Int} (hx : x ≤ b) (h : ∀ y ∈ l, y ≤ b) :
    l.foldl max x ≤ b := by
  induction l generalizing x with
  | nil => simpa
  | cons a l ih =>
    simp only [List.foldl_cons]
    exact ih (max_le hx (h a (by simp))) fun y hy => h y (by simp [hy])

theorem le_foldl_min {l : List Int} {x b : Int} (hx : b ≤ x) (h : ∀ y ∈ l, b ≤ y) :
    b ≤ l.foldl min x := by
  induction l generalizing x with
  | nil => simpa
  | cons a l ih =>
    simp only [List.foldl_cons]
    exact ih (le_min hx (h a (by simp))) fun y hy => h y (by simp [hy])

theorem eq_ap_of_diffs (l : List Int) (a c : Int) (h : ∀ d ∈ diffs (a :: l), d = c) :
    a :: l = ap a c (l.length + 1) := by
  induction l generalizing a with
  | nil => simp [ap]
  | cons b l ih =>
    have hb : b - a = c := h _ (by simp [diffs])
    have := ih b (fun d hd => h d (by simp [diffs, hd]))
    rw [List.length_cons, ap_succ]
    congr 1
    rw [this]
    congr 1
    omega

theorem ap_mem {a c x : Int} {m : Nat} (h : x ∈ ap a c m) :
    ∃ i : Nat, i < m ∧ x = a + (i : Int) * c := by
  unfold ap at h
  obtain ⟨i, hi, rfl⟩ := List.mem_map.1 h
  exact ⟨i, by simpa using hi, rfl⟩

theorem pyRange_ap_pos {a c : Int} (m : Nat) (hc : 0 < c) :
    pyRange a (a + (m : Int) * c + 1) c = ap a c (m + 1) := by
  have : (a + (m : Int) * c + 1 - a + c - 1) / c = (m : Int) + 1 := by
    have : a + (m : Int) * c + 1 - a + c - 1 = ((m : Int) + 1) * c := by ring
    rw [this, Int.mul_ediv_cancel _ (by omega)]
  unfold pyRange ap
  simp only [gt_iff_lt, hc, if_true, this]
  congr 1

theorem pyRange_ap_neg {a c : Int} (m : Nat) (hc : c < 0) :
    pyRange a (a + (m : Int) * c - 1) c = ap a c (m + 1) := by
  have : (a - (a + (m : Int) * c - 1) + (-c) - 1) / (-c) = (m : Int) + 1 := by
    have : a - (a + (m : Int) * c - 1) + (-c) - 1 = ((m : Int) + 1) * (-c) := by ring
    rw [this, Int.mul_ediv_cancel _ (by omega)]
  have hc' : ¬ c > 0 := by omega
  unfold pyRange ap
  simp only [hc', if_false, this]
  congr 1

/-- A list of positions inside the axis, at least two equal neighbours not being all of it, denotes
itself after `_contig_slice`. -/
theorem contig_positions {n : Nat} {l : List Int} (hne : l ≠ [])
    (hin : ∀ x ∈ l, 0 ≤ x ∧ x < n) (hz : ¬ (2 ≤ l.length ∧ ∀ x ∈ l, ∀ y ∈ l, x = y)) :
    ∃ k, contigSlice (.lst l) = .ok k ∧ k.positions n = .ok (l.map Int.toNat) := by
  match l, hne, hin, hz with
  | [a], _, hin, _ =>
    obtain ⟨h0, h1⟩ := hin a (by simp)
    refine ⟨_, rfl, ?_⟩
    unfold Key.positions
    have h2 : ¬ ((1 : Int) < 0) := by omega
    have h3 : ¬ (a < 0) := by omega
    have h4 : ¬ (a + 1 < 0) := by omega
    simp only [PySlice.positions, PySlice.indices, Option.getD_none, one_ne_zero, if_false, h2, h3,
      h4, pyRange_one]
    have e1 : min a (n : Int) = a := by omega
    have e2 : min (a + 1) (n : Int) = a + 1 := by omega
    rw [e1, e2]
    have : (a + 1 - a).toNat = 1 := by omega
    rw [this]; simp
  | a :: b :: l, _, hin, hz =>
    unfold contigSlice
    simp only
    set arr := a :: b :: l with harr
    set dmax := (diffs arr).foldl max (b - a) with hmax
    set dmin := (diffs arr).foldl min (b - a) with hmin
    by_cases heq : dmax = dmin
    · rw [if_pos heq]
      have hall : ∀ d ∈ diffs arr, d = dmax := by
        intro d hd
        have h1 := (foldl_max_ge (diffs arr) (b - a)).2 d hd
        have h2 := (foldl_min_le (diffs arr) (b - a)).2 d hd
        rw [← hmax] at h1; rw [← hmin] at h2
        omega
      have hap := eq_ap_of_diffs (b :: l) a dmax hall
      rw [← harr] at hap
      set m := (b :: l).length with hm
      have hm1 : 1 ≤ m := by simp [hm]
      have hlen : arr.length = m + 1 := by simp [harr, hm]
      -- first and last element are in the axis
      have hbd : ∀ i : Nat, i ≤ m → 0 ≤ a + (i : Int) * dmax ∧ a + (i : Int) * dmax < n := by
        intro i hi
        apply hin
        rw [hap]
        exact List.mem_map.2 ⟨i, by simp; omega, rfl⟩
      have h0 : 0 ≤ a ∧ a < n := hin a (by simp [harr])
      have hL := hbd m le_rfl
      rcases lt_trichotomy dmax 0 with hneg | hzero | hpos
      · -- descending
        have hamax : arr.foldl max a = a := by
          apply le_antisymm
          · apply foldl_max_le le_rfl
            intro y hy
            rw [hap] at hy
            obtain ⟨i, hi, rfl⟩ := ap_mem hy
            nlinarith
          · exact (foldl_max_ge arr a).1
        have hamin : arr.foldl min a = a + (m : Int) * dmax := by
          apply le_antisymm
          · apply (foldl_min_le arr a).2
            rw [hap]
            exact List.mem_map.2 ⟨m, by simp, rfl⟩
          · apply le_foldl_min
            · nlinarith
            · intro y hy
              rw [hap] at hy
              obtain ⟨i, hi, rfl⟩ := ap_mem hy
              have : (i : Int) ≤ m := by omega
              nlinarith
        rw [if_pos hneg, hamax, hamin]
        refine ⟨_, rfl, ?_⟩
        unfold Key.positions
        have hstep : (if dmax = 1 then (none : Option Int) else some dmax).getD 1 = dmax := by
          rw [if_neg (by omega)]; rfl
        have hd0 : ¬ dmax = 0 := by omega
        have hs0 : ¬ (a + 1 - 1 < 0) := by omega
        simp only [PySlice.positions, PySlice.indices, hstep, hd0, if_false, hneg, if_true, hs0]
        have e1 : min (a + 1 - 1) ((n : Int) - 1) = a := by omega
        rw [e1]
        by_cases hh : a + (m : Int) * dmax = 0
        · have e2 : (-1 : Int) = a + (m : Int) * dmax - 1 := by omega
          rw [if_pos hh]
          simp only [Option.map_none]
          rw [e2, pyRange_ap_neg m hneg, ← hap]
        · rw [if_neg hh]
          simp only [Option.map_some]
          rw [if_neg (by omega)]
          have e2 : min (a + (m : Int) * dmax - 1) ((n : Int) - 1) = a + (m : Int) * dmax - 1 := by
            omega
          rw [e2, pyRange_ap_neg m hneg, ← hap]
      · exfalso
        apply hz
        refine ⟨by rw [hlen]; omega, ?_⟩
        have key : ∀ x ∈ arr, x = a := by
          intro x hx
          rw [hap] at hx
          obtain ⟨i, -, rfl⟩ := ap_mem hx
          rw [hzero]; ring
        intro x hx y hy
        rw [key x hx, key y hy]
      · -- ascending
        have hamax : arr.foldl max a = a + (m : Int) * dmax := by
          apply le_antisymm
          · apply foldl_max_le
            · nlinarith
            · intro y hy
              rw [hap] at hy
              obtain ⟨i, hi, rfl⟩ := ap_mem hy
              have : (i : Int) ≤ m := by omega
              nlinarith
          · apply (foldl_max_ge arr a).2
            rw [hap]
            exact List.mem_map.2 ⟨m, by simp, rfl⟩
        have hamin : arr.foldl min a = a := by
          apply le_antisymm
          · exact (foldl_min_le arr a).1
          · apply le_foldl_min le_rfl
            intro y hy
            rw [hap] at hy
            obtain ⟨i, hi, rfl⟩ := ap_mem hy
            nlinarith
        rw [if_neg (by omega), hamax, hamin]
        refine ⟨_, rfl, ?_⟩
        unfold Key.positions
        have hstep : (if dmax = 1 then (none : Option Int) else some dmax).getD 1 = dmax := by
          split_ifs with h
          · simp [h]
          · rfl
        have hd0 : ¬ dmax = 0 := by omega
        have hdn : ¬ dmax < 0 := by omega
        have hs0 : ¬ (a + (m : Int) * dmax + 1 < 0) := by omega
        simp only [PySlice.positions, PySlice.indices, hstep, hd0, if_false, hdn, hs0]
        have e1 : min (a + (m : Int) * dmax + 1) (n : Int) = a + (m : Int) * dmax + 1 := by omega
        rw [e1]
        by_cases hh : a = 0
        · have e2 : (0 : Int) = a := hh.symm
          rw [if_pos hh]
          show Except.ok (List.map Int.toNat (pyRange 0 _ _)) = _
          rw [e2, pyRange_ap_pos m hpos, ← hap]
        · rw [if_neg hh]
          simp only
          rw [if_neg (by omega)]
          have e2 : min a (n : Int) = a := by omega
          rw [e2, pyRange_ap_pos m hpos, ← hap]
    · rw [if_neg heq]
      refine ⟨_, rfl, ?_⟩
      unfold Key.positions
      have : (arr.any fun i => decide (i ≥ n ∨ i < -(n : Int))) = false := by
        rw [List.any_eq_false]
        intro x hx
        have := hin x hx
        simp; omega
      simp only [this, Bool.false_eq_true, if_false]
      congr 1
      apply List.map_congr_left
      intro x hx
      have := hin x hx
      rw [if_neg (by omega)]

/-- A list of equal positions becomes a slice of step zero. -/
theorem contig_repeated {n : Nat} (a : Int) (l : List Int) (h : ∀ x ∈ l, x = a) :
    ∃ k, contigSlice (.lst (a :: a :: l)) = .ok k ∧ k.positions n = .error .valueError := by
  have hd : ∀ (l : List Int) (a : Int), (∀ x ∈ l, x = a) → ∀ d ∈ diffs (a :: l), d = 0 := by
    intro l
    induction l with
    | nil => simp [diffs]
    | cons b l ih =>
      intro a hl d hd
      have hb : b = a := hl b (by simp)
      subst hb
      simp only [diffs, List.mem_cons] at hd
      rcases hd with rfl | hd
      · omega
      · exact ih b (fun x hx => hl x (by simp [hx])) d hd
  have hall : ∀ d ∈ diffs (a :: a :: l), d = 0 :=
    hd (a :: l) a (by intro x hx; rcases List.mem_cons.1 hx with rfl | hx; rfl; exact h x hx)
  have hmax : (diffs (a :: a :: l)).foldl max (a - a) = 0 := by
    apply le_antisymm
    · exact foldl_max_le (by omega) fun y hy => le_of_eq (hall y hy)
    · have := (foldl_max_ge (diffs (a :: a :: l)) (a - a)).1; omega
  have hmin : (diffs (a :: a :: l)).foldl min (a - a) = 0 := by
    apply le_antisymm
    · have := (foldl_min_le (diffs (a :: a :: l)) (a - a)).1; omega
    · exact le_foldl_min (by omega) fun y hy => le_of_eq (hall y hy).symm
  unfold contigSlice
  simp only [hmax, hmin, if_true]
  refine ⟨_, rfl, ?_⟩
  unfold Key.positions
  simp [PySlice.positions, PySlice.indices]

end CL
