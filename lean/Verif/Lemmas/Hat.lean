import Verif.Model.Hat
import Verif.Lemmas.Bootstrap
import Verif.Lemmas.Munich
import Mathlib.LinearAlgebra.Matrix.ToLinearEquiv
import Mathlib.LinearAlgebra.Matrix.Trace
import Mathlib.Algebra.BigOperators.Fin

set_option linter.unusedSectionVars false

/-! # Two-way fits and the hat matrix -/

namespace CL
namespace Boot
open Tri Matrix

/-- A weighted fit by an effect of the origin and an effect of the age: what is left over is balanced along each origin
and along each age. -/
structure TwoWay (S : Finset (Nat × Nat)) (w y fit : Nat → Nat → ℝ) : Prop where
  shape : ∃ α γ : Nat → ℝ, ∀ o d, (o, d) ∈ S → fit o d = α o + γ d
  rows : ∀ o, ∑ p ∈ S.filter fun p => p.1 = o, w p.1 p.2 * (y p.1 p.2 - fit p.1 p.2) = 0
  cols : ∀ d, ∑ p ∈ S.filter fun p => p.2 = d, w p.1 p.2 * (y p.1 p.2 - fit p.1 p.2) = 0

/-- The cell alone. -/
def alone (o d : Nat) : Nat → Nat → ℝ := fun o' d' => if (o', d') = (o, d) then 1 else 0

/-- The known cells of a grid. -/
def grid (n D q : Nat) : Finset (Nat × Nat) := (Finset.range n ×ˢ Finset.range D).filter fun p => q * p.1 + p.2 < D

theorem mem_grid {n D q o d : Nat} : (o, d) ∈ grid n D q ↔ o < n ∧ d < D ∧ q * o + d < D := by
  simp [grid, and_assoc]

/-- A table that is balanced along origins and ages is orthogonal to every sum of two effects. -/
theorem balanced_orthogonal {S : Finset (Nat × Nat)} {R : Nat × Nat → ℝ}
    (hr : ∀ o, ∑ p ∈ S.filter fun p => p.1 = o, R p = 0) (hc : ∀ d, ∑ p ∈ S.filter fun p => p.2 = d, R p = 0)
    (α γ : Nat → ℝ) : ∑ p ∈ S, R p * (α p.1 + γ p.2) = 0 := by
  have e1 : ∑ p ∈ S, R p * α p.1 = 0 := by
    rw [← Finset.sum_fiberwise_of_maps_to (t := S.image Prod.fst) (g := Prod.fst)
      fun x hx => Finset.mem_image_of_mem _ hx]
    refine Finset.sum_eq_zero fun o _ => ?_
    rw [Finset.sum_congr rfl fun p hp => congrArg (fun z => R p * α z) (Finset.mem_filter.1 hp).2, ← Finset.sum_mul,
      hr o, zero_mul]
  have e2 : ∑ p ∈ S, R p * γ p.2 = 0 := by
    rw [← Finset.sum_fiberwise_of_maps_to (t := S.image Prod.snd) (g := Prod.snd)
      fun x hx => Finset.mem_image_of_mem _ hx]
    refine Finset.sum_eq_zero fun o _ => ?_
    rw [Finset.sum_congr rfl fun p hp => congrArg (fun z => R p * γ z) (Finset.mem_filter.1 hp).2, ← Finset.sum_mul,
      hc o, zero_mul]
  rw [Finset.sum_congr rfl fun p _ => mul_add _ _ _, Finset.sum_add_distrib, e1, e2, add_zero]

namespace TwoWay
variable {S : Finset (Nat × Nat)} {w y fit fit' : Nat → Nat → ℝ}

/-- What is left over is orthogonal to every sum of two effects. -/
theorem orthogonal (h : TwoWay S w y fit) (α γ : Nat → ℝ) :
    ∑ p ∈ S, w p.1 p.2 * (y p.1 p.2 - fit p.1 p.2) * (α p.1 + γ p.2) = 0 :=
  balanced_orthogonal h.rows h.cols α γ

/-- There is one fit. -/
theorem unique (h : TwoWay S w y fit) (h' : TwoWay S w y fit') (hw : ∀ p ∈ S, 0 < w p.1 p.2) {o d : Nat}
    (hp : (o, d) ∈ S) : fit o d = fit' o d := by
  obtain ⟨α, γ, e⟩ := h.shape
  obtain ⟨α', γ', e'⟩ := h'.shape
  have h1 := h.orthogonal (fun o => α' o - α o) fun d => γ' d - γ d
  have h2 := h'.orthogonal (fun o => α' o - α o) fun d => γ' d - γ d
  have h3 : ∑ p ∈ S, w p.1 p.2 * (fit' p.1 p.2 - fit p.1 p.2) ^ 2 = 0 := by
    rw [← sub_zero (0 : ℝ)]
    nth_rw 1 [← h1]
    rw [← h2, ← Finset.sum_sub_distrib]
    refine Finset.sum_congr rfl fun p hp => ?_
    have : fit' p.1 p.2 - fit p.1 p.2 = α' p.1 - α p.1 + (γ' p.2 - γ p.2) := by
      rw [e p.1 p.2 hp, e' p.1 p.2 hp]
      ring
    rw [← this]
    ring
  have h4 := (Finset.sum_eq_zero_iff_of_nonneg fun p hp => mul_nonneg (hw p hp).le (sq_nonneg _)).1 h3 (o, d) hp
  have h5 : (fit' o d - fit o d) ^ 2 = 0 := by
    rcases mul_eq_zero.1 h4 with h6 | h6
    · exact absurd h6 (hw _ hp).ne'
    · exact h6
  have h6 := pow_eq_zero_iff (two_ne_zero) |>.1 h5
  linarith

/-- The leverage of a cell is between zero and one. -/
theorem leverage {o d : Nat} (h : TwoWay S w (alone o d) fit) (hw : ∀ p ∈ S, 0 < w p.1 p.2) (hp : (o, d) ∈ S) :
    0 ≤ fit o d ∧ fit o d ≤ 1 := by
  obtain ⟨α, γ, e⟩ := h.shape
  have h1 := h.orthogonal α γ
  have h2 : ∑ p ∈ S, w p.1 p.2 * fit p.1 p.2 ^ 2 = w o d * fit o d := by
    have e1 : ∀ p ∈ S, w p.1 p.2 * (alone o d p.1 p.2 - fit p.1 p.2) * (α p.1 + γ p.2) =
        (if p = (o, d) then w p.1 p.2 * fit p.1 p.2 else 0) - w p.1 p.2 * fit p.1 p.2 ^ 2 := by
      intro p hp
      rw [← e p.1 p.2 hp]
      unfold alone
      by_cases hpo : p = (o, d)
      · rw [if_pos hpo, if_pos hpo]
        ring
      · rw [if_neg hpo, if_neg hpo]
        ring
    rw [Finset.sum_congr rfl e1, Finset.sum_sub_distrib, Finset.sum_ite_eq' S, if_pos hp] at h1
    linarith
  have h3 : w o d * fit o d ^ 2 ≤ w o d * fit o d := by
    rw [← h2]
    exact Finset.single_le_sum (f := fun p : Nat × Nat => w p.1 p.2 * fit p.1 p.2 ^ 2)
      (fun p hp => mul_nonneg (hw p hp).le (sq_nonneg _)) hp
  have h4 : fit o d ^ 2 ≤ fit o d := le_of_mul_le_mul_left h3 (hw _ hp)
  have h5 : 0 ≤ fit o d := le_trans (sq_nonneg _) h4
  refine ⟨h5, ?_⟩
  nlinarith

/-- A cell with leverage one: every balanced table is zero there. -/
theorem bridge {o d : Nat} (h : TwoWay S w (alone o d) fit) (hw : ∀ p ∈ S, 0 < w p.1 p.2) (hp : (o, d) ∈ S)
    (h1 : fit o d = 1) {R : Nat × Nat → ℝ} (hr : ∀ o, ∑ p ∈ S.filter fun p => p.1 = o, R p = 0)
    (hc : ∀ d, ∑ p ∈ S.filter fun p => p.2 = d, R p = 0) : R (o, d) = 0 := by
  obtain ⟨α, γ, e⟩ := h.shape
  have ho := h.orthogonal α γ
  have hz : ∀ p ∈ S, p ≠ (o, d) → fit p.1 p.2 = 0 := by
    have e1 : ∀ p ∈ S, w p.1 p.2 * (alone o d p.1 p.2 - fit p.1 p.2) * (α p.1 + γ p.2) =
        if p = (o, d) then 0 else - (w p.1 p.2 * fit p.1 p.2 ^ 2) := by
      intro p hp
      rw [← e p.1 p.2 hp]
      unfold alone
      by_cases hpo : p = (o, d)
      · rw [if_pos hpo, if_pos hpo, hpo, h1]
        ring
      · rw [if_neg hpo, if_neg hpo]
        ring
    rw [Finset.sum_congr rfl e1] at ho
    have := (Finset.sum_eq_zero_iff_of_nonpos fun p hp => by
      split_ifs
      · exact le_rfl
      · have := mul_nonneg (hw p hp).le (sq_nonneg (fit p.1 p.2))
        linarith).1 ho
    intro p hp hne
    have h2 := this p hp
    rw [if_neg hne, neg_eq_zero] at h2
    rcases mul_eq_zero.1 h2 with h3 | h3
    · exact absurd h3 (hw p hp).ne'
    · exact pow_eq_zero_iff (two_ne_zero) |>.1 h3
  have hb := balanced_orthogonal hr hc α γ
  rw [Finset.sum_eq_single (o, d)] at hb
  · rw [← e o d hp, h1, mul_one] at hb
    exact hb
  · intro p hpS hne
    rw [← e p.1 p.2 hpS, hz p hpS hne, mul_zero]
  · intro hh
    exact absurd hp hh

/-- A cell that is alone in its origin or in its age is fitted exactly. -/
theorem lonely {o d : Nat} (h : TwoWay S w y fit) (hw : ∀ p ∈ S, 0 < w p.1 p.2) (hp : (o, d) ∈ S)
    (ha : (∀ d', (o, d') ∈ S → d' = d) ∨ ∀ o', (o', d) ∈ S → o' = o) : fit o d = y o d := by
  have key : w o d * (y o d - fit o d) = 0 := by
    rcases ha with ha | ha
    · have h1 := h.rows o
      have e : (S.filter fun p => p.1 = o) = {(o, d)} := by
        ext p
        simp only [Finset.mem_filter, Finset.mem_singleton]
        constructor
        · rintro ⟨h2, h3⟩
          obtain ⟨x, z⟩ := p
          simp only at h3
          subst h3
          rw [ha z h2]
        · rintro rfl
          exact ⟨hp, rfl⟩
      rw [e, Finset.sum_singleton] at h1
      exact h1
    · have h1 := h.cols d
      have e : (S.filter fun p => p.2 = d) = {(o, d)} := by
        ext p
        simp only [Finset.mem_filter, Finset.mem_singleton]
        constructor
        · rintro ⟨h2, h3⟩
          obtain ⟨x, z⟩ := p
          simp only at h3
          subst h3
          rw [ha x h2]
        · rintro rfl
          exact ⟨hp, rfl⟩
      rw [e, Finset.sum_singleton] at h1
      exact h1
  rcases mul_eq_zero.1 key with h1 | h1
  · exact absurd h1 (hw _ hp).ne'
  · linarith

end TwoWay

/-! ## Positions of the cells -/

variable {t : Tri ℝ} {a : Int} {n D q : Nat} {m : Nat → Nat → Num ℝ}

theorem filter_prefix (n k : Nat) (p : Nat → Bool) (hk : k ≤ n) (hp : ∀ o < n, p o = true ↔ o < k) :
    ((List.range n).filter p).length = k := by
  induction n generalizing k with
  | zero => simp; omega
  | succ n ih =>
    rw [List.range_succ, List.filter_append, List.length_append]
    by_cases h : n < k
    · have hkn : k = n + 1 := by omega
      subst hkn
      have : ((List.range n).filter p).length = n := ih n le_rfl fun o ho =>
        ⟨fun _ => ho, fun _ => (hp o (by omega)).2 (by omega)⟩
      rw [this]
      simp [(hp n (by omega)).2 (by omega)]
    · rw [ih k (by omega) fun o ho => hp o (by omega)]
      have : p n = false := by
        rw [Bool.eq_false_iff]
        intro hh
        exact h ((hp n (by omega)).1 hh)
      simp [this]

/-- An origin is known at age `d` if it is among the first. -/
theorem lt_known (h : Grid t a n D q) {o d : Nat} (ho : o < n) (hd : d < D) : o < known t d ↔ q * o + d < D := by
  have hq := h.period
  obtain ⟨k, hk, hkp⟩ : ∃ k ≤ n, ∀ o < n, q * o + d < D ↔ o < k := by
    refine ⟨min n ((D - d + q - 1) / q), min_le_left _ _, ?_⟩
    intro o ho
    rw [lt_min_iff, Nat.lt_div_iff_mul_lt (by omega), Nat.mul_comm]
    constructor
    · intro h1
      refine ⟨ho, ?_⟩
      omega
    · rintro ⟨-, h1⟩
      omega
  have : known t d = k := by
    unfold known
    rw [h.wf.2.2.1, h.lenO]
    refine filter_prefix n k _ hk ?_
    intro o ho
    rw [h.nanTri ho hd, decide_eq_true_iff, ← hkp o ho]
    split_ifs with h1
    · simp [Num.one_def]
      omega
    · simp
      omega
  rw [this, hkp o ho]

theorem known_le (h : Grid t a n D q) (d : Nat) : known t d ≤ n := by
  unfold known
  refine (List.length_filter_le _ _).trans ?_
  rw [List.length_range, h.wf.2.2.1, h.lenO]

theorem length_ages (f : Nat → Nat) (k : Nat) :
    ((List.range k).flatMap fun d => (List.range (f d)).map fun o => (o, d)).length = ∑ e ∈ Finset.range k, f e := by
  induction k with
  | zero => rfl
  | succ k ih =>
    rw [List.range_succ, List.flatMap_append, List.length_append, ih, Finset.sum_range_succ]
    simp

theorem get_ages (f : Nat → Nat) (k : Nat) {o d : Nat} (hd : d < k) (ho : o < f d) :
    ((List.range k).flatMap fun d => (List.range (f d)).map fun o => (o, d))[(∑ e ∈ Finset.range d, f e) + o]? =
      some (o, d) := by
  induction k with
  | zero => omega
  | succ k ih =>
    rw [List.range_succ, List.flatMap_append]
    by_cases h : d < k
    · rw [List.getElem?_append_left, ih h]
      rw [length_ages]
      have : ∑ e ∈ Finset.range (d + 1), f e ≤ ∑ e ∈ Finset.range k, f e :=
        Finset.sum_le_sum_of_subset (Finset.range_subset_range.2 (by omega))
      rw [Finset.sum_range_succ] at this
      omega
    · obtain rfl : d = k := by omega
      rw [List.getElem?_append_right (by rw [length_ages]; omega), length_ages]
      simp [ho]

theorem cells_mem (h : Grid t a n D q) {p : Nat × Nat} : p ∈ cells t ↔ p ∈ grid n D q := by
  obtain ⟨o, d⟩ := p
  rw [mem_grid]
  unfold cells
  rw [h.wf.2.2.2, h.lenD]
  simp only [List.mem_flatMap, List.mem_range, List.mem_map, Prod.mk.injEq]
  constructor
  · rintro ⟨d', hd', o', ho', rfl, rfl⟩
    have := known_le h d'
    exact ⟨by omega, hd', (lt_known h (by omega) hd').1 ho'⟩
  · rintro ⟨h1, h2, h3⟩
    exact ⟨d, h2, o, (lt_known h h1 h2).2 h3, rfl, rfl⟩

theorem cells_nodup (t : Tri ℝ) : (cells t).Nodup := by
  unfold cells
  rw [List.nodup_flatMap]
  refine ⟨fun d _ => List.Nodup.map (fun x y e => (Prod.mk.inj e).1) List.nodup_range, ?_⟩
  refine List.Pairwise.imp ?_ List.nodup_range
  intro d d' hne p hp hp'
  simp only [List.mem_map] at hp hp'
  obtain ⟨x, -, rfl⟩ := hp
  obtain ⟨y, -, e⟩ := hp'
  exact hne (Prod.mk.inj e).2.symm

/-- The cell at a position. -/
noncomputable def at' (t : Tri ℝ) (k : Fin (cells t).length) : Nat × Nat := (cells t)[k]

theorem at_mem (h : Grid t a n D q) (k : Fin (cells t).length) : at' t k ∈ grid n D q :=
  (cells_mem h).1 (List.getElem_mem _)

theorem at_inj (t : Tri ℝ) : Function.Injective (at' t) := fun x y e => by
  have := (List.Nodup.getElem_inj_iff (cells_nodup t)).1 e
  exact Fin.ext this

theorem at_surj (h : Grid t a n D q) {p : Nat × Nat} (hp : p ∈ grid n D q) : ∃ k, at' t k = p := by
  obtain ⟨k, hk, e⟩ := List.mem_iff_getElem.1 ((cells_mem h).2 hp)
  exact ⟨⟨k, hk⟩, e⟩

theorem sum_at (h : Grid t a n D q) (F : Nat × Nat → ℝ) : ∑ k, F (at' t k) = ∑ p ∈ grid n D q, F p :=
  Finset.sum_nbij (at' t) (fun k _ => at_mem h k) (fun x _ y _ e => at_inj t e)
    (fun p hp => by
      obtain ⟨k, hk⟩ := at_surj h (p := p) (by simpa using hp)
      exact ⟨k, by simp, hk⟩) fun _ _ => rfl

/-- The position at which the code looks for a cell. -/
theorem at_position (h : Grid t a n D q) {o d : Nat} (hp : (o, d) ∈ grid n D q) :
    ∃ hk : (∑ e ∈ Finset.range d, known t e) + o < (cells t).length,
      at' t ⟨(∑ e ∈ Finset.range d, known t e) + o, hk⟩ = (o, d) := by
  obtain ⟨h1, h2, h3⟩ := mem_grid.1 hp
  have := get_ages (known t) D h2 ((lt_known h h1 h2).2 h3)
  have e : cells t = (List.range D).flatMap fun d => (List.range (known t d)).map fun o => (o, d) := by
    unfold cells
    rw [h.wf.2.2.2, h.lenD]
  rw [← e, List.getElem?_eq_some_iff] at this
  obtain ⟨hk, hh⟩ := this
  exact ⟨hk, hh⟩

/-! ## The matrix -/

/-- The effects of the origins. -/
noncomputable def origins (t : Tri ℝ) (v : Fin (t.values.d2 + (t.values.d3 - 1)) → ℝ) (o : Nat) : ℝ :=
  ∑ i : Fin t.values.d2, if (i : Nat) = o then v (Fin.castAdd _ i) else 0

/-- The effects of the ages. -/
noncomputable def ages (t : Tri ℝ) (v : Fin (t.values.d2 + (t.values.d3 - 1)) → ℝ) (d : Nat) : ℝ :=
  ∑ i : Fin (t.values.d3 - 1), if (i : Nat) < d then v (Fin.natAdd _ i) else 0

theorem design_mulVec (t : Tri ℝ) (v : Fin (t.values.d2 + (t.values.d3 - 1)) → ℝ) (k : Fin (cells t).length) :
    ∑ j, design t k j * v j = origins t v (at' t k).1 + ages t v (at' t k).2 := by
  rw [Fin.sum_univ_add]
  congr 1
  · refine Finset.sum_congr rfl fun i _ => ?_
    unfold design
    rw [if_pos (by simp)]
    show (if (i : Nat) = (at' t k).1 then (1 : ℝ) else 0) * _ = _
    split_ifs <;> simp
  · refine Finset.sum_congr rfl fun i _ => ?_
    unfold design
    rw [if_neg (by simp)]
    show (if (t.values.d2 + (i : Nat)) - t.values.d2 < (at' t k).2 then (1 : ℝ) else 0) * _ = _
    rw [Nat.add_sub_cancel_left]
    split_ifs <;> simp

theorem origins_eq (t : Tri ℝ) (v : Fin (t.values.d2 + (t.values.d3 - 1)) → ℝ) (i : Fin t.values.d2) :
    origins t v i = v (Fin.castAdd _ i) := by
  unfold origins
  rw [Finset.sum_eq_single i]
  · rw [if_pos rfl]
  · intro j _ hj
    rw [if_neg]
    intro e
    exact hj (Fin.ext e)
  · intro hi
    exact absurd (Finset.mem_univ _) hi

theorem ages_zero (t : Tri ℝ) (v : Fin (t.values.d2 + (t.values.d3 - 1)) → ℝ) : ages t v 0 = 0 := by
  unfold ages
  exact Finset.sum_eq_zero fun i _ => if_neg (by omega)

theorem ages_succ (t : Tri ℝ) (v : Fin (t.values.d2 + (t.values.d3 - 1)) → ℝ) (i : Fin (t.values.d3 - 1)) :
    ages t v (i + 1) = ages t v i + v (Fin.natAdd _ i) := by
  have e : v (Fin.natAdd _ i) = ∑ j : Fin (t.values.d3 - 1), if j = i then v (Fin.natAdd _ j) else 0 := by
    rw [Finset.sum_ite_eq']
    simp
  unfold ages
  rw [e, ← Finset.sum_add_distrib]
  refine Finset.sum_congr rfl fun j _ => ?_
  have hji : j = i ↔ (j : Nat) = i := ⟨fun e => by rw [e], fun e => Fin.ext e⟩
  by_cases h1 : (j : Nat) < i
  · rw [if_pos (by omega), if_pos h1, if_neg (by rw [hji]; omega), add_zero]
  · by_cases h2 : (j : Nat) = i
    · rw [if_pos (by omega), if_neg h1, if_pos (hji.2 h2), zero_add]
    · rw [if_neg (by omega), if_neg h1, if_neg (by rw [hji]; exact h2), add_zero]

/-- The matrix to be inverted. -/
noncomputable def normal (t : Tri ℝ) (m : Nat → Nat → Num ℝ) :
    Matrix (Fin (t.values.d2 + (t.values.d3 - 1))) (Fin (t.values.d2 + (t.values.d3 - 1))) ℝ :=
  (design t)ᵀ * (weightMatrix t m * design t)

/-- The weight of a cell. -/
noncomputable def wt (m : Nat → Nat → Num ℝ) (o d : Nat) : ℝ := (m o d).amt

theorem weightMatrix_eq (t : Tri ℝ) (m : Nat → Nat → Num ℝ) :
    weightMatrix t m = Matrix.diagonal fun k => wt m (at' t k).1 (at' t k).2 := rfl

theorem normal_det (h : Grid t a n D q) (hm : ∀ p ∈ grid n D q, 0 < wt m p.1 p.2) : (normal t m).det ≠ 0 := by
  intro hdet
  obtain ⟨v, hv, hz⟩ := Matrix.exists_mulVec_eq_zero_iff.2 hdet
  obtain ⟨w0, w1, w2, w3⟩ := h.wf
  have lO := h.lenO
  have lD := h.lenD
  have n2 := h.two_origins
  have D2 := h.two_ages
  have hsum : ∑ k, wt m (at' t k).1 (at' t k).2 * (∑ j, design t k j * v j) ^ 2 = 0 := by
    have e : v ⬝ᵥ ((normal t m) *ᵥ v) = 0 := by rw [hz, dotProduct_zero]
    have e2 : (normal t m) *ᵥ v = (design t)ᵀ *ᵥ (weightMatrix t m *ᵥ (design t *ᵥ v)) := by
      unfold normal
      rw [← Matrix.mulVec_mulVec, ← Matrix.mulVec_mulVec]
    rw [e2, Matrix.dotProduct_mulVec, Matrix.vecMul_transpose] at e
    rw [← e]
    unfold dotProduct
    refine Finset.sum_congr rfl fun k _ => ?_
    rw [weightMatrix_eq, Matrix.mulVec_diagonal]
    show _ = (∑ j, design t k j * v j) * (_ * ∑ j, design t k j * v j)
    ring
  have hk : ∀ k, ∑ j, design t k j * v j = 0 := by
    intro k
    have h4 := (Finset.sum_eq_zero_iff_of_nonneg fun k _ =>
      mul_nonneg (hm _ (at_mem h k)).le (sq_nonneg _)).1 hsum k (Finset.mem_univ _)
    rcases mul_eq_zero.1 h4 with h5 | h5
    · exact absurd h5 (hm _ (at_mem h k)).ne'
    · exact pow_eq_zero_iff (two_ne_zero) |>.1 h5
  have hp : ∀ o d, (o, d) ∈ grid n D q → origins t v o + ages t v d = 0 := by
    intro o d hp
    obtain ⟨k, hk'⟩ := at_surj h hp
    have := hk k
    rw [design_mulVec, hk'] at this
    exact this
  have hO : ∀ o < n, origins t v o = 0 := by
    intro o ho
    have hr := h.row_le ho
    rw [Nat.mul_comm] at hr
    have := hp o 0 (mem_grid.2 ⟨ho, by omega, by omega⟩)
    rw [ages_zero, add_zero] at this
    exact this
  have hA : ∀ d < D, ages t v d = 0 := by
    intro d hd
    have := hp 0 d (mem_grid.2 ⟨by omega, hd, by omega⟩)
    rw [hO 0 (by omega), zero_add] at this
    exact this
  refine hv (funext fun j => ?_)
  refine Fin.addCases (fun i => ?_) (fun i => ?_) j
  · exact (origins_eq t v i).symm.trans (hO i (by have := i.2; omega))
  · have e := ages_succ t v i
    have hi := i.2
    rw [hA i (by omega), hA (i + 1) (by omega), zero_add] at e
    exact e.symm

/-- The coefficients. -/
noncomputable def coef (t : Tri ℝ) (m : Nat → Nat → Num ℝ) :
    Matrix (Fin (t.values.d2 + (t.values.d3 - 1))) (Fin (cells t).length) ℝ :=
  (normal t m)⁻¹ * ((design t)ᵀ * weightMatrix t m)

theorem hatMatrix_eq (t : Tri ℝ) (m : Nat → Nat → Num ℝ) : hatMatrix t m = design t * coef t m := by
  unfold hatMatrix coef normal
  simp only [Matrix.mul_assoc]

theorem normal_eq (h : Grid t a n D q) (hm : ∀ p ∈ grid n D q, 0 < wt m p.1 p.2) :
    (design t)ᵀ * weightMatrix t m * hatMatrix t m = (design t)ᵀ * weightMatrix t m := by
  rw [hatMatrix_eq]
  unfold coef
  have e : (design t)ᵀ * weightMatrix t m * (design t * ((normal t m)⁻¹ * ((design t)ᵀ * weightMatrix t m))) =
      (normal t m * (normal t m)⁻¹) * ((design t)ᵀ * weightMatrix t m) := by
    unfold normal
    simp only [Matrix.mul_assoc]
  rw [e, Matrix.mul_nonsing_inv _ (isUnit_iff_ne_zero.2 (normal_det h hm)), Matrix.one_mul]

/-- The leverages add up to the number of parameters. -/
theorem hat_trace (h : Grid t a n D q) (hm : ∀ p ∈ grid n D q, 0 < wt m p.1 p.2) :
    ∑ k, hatMatrix t m k k = n + (D - 1 : Nat) := by
  show (hatMatrix t m).trace = _
  rw [hatMatrix_eq]
  unfold coef
  rw [Matrix.trace_mul_comm]
  have e : (normal t m)⁻¹ * ((design t)ᵀ * weightMatrix t m) * design t = (normal t m)⁻¹ * normal t m := by
    unfold normal
    simp only [Matrix.mul_assoc]
  rw [e, Matrix.nonsing_inv_mul _ (isUnit_iff_ne_zero.2 (normal_det h hm)), Matrix.trace_one, Fintype.card_fin,
    h.wf.2.2.1, h.wf.2.2.2, h.lenO, h.lenD]
  push_cast
  rfl

/-- A column of the matrix is the fit of a cell alone. -/
theorem hat_twoWay (h : Grid t a n D q) (hm : ∀ p ∈ grid n D q, 0 < wt m p.1 p.2) (k0 : Fin (cells t).length) :
    TwoWay (grid n D q) (wt m) (alone (at' t k0).1 (at' t k0).2)
      (fun o d => origins t (fun j => coef t m j k0) o + ages t (fun j => coef t m j k0) d) ∧
    ∀ k, hatMatrix t m k k0 = origins t (fun j => coef t m j k0) (at' t k).1 +
      ages t (fun j => coef t m j k0) (at' t k).2 := by
  have hH : ∀ k, hatMatrix t m k k0 = origins t (fun j => coef t m j k0) (at' t k).1 +
      ages t (fun j => coef t m j k0) (at' t k).2 := by
    intro k
    rw [hatMatrix_eq, Matrix.mul_apply, design_mulVec t fun j => coef t m j k0]
  refine ⟨?_, hH⟩
  set fit : Nat → Nat → ℝ := fun o d =>
    origins t (fun j => coef t m j k0) o + ages t (fun j => coef t m j k0) d with hfit
  obtain ⟨w0, w1, w2, w3⟩ := h.wf
  have lO := h.lenO
  have lD := h.lenD
  -- what is left over is orthogonal to the columns of the design
  have key : ∀ j, ∑ k, design t k j * (wt m (at' t k).1 (at' t k).2 *
      (alone (at' t k0).1 (at' t k0).2 (at' t k).1 (at' t k).2 - fit (at' t k).1 (at' t k).2)) = 0 := by
    intro j
    have e := congrFun (congrFun (normal_eq h hm) j) k0
    rw [Matrix.mul_apply, weightMatrix_eq, Matrix.mul_diagonal] at e
    have e2 : ∀ k, ((design t)ᵀ * Matrix.diagonal fun k => wt m (at' t k).1 (at' t k).2) j k * hatMatrix t m k k0 =
        design t k j * (wt m (at' t k).1 (at' t k).2 * fit (at' t k).1 (at' t k).2) := by
      intro k
      rw [Matrix.mul_diagonal, hH k, Matrix.transpose_apply, mul_assoc]
    rw [Finset.sum_congr rfl fun k _ => e2 k] at e
    have e3 : ∑ k, design t k j * (wt m (at' t k).1 (at' t k).2 *
        alone (at' t k0).1 (at' t k0).2 (at' t k).1 (at' t k).2) =
        (design t)ᵀ j k0 * wt m (at' t k0).1 (at' t k0).2 := by
      rw [Finset.sum_eq_single k0]
      · unfold alone
        rw [if_pos rfl, mul_one, Matrix.transpose_apply]
      · intro k _ hk
        unfold alone
        rw [if_neg, mul_zero, mul_zero]
        intro e
        exact hk (at_inj t e)
      · intro hk
        exact absurd (Finset.mem_univ _) hk
    rw [← e3] at e
    rw [← sub_self (∑ k, design t k j * (wt m (at' t k).1 (at' t k).2 *
        alone (at' t k0).1 (at' t k0).2 (at' t k).1 (at' t k).2))]
    nth_rw 2 [← e]
    rw [← Finset.sum_sub_distrib]
    exact Finset.sum_congr rfl fun k _ => by ring
  set R : Nat × Nat → ℝ := fun p => wt m p.1 p.2 *
    (alone (at' t k0).1 (at' t k0).2 p.1 p.2 - fit p.1 p.2) with hR
  have hrow : ∀ o, ∑ p ∈ (grid n D q).filter fun p => p.1 = o, R p = 0 := by
    intro o
    by_cases ho : o < n
    · have e := key (Fin.castAdd _ ⟨o, by omega⟩)
      rw [Finset.sum_filter, ← sum_at h fun p => if p.1 = o then R p else 0]
      refine Eq.trans ?_ e
      refine Finset.sum_congr rfl fun k _ => ?_
      show _ = (if o < t.values.d2 then (if o = (at' t k).1 then (1 : ℝ) else 0)
        else if o - t.values.d2 < (at' t k).2 then 1 else 0) * R (at' t k)
      rw [if_pos (show o < t.values.d2 by omega)]
      by_cases hc : o = (at' t k).1
      · rw [if_pos hc, if_pos hc.symm, one_mul]
      · rw [if_neg hc, if_neg (Ne.symm hc), zero_mul]
    · refine Finset.sum_eq_zero fun p hp => ?_
      obtain ⟨x, y⟩ := p
      obtain ⟨h1, h2⟩ := Finset.mem_filter.1 hp
      have := mem_grid.1 h1
      simp only at h2
      omega
  have htail : ∀ x, ∑ p ∈ (grid n D q).filter fun p => x ≤ p.2, R p = 0 := by
    intro x
    cases x with
    | zero =>
      rw [Finset.filter_true_of_mem fun p _ => Nat.zero_le _]
      rw [← Finset.sum_fiberwise_of_maps_to (t := (grid n D q).image Prod.fst) (g := Prod.fst)
        fun x hx => Finset.mem_image_of_mem _ hx]
      exact Finset.sum_eq_zero fun o _ => hrow o
    | succ x =>
      by_cases hx : x < D - 1
      · have e := key (Fin.natAdd _ ⟨x, by omega⟩)
        rw [Finset.sum_filter, ← sum_at h fun p => if x + 1 ≤ p.2 then R p else 0]
        refine Eq.trans ?_ e
        refine Finset.sum_congr rfl fun k _ => ?_
        show _ = (if t.values.d2 + x < t.values.d2 then (if t.values.d2 + x = (at' t k).1 then (1 : ℝ) else 0)
          else if t.values.d2 + x - t.values.d2 < (at' t k).2 then 1 else 0) * R (at' t k)
        rw [if_neg (show ¬ t.values.d2 + x < t.values.d2 by omega), Nat.add_sub_cancel_left]
        by_cases hc : x < (at' t k).2
        · rw [if_pos hc, if_pos (by omega), one_mul]
        · rw [if_neg hc, if_neg (by omega), zero_mul]
      · refine Finset.sum_eq_zero fun p hp => ?_
        obtain ⟨y, z⟩ := p
        obtain ⟨h1, h2⟩ := Finset.mem_filter.1 hp
        have := mem_grid.1 h1
        simp only at h2
        omega
  refine ⟨⟨_, _, fun o d _ => rfl⟩, hrow, ?_⟩
  intro d
  show ∑ p ∈ (grid n D q).filter fun p => p.2 = d, R p = 0
  have e1 := htail d
  have e2 := htail (d + 1)
  rw [Finset.sum_filter] at e1 e2 ⊢
  have e3 := congrArg₂ (· - ·) e1 e2
  simp only [sub_self] at e3
  rw [← Finset.sum_sub_distrib] at e3
  refine Eq.trans ?_ e3
  refine Finset.sum_congr rfl fun p _ => ?_
  rcases Nat.lt_trichotomy p.2 d with h1 | h1 | h1
  · rw [if_neg (by omega), if_neg (by omega), if_neg (by omega), sub_zero]
  · rw [if_pos h1, if_pos (by omega), if_neg (by omega), sub_zero]
  · rw [if_neg (by omega), if_pos (by omega), if_pos (by omega), sub_self]

end Boot
end CL
