import Verif.Lemmas.Berquist
import Verif.Props.C56
import Verif.Model.Tails
import Mathlib.Analysis.SpecialFunctions.Pow.Real

set_option linter.unusedSectionVars false

/-! # C44: the Berquist-Sherman adjustment and the latest diagonal -/

namespace CL
namespace Berq
open Tri

section
variable {K : Type} [Field K] [LinearOrder K] [IsStrictOrderedRing K]
variable {x u : Tri K} {a : Int} {D : Nat} {n : Names} {fac : Int → K} {U : Nat → Nat → K}
  {E : Nat → Nat → Nat → K}

theorem col_cell (hx : Grid x a D D 1) {c : String} (hc : c ∈ x.vdims) {i o d : Nat} (hi : i < x.kdims.length)
    (ho : o < D) (hd : d < D) :
    (x.values.get i (x.vdims.idxOf c) o d).numToNan = (Num.fin (col x c i o d)).numToNan :=
  (Num.numToNan_fin_amt (col_noInf hx hc hi ho hd)).symm

/-- The adjusted triangle is on the grid of the triangle. -/
theorem Replaced.grid {P : Nat → Nat → Nat → Num K} (hx : Grid x a D D 1) (hn : n.In x)
    (h : Replaced x u D n fac U P) (hP : ∀ i < x.kdims.length, ∀ o d, o + d < D → (P i o d).NoInf) :
    Grid u a D D 1 where
  wf := h.wf
  finite := by
    intro i hi c hc o ho d hd
    rw [h.wf.1, h.kdims] at hi
    rw [h.wf.2.1, h.vdims] at hc
    rw [h.wf.2.2.1, h.odims, hx.lenO] at ho
    rw [h.wf.2.2.2, h.ddims, hx.lenD] at hd
    by_cases hod : o + d < D
    · by_cases c1 : c = x.vdims.idxOf n.closed
      · rw [c1, h.closed i hi o d hod]; exact Num.noInf_numToNan (Num.noInf_fin _)
      by_cases c2 : c = x.vdims.idxOf n.incurred
      · rw [c2]
        by_cases hh : reserve n x i o d = 0 ∨ opened n x i o d = 0 ∨
            reserve n x i (D - 1 - d) d = 0 ∨ opened n x i (D - 1 - d) d = 0
        · rw [h.nothing i hi o d hod hh]
          exact Num.noInf_numToNan (col_noInf hx hn.paid hi ho hd)
        · simp only [not_or] at hh
          rw [h.incurred i hi o d hod hh.1 hh.2.1 hh.2.2.1 hh.2.2.2]
          exact Num.noInf_numToNan (Num.noInf_fin _)
      by_cases c3 : c = x.vdims.idxOf n.paid
      · rw [c3, h.paid i hi o d hod]; exact Num.noInf_numToNan (hP i hi o d hod)
      · rw [h.others i hi c hc c3 c2 c1 o d hod]
        exact Num.noInf_numToNan (hx.finite i (by rw [hx.wf.1]; exact hi) c (by rw [hx.wf.2.1]; exact hc) o
          (by rw [hx.wf.2.2.1, hx.lenO]; exact ho) d (by rw [hx.wf.2.2.2, hx.lenD]; exact hd))
    · rw [h.future i hi c hc o ho d hd (by omega)]; trivial
  isVal := h.keeps.isVal.trans hx.isVal
  index_pos := by rw [h.kdims]; exact hx.index_pos
  columns_pos := by rw [h.vdims]; exact hx.columns_pos
  two_origins := hx.two_origins
  period := hx.period
  recent := hx.recent
  odims := by rw [h.odims, h.keeps.dgrain]; exact hx.odims
  ddims := by rw [h.ddims, h.keeps.dgrain]; exact hx.ddims
  vd := by rw [h.vd, h.keeps.dgrain]; exact hx.vd
  short := by rw [h.keeps.dgrain]; exact hx.short
  early := by rw [h.vd]; exact hx.early
  known := by
    intro i hi c hc o ho d hd hod
    rw [h.kdims] at hi
    rw [h.vdims] at hc
    exact h.future i hi c hc o ho d hd (by omega)

open Classical in
theorem Adjusted.grid (hx : Grid x a D D 1) (hn : n.In x) (h : Adjusted x u D n fac U E) : Grid u a D D 1 := by
  refine Replaced.grid (P := fun i o d => if o + d + 1 = D then x.values.get i (x.vdims.idxOf n.paid) o d else
    .fin (E i o d)) (fac := fac) (U := U) hx hn ⟨h.wf, h.kdims, h.vdims, h.odims, h.ddims, h.vd, h.keeps, h.closed,
      h.incurred, h.nothing, ?_, h.others, h.future⟩ ?_
  · intro i hi o d hod
    by_cases e : o + d + 1 = D
    · simp only [if_pos e]; exact h.latest i hi o d e
    · simp only [if_neg e]; exact h.before i hi o d (by omega)
  · intro i hi o d hod
    by_cases e : o + d + 1 = D
    · simp only [if_pos e]; exact col_noInf hx hn.paid hi (by omega) (by omega)
    · simp only [if_neg e]; exact Num.noInf_fin _

/-- What `fit` returns, for a square triangle of three origins or more: the columns other than the paid
amounts, the incurred amounts and the closed counts are those of the triangle.  The closed counts are the
latest disposal rate of their age times the ultimate count of their origin; the incurred amounts are the
paid ones plus the open claims at the latest average reserve of their age, detrended; the paid amounts are
kept on the latest diagonal, and before it are amounts `E` of the fitted exponentials (`C44_exponential`). -/
theorem C44_adjusted (log exp : Num K → Num K) (fac : Int → K) {est : Tri K → Except Err (Tri K)}
    (hx : Grid x a D D 1) (hD : 3 ≤ D) (hn : n.In x) (hd : n.Distinct) {ult rep : Tri K}
    (hrep : x.getCols [n.reported] = .ok rep) (hest : est rep = .ok ult) (hu : Ultimates x ult D U) :
    ∃ u E, fit log exp fac est n x = .ok u ∧ Adjusted x u D n fac U E := by
  obtain ⟨u, adj, y, c, h1, -, -, -, h2⟩ := fit_ok log exp fac hx hD hn hd hrep hest hu
  exact ⟨u, _, h1, h2⟩

/-- The cells of the latest diagonal are those of the triangle, with missing for zero, in every column but
the incurred amounts of origins without open claims. -/
theorem Adjusted.diagonal (hx : Grid x a D D 1) (hn : n.In x) (hU : ∀ i < x.kdims.length, ∀ o < D, U i o ≠ 0)
    (h : Adjusted x u D n fac U E) (h0 : fac 0 = 1) {i c o d : Nat} (hi : i < x.kdims.length)
    (hc : c < x.vdims.length) (hod : o + d + 1 = D)
    (hopen : c = x.vdims.idxOf n.incurred → opened n x i o d ≠ 0 ∨ reserve n x i o d = 0) :
    u.values.get i c o d = (x.values.get i c o d).numToNan := by
  have e : D - 1 - d = o := by omega
  by_cases c1 : c = x.vdims.idxOf n.closed
  · rw [c1, h.closed i hi o d (by omega), e, div_mul_cancel₀ _ (hU i hi o (by omega)),
      col_cell hx hn.closed hi (by omega) (by omega)]
  by_cases c2 : c = x.vdims.idxOf n.incurred
  · have hm : months x D o d = 0 := by
      unfold months
      rw [show D - (o + d + 1) = 0 by omega]; simp
    rw [c2, col_cell hx hn.incurred hi (by omega) (by omega)]
    by_cases hr : reserve n x i o d = 0
    · rw [h.nothing i hi o d (by omega) (Or.inl hr), col_cell hx hn.paid hi (by omega) (by omega)]
      unfold reserve at hr
      rw [sub_eq_zero.1 hr]
    · have ho : opened n x i o d ≠ 0 := (hopen c2).resolve_right hr
      rw [h.incurred i hi o d (by omega) hr ho (by rw [e]; exact hr) (by rw [e]; exact ho), hm, h0, e, one_mul,
        div_mul_cancel₀ _ ho]
      congr 2
      unfold reserve
      ring
  by_cases c3 : c = x.vdims.idxOf n.paid
  · rw [c3]; exact h.latest i hi o d hod
  · exact h.others i hi c hc c3 c2 c1 o d (by omega)

/-- The latest diagonals of the adjusted triangle and of the triangle are the same, label by label and
cell by cell.  Missing: triangles that are not square, or have two origins (false, see
`C44_two_origins_false`), and origins with case reserves but no open claims (false, see
`C44_no_open_claims_false`). -/
theorem C44_latest_partial (log exp : Num K → Num K) (fac : Int → K) {est : Tri K → Except Err (Tri K)}
    (hx : Grid x a D D 1) (hD : 3 ≤ D) (hn : n.In x) (hd : n.Distinct) {ult rep : Tri K}
    (hrep : x.getCols [n.reported] = .ok rep) (hest : est rep = .ok ult) (hu : Ultimates x ult D U)
    (h0 : fac 0 = 1) (hopen : ∀ i < x.kdims.length, ∀ o d, o + d + 1 = D →
      opened n x i o d ≠ 0 ∨ reserve n x i o d = 0) :
    ∃ u l m, fit log exp fac est n x = .ok u ∧ x.latestDiagonal = .ok (.tri l) ∧
      u.latestDiagonal = .ok (.tri m) ∧ m.kdims = l.kdims ∧ m.vdims = l.vdims ∧ m.odims = l.odims ∧
      m.vd = l.vd ∧ ∀ i < x.kdims.length, ∀ c < x.vdims.length, ∀ o < D,
        m.values.get i c o 0 = l.values.get i c o 0 := by
  obtain ⟨u, E, h1, h⟩ := C44_adjusted log exp fac hx hD hn hd hrep hest hu
  have gu := h.grid hx hn
  obtain ⟨l, l1, l2⟩ := hx.latest
  obtain ⟨m, m1, m2⟩ := gu.latest
  refine ⟨u, l, m, h1, l1, m1, ?_, ?_, ?_, ?_, ?_⟩
  · rw [m2.index, l2.index, h.kdims]
  · rw [m2.columns, l2.columns, h.vdims]
  · rw [m2.origins.eq_map (by rw [gu.lenO]), l2.origins.eq_map (by rw [hx.lenO]), h.odims]
  · rw [m2.date, l2.date, h.vd]
  · intro i hi c hc o ho
    have e1 := l2.cells i c o (D - 1 - o) (by rw [hx.wf.1]; exact hi) (by rw [hx.wf.2.1]; exact hc)
      (by simpa using ho) (by rw [hx.lenD]; omega)
      (by rw [List.getElem_range, hx.valuation_vd ho (by omega)]; omega)
    have e2 := m2.cells i c o (D - 1 - o) (by rw [gu.wf.1, h.kdims]; exact hi)
      (by rw [gu.wf.2.1, h.vdims]; exact hc)
      (by simpa using ho) (by rw [gu.lenD]; omega)
      (by rw [List.getElem_range, gu.valuation_vd ho (by omega)]; omega)
    rw [List.getElem_range] at e1 e2
    rw [e1, e2, h.diagonal hx hn hu.nonzero h0 hi hc (by omega) fun _ => hopen i hi o _ (by omega),
      Num.numToNan_numToNan]

/-- If a column is missing the adjustment raises. -/
theorem C44_columns (log exp : Num K → Num K) (fac : Int → K) (est : Tri K → Except Err (Tri K))
    (h : ¬ n.In x) : fit log exp fac est n x = .error .valueError := by
  unfold fit
  rw [if_neg]
  simp only [Bool.and_eq_true, List.contains_iff_mem]
  rintro ⟨⟨⟨h1, h2⟩, h3⟩, h4⟩
  exact h ⟨h1, h2, h3, h4⟩

end

section
variable {x u : Tri ℝ} {a : Int} {D : Nat} {n : Names} {fac : Int → ℝ} {U : Nat → Nat → ℝ}

/-- The exponential through two points. -/
noncomputable def through (c0 c1 p0 p1 g : ℝ) : ℝ := p0 * (p1 / p0) ^ ((g - c0) / (c1 - c0))

theorem through_eq {c0 c1 p0 p1 : ℝ} (g : ℝ) (hc : c0 ≠ c1) (h0 : 0 < p0) (h1 : 0 < p1) :
    Tail.exp (.fin g * slope (.fin c0) (.fin c1) (Tail.log (.fin p0)) (Tail.log (.fin p1))) *
      Tail.exp ((Tail.log (.fin p0) + Tail.log (.fin p1)) / .fin 2 -
        slope (.fin c0) (.fin c1) (Tail.log (.fin p0)) (Tail.log (.fin p1)) * (.fin c0 + .fin c1) / .fin 2) =
      .fin (through c0 c1 p0 p1 g) := by
  have l0 : Tail.log (.fin p0) = .fin (Real.log p0) := by
    unfold Tail.log; simp [h0.ne', not_lt.2 h0.le]
  have l1 : Tail.log (.fin p1) = .fin (Real.log p1) := by
    unfold Tail.log; simp [h1.ne', not_lt.2 h1.le]
  have hcc : c1 - c0 ≠ 0 := sub_ne_zero.2 (Ne.symm hc)
  have hs : slope (.fin c0) (.fin c1) (Tail.log (.fin p0)) (Tail.log (.fin p1)) =
      .fin ((Real.log p1 - Real.log p0) / (c1 - c0)) := by
    have hden : (c0 * c0 + c1 * c1) / 2 - (c0 + c1) / 2 * ((c0 + c1) / 2) = (c1 - c0) ^ 2 / 4 := by ring
    have hne : (c0 * c0 + c1 * c1) / 2 - (c0 + c1) / 2 * ((c0 + c1) / 2) ≠ 0 := by
      rw [hden]; positivity
    unfold slope
    rw [l0, l1]
    simp only [Num.fin_mul_fin, Num.fin_add_fin, Num.fin_sub_fin, Num.fin_div_fin_of_ne _ (two_ne_zero' ℝ)]
    rw [Num.fin_div_fin_of_ne _ hne, hden]
    congr 1
    field_simp
    ring
  rw [hs, l0, l1]
  simp only [Num.fin_mul_fin, Num.fin_add_fin, Num.fin_sub_fin, Num.fin_div_fin_of_ne _ (two_ne_zero' ℝ)]
  show Num.fin (Real.exp _) * Num.fin (Real.exp _) = _
  rw [Num.fin_mul_fin, ← Real.exp_add]
  congr 1
  unfold through
  rw [Real.rpow_def_of_pos (div_pos h1 h0), Real.log_div h1.ne' h0.ne']
  trans Real.exp (Real.log p0 + (Real.log p1 - Real.log p0) * ((g - c0) / (c1 - c0)))
  · congr 1
    field_simp
    ring
  · rw [Real.exp_add, Real.exp_log h0]

/-- `g` lies between the values at `k` and `k + 1` of a sequence with `m + 1` terms; the first and the last
interval also take what lies outside. -/
def Segment (c : Nat → ℝ) (m : Nat) (g : ℝ) (k : Nat) : Prop :=
  k + 1 ≤ m ∧ (k = 0 ∨ c k < g) ∧ (k + 1 = m ∨ g ≤ c (k + 1))

theorem lookup_eq {adj c : Arr ℝ} {i o d m k : Nat} {s : Nat → ℝ} {g : ℝ} (ho : o + m + 1 = D)
    (ha2 : adj.d2 = D) (ha3 : adj.d3 = D) (hc3 : c.d3 = D) (hg : adj.get i 0 o d = .fin g)
    (hc : ∀ e ≤ m, c.get i 0 o e = .fin (s e)) (hf : ∀ e, m < e → e < D → c.get i 0 o e = .nan)
    (hs : ∀ e < m, s e < s (e + 1)) (hk : Segment s m g k) : lookup adj c i o d = k := by
  obtain ⟨k1, k2, k3⟩ := hk
  have mono : ∀ e f, e < f → f ≤ m → s e < s f := by
    intro e f hef
    induction f with
    | zero => omega
    | succ f ih =>
      intro hfm
      rcases Nat.lt_or_ge e f with h | h
      · exact (ih h (by omega)).trans (hs f (by omega))
      · obtain rfl : e = f := by omega
        exact hs e (by omega)
  set L := (List.range c.d3).filter fun e => (c.get i 0 o e).ltb (adj.get i 0 o d) with hL
  have mem : ∀ e, e ∈ L ↔ e ≤ m ∧ s e < g := by
    intro e
    rw [hL, List.mem_filter, List.mem_range, hc3, hg]
    constructor
    · rintro ⟨h1, h2⟩
      have : e ≤ m := by
        by_contra h
        rw [hf e (by omega) h1] at h2
        simp [Num.ltb] at h2
      rw [hc e this] at h2
      exact ⟨this, by simpa [Num.ltb] using h2⟩
    · rintro ⟨h1, h2⟩
      refine ⟨by omega, ?_⟩
      rw [hc e h1]
      simpa [Num.ltb] using h2
  have card : L.toFinset.card = L.length := List.toFinset_card_of_nodup (List.nodup_range.filter _)
  have low : k + 1 ≤ max L.length 1 := by
    rcases k2 with rfl | h
    · omega
    · rw [← card]
      have : Finset.range (k + 1) ⊆ L.toFinset := by
        intro e he
        rw [Finset.mem_range] at he
        rw [List.mem_toFinset, mem]
        refine ⟨by omega, ?_⟩
        rcases Nat.lt_or_ge e k with h' | h'
        · exact (mono e k h' (by omega)).trans h
        · obtain rfl : e = k := by omega
          exact h
      have := Finset.card_le_card this
      rw [Finset.card_range] at this
      omega
  have up : k + 1 = m ∨ L.length ≤ k + 1 := by
    rcases k3 with h | h
    · exact Or.inl h
    · right
      rw [← card, ← Finset.card_range (k + 1)]
      apply Finset.card_le_card
      intro e he
      rw [List.mem_toFinset, mem] at he
      rw [Finset.mem_range]
      by_contra hge
      rcases Nat.lt_or_ge (k + 1) e with h' | h'
      · have := mono (k + 1) e h' he.1
        linarith [he.2]
      · obtain rfl : e = k + 1 := by omega
        linarith [he.2]
  unfold lookup
  simp only [ha2, ha3, min_self]
  rw [if_pos (by omega)]
  unfold lookup0
  rw [← hL]
  omega

/-- The payments and closed counts of an origin are positive and the counts increase. -/
structure Steady (x : Tri ℝ) (n : Names) (D i o : Nat) : Prop where
  paid : ∀ d, o + d < D → 0 < col x n.paid i o d
  closed : ∀ d, o + d < D → 0 < col x n.closed i o d
  increasing : ∀ d, o + d + 1 < D → col x n.closed i o d < col x n.closed i o (d + 1)

theorem cell_of_pos {z : Num ℝ} (h : 0 < z.amt) : z = .fin z.amt := by
  cases z with
  | fin c => rfl
  | nan => exact absurd h (lt_irrefl _)
  | ninf => exact absurd h (lt_irrefl _)
  | pinf => exact absurd h (lt_irrefl _)

theorem through_pos {c0 c1 p0 p1 g : ℝ} (h0 : 0 < p0) (h1 : 0 < p1) : 0 < through c0 c1 p0 p1 g :=
  mul_pos h0 (Real.rpow_pos_of_pos (div_pos h1 h0) _)

/-- The adjusted payment before the latest diagonal: the exponential through the two recorded payments whose
closed counts enclose the adjusted count, at the adjusted count. -/
theorem C44_exponential (fac : Int → ℝ) {est : Tri ℝ → Except Err (Tri ℝ)}
    (hx : Grid x a D D 1) (hD : 3 ≤ D) (hn : n.In x) (hd : n.Distinct) {ult rep : Tri ℝ}
    (hrep : x.getCols [n.reported] = .ok rep) (hest : est rep = .ok ult) (hu : Ultimates x ult D U) :
    ∃ u E, fit Tail.log Tail.exp fac est n x = .ok u ∧ Adjusted x u D n fac U E ∧
      ∀ i < x.kdims.length, ∀ o, Steady x n D i o → ∀ d, o + d + 1 < D → col x n.closed i (D - 1 - d) d ≠ 0 →
      ∀ k, Segment (col x n.closed i o) (D - 1 - o) (col x n.closed i (D - 1 - d) d / U i (D - 1 - d) * U i o) k →
        E i o d = through (col x n.closed i o k) (col x n.closed i o (k + 1)) (col x n.paid i o k)
          (col x n.paid i o (k + 1)) (col x n.closed i (D - 1 - d) d / U i (D - 1 - d) * U i o) := by
  obtain ⟨u, adj, y, c, h1, hy, hc, ha, h2⟩ := fit_ok Tail.log Tail.exp fac hx hD hn hd hrep hest hu
  refine ⟨u, _, h1, h2, ?_⟩
  intro i hi o hst d hod hne k hk
  obtain ⟨y', y1, y2, y3⟩ := hx.getCol hn.paid
  obtain ⟨c', c1, c2, c3⟩ := hx.getCol hn.closed
  obtain ⟨adj', a1, a2⟩ := adjClosed_ok hx hn hu
  rw [hy] at y1; rw [hc] at c1; rw [ha] at a1
  injection y1 with y1; injection c1 with c1; injection a1 with a1
  subst y1 c1 a1
  have hg : col x n.closed i (D - 1 - d) d / U i (D - 1 - d) * U i o ≠ 0 :=
    mul_ne_zero (div_ne_zero hne (hu.nonzero i hi _ (by omega))) (hu.nonzero i hi o (by omega))
  obtain ⟨b0, b1, b2, b3⟩ := c2.dims hx.wf
  obtain ⟨a0, -, a2', a3'⟩ := a2.dims hx.wf
  have w2 : x.values.d2 = D := by rw [hx.wf.2.2.1, hx.lenO]
  have w3 : x.values.d3 = D := by rw [hx.wf.2.2.2, hx.lenD]
  have hcl : ∀ e, o + e < D → c.values.get i 0 o e = .fin (col x n.closed i o e) := by
    intro e he
    rw [c3 i hi o (by omega) e (by omega)]
    exact cell_of_pos (hst.closed e he)
  have hpa : ∀ e, o + e < D → y.values.get i 0 o e = .fin (col x n.paid i o e) := by
    intro e he
    rw [y3 i hi o (by omega) e (by omega)]
    exact cell_of_pos (hst.paid e he)
  have hl : lookup adj.values c.values i o d = k :=
    lookup_eq (D := D) (m := D - 1 - o) (by omega) (by rw [a2', w2]) (by rw [a3', w3]) (by rw [b3, w3])
      (by rw [a2.cell i hi o d (by omega), Num.numToNan_fin_of_ne hg]) (fun e he => hcl e (by omega))
      (by
        intro e h1 h2
        rw [c3 i hi o (by omega) e h2]
        exact hx.known i hi _ (List.idxOf_lt_length_iff.2 hn.closed) o (by omega) e h2 (by omega))
      (fun e he => hst.increasing e (by omega)) hk
  have k1 := hk.1
  show curve _ _ _ _ _ _ i o d = _
  unfold curve
  rw [hl, Num.numToNan_fin_of_ne hg]
  show (Tail.exp (_ * slope _ _ _ _) * Tail.exp (_ - slope _ _ _ _ * _ / _)).nanToNum.amt = _
  rw [hcl k (by omega), hcl (k + 1) (by omega), hpa k (by omega), hpa (k + 1) (by omega),
    through_eq _ (hst.increasing k (by omega)).ne (hst.paid k (by omega)) (hst.paid (k + 1) (by omega))]
  rfl

/-- Ultimate claim counts of the chain ladder method with volume-weighted factors. -/
noncomputable def countUlt (x : Tri ℝ) (n : Names) (D i o : Nat) : ℝ :=
  col x n.reported i o (D - 1 - o) * ∏ j ∈ Finset.Ico (D - 1 - o) (D - 1),
    (∑ k ∈ Finset.range (D - 1 - j), col x n.reported i k (j + 1)) /
      ∑ k ∈ Finset.range (D - 1 - j), col x n.reported i k j

/-- The default estimator of the ultimate counts. -/
theorem chainladder_ultimates (hx : Standard x a D D 1) (hn : n.In x)
    (hp : ∀ i < x.kdims.length, ∀ o d, o + d < D → 0 < col x n.reported i o d) :
    ∃ rep ult, x.getCols [n.reported] = .ok rep ∧ Work.chainladderFit rep none = .ok ult ∧
      Ultimates x ult D (countUlt x n D) := by
  obtain ⟨rep, r1, r2, r3⟩ := hx.toGrid.getCol hn.reported
  have hk := getCols_keeps r1
  have hD := hx.two_ages
  have l0 : rep.values.d0 = x.kdims.length := by rw [r2.wf.1, r2.kdims]
  have l1 : rep.values.d1 = 1 := by rw [r2.wf.2.1, r2.one]
  have l2 : rep.values.d2 = D := by rw [r2.wf.2.2.1, r2.odims, hx.lenO]
  have l3 : rep.values.d3 = D := by rw [r2.wf.2.2.2, r2.ddims, hx.lenD]
  have gr : Standard rep a D D 1 := {
    wf := r2.wf
    finite := by
      intro i hi c hc o ho d hd
      rw [l0] at hi; rw [l1] at hc; rw [l2] at ho; rw [l3] at hd
      obtain rfl : c = 0 := by omega
      rw [r3 i hi o ho d hd]
      exact col_noInf hx.toGrid hn.reported hi ho hd
    isVal := r2.isVal.trans hx.isVal
    index_pos := by rw [r2.kdims]; exact hx.index_pos
    columns_pos := by rw [r2.one]
    two_origins := hx.two_origins
    period := hx.period
    recent := hx.recent
    odims := by rw [r2.odims, r2.dgrain]; exact hx.odims
    ddims := by rw [r2.ddims, r2.dgrain]; exact hx.ddims
    vd := by rw [r2.vd, r2.dgrain]; exact hx.vd
    short := by rw [r2.dgrain]; exact hx.short
    early := by rw [r2.vd]; exact hx.early
    known := by
      intro i hi c hc o ho d hd hod
      rw [r2.kdims] at hi
      rw [r2.one] at hc
      obtain rfl : c = 0 := by omega
      rw [r3 i hi o ho d hd]
      exact hx.known i hi _ (List.idxOf_lt_length_iff.2 hn.reported) o ho d hd hod
    cumulative := by rw [hk.isCum]; exact hx.cumulative
    noPattern := by rw [hk.isPattern]; exact hx.noPattern
    multiplicative := by rw [hk.isAdditive]; exact hx.multiplicative }
  have cell : ∀ i < x.kdims.length, ∀ o d, o + d < D → rep.values.get i 0 o d = .fin (col x n.reported i o d) := by
    intro i hi o d hod
    rw [r3 i hi o (by omega) d (by omega)]
    exact cell_of_pos (hp i hi o d hod)
  have pr : Work.Positive rep D D 1 := by
    intro i hi c hc o ho d hd hod
    rw [r2.kdims] at hi
    rw [r2.one] at hc
    obtain rfl : c = 0 := by omega
    exact ⟨_, hp i hi o d (by omega), cell i hi o d (by omega)⟩
  obtain ⟨ult, u1, u2, u3, u4, u5, u6⟩ := Work.C56_chainladder gr pr
  obtain ⟨w1, w2, w3, w4, -, w6, -, -⟩ := Work.C56_labels gr pr u1
  have hv : ∀ i < x.kdims.length, ∀ o < D, ult.values.get i 0 o 0 = .fin (countUlt x n D i o) := by
    intro i hi o ho
    rw [u6 i (by rw [r2.kdims]; exact hi) 0 (by rw [r2.one]; omega) o ho, Nat.one_mul,
      cell i hi o (D - 1 - o) (by omega), Num.amt_fin]
    unfold countUlt
    congr 2
    apply Finset.prod_congr rfl
    intro j hj
    rw [Finset.mem_Ico] at hj
    have hpr : Work.pairs D D 1 j = Finset.range (D - 1 - j) := by
      ext k
      simp only [Work.pairs, Finset.mem_filter, Finset.mem_range]
      omega
    unfold Work.volumeFactor
    rw [hpr]
    congr 1
    · apply Finset.sum_congr rfl
      intro k hk
      rw [Finset.mem_range] at hk
      rw [cell i hi k (j + 1) (by omega), Num.amt_fin]
    · apply Finset.sum_congr rfl
      intro k hk
      rw [Finset.mem_range] at hk
      rw [cell i hi k j (by omega), Num.amt_fin]
  refine ⟨rep, ult, r1, u1, ⟨ultVal, le_rfl, w1, Or.inl (u3.trans r2.kdims), w2.trans r2.keyLabels, ?_,
    Or.inl (u2.trans r2.odims), Or.inr (by rw [u5]; rfl), w3.trans r2.ograin, Or.inl (w4.trans r2.dgrain), w6, ?_⟩, ?_⟩
  · rw [u4]; exact r2.one
  · intro i hi o d hod
    have e0 : ult.values.d0 = x.values.d0 := by rw [w1.1, u3, r2.kdims, hx.wf.1]
    have e2 : ult.values.d2 = x.values.d2 := by rw [w1.2.2.1, u2, r2.odims, hx.wf.2.2.1]
    have e3 : ult.values.d3 = 1 := by rw [w1.2.2.2, u5]; rfl
    have w3 : x.values.d3 = D := by rw [hx.wf.2.2.2, hx.lenD]
    have hb : Arr.bix ult.values.d3 x.values.d3 d = 0 := by
      rw [e3, w3]; unfold Arr.bix; rw [if_neg (by omega)]
    rw [e0, e2, hb, Arr.bix_self, Arr.bix_self]
    exact hv i hi o (by omega)
  · intro i hi o ho
    unfold countUlt
    apply ne_of_gt
    refine mul_pos (hp i hi o _ (by omega)) (Finset.prod_pos fun j hj => ?_)
    rw [Finset.mem_Ico] at hj
    have hne : (Finset.range (D - 1 - j)).Nonempty := ⟨0, by rw [Finset.mem_range]; omega⟩
    refine div_pos (Finset.sum_pos (fun k hk => ?_) hne) (Finset.sum_pos (fun k hk => ?_) hne)
    · rw [Finset.mem_range] at hk
      exact hp i hi k _ (by omega)
    · rw [Finset.mem_range] at hk
      exact hp i hi k _ (by omega)

/-- `C44_latest_partial` with the default estimator, for positive reported counts. -/
theorem C44_chainladder_partial (fac : Int → ℝ) (hx : Standard x a D D 1) (hD : 3 ≤ D) (hn : n.In x)
    (hd : n.Distinct) (hp : ∀ i < x.kdims.length, ∀ o d, o + d < D → 0 < col x n.reported i o d)
    (h0 : fac 0 = 1) (hopen : ∀ i < x.kdims.length, ∀ o d, o + d + 1 = D →
      opened n x i o d ≠ 0 ∨ reserve n x i o d = 0) :
    ∃ u l m, fit Tail.log Tail.exp fac (fun r => Work.chainladderFit r none) n x = .ok u ∧
      x.latestDiagonal = .ok (.tri l) ∧
      u.latestDiagonal = .ok (.tri m) ∧ m.kdims = l.kdims ∧ m.vdims = l.vdims ∧ m.odims = l.odims ∧
      m.vd = l.vd ∧ ∀ i < x.kdims.length, ∀ c < x.vdims.length, ∀ o < D,
        m.values.get i c o 0 = l.values.get i c o 0 := by
  obtain ⟨rep, ult, h1, h2, h3⟩ := chainladder_ultimates hx hn hp
  exact C44_latest_partial Tail.log Tail.exp fac hx.toGrid hD hn hd h1 h2 h3 h0 hopen

end

section
variable {K : Type} [Field K] [LinearOrder K] [IsStrictOrderedRing K]
variable {x u : Tri K} {a : Int} {D : Nat} {n : Names} {fac : Int → K} {U : Nat → Nat → K}
  {E : Nat → Nat → Nat → K}

/-- A column of a triangle with the axes of `x`. -/
theorem column_of (hx : Grid x a D D 1) (hu : Grid u a D D 1) (hk : u.kdims = x.kdims) (hv : u.vdims = x.vdims)
    (ho : u.odims = x.odims) (hd : u.ddims = x.ddims) (ht : Keeps x u) (hvd : u.vd = x.vd) {c : String}
    (hc : c ∈ x.vdims) :
    ∃ r, u.getCols [c] = .ok r ∧ OnGrid x r D x.vd (fun i o d => u.values.get i (x.vdims.idxOf c) o d) ∧
      ∀ i < x.kdims.length, ∀ o < D, ∀ d < D, r.values.get i 0 o d = u.values.get i (x.vdims.idxOf c) o d := by
  obtain ⟨r, r1, r2, r3⟩ := hu.getCol (c := c) (by rw [hv]; exact hc)
  refine ⟨r, r1, ⟨r2.wf, r2.kdims.trans hk, r2.keyLabels.trans ht.keyLabels, r2.one, r2.odims.trans ho,
    r2.ddims.trans hd, r2.isVal.trans ht.isVal, r2.ograin.trans ht.ograin, r2.dgrain.trans ht.dgrain,
    r2.vd.trans hvd, ?_⟩, ?_⟩
  · intro i hi o d hod
    rw [← hv]
    exact r2.cell i (by rw [hk]; exact hi) o d hod
  · rw [← hv, ← hk]; exact r3

/-- The labels of `x`. -/
structure Like (x t : Tri K) : Prop where
  wf : WF t
  kdims : t.kdims = x.kdims
  vdims : t.vdims = x.vdims
  odims : t.odims = x.odims
  ddims : t.ddims = x.ddims
  vd : t.vd = x.vd
  keeps : Keeps x t

theorem Like.self (wx : WF x) : Like x x := ⟨wx, rfl, rfl, rfl, rfl, rfl, rfl, rfl, rfl, rfl, rfl, rfl, rfl⟩

theorem setCol_step {s t : Tri K} {f : Nat → Nat → Nat → Num K} {v : Int} (wx : WF x) (hs : OnGrid x s D v f)
    (ht : Like x t) {key : String} (hk : key ∈ x.vdims) : ∃ w, setCol t key s = .ok w ∧ Like x w ∧
      ∀ i c o d, w.values.get i c o d =
        if c = x.vdims.idxOf key then s.values.get i 0 o d else t.values.get i c o d := by
  refine ⟨put t (x.vdims.idxOf key) s.values, setCol_ok wx hs ?_ ?_ ?_ ht.vdims hk, ?_, fun _ _ _ _ => rfl⟩
  · rw [ht.wf.1, wx.1, ht.kdims]
  · rw [ht.wf.2.2.1, wx.2.2.1, ht.odims]
  · rw [ht.wf.2.2.2, wx.2.2.2, ht.ddims]
  · obtain ⟨h1, h2, h3, h4, h5, h6, ⟨k1, k2, k3, k4, k5, k6, k7⟩⟩ := ht
    exact ⟨h1, h2, h3, h4, h5, h6, ⟨k1, k2, k3, k4, k5, k6, k7⟩⟩

/-- `transform`: the four columns are those of the adjusted triangle, and the others are kept. -/
theorem C44_transform (hx : Grid x a D D 1) (hn : n.In x) (h : Adjusted x u D n fac U E) :
    ∃ w, transform n u x = .ok w ∧ WF w ∧ w.kdims = x.kdims ∧ w.vdims = x.vdims ∧ w.odims = x.odims ∧
      w.ddims = x.ddims ∧ w.vd = x.vd ∧ Keeps x w ∧
      ∀ i < x.kdims.length, ∀ c < x.vdims.length, ∀ o < D, ∀ d < D,
        (c = x.vdims.idxOf n.paid ∨ c = x.vdims.idxOf n.incurred ∨ c = x.vdims.idxOf n.reported ∨
          c = x.vdims.idxOf n.closed → w.values.get i c o d = u.values.get i c o d) ∧
        (c ≠ x.vdims.idxOf n.paid → c ≠ x.vdims.idxOf n.incurred → c ≠ x.vdims.idxOf n.reported →
          c ≠ x.vdims.idxOf n.closed → w.values.get i c o d = x.values.get i c o d) := by
  have gu := h.grid hx hn
  obtain ⟨p, p1, p2, p3⟩ := column_of hx gu h.kdims h.vdims h.odims h.ddims h.keeps h.vd hn.paid
  obtain ⟨q, q1, q2, q3⟩ := column_of hx gu h.kdims h.vdims h.odims h.ddims h.keeps h.vd hn.incurred
  obtain ⟨r, r1, r2, r3⟩ := column_of hx gu h.kdims h.vdims h.odims h.ddims h.keeps h.vd hn.reported
  obtain ⟨s, s1, s2, s3⟩ := column_of hx gu h.kdims h.vdims h.odims h.ddims h.keeps h.vd hn.closed
  obtain ⟨w1, e1, k1, g1⟩ := setCol_step hx.wf p2 (Like.self hx.wf) hn.paid
  obtain ⟨w2, e2, k2, g2⟩ := setCol_step hx.wf q2 k1 hn.incurred
  obtain ⟨w3, e3, k3, g3⟩ := setCol_step hx.wf r2 k2 hn.reported
  obtain ⟨w, e4, k4, g4⟩ := setCol_step hx.wf s2 k3 hn.closed
  have hget : ∀ i c o d, w.values.get i c o d = if c = x.vdims.idxOf n.closed then s.values.get i 0 o d
      else if c = x.vdims.idxOf n.reported then r.values.get i 0 o d
      else if c = x.vdims.idxOf n.incurred then q.values.get i 0 o d
      else if c = x.vdims.idxOf n.paid then p.values.get i 0 o d else x.values.get i c o d := by
    intro i c o d
    rw [g4, g3, g2, g1]
  refine ⟨w, ?_, k4.wf, k4.kdims, k4.vdims, k4.odims, k4.ddims, k4.vd, k4.keeps, ?_⟩
  · simp only [transform, p1, q1, r1, s1, e1, e2, e3, bind, Except.bind]
    exact e4
  intro i hi c hc o ho d hd
  rw [hget, p3 i hi o ho d hd, q3 i hi o ho d hd, r3 i hi o ho d hd, s3 i hi o ho d hd]
  constructor
  · intro hor
    split_ifs with g1 g2 g3 g4
    · rw [g1]
    · rw [g2]
    · rw [g3]
    · rw [g4]
    · rcases hor with g | g | g | g
      · exact absurd g g4
      · exact absurd g g3
      · exact absurd g g2
      · exact absurd g g1
  · intro g4 g3 g2 g1
    rw [if_neg g1, if_neg g2, if_neg g3, if_neg g4]

/-- With two origins there is one payment before the latest diagonal, and it is added to every cell. -/
theorem adjPaid_two (log exp : Num K → Num K) (hx : Grid x a 2 2 1) (hn : n.In x) {adj m : Tri K}
    (hm : modelPaid log exp n x adj = .ok m) {g : Nat → Nat → Nat → Num K} (hg : OnGrid x m 2 x.vd g) :
    ∃ r, adjPaid log exp n x adj = .ok r ∧ OnGrid x r 2 x.vd fun i o d =>
      ((if o + d + 1 = 2 then (x.values.get i (x.vdims.idxOf n.paid) o d).numToNan else .nan).nanToNum +
        (g i 0 0).numToNan.nanToNum).numToNan := by
  obtain ⟨y, y1, y2, y3⟩ := hx.getCol hn.paid
  obtain ⟨l, l1, l2, -, l4⟩ := y2.diagonal hx le_rfl hx.early
  have hlt : ∀ o < 2, ∀ d < 2, decide (x.valuation o d < x.vd) = true ↔ o + d + 1 < 2 := by
    intro o ho d hd
    rw [decide_eq_true_eq, hx.valuation_lt ho hd]; omega
  obtain ⟨r, r1, r2, r3, r4, r5⟩ := hg.getVal hx le_rfl hx.early (P := fun v => decide (v < x.vd)) (m := 1)
    (by omega) (by omega)
    (fun o ho => ⟨fun ⟨d, hd, hk⟩ => by have := (hlt o ho d hd).1 hk; omega,
      fun h => ⟨0, by omega, (hlt o ho 0 (by omega)).2 (by omega)⟩⟩)
    (fun d hd => ⟨fun ⟨o, ho, hk⟩ => by have := (hlt o ho d hd).1 hk; omega,
      fun h => ⟨0, by omega, (hlt 0 (by omega) d hd).2 (by omega)⟩⟩)
  have hrvd : r.vd ≤ x.vd := by
    obtain ⟨_, -, -, e⟩ := r2.vd
    rw [e, hg.vd]; exact min_le_right _ _
  have lo : r.odims.length = 1 := by rw [r2.origins.1]; simp
  have ld : r.ddims.length = 1 := by rw [r2.developments.1]; simp
  have hsp : Spread x r 2 r.vd fun i _ _ => (g i 0 0).numToNan := by
    refine ⟨r2.wf, Or.inl (r2.index.trans hg.kdims), r5, by rw [r2.columns]; exact hg.one, Or.inr lo, Or.inr ld,
      r3, Or.inl r4, rfl, ?_⟩
    intro i hi o d hod
    have b0 : Arr.bix r.values.d0 x.values.d0 i = i := by
      rw [r2.wf.1, r2.index, hg.kdims, hx.wf.1, Arr.bix_self]
    have b2 : Arr.bix r.values.d2 x.values.d2 o = 0 := by
      rw [r2.wf.2.2.1, lo, hx.wf.2.2.1, hx.lenO]; rfl
    have b3 : Arr.bix r.values.d3 x.values.d3 d = 0 := by
      rw [r2.wf.2.2.2, ld, hx.wf.2.2.2, hx.lenD]; rfl
    rw [b0, b2, b3]
    have := r2.cells i 0 0 0 (by rw [hg.wf.1, hg.kdims]; exact hi) (by rw [hg.wf.2.1, hg.one]; omega) (by simp)
      (by simp)
    simp only [List.getElem_range] at this
    rw [this, hg.valuation hx le_rfl (by omega) (by omega),
      if_pos ((hlt 0 (by omega) 0 (by omega)).2 (by omega)), hg.cell i hi 0 0 (by omega)]
  obtain ⟨s, s1, s2⟩ := l2.add hx hsp (le_max_left _ _)
  rw [max_eq_left hrvd] at s2
  refine ⟨s, ?_, s2⟩
  simp only [adjPaid, y1, hm, bind, Except.bind, y2.vd, hg.vd, l1, r1]
  exact s1

end

section
variable {x u : Tri ℝ} {a : Int} {D : Nat} {n : Names} {fac : Int → ℝ} {U : Nat → Nat → ℝ}

/-- For two origins the fitted payment of the single earlier cell is added to the paid amounts of the latest
diagonal. -/
theorem C44_two_origins (fac : Int → ℝ) {est : Tri ℝ → Except Err (Tri ℝ)}
    (hx : Grid x a 2 2 1) (hn : n.In x) (hd : n.Distinct) {ult rep : Tri ℝ}
    (hrep : x.getCols [n.reported] = .ok rep) (hest : est rep = .ok ult) (hu : Ultimates x ult 2 U) :
    ∃ u, fit Tail.log Tail.exp fac est n x = .ok u ∧ u.vdims = x.vdims ∧ u.kdims = x.kdims ∧ Grid u a 2 2 1 ∧
      ∀ i < x.kdims.length, Steady x n 2 i 0 → col x n.closed i 1 0 ≠ 0 → 0 < col x n.paid i 1 0 →
        ∀ o d, o + d + 1 = 2 → ∃ e, 0 < e ∧
          u.values.get i (x.vdims.idxOf n.paid) o d = .fin (col x n.paid i o d + e) := by
  obtain ⟨adj, a1, a2⟩ := adjClosed_ok hx hn hu
  obtain ⟨m, y, c, m1, y1, c1, m2⟩ := modelPaid_ok Tail.log Tail.exp hx hn a2
  obtain ⟨p, p1, p2⟩ := adjPaid_two Tail.log Tail.exp hx hn m1 m2
  obtain ⟨u, u1, u2⟩ := fit_of_paid Tail.log Tail.exp fac hx hn hd hrep hest a1 a2 p1 p2
  refine ⟨u, u1, u2.vdims, u2.kdims, u2.grid hx hn ?_, ?_⟩
  · intro i hi o d hod
    obtain ⟨b, hb⟩ := Num.nanToNum_isFin (if o + d + 1 = 2 then
      (x.values.get i (x.vdims.idxOf n.paid) o d).numToNan else .nan)
    obtain ⟨b', hb'⟩ := Num.nanToNum_isFin (((col x n.closed i (2 - 1 - 0) 0 / U i (2 - 1 - 0) * U i 0 :
      ℝ) : ℝ) |> fun g => (((Num.fin g).numToNan * 0).nanToNum + (Tail.exp ((Num.fin g).numToNan *
        (slopes Tail.log c.values y.values).get i 0 0 (lookup adj.values c.values i 0 0)) *
        (levels Tail.log Tail.exp c.values y.values).get i 0 0 (lookup adj.values c.values i 0 0)).nanToNum).numToNan.numToNan)
    rw [hb, hb', Num.fin_add_fin]
    exact Num.noInf_numToNan (Num.noInf_fin _)
  intro i hi hst hne hp1 o d hod
  obtain ⟨y', y1', y2, y3⟩ := hx.getCol hn.paid
  obtain ⟨c', c1', c2, c3⟩ := hx.getCol hn.closed
  rw [y1] at y1'; rw [c1] at c1'
  injection y1' with y1'; injection c1' with c1'
  subst y1' c1'
  have hg : col x n.closed i (2 - 1 - 0) 0 / U i (2 - 1 - 0) * U i 0 ≠ 0 :=
    mul_ne_zero (div_ne_zero hne (hu.nonzero i hi _ (by omega))) (hu.nonzero i hi 0 (by omega))
  obtain ⟨b0, b1, b2, b3⟩ := c2.dims hx.wf
  obtain ⟨a0, -, a2', a3'⟩ := a2.dims hx.wf
  have w2 : x.values.d2 = 2 := by rw [hx.wf.2.2.1, hx.lenO]
  have w3 : x.values.d3 = 2 := by rw [hx.wf.2.2.2, hx.lenD]
  have hcl : ∀ e < 2, c.values.get i 0 0 e = .fin (col x n.closed i 0 e) := by
    intro e he
    rw [c3 i hi 0 (by omega) e (by omega)]
    exact cell_of_pos (hst.closed e (by omega))
  have hpa : ∀ e < 2, y.values.get i 0 0 e = .fin (col x n.paid i 0 e) := by
    intro e he
    rw [y3 i hi 0 (by omega) e (by omega)]
    exact cell_of_pos (hst.paid e (by omega))
  have hl : lookup adj.values c.values i 0 0 = 0 :=
    lookup_eq (D := 2) (m := 1) (by omega) (by rw [a2', w2]) (by rw [a3', w3]) (by rw [b3, w3])
      (by rw [a2.cell i hi 0 0 (by omega), Num.numToNan_fin_of_ne hg]) (fun e he => hcl e (by omega))
      (by intro e h1 h2; omega)
      (fun e he => hst.increasing e (by omega)) ⟨le_rfl, Or.inl rfl, Or.inl rfl⟩
  have hpos := through_pos (c0 := col x n.closed i 0 0) (c1 := col x n.closed i 0 1)
    (g := col x n.closed i (2 - 1 - 0) 0 / U i (2 - 1 - 0) * U i 0) (hst.paid 0 (by omega)) (hst.paid 1 (by omega))
  refine ⟨_, hpos, ?_⟩
  have hpod : 0 < col x n.paid i o d := by
    rcases Nat.lt_or_ge o 1 with h | h
    · obtain rfl : o = 0 := by omega
      obtain rfl : d = 1 := by omega
      exact hst.paid 1 (by omega)
    · obtain rfl : o = 1 := by omega
      obtain rfl : d = 0 := by omega
      exact hp1
  rw [u2.paid i hi o d (by omega), hl, if_pos hod, col_cell hx hn.paid hi (by omega) (by omega),
    Num.numToNan_fin_of_ne hpod.ne', Num.numToNan_fin_of_ne hg]
  have hz : (Num.fin (col x n.closed i (2 - 1 - 0) 0 / U i (2 - 1 - 0) * U i 0) * 0).nanToNum = (.fin 0 : Num ℝ) := by
    simp [Num.zero_def]
  have hth := through_eq (col x n.closed i (2 - 1 - 0) 0 / U i (2 - 1 - 0) * U i 0)
    (hst.increasing 0 (by omega)).ne (hst.paid 0 (by omega)) (hst.paid 1 (by omega))
  have hsl : (slopes Tail.log c.values y.values).get i 0 0 0 = slope (.fin (col x n.closed i 0 0))
      (.fin (col x n.closed i 0 1)) (Tail.log (.fin (col x n.paid i 0 0))) (Tail.log (.fin (col x n.paid i 0 1))) := by
    show slope _ _ _ _ = _
    rw [hcl 0 (by omega), hcl 1 (by omega), hpa 0 (by omega), hpa 1 (by omega)]
  have hle : (levels Tail.log Tail.exp c.values y.values).get i 0 0 0 =
      Tail.exp ((Tail.log (.fin (col x n.paid i 0 0)) + Tail.log (.fin (col x n.paid i 0 1))) / .fin 2 -
        slope (.fin (col x n.closed i 0 0)) (.fin (col x n.closed i 0 1)) (Tail.log (.fin (col x n.paid i 0 0)))
          (Tail.log (.fin (col x n.paid i 0 1))) * (.fin (col x n.closed i 0 0) + .fin (col x n.closed i 0 1)) / .fin 2) := by
    show Tail.exp (_ - (slopes _ _ _).get i 0 0 0 * _ / _) = _
    rw [hsl, hcl 0 (by omega), hcl 1 (by omega), hpa 0 (by omega), hpa 1 (by omega)]
  rw [hz, hsl, hle, hth]
  simp only [Num.nanToNum_fin, Num.fin_add_fin, zero_add, Num.numToNan_fin_of_ne hpos.ne']
  rw [Num.numToNan_fin_of_ne (add_pos hpod hpos).ne', Num.numToNan_fin_of_ne (add_pos hpod hpos).ne']
end

namespace C44

/-- A square triangle of `D` years with the amounts `f`. -/
noncomputable def square (D : Nat) (f : Nat → Nat → Nat → ℝ) : Tri ℝ where
  kdims := [["Total"]]
  keyLabels := ["Total"]
  vdims := ["paid", "incurred", "reported", "closed"]
  odims := (List.range D).map fun o : Nat => 24240 + (o * 1 * 12 : Nat)
  ddims := (List.range D).map fun d : Nat => (((d + 1) * 12 : Nat) : Int)
  isVal := false
  ograin := .Y
  dgrain := .Y
  vd := 24240 + (D * 12 : Nat) - 1
  isCum := some true
  isPattern := false
  isAdditive := none
  values := ⟨1, 4, D, D, fun _ c o d => if o + d < D then .fin (f c o d) else .nan⟩

def names : Names := ⟨"paid", "incurred", "reported", "closed"⟩

theorem standard {D : Nat} (h2 : 2 ≤ D) (h3 : D ≤ 100) (f : Nat → Nat → Nat → ℝ) :
    Standard (square D f) 24240 D D 1 where
  wf := ⟨rfl, rfl, by simp [square], by simp [square]⟩
  finite := by
    intro i hi c hc o ho d hd
    show Num.NoInf (if o + d < D then _ else _)
    split_ifs
    · exact Num.noInf_fin _
    · trivial
  isVal := rfl
  cumulative := by simp [square]
  noPattern := rfl
  multiplicative := rfl
  index_pos := le_rfl
  columns_pos := by show 1 ≤ 4; decide
  two_origins := h2
  period := le_rfl
  recent := by omega
  odims := rfl
  ddims := rfl
  vd := rfl
  short := by show D * 12 < 9999; omega
  early := by show (24240 + (D * 12 : Nat) - 1 : Int) ≤ 12 * 2261 + 11; push_cast; omega
  known := by
    intro i hi c hc o ho d hd hlt
    show (if o + d < D then _ else _) = _
    rw [if_neg (by omega)]

theorem inSquare (D : Nat) (f : Nat → Nat → Nat → ℝ) : names.In (square D f) :=
  ⟨by simp [square, names], by simp [square, names], by simp [square, names], by simp [square, names]⟩

theorem ip : ["paid", "incurred", "reported", "closed"].idxOf names.paid = 0 := by decide
theorem ii : ["paid", "incurred", "reported", "closed"].idxOf names.incurred = 1 := by decide
theorem ir : ["paid", "incurred", "reported", "closed"].idxOf names.reported = 2 := by decide
theorem ic : ["paid", "incurred", "reported", "closed"].idxOf names.closed = 3 := by decide

theorem distinct : names.Distinct := ⟨by decide, by decide, by decide⟩

theorem col_square {D : Nat} {f : Nat → Nat → Nat → ℝ} {s : String} {i o d : Nat} (h : o + d < D) :
    col (square D f) s i o d = f (["paid", "incurred", "reported", "closed"].idxOf s) o d := by
  show (if o + d < D then Num.fin (f _ o d) else .nan).amt = _
  rw [if_pos h, Num.amt_fin]
  rfl

/-- Two years. -/
def small (c o d : Nat) : ℝ :=
  (([[[100, 150], [100, 0]], [[200, 180], [200, 0]], [[10, 12], [10, 0]], [[5, 10], [5, 0]]].getD c []).getD
    o []).getD d 0

theorem small_fit : ∃ u, fit Tail.log Tail.exp (fun _ => 1) (fun r => Work.chainladderFit r none) names
      (square 2 small) = .ok u ∧ u.vdims = (square 2 small).vdims ∧ u.kdims = (square 2 small).kdims ∧
      Grid u 24240 2 2 1 ∧ ∀ o d, o + d + 1 = 2 → ∃ e, 0 < e ∧
        u.values.get 0 0 o d = .fin (small 0 o d + e) := by
  have hp : ∀ s : String, ∀ i o d, o + d < 2 → 0 < col (square 2 small) s i o d ∨ s ∉ (square 2 small).vdims := by
    intro s i o d hod
    by_cases hs : s ∈ (square 2 small).vdims
    · left
      rw [col_square hod]
      simp only [square, List.mem_cons, List.not_mem_nil, or_false] at hs
      have : (o = 0 ∧ d = 0) ∨ (o = 0 ∧ d = 1) ∨ (o = 1 ∧ d = 0) := by omega
      rcases hs with rfl | rfl | rfl | rfl <;> rcases this with ⟨rfl, rfl⟩ | ⟨rfl, rfl⟩ | ⟨rfl, rfl⟩ <;>
        simp [small]
    · exact Or.inr hs
  have hn := inSquare 2 small
  obtain ⟨rep, ult, h1, h2, h3⟩ := chainladder_ultimates (standard le_rfl (by omega) small) hn
    fun i _ o d hod => (hp _ i o d hod).resolve_right (not_not.2 hn.reported)
  obtain ⟨u, u1, u2, u3, u4, u5⟩ := C44_two_origins (fun _ => 1) (standard le_rfl (by omega) small).toGrid hn distinct
    h1 (est := fun r => Work.chainladderFit r none) h2 h3
  refine ⟨u, u1, u2, u3, u4, ?_⟩
  intro o d hod
  obtain ⟨e, e1, e2⟩ := u5 0 (by decide) ⟨fun d hd => (hp _ 0 0 d hd).resolve_right (not_not.2 hn.paid),
    fun d hd => (hp _ 0 0 d hd).resolve_right (not_not.2 hn.closed), by
      intro d hd
      obtain rfl : d = 0 := by omega
      rw [col_square (by omega), col_square (by omega)]
      norm_num [small, ip, ii, ir, ic]⟩
    ((hp _ 0 1 0 (by omega)).resolve_right (not_not.2 hn.closed)).ne'
    ((hp _ 0 1 0 (by omega)).resolve_right (not_not.2 hn.paid)) o d hod
  refine ⟨e, e1, ?_⟩
  rw [col_square (by omega)] at e2
  exact e2

/-- Three years.  In the first year no claim is left open, but there are case reserves. -/
def settled (c o d : Nat) : ℝ :=
  (([[[100, 150, 170], [110, 165], [120]], [[200, 190, 180], [220, 210], [240]],
    [[10, 12, 12], [10, 12], [10]], [[5, 10, 12], [5, 10], [6]]].getD c []).getD o []).getD d 0

/-- Three years.  Half of the claims, then eight and nine tenths are closed, and the average reserve is 10. -/
def steady (c o d : Nat) : ℝ :=
  (([[[100, 150, 170], [200, 300], [250]], [[150, 170, 180], [300, 340], [400]],
    [[10, 10, 10], [20, 20], [30]], [[5, 8, 9], [10, 16], [15]]].getD c []).getD o []).getD d 0

theorem cases3 {o d : Nat} (h : o + d < 3) : (o = 0 ∧ d = 0) ∨ (o = 0 ∧ d = 1) ∨ (o = 0 ∧ d = 2) ∨
    (o = 1 ∧ d = 0) ∨ (o = 1 ∧ d = 1) ∨ (o = 2 ∧ d = 0) := by omega

theorem settled_pos {s : String} {i o d : Nat} (hod : o + d < 3) (hs : s ∈ (square 3 settled).vdims) :
    0 < col (square 3 settled) s i o d := by
  rw [col_square hod]
  simp only [square, List.mem_cons, List.not_mem_nil, or_false] at hs
  rcases hs with rfl | rfl | rfl | rfl <;>
    rcases cases3 hod with ⟨rfl, rfl⟩ | ⟨rfl, rfl⟩ | ⟨rfl, rfl⟩ | ⟨rfl, rfl⟩ | ⟨rfl, rfl⟩ | ⟨rfl, rfl⟩ <;>
    simp [settled]

theorem steady_pos {s : String} {i o d : Nat} (hod : o + d < 3) (hs : s ∈ (square 3 steady).vdims) :
    0 < col (square 3 steady) s i o d := by
  rw [col_square hod]
  simp only [square, List.mem_cons, List.not_mem_nil, or_false] at hs
  rcases hs with rfl | rfl | rfl | rfl <;>
    rcases cases3 hod with ⟨rfl, rfl⟩ | ⟨rfl, rfl⟩ | ⟨rfl, rfl⟩ | ⟨rfl, rfl⟩ | ⟨rfl, rfl⟩ | ⟨rfl, rfl⟩ <;>
    simp [steady]

/-- The steady triangle meets the conditions of `C44_chainladder_partial`. -/
example : ∃ u l m, fit Tail.log Tail.exp (fun _ => 1) (fun r => Work.chainladderFit r none) names
      (square 3 steady) = .ok u ∧ (square 3 steady).latestDiagonal = .ok (.tri l) ∧
      u.latestDiagonal = .ok (.tri m) ∧ m.values.get 0 0 1 0 = l.values.get 0 0 1 0 := by
  obtain ⟨u, l, m, h1, h2, h3, -, -, -, -, h8⟩ := C44_chainladder_partial (fun _ => 1)
    (standard (by omega) (by omega) steady) le_rfl (inSquare 3 steady) distinct
    (fun i _ o d hod => steady_pos hod (inSquare 3 steady).reported) rfl (by
      intro i hi o d hod
      left
      unfold opened
      rw [col_square (by omega), col_square (by omega)]
      rcases cases3 (o := o) (d := d) (by omega) with ⟨rfl, rfl⟩ | ⟨rfl, rfl⟩ | ⟨rfl, rfl⟩ | ⟨rfl, rfl⟩ | ⟨rfl, rfl⟩ | ⟨rfl, rfl⟩ <;>
        norm_num [steady, ip, ii, ir, ic])
  exact ⟨u, l, m, h1, h2, h3, h8 0 (by decide) 0 (by decide) 1 (by omega)⟩

end C44

/-- False in general: with two origins, the paid amounts of the latest diagonal change.  The single cell
before the diagonal is broadcast to all cells (`adjustments/berqsherm.py:171-176`). -/
theorem C44_two_origins_false : ¬ ∀ (x u : Tri ℝ) (n : Names) (a : Int) (D : Nat), Standard x a D D 1 →
    n.In x → n.Distinct →
    fit Tail.log Tail.exp (fun _ => 1) (fun r => Work.chainladderFit r none) n x = .ok u →
    ∀ l m, x.latestDiagonal = .ok (.tri l) → u.latestDiagonal = .ok (.tri m) →
    ∀ o < D, m.values.get 0 (x.vdims.idxOf n.paid) o 0 = l.values.get 0 (x.vdims.idxOf n.paid) o 0 := by
  intro h
  have hs := C44.standard (D := 2) le_rfl (by omega) C44.small
  obtain ⟨u, u1, u2, u3, u4, u5⟩ := C44.small_fit
  obtain ⟨l, l1, l2⟩ := hs.toGrid.latest
  obtain ⟨m, m1, m2⟩ := u4.latest
  have := h _ u C44.names 24240 2 hs (C44.inSquare 2 _) C44.distinct u1 l m l1 m1 0 (by omega)
  have e1 := l2.cells 0 0 0 1 (by rw [hs.wf.1]; decide) (by rw [hs.wf.2.1]; decide) (by simp)
    (by rw [hs.lenD]; omega) (by rw [List.getElem_range, hs.valuation_vd (by omega) (by omega)])
  have e2 := m2.cells 0 0 0 1 (by rw [u4.wf.1, u3]; decide) (by rw [u4.wf.2.1, u2]; decide) (by simp)
    (by rw [u4.lenD]; omega) (by rw [List.getElem_range, u4.valuation_vd (by omega) (by omega)])
  rw [List.getElem_range] at e1 e2
  obtain ⟨e, epos, e3⟩ := u5 0 1 rfl
  have e4 : (C44.square 2 C44.small).values.get 0 0 0 1 = .fin 150 := by
    show (if 0 + 1 < 2 then Num.fin (C44.small 0 0 1) else .nan) = _
    rw [if_pos (by omega)]
    simp [C44.small]
  have e5 : C44.small 0 0 1 = 150 := by simp [C44.small]
  have key : m.values.get 0 0 0 0 = l.values.get 0 0 0 0 := this
  rw [e1, e2, e3, e4, e5, Num.numToNan_fin_of_ne (by linarith), Num.numToNan_fin_of_ne (by norm_num)] at key
  injection key with key
  linarith

/-- False in general: where no claim is open, the case reserves vanish from the adjusted incurred amounts of
the latest diagonal (the average reserve is a division by zero, `adjustments/berqsherm.py:86-92`). -/
theorem C44_no_open_claims_false : ¬ ∀ (x u : Tri ℝ) (n : Names) (a : Int) (D : Nat), Standard x a D D 1 →
    3 ≤ D → n.In x → n.Distinct →
    fit Tail.log Tail.exp (fun _ => 1) (fun r => Work.chainladderFit r none) n x = .ok u →
    ∀ l m, x.latestDiagonal = .ok (.tri l) → u.latestDiagonal = .ok (.tri m) →
    ∀ o < D, m.values.get 0 (x.vdims.idxOf n.incurred) o 0 = l.values.get 0 (x.vdims.idxOf n.incurred) o 0 := by
  intro h
  have hs := C44.standard (D := 3) (by omega) (by omega) C44.settled
  have hn := C44.inSquare 3 C44.settled
  obtain ⟨rep, ult, r1, r2, r3⟩ := chainladder_ultimates hs hn
    fun i _ o d hod => C44.settled_pos hod hn.reported
  obtain ⟨u, E, u1, u2⟩ := C44_adjusted Tail.log Tail.exp (fun _ => 1) hs.toGrid le_rfl hn C44.distinct r1
    (est := fun r => Work.chainladderFit r none) r2 r3
  have u4 := u2.grid hs.toGrid hn
  obtain ⟨l, l1, l2⟩ := hs.toGrid.latest
  obtain ⟨m, m1, m2⟩ := u4.latest
  have key : m.values.get 0 1 0 0 = l.values.get 0 1 0 0 :=
    h _ u C44.names 24240 3 hs le_rfl hn C44.distinct u1 l m l1 m1 0 (by omega)
  have e1 := l2.cells 0 1 0 2 (by rw [hs.wf.1]; decide) (by rw [hs.wf.2.1]; decide) (by simp)
    (by rw [hs.lenD]; omega) (by rw [List.getElem_range, hs.valuation_vd (by omega) (by omega)])
  have e2 := m2.cells 0 1 0 2 (by rw [u4.wf.1, u2.kdims]; decide) (by rw [u4.wf.2.1, u2.vdims]; decide) (by simp)
    (by rw [u4.lenD]; omega) (by rw [List.getElem_range, u4.valuation_vd (by omega) (by omega)])
  rw [List.getElem_range] at e1 e2
  have e3 := u2.nothing 0 (by decide) 0 2 (by omega) (Or.inr (Or.inl (by
    unfold opened
    rw [C44.col_square (by omega), C44.col_square (by omega)]
    norm_num [C44.settled, C44.ip, C44.ii, C44.ir, C44.ic])))
  have e4 : (C44.square 3 C44.settled).values.get 0 1 0 2 = .fin 180 := by
    show (if 0 + 2 < 3 then Num.fin (C44.settled 1 0 2) else .nan) = _
    rw [if_pos (by omega)]
    simp [C44.settled]
  have e5 : (C44.square 3 C44.settled).values.get 0 0 0 2 = .fin 170 := by
    show (if 0 + 2 < 3 then Num.fin (C44.settled 0 0 2) else .nan) = _
    rw [if_pos (by omega)]
    simp [C44.settled]
  have e6 : u.values.get 0 1 0 2 = ((C44.square 3 C44.settled).values.get 0 0 0 2).numToNan := e3
  rw [e1, e2, e6, e4, e5, Num.numToNan_fin_of_ne (by norm_num), Num.numToNan_fin_of_ne (by norm_num),
    Num.numToNan_fin_of_ne (by norm_num)] at key
  injection key with key
  norm_num at key


end Berq
end CL
