import Verif.Lemmas.Hat
import Verif.Props.C61

set_option linter.unusedSectionVars false

/-! # C73: the hat matrix adjustment of `BootstrapODPSample` -/

namespace CL
namespace Boot
open Tri Work

variable {t f : Tri ℝ} {a : Int} {n D q : Nat} {m : Nat → Nat → Num ℝ} {p : Dev.Params ℝ} {sims : Nat}
  {draw : Nat → Nat → Nat → Nat}

/-- `v` are the leverages of the known cells: how much of a cell's own amount its weighted two-way fit returns. -/
def Leverages (n D q : Nat) (w v : Nat → Nat → ℝ) : Prop :=
  ∀ o d, (o, d) ∈ grid n D q → ∃ fit, TwoWay (grid n D q) w (alone o d) fit ∧ v o d = fit o d

theorem Leverages.unique {w v v' : Nat → Nat → ℝ} (h : Leverages n D q w v) (h' : Leverages n D q w v')
    (hw : ∀ p ∈ grid n D q, 0 < w p.1 p.2) {o d : Nat} (hp : (o, d) ∈ grid n D q) : v o d = v' o d := by
  obtain ⟨x, hx, e⟩ := h o d hp
  obtain ⟨x', hx', e'⟩ := h' o d hp
  rw [e, e', hx.unique hx' hw hp]

/-- The diagonal of the matrix, cell by cell. -/
theorem hat_cells (h : Grid t a n D q) (hm : ∀ p ∈ grid n D q, 0 < wt m p.1 p.2) :
    ∃ v, Leverages n D q (wt m) v ∧ (∑ p ∈ grid n D q, v p.1 p.2 = n + D - 1) ∧
      ∀ junk, ∃ g, hat junk t m = some g ∧ ∀ o < n, ∀ d < D,
        (¬ q * o + d < D → g o d = .nan) ∧
        (q * o + d < D → v o d ≠ 1 → g o d = .fin (1 / Real.sqrt (1 - v o d))) ∧
        (q * o + d < D → v o d = 1 → g o d = Tail.sqrt (junk ((∑ e ∈ Finset.range d, known t e) + o))) := by
  classical
  have hex : ∀ k, ∃ x : Nat → Nat → ℝ, TwoWay (grid n D q) (wt m) (alone (at' t k).1 (at' t k).2) x ∧
      hatMatrix t m k k = x (at' t k).1 (at' t k).2 := fun k => ⟨_, (hat_twoWay h hm k).1, (hat_twoWay h hm k).2 k⟩
  have hv : ∃ v : Nat → Nat → ℝ, ∀ k, v (at' t k).1 (at' t k).2 = hatMatrix t m k k := by
    refine ⟨fun o d => if hk : ∃ k, at' t k = (o, d) then hatMatrix t m hk.choose hk.choose else 0, fun k => ?_⟩
    have hk : ∃ k', at' t k' = ((at' t k).1, (at' t k).2) := ⟨k, rfl⟩
    beta_reduce
    rw [dif_pos hk, at_inj t hk.choose_spec]
  obtain ⟨v, hv⟩ := hv
  have hlev : Leverages n D q (wt m) v := by
    intro o d hp
    obtain ⟨k, hk⟩ := at_surj h hp
    obtain ⟨x, hx, e⟩ := hex k
    have h1 := hv k
    rw [hk] at hx e h1
    exact ⟨x, hx, by rw [h1, e]⟩
  refine ⟨v, hlev, ?_, ?_⟩
  · have h1 := hat_trace h hm
    rw [Finset.sum_congr rfl fun k _ => (hv k).symm, sum_at h fun p => v p.1 p.2] at h1
    rw [h1]
    have D2 := h.two_ages
    rw [Nat.cast_sub (by omega)]
    push_cast
    ring
  · intro junk
    refine ⟨_, if_neg (normal_det h hm), ?_⟩
    intro o ho d hd
    beta_reduce
    have hrow := h.row_le ho
    rw [Nat.mul_comm] at hrow
    have hlk := lt_known h ho hd
    have hg : ∀ hk : q * o + d < D, (if d = 0 then hatDiagonal junk t m o
        else if o < known t d then hatDiagonal junk t m ((∑ e ∈ Finset.range d, known t e) + o) else .nan) =
        if v o d = 1 then Tail.sqrt (junk ((∑ e ∈ Finset.range d, known t e) + o))
        else .fin (1 / Real.sqrt (1 - v o d)) := by
      intro hk
      have hp : (o, d) ∈ grid n D q := mem_grid.2 ⟨ho, hd, hk⟩
      have e0 : (if d = 0 then hatDiagonal junk t m o
          else if o < known t d then hatDiagonal junk t m ((∑ e ∈ Finset.range d, known t e) + o) else .nan) =
          hatDiagonal junk t m ((∑ e ∈ Finset.range d, known t e) + o) := by
        by_cases h0 : d = 0
        · rw [if_pos h0, h0, Finset.range_zero, Finset.sum_empty, Nat.zero_add]
        · rw [if_neg h0, if_pos (hlk.2 hk)]
      rw [e0]
      obtain ⟨hk', e⟩ := at_position h hp
      have h1 := hv ⟨_, hk'⟩
      rw [e] at h1
      simp only at h1
      unfold hatDiagonal
      rw [dif_pos hk']
      simp only
      rw [← h1]
      obtain ⟨x, hx, ex⟩ := hlev o d hp
      have hb := hx.leverage hm hp
      rw [← ex] at hb
      by_cases h2 : v o d = 1
      · rw [if_pos h2, if_neg (by rw [h2]; simp)]
      · have h3 : 0 < 1 - v o d := sub_pos.2 (lt_of_le_of_ne hb.2 h2)
        rw [if_neg h2, if_pos h3.ne', abs_of_pos h3, Num.fin_div_fin_of_ne _ h3.ne',
          Munich.sqrt_fin (div_nonneg zero_le_one h3.le), Real.sqrt_div zero_le_one, Real.sqrt_one]
    refine ⟨fun hk => ?_, fun hk h1 => ?_, fun hk h1 => ?_⟩
    · have h0 : d ≠ 0 := by
        rintro rfl
        have D2 := h.two_ages
        omega
      rw [if_neg h0, if_neg (by rw [hlk]; exact hk)]
    · rw [hg hk, if_neg h1]
    · rw [hg hk, if_pos h1]

/-- **C73**: with positive expected increments the matrix can be inverted; `hat_` of a known cell is one over the root
of one less its leverage in the fit by origins and ages weighted with the expected increments.  Leverages are between
zero and one and add up to the number of parameters. -/
theorem C73_hat_partial (h : Grid t a n D q)
    (hm : ∀ o d, (o, d) ∈ grid n D q → 0 < (m o d).amt) (junk : Nat → Num ℝ) :
    ∃ g v, hat junk t m = some g ∧ Leverages n D q (fun o d => (m o d).amt) v ∧
      (∑ p ∈ grid n D q, v p.1 p.2 = n + D - 1) ∧
      ∀ o < n, ∀ d < D,
        (¬ q * o + d < D → g o d = .nan) ∧
        (q * o + d < D → 0 ≤ v o d ∧ v o d ≤ 1 ∧ (v o d ≠ 1 → g o d = .fin (1 / Real.sqrt (1 - v o d)))) := by
  have hm' : ∀ p ∈ grid n D q, 0 < wt m p.1 p.2 := fun p hp => hm p.1 p.2 hp
  obtain ⟨v, hv, hs, hg⟩ := hat_cells h hm'
  obtain ⟨g, hg, hc⟩ := hg junk
  refine ⟨g, v, hg, hv, hs, ?_⟩
  intro o ho d hd
  obtain ⟨h1, h2, -⟩ := hc o ho d hd
  refine ⟨h1, fun hk => ?_⟩
  have hp : (o, d) ∈ grid n D q := mem_grid.2 ⟨ho, hd, hk⟩
  obtain ⟨x, hx, ex⟩ := hv o d hp
  have hb := hx.leverage hm' hp
  rw [← ex] at hb
  exact ⟨hb.1, hb.2, h2 hk⟩

/-- The last age has one known cell, of leverage one. -/
theorem leverage_last {w v : Nat → Nat → ℝ} (h : Grid t a n D q) (hw : ∀ p ∈ grid n D q, 0 < w p.1 p.2)
    (hv : Leverages n D q w v) : v 0 (D - 1) = 1 := by
  have n2 := h.two_origins
  have D2 := h.two_ages
  have hq := h.period
  have hp : (0, D - 1) ∈ grid n D q := mem_grid.2 ⟨by omega, by omega, by omega⟩
  obtain ⟨x, hx, ex⟩ := hv 0 (D - 1) hp
  rw [ex, hx.lonely hw hp (Or.inr ?_)]
  · unfold alone
    rw [if_pos rfl]
  · intro o ho
    obtain ⟨h1, h2, h3⟩ := mem_grid.1 ho
    rcases Nat.eq_zero_or_pos o with h4 | h4
    · exact h4
    · have : 1 * 1 ≤ q * o := Nat.mul_le_mul hq h4
      omega

/-- **C73 is false of cells of leverage one**: `np.divide` skips them and returns what was in memory, and every
triangle has such a cell, at the last age: `hat_` is not a function of the triangle. -/
theorem C73_memory_false (h : Grid t a n D q) (hm : ∀ o d, (o, d) ∈ grid n D q → 0 < (m o d).amt) :
    ∃ junk junk' g g', hat junk t m = some g ∧ hat junk' t m = some g' ∧ g 0 (D - 1) ≠ g' 0 (D - 1) := by
  have hm' : ∀ p ∈ grid n D q, 0 < wt m p.1 p.2 := fun p hp => hm p.1 p.2 hp
  obtain ⟨v, hv, -, hg⟩ := hat_cells h hm'
  have n2 := h.two_origins
  have D2 := h.two_ages
  have h1 := leverage_last h hm' hv
  obtain ⟨g, e1, hc⟩ := hg fun _ => .fin 0
  obtain ⟨g', e2, hc'⟩ := hg fun _ => .fin 1
  refine ⟨_, _, g, g', e1, e2, ?_⟩
  rw [(hc 0 (by omega) (D - 1) (by omega)).2.2 (by omega) h1, (hc' 0 (by omega) (D - 1) (by omega)).2.2 (by omega) h1,
    Munich.sqrt_fin le_rfl, Munich.sqrt_fin zero_le_one, Real.sqrt_zero, Real.sqrt_one]
  simp

/-! ## The residuals to draw from -/

/-- Amounts grow with the age. -/
def Increasing (t : Tri ℝ) (n D q : Nat) : Prop :=
  ∀ o < n, ∀ d, q * o + d + 1 < D → (t.values.get 0 0 o d).amt < (t.values.get 0 0 o (d + 1)).amt

theorem pairs_nonempty {d : Nat} (hn : 2 ≤ n) (hd : d + 1 < D) : 0 ∈ pairs n D q d := by
  simp [pairs]
  omega

theorem factor_gt_one (h : Sampled t a n D q) (hp : Positive t n D q) (hi : Increasing t n D q) {d : Nat}
    (hd : d + 1 < D) : 1 < volumeFactor t n D q 0 0 d := by
  have n2 := h.two_origins
  have hpos : ∀ o ∈ pairs n D q d, 0 < (t.values.get 0 0 o d).amt := by
    intro o ho
    simp only [pairs, Finset.mem_filter, Finset.mem_range] at ho
    obtain ⟨x, hx, e⟩ := hp 0 h.index_pos 0 h.columns_pos o ho.1 d (by omega) (by omega)
    rw [e]
    exact hx
  unfold volumeFactor
  rw [one_lt_div (Finset.sum_pos hpos ⟨0, pairs_nonempty n2 hd⟩)]
  refine Finset.sum_lt_sum_of_nonempty ⟨0, pairs_nonempty n2 hd⟩ ?_
  intro o ho
  simp only [pairs, Finset.mem_filter, Finset.mem_range] at ho
  exact hi o ho.1 d ho.2

theorem level_pos (h : Sampled t a n D q) (hp : Positive t n D q)
    (hf : ∀ d, d + 1 < D → 1 < f.ageFactor 0 0 d) {o d : Nat} (ho : o < n) : 0 < level t f D q o d := by
  have D2 := h.two_ages
  have hr := h.row_le ho
  rw [Nat.mul_comm] at hr
  unfold level
  obtain ⟨x, hx, e⟩ := hp 0 h.index_pos 0 h.columns_pos o ho (D - 1 - q * o) (by omega) (by omega)
  rw [e]
  refine div_pos hx (Finset.prod_pos fun j hj => ?_)
  have := Finset.mem_Ico.1 hj
  exact lt_trans zero_lt_one (hf j (by omega))

theorem step_pos (h : Sampled t a n D q) (hp : Positive t n D q)
    (hf : ∀ d, d + 1 < D → 1 < f.ageFactor 0 0 d) {o d : Nat} (hk : (o, d) ∈ grid n D q) : 0 < step t f D q o d := by
  obtain ⟨ho, hd, hk⟩ := mem_grid.1 hk
  unfold step
  by_cases h0 : d = 0
  · rw [if_pos h0, sub_zero]
    exact level_pos h hp hf ho
  · obtain ⟨e, rfl⟩ : ∃ e, d = e + 1 := ⟨d - 1, by omega⟩
    rw [if_neg h0, Nat.add_sub_cancel, sub_pos]
    have h1 := level_pos h hp hf ho (d := e + 1)
    have e1 : level t f D q o e = level t f D q o (e + 1) / f.ageFactor 0 0 e := by
      unfold level
      rw [Finset.prod_eq_prod_Ico_succ_bot (by omega), div_div, mul_comm (f.ageFactor 0 0 e)]
    rw [e1]
    exact div_lt_self h1 (hf e (by omega))

theorem grid_row (F : Nat → Nat → ℝ) {o : Nat} (ho : o < n) :
    ∑ p ∈ (grid n D q).filter fun p => p.1 = o, F p.1 p.2 = ∑ d ∈ Finset.range (D - q * o), F o d := by
  refine (Finset.sum_nbij (fun d => (o, d)) ?_ ?_ ?_ fun _ _ => rfl).symm
  · intro d hd
    have := Finset.mem_range.1 hd
    exact Finset.mem_filter.2 ⟨mem_grid.2 ⟨ho, by omega, by omega⟩, rfl⟩
  · intro x _ y _ e
    exact (Prod.mk.inj e).2
  · rintro ⟨x, y⟩ hp
    obtain ⟨h1, h2⟩ : (x, y) ∈ grid n D q ∧ x = o := by simpa using hp
    subst h2
    have := mem_grid.1 h1
    exact ⟨y, by simp; omega, rfl⟩

theorem grid_col (F : Nat → Nat → ℝ) {d : Nat} (hd : d < D) :
    ∑ p ∈ (grid n D q).filter fun p => p.2 = d, F p.1 p.2 = ∑ o ∈ recorded n D q d, F o d := by
  refine (Finset.sum_nbij (fun o => (o, d)) ?_ ?_ ?_ fun _ _ => rfl).symm
  · intro o ho
    simp only [recorded, Finset.mem_filter, Finset.mem_range] at ho
    exact Finset.mem_filter.2 ⟨mem_grid.2 ⟨ho.1, hd, by omega⟩, rfl⟩
  · intro x _ y _ e
    exact (Prod.mk.inj e).1
  · rintro ⟨x, y⟩ hp
    obtain ⟨h1, h2⟩ : (x, y) ∈ grid n D q ∧ y = d := by simpa using hp
    subst h2
    have := mem_grid.1 h1
    exact ⟨x, by simp [recorded]; omega, rfl⟩

/-- Recorded and expected increments agree along origins and ages. -/
theorem balanced (h : Sampled t a n D q) (hp : Positive t n D q) (hd : p.NoDrop)
    (hn : ∀ d, p.nPeriods d < 1) (hv : ∀ d, p.average d = .volume) (hf : Dev.fit t p = .ok f) :
    (∀ o, ∑ p ∈ (grid n D q).filter fun p => p.1 = o, (recordedStep t p.1 p.2 - step t f D q p.1 p.2) = 0) ∧
    ∀ d, ∑ p ∈ (grid n D q).filter fun p => p.2 = d, (recordedStep t p.1 p.2 - step t f D q p.1 p.2) = 0 := by
  obtain ⟨-, hvf⟩ := volume_factors h hp hd hn hv hf
  have D2 := h.two_ages
  refine ⟨fun o => ?_, fun d => ?_⟩
  · by_cases ho : o < n
    · have hr := h.row_le ho
      rw [Nat.mul_comm] at hr
      rw [grid_row (fun o d => recordedStep t o d - step t f D q o d) ho, Finset.sum_sub_distrib,
        show D - q * o = (D - 1 - q * o) + 1 by omega, row_total]
      have e1 : ∀ d, ∑ e ∈ Finset.range (d + 1), recordedStep t o e = (t.values.get 0 0 o d).amt := by
        intro d
        induction d with
        | zero => simp [recordedStep]
        | succ d ih =>
          rw [Finset.sum_range_succ, ih]
          unfold recordedStep
          rw [if_neg (by omega), Nat.add_sub_cancel]
          ring
      rw [e1]
      unfold level
      rw [Finset.Ico_self, Finset.prod_empty, div_one, sub_self]
    · refine Finset.sum_eq_zero fun p hp => ?_
      obtain ⟨x, y⟩ := p
      obtain ⟨h1, h2⟩ := Finset.mem_filter.1 hp
      have := mem_grid.1 h1
      simp only at h2
      omega
  · by_cases hdD : d < D
    · rw [grid_col (fun o d => recordedStep t o d - step t f D q o d) hdD, Finset.sum_sub_distrib,
        column_total hvf hdD]
      exact sub_self _
    · refine Finset.sum_eq_zero fun p hp => ?_
      obtain ⟨x, y⟩ := p
      obtain ⟨h1, h2⟩ := Finset.mem_filter.1 hp
      have := mem_grid.1 h1
      simp only at h2
      omega

/-- The adjusted residuals of the increments that are not as expected. -/
noncomputable def adjusted (t : Tri ℝ) (n D q : Nat) (m v : Nat → Nat → ℝ) : List ℝ :=
  (List.range n).flatMap fun o =>
    ((List.range D).filter fun d => q * o + d < D ∧ recordedStep t o d ≠ m o d).map fun d =>
      (recordedStep t o d - m o d) / (Real.sqrt (m o d) * Real.sqrt (1 - v o d))

/-- The run with the adjustment does not depend on what is in memory. -/
theorem hat_run (h : Sampled t a n D q) (hp : Positive t n D q) (hd : p.NoDrop)
    (hn : ∀ d, p.nPeriods d < 1) (hv : ∀ d, p.average d = .volume) (hi : Increasing t n D q) :
    ∃ (w : Arr ℝ) (m : Nat → Nat → Num ℝ) (s : Num ℝ) (v : Nat → Nat → ℝ),
      Leverages n D q (fun o d => (m o d).amt) v ∧
      (∀ o d, (o, d) ∈ grid n D q → v o d = 1 → recordedStep t o d = (m o d).amt) ∧
      (∀ f, Dev.fit t p = .ok f → ∀ o d, (o, d) ∈ grid n D q → (m o d).amt = step t f D q o d) ∧
      ∀ junk, fit Real.sqrt p (hat junk t) sims draw t =
        if adjusted t n D q (fun o d => (m o d).amt) v = [] ∨ sims = 0 then .error .valueError
        else .ok {
          w := w
          expected := m
          residuals := centred (adjusted t n D q (fun o d => (m o d).amt) v)
          scale := s
          resampled := samples Real.sqrt t m (centred (adjusted t n D q (fun o d => (m o d).amt) v)) sims draw } := by
  obtain ⟨f, hf, hl, -⟩ := C56_development h.toStandard hp hd hn
  obtain ⟨-, hvf⟩ := volume_factors h hp hd hn hv hf
  have hf1 : ∀ d, d + 1 < D → 1 < f.ageFactor 0 0 d := fun d hd => by
    rw [(hvf d hd).1]
    exact factor_gt_one h hp hi hd
  obtain ⟨m, hm0, hm⟩ := expected_eq h.toStandard h.isCum hl (Dev.fit_vd hf) h.long
  obtain ⟨w, hw⟩ := Dev.fit_weights hf
  obtain ⟨x, hx, -⟩ := cumToIncr_cells h.wf h.ordered h.dated h.cumulative h.noPattern
    (by rw [h.wf.2.2.2, h.lenD]; exact h.two_ages) h.nodup
  have hma : ∀ o d, (o, d) ∈ grid n D q → (m o d).amt = step t f D q o d := by
    intro o d hk
    obtain ⟨h1, h2, h3⟩ := mem_grid.1 hk
    rw [hm o h1 d h2, if_pos (by omega), Num.amt_fin]
  have hmp : ∀ p ∈ grid n D q, 0 < wt m p.1 p.2 := by
    intro p hk
    show 0 < (m p.1 p.2).amt
    rw [hma p.1 p.2 hk]
    exact step_pos h hp hf1 hk
  obtain ⟨v, hlev, -, hg⟩ := hat_cells h.toGrid hmp
  have hone : ∀ o d, (o, d) ∈ grid n D q → v o d = 1 → recordedStep t o d = step t f D q o d := by
    intro o d hk h1
    obtain ⟨y, hy, e⟩ := hlev o d hk
    obtain ⟨b1, b2⟩ := balanced h hp hd hn hv hf
    rw [e] at h1
    have := hy.bridge hmp hk h1 b1 b2
    simp only at this
    linarith
  refine ⟨w, m, scale t (residual Real.sqrt w (x.values.get 0 0) m), v, hlev, ?_, ?_, ?_⟩
  · intro o d hk h1
    rw [hone o d hk h1]
    exact (hma o d hk).symm
  · intro f' hf' o d hk
    rw [hf] at hf'
    injection hf' with hf'
    rw [← hf']
    exact hma o d hk
  intro junk
  obtain ⟨g, hg, gc⟩ := hg junk
  suffices hs : usable n D (fun o d => g o d * residual Real.sqrt w (x.values.get 0 0) m o d) =
      adjusted t n D q (fun o d => (m o d).amt) v by
    obtain ⟨w', m', x', hw', hx', hm', hrun⟩ :=
      fit_run (root := Real.sqrt) (hat := hat junk t) (sims := sims) (draw := draw) h hf hl
    rw [← hs]
    unfold fit
    rw [if_neg (by rw [h.wf.2.1, h.oneColumn]; simp), if_neg (by rw [h.wf.1, h.oneIndex]; simp),
      if_neg (by rw [h.isVal]; simp)]
    simp only [hf, hw, hm0, hx, hg, bind, Except.bind]
    rw [h.wf.2.2.1, h.wf.2.2.2, h.lenO, h.lenD]
  have hcell := residual_cell (root := Real.sqrt) h hp hd hn hw hx hm
  unfold usable adjusted
  rw [List.filterMap_flatMap]
  apply List.flatMap_congr
  intro o ho
  have ho := List.mem_range.1 ho
  rw [List.filterMap_map, ← List.filterMap_eq_map, List.filterMap_filter]
  apply List.filterMap_congr
  intro d hd'
  have hd' := List.mem_range.1 hd'
  simp only [Function.comp]
  rw [hcell o ho d hd']
  obtain ⟨g1, g2, g3⟩ := gc o ho d hd'
  by_cases hk : q * o + d < D
  · have hpg : (o, d) ∈ grid n D q := mem_grid.2 ⟨ho, hd', hk⟩
    have hsp := step_pos h hp hf1 hpg
    have hrec : recordedStep t o d ≠ 0 := by
      unfold recordedStep
      by_cases h0 : d = 0
      · subst h0
        obtain ⟨y, hy, e⟩ := hp 0 h.index_pos 0 h.columns_pos o ho 0 (by omega) (by omega)
        rw [if_pos rfl, sub_zero, e]
        exact hy.ne'
      · obtain ⟨e, rfl⟩ : ∃ e, d = e + 1 := ⟨d - 1, by omega⟩
        rw [if_neg h0, Nat.add_sub_cancel]
        exact (sub_pos.2 (hi o ho e (by omega))).ne'
    have hs0 : Real.sqrt |step t f D q o d| ≠ 0 := by
      rw [abs_of_pos hsp]
      exact (Real.sqrt_pos.2 hsp).ne'
    simp only [hma o d hpg]
    rw [if_pos ⟨by omega, hrec⟩, Num.fin_div_fin_of_ne _ hs0, abs_of_pos hsp]
    by_cases h1 : v o d = 1
    · rw [g3 hk h1, hone o d hpg h1, sub_self, zero_div]
      have hz : ∀ z : Num ℝ, z * .fin 0 = .fin 0 ∨ z * .fin 0 = .nan := by
        intro z
        cases z with
        | nan => exact Or.inr rfl
        | fin y => exact Or.inl (by rw [Num.fin_mul_fin, mul_zero])
        | pinf => exact Or.inr (by show Num.infMul true (0 : ℝ) = _; simp [Num.infMul])
        | ninf => exact Or.inr (by show Num.infMul false (0 : ℝ) = _; simp [Num.infMul])
      rcases hz (Tail.sqrt (junk ((∑ e ∈ Finset.range d, known t e) + o))) with e | e
      · rw [e]; simp
      · rw [e]; simp
    · rw [g2 hk h1, Num.fin_mul_fin]
      obtain ⟨y, hy, e⟩ := hlev o d hpg
      have hb := hy.leverage hmp hpg
      rw [← e] at hb
      have h3 : 0 < Real.sqrt (1 - v o d) := Real.sqrt_pos.2 (sub_pos.2 (lt_of_le_of_ne hb.2 h1))
      have h4 := Real.sqrt_pos.2 hsp
      by_cases h2 : recordedStep t o d = step t f D q o d
      · simp [h2]
      · have h5 : recordedStep t o d - step t f D q o d ≠ 0 := sub_ne_zero.2 h2
        have h6 : 1 / Real.sqrt (1 - v o d) * ((recordedStep t o d - step t f D q o d) / Real.sqrt (step t f D q o d)) =
            (recordedStep t o d - step t f D q o d) / (Real.sqrt (step t f D q o d) * Real.sqrt (1 - v o d)) := by
          field_simp
        have h7 : (recordedStep t o d - step t f D q o d) /
            (Real.sqrt (step t f D q o d) * Real.sqrt (1 - v o d)) ≠ 0 := div_ne_zero h5 (mul_pos h4 h3).ne'
        rw [h6]
        simp [hk, h2, h7]
  · rw [g1 hk, Num.nan_mul]
    simp [hk]

/-- **C73, pool**: with the adjustment, the residuals drawn from are the centred Pearson residuals of the recorded
increments over the roots of one less their leverages, row by row; those of increments as expected are left out, among
them all of leverage one. -/
theorem C73_pool_partial (h : Sampled t a n D q) (hp : Positive t n D q) (hd : p.NoDrop)
    (hn : ∀ d, p.nPeriods d < 1) (hv : ∀ d, p.average d = .volume) (hi : Increasing t n D q)
    (junk : Nat → Num ℝ) {r : Fitted} (hr : fit Real.sqrt p (hat junk t) sims draw t = .ok r) :
    ∃ v : Nat → Nat → ℝ, ∃ l : List ℝ, Leverages n D q (fun o d => (r.expected o d).amt) v ∧
      (∀ o d, (o, d) ∈ grid n D q → v o d = 1 → recordedStep t o d = (r.expected o d).amt) ∧
      l = ((List.range n).flatMap fun o =>
        ((List.range D).filter fun d => q * o + d < D ∧ recordedStep t o d ≠ (r.expected o d).amt).map fun d =>
          (recordedStep t o d - (r.expected o d).amt) /
            (Real.sqrt (r.expected o d).amt * Real.sqrt (1 - v o d))) ∧
      r.residuals = l.map fun y => y - l.sum / (l.length : ℝ) := by
  obtain ⟨w, m, s, v, h1, h2, -, hrun⟩ := hat_run (sims := sims) (draw := draw) h hp hd hn hv hi
  rw [hrun junk] at hr
  split_ifs at hr with hc
  injection hr with hr
  rw [← hr]
  exact ⟨v, _, h1, h2, rfl, rfl⟩

/-- **C73, memory**: what `np.divide` leaves in memory changes `hat_`, but not the samples. -/
theorem C73_memory_partial (h : Sampled t a n D q) (hp : Positive t n D q) (hd : p.NoDrop)
    (hn : ∀ d, p.nPeriods d < 1) (hv : ∀ d, p.average d = .volume) (hi : Increasing t n D q)
    (junk junk' : Nat → Num ℝ) :
    fit Real.sqrt p (hat junk t) sims draw t = fit Real.sqrt p (hat junk' t) sims draw t := by
  obtain ⟨w, m, s, v, -, -, -, hrun⟩ := hat_run (sims := sims) (draw := draw) h hp hd hn hv hi
  rw [hrun junk, hrun junk']

/-- **C73, it runs**: one recorded increment that is not as expected is enough. -/
theorem C73_runs_partial (h : Sampled t a n D q) (hp : Positive t n D q) (hd : p.NoDrop)
    (hn : ∀ d, p.nPeriods d < 1) (hv : ∀ d, p.average d = .volume) (hi : Increasing t n D q)
    (hf : Dev.fit t p = .ok f) (hs : sims ≠ 0) {o d : Nat} (hk : (o, d) ∈ grid n D q)
    (hne : recordedStep t o d ≠ step t f D q o d) (junk : Nat → Num ℝ) :
    ∃ r, fit Real.sqrt p (hat junk t) sims draw t = .ok r := by
  obtain ⟨w, m, s, v, -, -, hm, hrun⟩ := hat_run (sims := sims) (draw := draw) h hp hd hn hv hi
  rw [hrun junk, if_neg]
  · exact ⟨_, rfl⟩
  · rintro (h1 | h1)
    · obtain ⟨h2, h3, h4⟩ := mem_grid.1 hk
      unfold adjusted at h1
      rw [List.flatMap_eq_nil_iff] at h1
      have h5 := h1 o (List.mem_range.2 h2)
      rw [List.map_eq_nil_iff, List.filter_eq_nil_iff] at h5
      refine h5 d (List.mem_range.2 h3) ?_
      rw [decide_eq_true_iff]
      refine ⟨h4, ?_⟩
      beta_reduce
      rw [hm f hf o d hk]
      exact hne
    · exact hs h1

namespace C73

theorem increasing : Increasing Tail.C37.tri 3 3 1 := by
  intro o ho d hd
  have : o = 0 ∧ d = 0 ∨ o = 0 ∧ d = 1 ∨ o = 1 ∧ d = 0 := by omega
  rcases this with ⟨rfl, rfl⟩ | ⟨rfl, rfl⟩ | ⟨rfl, rfl⟩
  · show (100 : ℝ) < 150
    norm_num
  · show (150 : ℝ) < 165
    norm_num
  · show (110 : ℝ) < 168
    norm_num

/-- Three origins and five parameters: the first amount of the last origin and the last of the first have leverage one,
the other four share three. -/
example {m : Nat → Nat → Num ℝ} (hm : ∀ o d, (o, d) ∈ grid 3 3 1 → 0 < (m o d).amt) :
    ∃ (g : Nat → Nat → Num ℝ) (v : Nat → Nat → ℝ), hat (fun _ => .nan) Tail.C37.tri m = some g ∧ v 0 2 = 1 ∧ v 2 0 = 1 ∧
      v 0 0 + v 0 1 + v 1 0 + v 1 1 = 3 ∧ g 1 2 = .nan ∧
      (v 1 1 ≠ 1 → g 1 1 = .fin (1 / Real.sqrt (1 - v 1 1))) := by
  obtain ⟨g, v, h1, h2, h3, h4⟩ := C73_hat_partial C61.sampled.toGrid hm fun _ => .nan
  have hw : ∀ p ∈ grid 3 3 1, 0 < (fun o d => (m o d).amt) p.1 p.2 := fun p hp => hm p.1 p.2 hp
  have e1 : v 0 2 = 1 := leverage_last C61.sampled.toGrid hw h2
  have e2 : v 2 0 = 1 := by
    have hp : (2, 0) ∈ grid 3 3 1 := by decide
    obtain ⟨x, hx, ex⟩ := h2 2 0 hp
    rw [ex, hx.lonely hw hp (Or.inl ?_)]
    · unfold alone
      rw [if_pos rfl]
    · intro d hd
      have := mem_grid.1 hd
      omega
  refine ⟨g, v, h1, e1, e2, ?_, (h4 1 (by decide) 2 (by decide)).1 (by decide),
    ((h4 1 (by decide) 1 (by decide)).2 (by decide)).2.2⟩
  have hg : grid 3 3 1 = {(0, 0), (0, 1), (0, 2), (1, 0), (1, 1), (2, 0)} := by decide
  rw [hg] at h3
  simp at h3
  rw [e1, e2] at h3
  linarith

/-- The triangle with 100, 150, 165 in its first origin: the samples do not depend on memory. -/
example (sims : Nat) (draw : Nat → Nat → Nat → Nat) (junk : Nat → Num ℝ) :
    fit Real.sqrt C61.params (hat junk Tail.C37.tri) sims draw Tail.C37.tri =
      fit Real.sqrt C61.params (hat (fun _ => .fin 0) Tail.C37.tri) sims draw Tail.C37.tri :=
  C73_memory_partial C61.sampled C56.positive C61.params_drop C61.params_all (fun _ => rfl) increasing _ _

/-- The first origin has 50 recorded at 24 months and 50.94 expected: the adjusted residuals can be drawn from. -/
example (draw : Nat → Nat → Nat → Nat) (junk : Nat → Num ℝ) :
    ∃ r, fit Real.sqrt C61.params (hat junk Tail.C37.tri) 10 draw Tail.C37.tri = .ok r := by
  obtain ⟨f, hf, -⟩ := C56_development C61.sampled.toStandard C56.positive C61.params_drop C61.params_all
  obtain ⟨f0, f1⟩ := C61.factors hf
  refine C73_runs_partial C61.sampled C56.positive C61.params_drop C61.params_all (fun _ => rfl) increasing hf
    (by decide) (o := 0) (d := 1) (by decide) ?_ junk
  have e1 : recordedStep Tail.C37.tri 0 1 = 50 := by
    show (150 : ℝ) - 100 = 50
    norm_num
  have e2 : step Tail.C37.tri f 3 1 0 1 = 150 - 150 / (318 / 210) := by
    show (165 : ℝ) / ∏ j ∈ Finset.Ico 1 2, f.ageFactor 0 0 j - 165 / ∏ j ∈ Finset.Ico 0 2, f.ageFactor 0 0 j = _
    have p1 : ∏ j ∈ Finset.Ico 1 2, f.ageFactor 0 0 j = 165 / 150 := by
      rw [Finset.prod_Ico_succ_top (by decide), Finset.Ico_self, Finset.prod_empty, one_mul, f1]
    have p2 : ∏ j ∈ Finset.Ico 0 2, f.ageFactor 0 0 j = 318 / 210 * (165 / 150) := by
      rw [Finset.prod_Ico_succ_top (by decide), Finset.prod_Ico_succ_top (by decide), Finset.Ico_self,
        Finset.prod_empty, one_mul, f0, f1]
    rw [p1, p2]
    norm_num
  rw [e1, e2]
  norm_num

end C73

end Boot
end CL
