import Verif.Lemmas.Bootstrap

set_option linter.unusedSectionVars false

/-! # C61: bootstrap samples of the chain ladder -/

namespace CL
namespace Boot
open Tri Work

variable {t f : Tri ℝ} {a : Int} {n D q : Nat} {root : ℝ → ℝ} {p : Dev.Params ℝ}
  {hat : (Nat → Nat → Num ℝ) → Option (Nat → Nat → Num ℝ)} {sims : Nat} {draw : Nat → Nat → Nat → Nat}

/-- **C61, samples**: whatever is drawn, every sample has the labels of the triangle and is known exactly
where the triangle is; its amounts are the running totals of the expected increments, each plus a residual
times the root of the expected increment.  The residuals drawn from add up to zero. -/
theorem C61_samples_partial (h : Sampled t a n D q) (hf : Dev.fit t p = .ok f) (hl : Tail.LinkPattern t f)
    {r : Fitted} (hr : fit root p hat sims draw t = .ok r) :
    WF r.resampled ∧ r.resampled.kdims.length = sims ∧ r.resampled.vdims = t.vdims ∧
    r.resampled.odims = t.odims ∧ r.resampled.ddims = t.ddims ∧ r.resampled.vd = t.vd ∧
    r.resampled.isCum = some true ∧ r.residuals ≠ [] ∧ r.residuals.sum = 0 ∧
    ∀ k < sims, ∀ o < n, ∀ d < D,
      (q * o + d + 1 ≤ D → r.resampled.values.get k 0 o d =
        .fin (∑ e ∈ Finset.range (d + 1), ((r.expected o e).amt +
          r.residuals.getD (draw k o e) 0 * root |(r.expected o e).amt|))) ∧
      (D < q * o + d + 1 → r.resampled.values.get k 0 o d = .nan) := by
  obtain ⟨h1, h2, h3, h4⟩ := fit_ok h hf hl hr
  rw [h4]
  refine ⟨⟨?_, ?_, h.wf.2.2.1, h.wf.2.2.2⟩, ?_, rfl, rfl, rfl, rfl, h.isCum, h2, h3, ?_⟩
  · show sims = ((List.range sims).map _).length
    simp
  · exact h.oneColumn.symm
  · show ((List.range sims).map _).length = sims
    simp
  · intro k _ o ho d hd
    rw [sample_cell h h1 r.residuals ho hd]
    refine ⟨fun hk => ?_, fun hk => if_neg (by omega)⟩
    rw [if_pos hk]
    congr 1
    apply Finset.sum_congr rfl
    intro e he
    have he := Finset.mem_range.1 he
    rw [h1 o ho e (by omega), if_pos (by omega), Num.amt_fin]

/-- **C61, expectation**: an expected increment is known where the triangle is and is the difference of
the latest amount discounted with the fitted factors; those of an origin add up to its latest amount. -/
theorem C61_expected_partial (h : Sampled t a n D q) (hf : Dev.fit t p = .ok f) (hl : Tail.LinkPattern t f)
    {r : Fitted} (hr : fit root p hat sims draw t = .ok r) :
    ∀ o < n,
      (∀ d < D, q * o + d + 1 ≤ D → ∃ x, r.expected o d = .fin x ∧
        (∑ e ∈ Finset.range (d + 1), (r.expected o e).amt) * ∏ j ∈ Finset.Ico d (D - 1 - q * o), f.ageFactor 0 0 j =
          (t.values.get 0 0 o (D - 1 - q * o)).amt) ∧
      (∀ d < D, D < q * o + d + 1 → r.expected o d = .nan) ∧
      ∑ d ∈ Finset.range (D - q * o), (r.expected o d).amt = (t.values.get 0 0 o (D - 1 - q * o)).amt := by
  obtain ⟨h1, h2, h3, h4⟩ := fit_ok h hf hl hr
  intro o ho
  have hrow := h.row_le ho
  rw [Nat.mul_comm] at hrow
  have hsum : ∀ d < D, q * o + d + 1 ≤ D →
      ∑ e ∈ Finset.range (d + 1), (r.expected o e).amt = level t f D q o d := by
    intro d hd hk
    rw [← row_total]
    apply Finset.sum_congr rfl
    intro e he
    have he := Finset.mem_range.1 he
    rw [h1 o ho e (by omega), if_pos (by omega), Num.amt_fin]
  refine ⟨fun d hd hk => ⟨_, by rw [h1 o ho d hd, if_pos hk], ?_⟩, fun d hd hk => by
    rw [h1 o ho d hd, if_neg (by omega)], ?_⟩
  · rw [hsum d hd hk]
    unfold level
    rw [div_mul_cancel₀]
    rw [Finset.prod_ne_zero_iff]
    intro j hj
    have hj := (Finset.mem_Ico.1 hj).2
    obtain ⟨hlen, -⟩ := hl.length
    have i0 : (if f.kdims.length = 1 then 0 else 0) < f.values.d0 := by
      rw [hl.wf.1]
      rcases hl.index with e | e
      · rw [e, h.oneIndex]; simp
      · rw [e]; simp
    have c0 : (if f.vdims.length = 1 then 0 else 0) < f.values.d1 := by
      rw [hl.wf.2.1]
      rcases hl.columns with e | e
      · rw [e, h.oneColumn]; simp
      · rw [e]; simp
    obtain ⟨x, hx, ex⟩ := hl.factors _ i0 _ c0 j (by rw [hl.wf.2.2.2]; rw [h.lenD] at hlen; omega)
    unfold ageFactor
    rw [ex]
    exact hx
  · rw [show D - q * o = (D - 1 - q * o) + 1 by omega, hsum _ (by omega) (by omega), level_latest]

/-- The factors fitted without exclusions. -/
theorem volume_factors (h : Sampled t a n D q) (hp : Positive t n D q) (hd : p.NoDrop)
    (hn : ∀ d, p.nPeriods d < 1) (hv : ∀ d, p.average d = .volume) (hf : Dev.fit t p = .ok f) :
    Tail.LinkPattern t f ∧
      ∀ d, d + 1 < D → f.ageFactor 0 0 d = volumeFactor t n D q 0 0 d ∧ f.ageFactor 0 0 d ≠ 0 := by
  obtain ⟨f', e1, e2, -, e3⟩ := C56_development h.toStandard hp hd hn
  rw [hf] at e1
  injection e1 with e1
  subst e1
  refine ⟨e2, fun d hd' => ?_⟩
  have e4 := e3 0 h.index_pos 0 h.columns_pos d hd'
  have e5 := average_pos hp h.two_origins h.index_pos h.columns_pos hd' (p.average d)
  refine ⟨?_, by rw [e4]; exact e5.ne'⟩
  rw [e4, hv d]
  rfl

/-- **C61, column totals**: with volume-weighted factors and nothing excluded, the increments expected at an
age add up to those recorded, whatever the residuals and the draws. -/
theorem C61_columns_partial (h : Sampled t a n D q) (hp : Positive t n D q) (hd : p.NoDrop)
    (hn : ∀ d, p.nPeriods d < 1) (hv : ∀ d, p.average d = .volume) {r : Fitted}
    (hr : fit root p hat sims draw t = .ok r) :
    ∀ d < D, ∑ o ∈ recorded n D q d, (r.expected o d).amt =
      ∑ o ∈ recorded n D q d,
        ((t.values.get 0 0 o d).amt - if d = 0 then 0 else (t.values.get 0 0 o (d - 1)).amt) := by
  obtain ⟨f, hf, hl, -⟩ := C56_development h.toStandard hp hd hn
  obtain ⟨-, hvf⟩ := volume_factors h hp hd hn hv hf
  obtain ⟨h1, -⟩ := fit_ok h hf hl hr
  intro d hdD
  rw [← column_total hvf hdD]
  apply Finset.sum_congr rfl
  intro o ho
  simp only [recorded, Finset.mem_filter, Finset.mem_range] at ho
  rw [h1 o ho.1 d hdD, if_pos ho.2, Num.amt_fin]

/-- Other draws change the samples only. -/
theorem fit_draw {r : Fitted} (hr : fit root p hat sims draw t = .ok r) (draw' : Nat → Nat → Nat → Nat) :
    fit root p hat sims draw' t = .ok { r with resampled := samples root t r.expected r.residuals sims draw' } := by
  unfold fit at hr ⊢
  split_ifs at hr ⊢
  simp only [bind, Except.bind] at hr ⊢
  cases h1 : Dev.fit t p with
  | error e => rw [h1] at hr; exact absurd hr (by simp)
  | ok f =>
    rw [h1] at hr
    simp only at hr ⊢
    cases h2 : Dev.weights t p with
    | error e => rw [h2] at hr; exact absurd hr (by simp)
    | ok w =>
      rw [h2] at hr
      simp only at hr ⊢
      cases h3 : expected t f with
      | error e => rw [h3] at hr; exact absurd hr (by simp)
      | ok m =>
        rw [h3] at hr
        simp only at hr ⊢
        cases h4 : t.cumToIncr with
        | error e => rw [h4] at hr; exact absurd hr (by simp)
        | ok x =>
          rw [h4] at hr
          simp only at hr ⊢
          split_ifs at hr ⊢
          injection hr with hr
          rw [← hr]

/-- A table with one draw for each cell of each sample. -/
def table {sims n D L : Nat} (x : Fin sims × Fin n × Fin D → Fin L) (k o d : Nat) : Nat :=
  if h : k < sims ∧ o < n ∧ d < D then x (⟨k, h.1⟩, ⟨o, h.2.1⟩, ⟨d, h.2.2⟩) else 0

theorem list_sum_fin (l : List ℝ) : ∑ j : Fin l.length, l.getD j 0 = l.sum := by
  rw [← List.sum_ofFn]
  congr 1
  apply List.ext_getElem
  · simp
  · intro i h1 h2
    simp [h2]

/-- **C61, unbiased**: over all tables of draws, each residual being as likely as any other, the mean of every
sampled amount is the total of the expected increments up to its age. -/
theorem C61_mean_partial (h : Sampled t a n D q) (hf : Dev.fit t p = .ok f) (hl : Tail.LinkPattern t f) {r : Fitted}
    (hr : fit root p hat sims draw t = .ok r) :
    ∃ R : (Fin sims × Fin n × Fin D → Fin r.residuals.length) → Fitted,
      (∀ x, fit root p hat sims (table x) t = .ok (R x)) ∧
      ∀ k < sims, ∀ o < n, ∀ d < D, q * o + d + 1 ≤ D →
        ∑ x, ((R x).resampled.values.get k 0 o d).amt =
          (r.residuals.length : ℝ) ^ (sims * (n * D)) * ∑ e ∈ Finset.range (d + 1), (r.expected o e).amt := by
  obtain ⟨h1, h2, h3, h4⟩ := fit_ok h hf hl hr
  refine ⟨fun x => { r with resampled := samples root t r.expected r.residuals sims (table x) },
    fun x => fit_draw hr (table x), ?_⟩
  intro k hk o ho d hd hkn
  have hm : ∀ e ≤ d, (r.expected o e).amt = step t f D q o e := by
    intro e he
    rw [h1 o ho e (by omega), if_pos (by omega), Num.amt_fin]
  have hcell : ∀ x : Fin sims × Fin n × Fin D → Fin r.residuals.length,
      ((samples root t r.expected r.residuals sims (table x)).values.get k 0 o d).amt =
        ∑ e ∈ Finset.range (d + 1), (r.expected o e).amt +
        ∑ e ∈ Finset.range (d + 1), r.residuals.getD (table x k o e) 0 * root |(r.expected o e).amt| := by
    intro x
    rw [sample_cell h h1 r.residuals ho hd, if_pos hkn, Num.amt_fin, ← Finset.sum_add_distrib]
    apply Finset.sum_congr rfl
    intro e he
    have he := Finset.mem_range.1 he
    rw [hm e (by omega)]
  simp only [hcell]
  have hz : ∀ e ∈ Finset.range (d + 1), ∑ x : Fin sims × Fin n × Fin D → Fin r.residuals.length,
      r.residuals.getD (table x k o e) 0 * root |(r.expected o e).amt| = 0 := by
    intro e he
    have he := Finset.mem_range.1 he
    rw [← Finset.sum_mul]
    have := sum_coordinate ((⟨k, hk⟩, ⟨o, ho⟩, ⟨e, by omega⟩) : Fin sims × Fin n × Fin D)
      (fun j : Fin r.residuals.length => r.residuals.getD j 0) (by rw [list_sum_fin, h3])
    have h5 : ∀ x : Fin sims × Fin n × Fin D → Fin r.residuals.length, table x k o e = x (⟨k, hk⟩, ⟨o, ho⟩, ⟨e, by omega⟩) :=
      fun x => dif_pos (c := k < sims ∧ o < n ∧ e < D) ⟨hk, ho, by omega⟩
    simp only [h5]
    rw [this, zero_mul]
  have hz' : ∑ x : Fin sims × Fin n × Fin D → Fin r.residuals.length, ∑ e ∈ Finset.range (d + 1),
      r.residuals.getD (table x k o e) 0 * root |(r.expected o e).amt| = 0 := by
    rw [Finset.sum_comm]
    exact Finset.sum_eq_zero hz
  rw [Finset.sum_add_distrib, hz', add_zero, Finset.sum_const, nsmul_eq_mul, Finset.card_univ, Fintype.card_fun]
  simp

/-- The increment recorded at an age. -/
noncomputable def recordedStep (t : Tri ℝ) (o d : Nat) : ℝ :=
  (t.values.get 0 0 o d).amt - if d = 0 then 0 else (t.values.get 0 0 o (d - 1)).amt

/-- The residual of each cell, without exclusions. -/
theorem residual_cell (h : Sampled t a n D q) (hp : Positive t n D q) (hd : p.NoDrop)
    (hn : ∀ d, p.nPeriods d < 1) {w : Arr ℝ} {x : Tri ℝ} (hw : Dev.weights t p = .ok w) (hx : t.cumToIncr = .ok x)
    {m : Nat → Nat → Num ℝ} {g : Nat → Nat → ℝ}
    (hm : ∀ o < n, ∀ d < D, m o d = if q * o + d + 1 ≤ D then .fin (g o d) else .nan) :
    ∀ o < n, ∀ d < D, residual root w (x.values.get 0 0) m o d =
      if q * o + d + 1 ≤ D ∧ recordedStep t o d ≠ 0 then
        .fin (recordedStep t o d - g o d) / .fin (root |g o d|)
      else .nan := by
  obtain ⟨w', hw', hwc⟩ := Dev.weights_all (t := t) hd hn
  rw [hw] at hw'
  injection hw' with hw'
  subst hw'
  obtain ⟨x', hx', -, -, hxc⟩ := cumToIncr_cells h.wf h.ordered h.dated h.cumulative h.noPattern
    (by rw [h.wf.2.2.2, h.lenD]; exact h.two_ages) h.nodup
  rw [hx] at hx'
  injection hx' with hx'
  subst hx'
  obtain ⟨w0, w1, w2, w3⟩ := h.wf
  have two := h.two_ages
  intro o ho d hdD
  have hin : t.values.In 0 0 o d := ⟨by rw [w0]; exact h.index_pos, by rw [w1]; exact h.columns_pos,
    by rw [w2, h.lenO]; exact ho, by rw [w3, h.lenD]; exact hdD⟩
  unfold residual
  by_cases hk : q * o + d + 1 ≤ D
  · obtain ⟨y, hy, ey⟩ := hp 0 h.index_pos 0 h.columns_pos o ho d hdD hk
    obtain ⟨z, hz, ez⟩ := hp 0 h.index_pos 0 h.columns_pos o ho (d - 1) (by omega) (by omega)
    have ew : w.get 0 0 o (d - 1) = .fin 1 := by
      rw [hwc 0 hin.1 0 hin.2.1 o hin.2.2.1 (d - 1) (by rw [w3, h.lenD]; omega), h.nanTri ho (by omega),
        if_pos (by omega), ez]
      show (Num.fin z * Num.fin 0 + Num.fin 1) * (Num.fin 1 * Num.fin 1 * Num.fin 1) = _
      simp only [Num.fin_mul_fin, Num.fin_add_fin]
      congr 1
      ring
    have ex : x.values.get 0 0 o d = if recordedStep t o d = 0 then .nan else .fin (recordedStep t o d) := by
      rw [hxc 0 0 o d hin]
      unfold recordedStep
      by_cases hd0 : d = 0
      · subst hd0
        rw [if_pos rfl, if_pos rfl, ey, Num.amt_fin, sub_zero, if_neg hy.ne']
      · have em : t.diffMask o d = 1 := by
          unfold diffMask
          have := h.valuation_gt ho hdD
          rw [if_neg (c := t.valuation o d > t.vd) (by intro h5; have := this.1 h5; omega)]
          split_ifs <;> rfl
        rw [if_neg hd0, if_neg hd0, ey, ez, em]
        show ((Num.fin y - Num.fin z) * Num.fin 1).numToNan = _
        rw [Num.fin_sub_fin, Num.fin_mul_fin, mul_one, Num.numToNan_fin]
        rfl
    rw [hm o ho d hdD, if_pos hk, ew, ex]
    by_cases h0 : recordedStep t o d = 0
    · rw [if_pos h0, if_neg (by simp [h0])]
      rfl
    · rw [if_neg h0, if_pos ⟨hk, h0⟩]
      show (Num.fin _ - Num.fin _) / Num.fin _ * Num.fin 1 = _
      rw [Num.fin_sub_fin, Num.fin_div_fin]
      split_ifs
      · rfl
      · show Num.infMul true (1 : ℝ) = _
        simp [Num.infMul]
      · show Num.infMul false (1 : ℝ) = _
        simp [Num.infMul]
      · rw [Num.fin_mul_fin, mul_one]
  · rw [hm o ho d hdD, if_neg hk, if_neg (by tauto)]
    cases x.values.get 0 0 o d <;> rfl

/-- **C61, pool**: with all data used and no adjustment by the hat matrix, the residuals drawn from are the
centred Pearson residuals of the recorded increments, row by row.  Those of increments that are zero, or as
expected, or expected to be zero are left out. -/
theorem C61_pool_partial (h : Sampled t a n D q) (hp : Positive t n D q) (hd : p.NoDrop)
    (hn : ∀ d, p.nPeriods d < 1) {r : Fitted} (hr : fit root p (fun _ => none) sims draw t = .ok r) :
    ∃ l : List ℝ, l = ((List.range n).flatMap fun o =>
        ((List.range D).filter fun d => q * o + d + 1 ≤ D ∧ recordedStep t o d ≠ 0 ∧
          root |(r.expected o d).amt| ≠ 0 ∧ recordedStep t o d ≠ (r.expected o d).amt).map fun d =>
            (recordedStep t o d - (r.expected o d).amt) / root |(r.expected o d).amt|) ∧
      r.residuals = l.map fun y => y - l.sum / (l.length : ℝ) := by
  obtain ⟨f, hf, hl, -⟩ := C56_development h.toStandard hp hd hn
  obtain ⟨w, m, x, hw, hx, hm, hrun⟩ := fit_run (root := root) (hat := fun _ => none) (sims := sims) (draw := draw) h hf hl
  rw [hrun] at hr
  simp only at hr
  split_ifs at hr with hc
  injection hr with hr
  rw [← hr]
  refine ⟨_, rfl, ?_⟩
  show centred _ = _
  suffices hs : usable n D (residual root w (x.values.get 0 0) m) = ((List.range n).flatMap fun o =>
        ((List.range D).filter fun d => q * o + d + 1 ≤ D ∧ recordedStep t o d ≠ 0 ∧
          root |(m o d).amt| ≠ 0 ∧ recordedStep t o d ≠ (m o d).amt).map fun d =>
            (recordedStep t o d - (m o d).amt) / root |(m o d).amt|) by
    rw [hs]; rfl
  have hcell := residual_cell (root := root) h hp hd hn hw hx hm
  unfold usable
  rw [List.filterMap_flatMap]
  apply List.flatMap_congr
  intro o ho
  have ho := List.mem_range.1 ho
  rw [List.filterMap_map, ← List.filterMap_eq_map, List.filterMap_filter]
  apply List.filterMap_congr
  intro d hd'
  have hd' := List.mem_range.1 hd'
  simp only [Function.comp]
  rw [hcell o ho d hd']
  by_cases hk : q * o + d + 1 ≤ D
  · have em : (m o d).amt = step t f D q o d := by rw [hm o ho d hd', if_pos hk, Num.amt_fin]
    rw [em]
    by_cases h0 : recordedStep t o d = 0
    · simp [h0]
    · rw [if_pos ⟨hk, h0⟩, Num.fin_div_fin]
      by_cases h1 : root |step t f D q o d| = 0
      · rw [if_pos h1]
        split_ifs <;> first | rfl | simp_all
      · rw [if_neg h1]
        by_cases h2 : recordedStep t o d = step t f D q o d
        · simp [h2]
        · have h3 : recordedStep t o d - step t f D q o d ≠ 0 := sub_ne_zero.2 h2
          simp [hk, h0, h1, h2, h3]
  · rw [if_neg (by tauto)]
    simp [hk]

/-- **C61, scale**: with the square root, no increment recorded or expected to be zero, the scale is Pearson's
statistic over the number of known cells less the number of parameters. -/
theorem C61_scale_partial (h : Sampled t a n D q) (hp : Positive t n D q) (hd : p.NoDrop)
    (hn : ∀ d, p.nPeriods d < 1) {r : Fitted} (hr : fit Real.sqrt p hat sims draw t = .ok r)
    (hz : ∀ o < n, ∀ d < D, q * o + d + 1 ≤ D → recordedStep t o d ≠ 0 ∧ (r.expected o d).amt ≠ 0)
    (hc : n + D - 1 < ∑ d ∈ Finset.range D, (recorded n D q d).card) :
    r.scale = .fin ((∑ d ∈ Finset.range D, ∑ o ∈ recorded n D q d,
        (recordedStep t o d - (r.expected o d).amt) ^ 2 / |(r.expected o d).amt|) /
      ((∑ d ∈ Finset.range D, (recorded n D q d).card : Nat) - (n + D - 1 : Nat))) := by
  obtain ⟨f, hf, hl, -⟩ := C56_development h.toStandard hp hd hn
  obtain ⟨w, m, x, hw, hx, hm, hrun⟩ := fit_run (root := Real.sqrt) (hat := hat) (sims := sims) (draw := draw) h hf hl
  rw [hrun] at hr
  simp only at hr
  split_ifs at hr with hcc
  injection hr with hr
  rw [← hr] at hz ⊢
  simp only at hz ⊢
  have hcell := residual_cell (root := Real.sqrt) h hp hd hn hw hx hm
  obtain ⟨w0, w1, w2, w3⟩ := h.wf
  have two := h.two_ages
  unfold scale
  rw [w2, w3, h.lenO, h.lenD]
  have e1 : ∀ d ∈ Finset.range D, ∑ o ∈ Finset.range n, (residual Real.sqrt w (x.values.get 0 0) m o d).nanToNum *
      (residual Real.sqrt w (x.values.get 0 0) m o d).nanToNum =
      .fin (∑ o ∈ recorded n D q d, (recordedStep t o d - (m o d).amt) ^ 2 / |(m o d).amt|) := by
    intro d hd'
    have hd' := Finset.mem_range.1 hd'
    unfold recorded
    rw [Finset.sum_filter, ← Num.sum_fin]
    apply Finset.sum_congr rfl
    intro o ho
    have ho := Finset.mem_range.1 ho
    rw [hcell o ho d hd']
    by_cases hk : q * o + d + 1 ≤ D
    · obtain ⟨z1, z2⟩ := hz o ho d hd' hk
      have em : (m o d).amt = step t f D q o d := by rw [hm o ho d hd', if_pos hk, Num.amt_fin]
      rw [em] at z2
      have hpos : 0 < |step t f D q o d| := abs_pos.2 z2
      rw [if_pos ⟨hk, z1⟩, if_pos hk, em, Num.fin_div_fin_of_ne _ (Real.sqrt_pos.2 hpos).ne', Num.nanToNum_fin,
        Num.fin_mul_fin, div_mul_div_comm, Real.mul_self_sqrt hpos.le, sq]
    · rw [if_neg (by tauto), if_neg hk, Num.nanToNum_nan, Num.fin_mul_fin, zero_mul]
  have e2 : ∑ o ∈ Finset.range n, ∑ d ∈ Finset.range D, (t.nanTri o d).nanToNum =
      .fin ((∑ d ∈ Finset.range D, (recorded n D q d).card : Nat) : ℝ) := by
    rw [Finset.sum_comm, Nat.cast_sum, ← Num.sum_fin]
    apply Finset.sum_congr rfl
    intro d hd'
    have hd' := Finset.mem_range.1 hd'
    unfold recorded
    rw [Finset.card_filter, Nat.cast_sum, ← Num.sum_fin]
    apply Finset.sum_congr rfl
    intro o ho
    have ho := Finset.mem_range.1 ho
    rw [h.nanTri ho hd']
    split_ifs
    · show Num.fin (1 : ℝ) = _
      simp
    · simp
  rw [Finset.sum_congr rfl e1, Num.sum_fin, e2, Num.fin_sub_fin, Num.fin_div_fin_of_ne, show n + (D - 1) = n + D - 1 by omega]
  rw [show n + (D - 1) = n + D - 1 by omega]
  exact sub_ne_zero.2 (by exact_mod_cast hc.ne')

/-- Amounts in fixed proportions are what the chain ladder expects. -/
theorem step_exact {c : Nat → ℝ} (hf : ∀ d, d + 1 < D → f.ageFactor 0 0 d = c d ∧ c d ≠ 0) {o : Nat}
    (he : ∀ d, q * o + d + 1 < D → (t.values.get 0 0 o (d + 1)).amt = (t.values.get 0 0 o d).amt * c d) :
    ∀ d, q * o + d + 1 ≤ D → step t f D q o d = recordedStep t o d := by
  have hlev : ∀ k d, q * o + d + 1 + k = D → level t f D q o d = (t.values.get 0 0 o d).amt := by
    intro k
    induction k with
    | zero =>
      intro d hd
      have : d = D - 1 - q * o := by omega
      rw [this, level_latest]
    | succ k ih =>
      intro d hd
      have hlt : q * o + d + 1 < D := by omega
      obtain ⟨h1, h2⟩ := hf d (by omega)
      rw [level_succ hlt, ih (d + 1) (by omega), he d hlt, h1, mul_div_cancel_right₀ _ h2]
  intro d hd
  unfold step recordedStep
  rw [hlev (D - (q * o + d + 1)) d (by omega)]
  split_ifs with h0
  · rfl
  · rw [hlev (D - (q * o + (d - 1) + 1)) (d - 1) (by omega)]

/-- **C61, exact data**: a triangle whose origins develop in the same proportions cannot be sampled. -/
theorem C61_exact (h : Sampled t a n D q) (hp : Positive t n D q) (hd : p.NoDrop)
    (hn : ∀ d, p.nPeriods d < 1) (hv : ∀ d, p.average d = .volume) {c : Nat → ℝ}
    (he : ∀ o < n, ∀ d, q * o + d + 1 < D → (t.values.get 0 0 o (d + 1)).amt = (t.values.get 0 0 o d).amt * c d) :
    fit root p hat sims draw t = .error .valueError := by
  obtain ⟨f, hf, hl, -⟩ := C56_development h.toStandard hp hd hn
  obtain ⟨-, hvf⟩ := volume_factors h hp hd hn hv hf
  have hfc : ∀ d, d + 1 < D → f.ageFactor 0 0 d = c d ∧ c d ≠ 0 := by
    intro d hd'
    obtain ⟨v1, v2⟩ := hvf d hd'
    have e : f.ageFactor 0 0 d = c d := by
      rw [v1]
      unfold volumeFactor at v1 ⊢
      have hs : ∑ o ∈ pairs n D q d, (t.values.get 0 0 o (d + 1)).amt =
          (∑ o ∈ pairs n D q d, (t.values.get 0 0 o d).amt) * c d := by
        rw [Finset.sum_mul]
        apply Finset.sum_congr rfl
        intro o ho
        simp only [pairs, Finset.mem_filter, Finset.mem_range] at ho
        exact he o ho.1 d ho.2
      rw [hs] at v1 ⊢
      rw [mul_div_cancel_left₀]
      intro h0
      rw [h0] at v1
      rw [v1] at v2
      simp at v2
    exact ⟨e, e ▸ v2⟩
  obtain ⟨w, m, x, hw, hx, hm, hrun⟩ := fit_run (root := root) (hat := hat) (sims := sims) (draw := draw) h hf hl
  have hcell := residual_cell (root := root) h hp hd hn hw hx hm
  have hzero : ∀ o < n, ∀ d < D, residual root w (x.values.get 0 0) m o d = .fin 0 ∨
      residual root w (x.values.get 0 0) m o d = .nan := by
    intro o ho d hd'
    rw [hcell o ho d hd']
    split_ifs with hk
    · rw [step_exact hfc (he o ho) d hk.1, sub_self, Num.fin_div_fin]
      by_cases h0 : root |recordedStep t o d| = 0
      · rw [if_pos h0, if_pos rfl]; exact Or.inr rfl
      · rw [if_neg h0, zero_div]; exact Or.inl rfl
    · exact Or.inr rfl
  have hempty : ∀ g : Nat → Nat → Num ℝ, (∀ o < n, ∀ d < D, g o d = .fin 0 ∨ ∀ y, g o d ≠ .fin y) → usable n D g = [] := by
    intro g hg
    unfold usable
    rw [List.filterMap_eq_nil_iff]
    intro y hy
    simp only [List.mem_flatMap, List.mem_range, List.mem_map] at hy
    obtain ⟨o, ho, d, hd', rfl⟩ := hy
    rcases hg o ho d hd' with e | e
    · rw [e]; simp
    · cases hgo : g o d with
      | fin y => exact absurd hgo (e y)
      | _ => rfl
  rw [hrun]
  simp only
  rw [if_pos]
  left
  apply hempty
  intro o ho d hd'
  cases hat m with
  | none =>
    rcases hzero o ho d hd' with e | e
    · exact Or.inl e
    · right; intro y; simp only; rw [e]; simp
  | some g =>
    simp only
    rcases hzero o ho d hd' with e | e
    · rw [e]
      cases g o d with
      | fin y => left; rw [Num.fin_mul_fin, mul_zero]
      | nan => right; intro y; show Num.nan ≠ _; simp
      | pinf => right; intro y; show Num.infMul true (0 : ℝ) ≠ _; simp [Num.infMul]
      | ninf => right; intro y; show Num.infMul false (0 : ℝ) ≠ _; simp [Num.infMul]
    · right
      intro y
      rw [e]
      cases g o d <;> · show Num.nan ≠ _; simp

/-- **C61, rejections**: several index entries and valuation columns. -/
theorem C61_rejects (h1 : t.values.d1 = 1) (h : t.values.d0 ≠ 1 ∨ t.isVal = true) :
    fit root p hat sims draw t = .error .valueError := by
  unfold fit
  rw [if_neg (by simp [h1])]
  rcases h with h | h
  · rw [if_pos h]
  · by_cases h0 : t.values.d0 ≠ 1
    · rw [if_pos h0]
    · rw [if_neg h0, if_pos h]

/-- **C61, it runs**: one recorded increment, neither zero nor as expected, is enough. -/
theorem C61_runs_partial (h : Sampled t a n D q) (hp : Positive t n D q) (hd : p.NoDrop)
    (hn : ∀ d, p.nPeriods d < 1) (hf : Dev.fit t p = .ok f) (hs : sims ≠ 0) {o d : Nat} (ho : o < n) (hdD : d < D)
    (hk : q * o + d + 1 ≤ D) (h1 : recordedStep t o d ≠ 0) (h2 : root |step t f D q o d| ≠ 0)
    (h3 : recordedStep t o d ≠ step t f D q o d) :
    ∃ r, fit root p (fun _ => none) sims draw t = .ok r := by
  obtain ⟨f', hf', hl, -⟩ := C56_development h.toStandard hp hd hn
  rw [hf] at hf'
  injection hf' with hf'
  subst hf'
  obtain ⟨w, m, x, hw, hx, hm, hrun⟩ := fit_run (root := root) (hat := fun _ => none) (sims := sims) (draw := draw) h hf hl
  rw [hrun]
  simp only
  rw [if_neg]
  · exact ⟨_, rfl⟩
  · rw [not_or]
    refine ⟨fun e => ?_, hs⟩
    unfold usable at e
    rw [List.filterMap_eq_nil_iff] at e
    have := e (residual root w (x.values.get 0 0) m o d)
      (List.mem_flatMap.2 ⟨o, List.mem_range.2 ho, List.mem_map.2 ⟨d, List.mem_range.2 hdD, rfl⟩⟩)
    rw [residual_cell (root := root) h hp hd hn hw hx hm o ho d hdD, if_pos ⟨hk, h1⟩, Num.fin_div_fin_of_ne _ h2] at this
    simp [sub_eq_zero, h2, h3] at this

namespace C61

theorem sampled : Sampled Tail.C37.tri 24240 3 3 1 :=
  { C56.standard with
    isCum := rfl
    oneIndex := rfl
    oneColumn := rfl
    long := by decide }

/-- The defaults: volume averages of all periods. -/
noncomputable def params : Dev.Params ℝ where
  average := fun _ => .volume
  nPeriods := fun _ => -1

/-- Amounts 100, 150, 165 / 110, 165 / 120: each origin grows by one half and then by a tenth. -/
noncomputable def exact : Tri ℝ :=
  { Tail.C37.tri with
    values := ⟨1, 1, 3, 3, fun _ _ o d => match o, d with
      | 0, 0 => .fin 100 | 0, 1 => .fin 150 | 0, 2 => .fin 165
      | 1, 0 => .fin 110 | 1, 1 => .fin 165
      | 2, 0 => .fin 120
      | _, _ => .nan⟩ }

theorem exact_sampled : Sampled exact 24240 3 3 1 :=
  { wf := ⟨rfl, rfl, rfl, rfl⟩
    finite := by
      intro i hi c hc o ho d hd
      replace ho : o < 3 := ho
      replace hd : d < 3 := hd
      interval_cases o <;> interval_cases d <;> trivial
    isVal := rfl
    cumulative := by show some true ≠ some false; decide
    noPattern := rfl
    multiplicative := rfl
    index_pos := le_rfl
    columns_pos := le_rfl
    two_origins := by decide
    period := le_rfl
    recent := by decide
    odims := rfl
    ddims := rfl
    vd := rfl
    short := by show 3 * Grain.Y.months < 9999; decide
    early := C56.standard.early
    known := by
      intro i hi c hc o ho d hd hlt
      interval_cases o <;> interval_cases d <;> first | rfl | omega
    isCum := rfl
    oneIndex := rfl
    oneColumn := rfl
    long := by show 3 * Grain.Y.months + 12 < 9999; decide }

theorem exact_positive : Positive exact 3 3 1 := by
  intro i hi c hc o ho d hd hle
  interval_cases o <;> interval_cases d <;>
    first
    | omega
    | exact ⟨_, by norm_num, rfl⟩

theorem params_drop : params.NoDrop := ⟨rfl, rfl, rfl, rfl, rfl, rfl⟩

theorem params_all (d : Nat) : params.nPeriods d < 1 := by
  show (-1 : Int) < 1
  decide

/-- Factors 318 / 210 and 165 / 150. -/
theorem factors {f : Tri ℝ} (hf : Dev.fit Tail.C37.tri params = .ok f) :
    f.ageFactor 0 0 0 = 318 / 210 ∧ f.ageFactor 0 0 1 = 165 / 150 := by
  obtain ⟨-, h⟩ := volume_factors sampled C56.positive params_drop params_all (fun _ => rfl) hf
  rw [(h 0 (by decide)).1, (h 1 (by decide)).1]
  have p0 : pairs 3 3 1 0 = {0, 1} := by decide
  have p1 : pairs 3 3 1 1 = {0} := by decide
  unfold volumeFactor
  rw [p0, p1, Finset.sum_pair (by decide), Finset.sum_pair (by decide), Finset.sum_singleton, Finset.sum_singleton]
  refine ⟨?_, rfl⟩
  show ((150 : ℝ) + 168) / (100 + 110) = _
  norm_num

/-- The first origin is expected to have 99.06 at 12 months and 50.94 more at 24; 50 were recorded. -/
theorem run (sims : Nat) (hs : sims ≠ 0) (draw : Nat → Nat → Nat → Nat) :
    ∃ f r, Dev.fit Tail.C37.tri params = .ok f ∧ Tail.LinkPattern Tail.C37.tri f ∧
      fit Real.sqrt params (fun _ => none) sims draw Tail.C37.tri = .ok r := by
  obtain ⟨f, hf, hl, -⟩ := C56_development sampled.toStandard C56.positive params_drop params_all
  obtain ⟨f0, f1⟩ := factors hf
  have e1 : recordedStep Tail.C37.tri 0 1 = 50 := by
    show (150 : ℝ) - 100 = 50
    norm_num
  have e2 : step Tail.C37.tri f 3 1 0 1 = 150 - 150 / (318 / 210) := by
    show (165 : ℝ) / ∏ j ∈ Finset.Ico 1 2, f.ageFactor 0 0 j - 165 / ∏ j ∈ Finset.Ico 0 2, f.ageFactor 0 0 j = _
    have p1 : ∏ j ∈ Finset.Ico 1 2, f.ageFactor 0 0 j = 165 / 150 := by
      rw [Finset.prod_Ico_succ_top (by decide), Finset.Ico_self, Finset.prod_empty, one_mul, f1]
    have p2 : ∏ j ∈ Finset.Ico 0 2, f.ageFactor 0 0 j = 318 / 210 * (165 / 150) := by
      rw [Finset.prod_Ico_succ_top (by decide), Finset.prod_Ico_succ_top (by decide), Finset.Ico_self,
        Finset.prod_empty, one_mul, f0, f1]
    rw [p1, p2]
    norm_num
  obtain ⟨r, hr⟩ := C61_runs_partial (root := Real.sqrt) (draw := draw) sampled C56.positive params_drop params_all hf hs (o := 0)
    (d := 1) (by decide) (by decide) (by decide) (by rw [e1]; norm_num)
    (by rw [e2]; exact (Real.sqrt_pos.2 (by norm_num)).ne') (by rw [e1, e2]; norm_num)
  exact ⟨f, r, hf, hl, hr⟩

/-- Ten samples of this triangle: three origins, all known at 12 months, one at 36. -/
example (draw : Nat → Nat → Nat → Nat) : ∃ r, fit Real.sqrt params (fun _ => none) 10 draw Tail.C37.tri = .ok r ∧
    r.resampled.kdims.length = 10 ∧ r.resampled.values.get 7 0 1 2 = .nan ∧
    (∃ y, r.resampled.values.get 7 0 0 2 = .fin y) ∧
    ∑ d ∈ Finset.range 3, (r.expected 0 d).amt = 165 ∧
    ∑ o ∈ recorded 3 3 1 1, (r.expected o 1).amt = 50 + 58 := by
  obtain ⟨f, r, hf, hl, hr⟩ := run 10 (by decide) draw
  obtain ⟨-, h1, -, -, -, -, -, -, -, h2⟩ := C61_samples_partial sampled hf hl hr
  have h3 := (C61_expected_partial sampled hf hl hr 0 (by decide)).2.2
  have h4 := C61_columns_partial sampled C56.positive params_drop params_all (fun _ => rfl) hr 1 (by decide)
  refine ⟨r, hr, h1, (h2 7 (by decide) 1 (by decide) 2 (by decide)).2 (by decide),
    ⟨_, (h2 7 (by decide) 0 (by decide) 2 (by decide)).1 (by decide)⟩, h3, ?_⟩
  rw [h4]
  have : recorded 3 3 1 1 = {0, 1} := by decide
  rw [this, Finset.sum_pair (by decide)]
  show (150 - 100 : ℝ) + (168 - 110) = 50 + 58
  norm_num

/-- Over all draws, the first origin at 36 months averages 165. -/
example : ∃ r : Fitted, ∃ R : (Fin 10 × Fin 3 × Fin 3 → Fin r.residuals.length) → Fitted,
    (∀ x, fit Real.sqrt params (fun _ => none) 10 (table x) Tail.C37.tri = .ok (R x)) ∧ r.residuals ≠ [] ∧
    ∑ x, ((R x).resampled.values.get 7 0 0 2).amt = (r.residuals.length : ℝ) ^ 90 * 165 := by
  obtain ⟨f, r, hf, hl, hr⟩ := run 10 (by decide) fun _ _ _ => 0
  obtain ⟨R, h1, h2⟩ := C61_mean_partial sampled hf hl hr
  refine ⟨r, R, h1, (fit_ok sampled hf hl hr).2.1, ?_⟩
  rw [h2 7 (by decide) 0 (by decide) 2 (by decide) (by decide)]
  have h3 := (C61_expected_partial sampled hf hl hr 0 (by decide)).2.2
  have h4 : ∑ e ∈ Finset.range (2 + 1), (r.expected 0 e).amt = 165 := h3
  rw [h4]

end C61

/-- The full claim, that every such triangle can be sampled, fails for exact data. -/
theorem C61_exact_false : ¬ ∀ (t : Tri ℝ) (a : Int) (n D q : Nat), Sampled t a n D q → Positive t n D q →
    ∀ draw, ∃ r, fit Real.sqrt C61.params (fun _ => none) 1 draw t = .ok r := by
  intro hall
  obtain ⟨r, hr⟩ := hall C61.exact 24240 3 3 1 C61.exact_sampled C61.exact_positive fun _ _ _ => 0
  rw [C61_exact C61.exact_sampled C61.exact_positive C61.params_drop C61.params_all (fun _ => rfl)
    (c := fun d => if d = 0 then 3 / 2 else 11 / 10)] at hr
  · exact absurd hr (by simp)
  · intro o ho d hd
    have : o = 0 ∧ d = 0 ∨ o = 0 ∧ d = 1 ∨ o = 1 ∧ d = 0 := by omega
    rcases this with ⟨rfl, rfl⟩ | ⟨rfl, rfl⟩ | ⟨rfl, rfl⟩
    · show (150 : ℝ) = 100 * (if 0 = 0 then 3 / 2 else 11 / 10)
      norm_num
    · show (165 : ℝ) = 150 * (if 1 = 0 then 3 / 2 else 11 / 10)
      norm_num
    · show (165 : ℝ) = 110 * (if 0 = 0 then 3 / 2 else 11 / 10)
      norm_num

end Boot
end CL
