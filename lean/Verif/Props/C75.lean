import Verif.Lemmas.MackPredict

set_option linter.unusedSectionVars false

/-! # C75: `MackChainladder.predict`

The model is fitted to `t`; the risks are those of another triangle `x` on the same ages. -/

namespace CL
namespace Work
open Tri

/-- A triangle to predict: `n'` origins and the ages, labels and grains of `t`, valued no earlier than `t`, with
positive latest amounts. -/
structure Follows (t x : Tri ℝ) (a' : Int) (n' D q : Nat) : Prop where
  standard : Standard x a' n' D q
  positive : ∀ o < n', 0 < latestAmt x D q o
  cumulative : x.isCum = some true
  index : x.kdims.length = 1
  column : x.vdims.length = 1
  keyLabels : x.keyLabels = t.keyLabels
  ograin : x.ograin = t.ograin
  dgrain : x.dgrain = t.dgrain
  date : t.vd ≤ x.vd
  rows : 2 ≤ linkRows n' D q
  early : a' + ((q * (n' - 1) + (D + 12 / t.dgrain.months) + 1) * t.dgrain.months : Nat) ≤ ultVal

/-- The amount of an origin of `x`, projected to age `k` with the factors of `t`. -/
noncomputable def predicted (t : Tri ℝ) (p : Dev.Params ℝ) (n : Nat) (x : Tri ℝ) (D q o k : Nat) : ℝ :=
  latestAmt x D q o * ∏ j ∈ Finset.Ico (D - 1 - q * o) k, devFactor t p n D q j

variable {t x : Tri ℝ} {a a' : Int} {n n' D q : Nat} {p : Dev.Params ℝ}

/-- The new triangle on the ages of the model is itself, with missing cells where the amount is zero. -/
theorem predict_same {g : Tri ℝ} {F : Nat} (ht : Standard t a n D q) (hk : t.kdims.length = 1)
    (hg : GridPattern t g a n D q F) (hx : Follows t x a' n' D q) :
    ∃ y, predictBase t g x = .ok (y, g) ∧ Standard y a' n' D q ∧ Follows t y a' n' D q ∧
      ∀ o < n', latestAmt y D q o = latestAmt x D q o := by
  have hs := hx.standard
  have D2 := ht.two_ages
  have hdd : t.ddims = x.ddims := by rw [ht.ddims, hs.ddims, hx.dgrain]
  have hold : Older t x := by
    refine ⟨ht.wf, ht.isVal, ht.index_pos, ht.columns_pos, ?_, ?_, ?_, ?_, hx.ograin, hx.dgrain, hx.keyLabels, hx.date⟩
    · rw [ht.lenO]; exact le_trans (by decide) ht.two_origins
    · rw [ht.ddims, List.pairwise_map]
      refine List.Pairwise.imp ?_ List.pairwise_lt_range
      intro j k hjk
      exact_mod_cast Nat.mul_lt_mul_of_pos_right (by omega) (months_pos t.dgrain)
    · intro d hd
      rw [ht.ddims, List.mem_map] at hd
      obtain ⟨k, hk, rfl⟩ := hd
      rw [List.mem_range] at hk
      have h1 := ht.short
      have h2 := months_pos t.dgrain
      have h3 : (k + 1) * t.dgrain.months ≤ D * t.dgrain.months := Nat.mul_le_mul_right _ (by omega)
      have h4 : 1 ≤ (k + 1) * t.dgrain.months := Nat.one_le_iff_ne_zero.mpr (by positivity)
      constructor <;> [exact_mod_cast h4; exact_mod_cast lt_of_le_of_lt h3 h1]
    · rw [hdd, List.take_length]
  obtain ⟨y, hy, ey⟩ := addAges_spec hs.cumTri hs.toGrid.odims_sorted
    (by rw [hs.lenO]; exact hs.two_origins) hold
  have hgk : g.kdims.length = 1 := by
    rcases hg.index with e | e
    · rw [e]; exact hk
    · exact e
  have hcell : ∀ i < x.kdims.length, ∀ c < x.vdims.length, ∀ o < n', ∀ d < D, y.values.get i c o d =
      if q * o + d + 1 ≤ D then (x.values.get i c o d).numToNan else .nan := by
    intro i hi c hc o ho d hd
    rw [ey.cells i hi c hc o (by rw [hs.lenO]; exact ho) d (by rw [ht.lenD]; exact hd)]
    have h1 := hs.valuation_gt ho hd
    by_cases h2 : q * o + d + 1 ≤ D
    · rw [if_pos h2, if_pos ⟨by rw [hs.lenD]; exact hd, by by_contra h3; have := h1.1 (by omega); omega⟩]
    · rw [if_neg h2, if_neg (fun h3 => absurd h3.2 (not_le.mpr (h1.2 (by omega))))]
  have hsy : Standard y a' n' D q := by
    refine { wf := ey.wf, finite := ?_, isVal := ey.isVal, index_pos := ?_, columns_pos := ?_, two_origins := hs.two_origins, period := hs.period, recent := hs.recent, odims := ?_, ddims := ?_, vd := ?_, short := ?_, early := ?_, known := ?_, cumulative := ?_, noPattern := ey.isPattern, multiplicative := ?_ }
    · intro i hi c hc o ho d hd
      rw [ey.wf.1, ey.kdims] at hi
      rw [ey.wf.2.1, ey.vdims] at hc
      rw [ey.wf.2.2.1, ey.odims, hs.lenO] at ho
      rw [ey.wf.2.2.2, ey.ddims, ht.lenD] at hd
      rw [hcell i hi c hc o ho d hd]
      split_ifs
      · exact Num.noInf_numToNan (hs.finite i (by rw [hs.wf.1]; exact hi) c (by rw [hs.wf.2.1]; exact hc) o
          (by rw [hs.wf.2.2.1, hs.lenO]; exact ho) d (by rw [hs.wf.2.2.2, hs.lenD]; exact hd))
      · exact Num.noInf_nan
    · rw [ey.kdims]; exact hs.index_pos
    · rw [ey.vdims]; exact hs.columns_pos
    · rw [ey.odims, ey.dgrain]; exact hs.odims
    · rw [ey.ddims, hdd, ey.dgrain]; exact hs.ddims
    · rw [ey.vd, ey.dgrain]; exact hs.vd
    · rw [ey.dgrain]; exact hs.short
    · rw [ey.vd]; exact hs.early
    · intro i hi c hc o ho d hd hlt
      rw [ey.kdims] at hi
      rw [ey.vdims] at hc
      rw [hcell i hi c hc o ho d hd, if_neg (by omega)]
    · rw [ey.isCum]; exact hs.cumulative
    · rw [ey.isAdditive]; exact hs.multiplicative
  have hlat : ∀ o < n', latestAmt y D q o = latestAmt x D q o := by
    intro o ho
    have hr := hs.row_le ho
    rw [Nat.mul_comm] at hr
    unfold latestAmt
    rw [hcell 0 hs.index_pos 0 hs.columns_pos o ho _ (by omega), if_pos (by omega), Num.amt_numToNan]
  refine ⟨y, ?_, hsy, ?_, hlat⟩
  · unfold predictBase valToDev
    rw [if_pos hs.isVal, if_pos ht.isVal]
    simp only [bind, Except.bind]
    have hfl' := hg.toPatternFor.length_le
    have hne : g.ddims ≠ [] := by
      intro e
      rw [e, ht.lenD] at hfl'
      simp at hfl'
      omega
    cases hmax : g.ddims.max? with
    | none => exact absurd (List.max?_eq_none_iff.1 hmax) hne
    | some b =>
      have hall : ¬ (x.ddims.any fun d => decide (b < d)) = true := by
        rw [List.any_eq_true]
        rintro ⟨e, he, hlt⟩
        have h1 : e ∈ g.ddims := by
          rw [← hdd, ← hg.starts] at he
          exact List.mem_of_mem_take he
        have := (List.max?_eq_some_iff.1 hmax).2 e h1
        have := of_decide_eq_true hlt
        omega
      dsimp only
      rw [if_neg hall]
      simp only [hy]
      unfold intersection
      dsimp only
      rw [if_pos ⟨by rw [ey.kdims]; exact hx.index, hgk⟩]
  · exact ⟨hsy, fun o ho => by rw [hlat o ho]; exact hx.positive o ho, by rw [ey.isCum]; exact hx.cumulative,
      by rw [ey.kdims]; exact hx.index, by rw [ey.vdims]; exact hx.column, by rw [ey.keyLabels]; exact hx.keyLabels,
      by rw [ey.ograin]; exact hx.ograin, by rw [ey.dgrain]; exact hx.dgrain, by rw [ey.vd]; exact hx.date, hx.rows,
      hx.early⟩

/-- The pattern of the model is one for the new triangle. -/
theorem Follows.pattern {g : Tri ℝ} (h : MackReady t a n D q p)
    (hg : GridPattern t g a n D q (D + Tail.addedPeriods 12 t.dgrain)) (hx : Follows t x a' n' D q) :
    GridPattern x g a' n' D q (D + Tail.addedPeriods 12 x.dgrain) := by
  have ht := h.standard
  have hadd : Tail.addedPeriods 12 t.dgrain = 12 / t.dgrain.months := by simp [Tail.addedPeriods]
  refine { wf := hg.wf, pattern := hg.pattern, incremental := hg.incremental, multiplicative := hg.multiplicative, ages := ?_, ograin := ?_, dgrain := ?_, keyLabels := ?_, index := Or.inr ?_, columns := Or.inr ?_, origin := hg.origin, starts := ?_, factors := hg.factors, grid := ?_, covers := ?_, short := ?_, early := ?_, date := hg.date }
  · rw [hg.ages, ht.isVal, hx.standard.isVal]
  · rw [hx.ograin]; exact hg.ograin
  · rw [hx.dgrain]; exact hg.dgrain
  · rw [hx.keyLabels]; exact hg.keyLabels
  · rcases hg.index with e | e
    · rw [e]; exact h.index
    · exact e
  · rcases hg.columns with e | e
    · rw [e]; exact h.column
    · exact e
  · have hdd : t.ddims = x.ddims := by rw [ht.ddims, hx.standard.ddims, hx.dgrain]
    rw [← hdd]; exact hg.starts
  · rw [hx.dgrain]; exact hg.grid
  · omega
  · rw [hx.dgrain]; exact hg.short
  · rw [hx.dgrain, hadd]; exact hx.early

/-- The model behind a prediction: its pattern `g` and its statistics. -/
structure Fitted (t : Tri ℝ) (a : Int) (n D q : Nat) (p : Dev.Params ℝ) (m : Munich.Interp) (v : Nat → ℝ) (g : Tri ℝ) (c : MackStats) :
    Prop where
  runs : ∃ out, mackFit t p m = .ok out
  stats : mackStats t p m = .ok (g, c)
  pattern : GridPattern t g a n D q (D + Tail.addedPeriods 12 t.dgrain)
  factor : ∀ k, k + 1 < D → g.ageFactor 0 0 k = devFactor t p n D q k
  toUlt : ∀ o < n, g.toUlt 0 0 (D - 1 - q * o) = ∏ j ∈ Finset.Ico (D - 1 - q * o) (D - 1), devFactor t p n D q j
  wdims : c.w.Dims 1 1 n (D - 1)
  wcells : ∀ o < n, ∀ k < D - 1, c.w.get 0 0 o k = .nan ∨ c.w.get 0 0 o k = .fin 1
  sigma : ∀ k < D, c.sigma.get 0 0 0 k = .fin (if k + 1 < D then v k else 0) ∨
    (c.sigma.get 0 0 0 k = .nan ∧ (if k + 1 < D then v k else 0) = 0)
  sigmaDims : c.sigma.Dims 1 1 1 D
  errCells : ∀ k, k + 1 < D → c.stdErr.get 0 0 0 k = .fin (riskErr (devMass t p n D q) v k)
  errDims : c.stdErr.Dims 1 1 1 D
  trend : HasTrend t p n D q v → c.stdErr.get 0 0 0 (D - 1) = .fin 0
  noTrend : ¬ HasTrend t p n D q v → c.stdErr.get 0 0 0 (D - 1) = .nan
  avgLen : c.avg.length = D - 1
  avgLe : ∀ e ∈ c.avg, e ≤ 2
  avgCells : ∀ k, k + 1 < D → avgAt c.avg k = (p.average k).exponent

theorem fitted (h : MackReady t a n D q p) (m : Munich.Interp) {f s e : Tri ℝ}
    (hfs : Dev.fitStats t p m false = .ok (f, s, e)) {v : Nat → ℝ} (hv : SigmaIs s D v) :
    ∃ g c, Fitted t a n D q p m v g c := by
  obtain ⟨out, hout, -⟩ := mackFit_run h m hfs hv
  obtain ⟨w, g, u, z, hgp, hp⟩ := mackParts h m hfs hv
  have hst := h.standard
  have D2 := hst.two_ages
  have t3 : t.values.d3 = D := by rw [hst.wf.2.2.2, hst.lenD]
  have lavg : ((List.range (t.values.d3 - 1)).map fun d => (p.average d).exponent).length = D - 1 := by rw [t3]; simp
  refine ⟨g, ⟨Tail.tailSigma f g (Tail.addedPeriods 12 t.dgrain) s.values,
    Tail.tailStdErr f g (Tail.addedPeriods 12 t.dgrain) e.values, w,
    (List.range (t.values.d3 - 1)).map fun d => (p.average d).exponent⟩, ⟨out, hout⟩, ?_, hgp, ?_, ?_, hp.wdims, hp.wcells,
    hp.sigma, hp.sigmaDims, hp.err, hp.errDims, hp.trend, hp.noTrend, lavg, ?_, ?_⟩
  · unfold mackStats
    simp only [hfs, hp.weights, hp.tail, Tail.avePeriod_eq, bind, Except.bind]
  · intro k hk
    have := hp.riskFactor k (by omega)
    unfold Tri.riskFactor at this
    rwa [if_pos hk, if_pos hk] at this
  · intro o ho
    have := hp.amounts o ho
    unfold projected at this
    exact mul_left_cancel₀ (h.latest_pos ho).ne' this
  · intro x hx
    rw [List.mem_map] at hx
    obtain ⟨d, -, rfl⟩ := hx
    exact exponent_le _
  · intro k hk
    unfold avgAt
    dsimp only
    rw [List.getD_eq_getElem _ _ (by simp [t3]; omega), List.getElem_append_left (by omega)]
    simp

/-- The recursions for the new triangle. -/
theorem riskParts (h : MackReady t a n D q p) {m : Munich.Interp} {v : Nat → ℝ} {g : Tri ℝ} {c : MackStats}
    (hf : Fitted t a n D q p m v g c) (hx : Follows t x a' n D q) :
    ∃ u z, x.chainladder g none = .ok u ∧ fullTriangle x g u true = .ok z ∧
      (∀ o < n, u.values.get 0 0 o 0 = .fin (predicted t p n x D q o (D - 1))) ∧
      RiskParts x n D q (D + Tail.addedPeriods 12 x.dgrain) (fun k => (p.average k).exponent) v (devFactor t p n D q)
        (devMass t p n D q) (predicted t p n x D q) (HasTrend t p n D q v) g z c.w c.sigma c.stdErr c.avg := by
  have hs := hx.standard
  have D2 := hs.two_ages
  have hgp := hx.pattern h hf.pattern
  have i0 := hs.index_pos
  have c0 := hs.columns_pos
  obtain ⟨u, hu, hua⟩ := chainladder_ult hs hgp
  obtain ⟨z, hz, zc⟩ := completed hs hx.cumulative hgp hx.rows hua
  obtain ⟨u', z', hu', hz', zcell⟩ := C58_partial hs hx.cumulative hgp hx.rows
  rw [hu] at hu'
  injection hu' with hu'
  subst hu'
  rw [hz] at hz'
  injection hz' with hz'
  subst hz'
  have hpos : ∀ o < n, ∀ k < D, 0 < predicted t p n x D q o k := fun o ho k hk =>
    mul_pos (hx.positive o ho) (Finset.prod_pos fun j hj => h.factor_pos (by rw [Finset.mem_Ico] at hj; omega))
  refine ⟨u, z, hu, hz, ?_, ⟨hx.index, hx.column, hx.rows, zc, ?_, hpos, ?_, fun k hk => h.factor_pos hk,
    fun k hk => h.mass_pos hk, ?_, hf.wdims, hf.wcells, hf.sigma, hf.sigmaDims, hf.errCells, hf.errDims, hf.trend,
    hf.noTrend, hf.avgLen, hf.avgLe, hf.avgCells, fun k => exponent_le _⟩⟩
  · intro o ho
    rw [hua.cells 0 i0 0 c0 o (by rw [hs.lenO]; exact ho), hf.toUlt o ho]
    exact Num.numToNan_fin_of_ne (hpos o ho (D - 1) (by omega)).ne'
  · intro o ho k hk hL
    have hr := hs.row_le ho
    rw [Nat.mul_comm] at hr
    by_cases hkL : k = D - 1 - q * o
    · rw [zc.known 0 i0 0 c0 o ho k hk (by omega), Num.amt_numToNan, hkL]
      unfold predicted latestAmt
      rw [Finset.Ico_self, Finset.prod_empty, mul_one]
    · have ho1 : 1 ≤ o := by
        rcases Nat.eq_zero_or_pos o with rfl | h0
        · rw [Nat.mul_zero] at hkL hL; omega
        · exact h0
      rw [zcell 0 i0 0 c0 o ho k (by omega) (by omega) (by
        rw [hf.toUlt o ho]
        intro e0
        refine h.moves o ho1 ho ?_
        unfold projected
        rw [e0, mul_one]), Num.amt_numToNan, Num.amt_fin]
      unfold predicted latestAmt
      congr 1
      exact Finset.prod_congr rfl fun j hj => hf.factor j (by rw [Finset.mem_Ico] at hj; omega)
  · intro o ho k hL hk
    unfold predicted
    rw [Finset.prod_Ico_succ_top hL, mul_assoc]
  · intro k hk
    unfold Tri.riskFactor
    split_ifs with h1
    · exact hf.factor k h1
    · have := hf.toUlt 0 (by have := hs.two_origins; omega)
      rw [Nat.mul_zero, Nat.sub_zero, Finset.Ico_self, Finset.prod_empty] at this
      exact this

/-- The whole prediction. -/
theorem mackPredict_run (h : MackReady t a n D q p) {m : Munich.Interp} {v : Nat → ℝ} {g : Tri ℝ} {c : MackStats}
    (hf : Fitted t a n D q p m v g c) (hx : Follows t x a' n D q) :
    ∃ out, mackPredict t p m x none = .ok out ∧
      (∀ o < n, out.ultimate.values.get 0 0 o 0 = .fin (predicted t p n x D q o (D - 1))) ∧
      (∀ o < n, 0 ≤ (out.process.values.get 0 0 o D).amt ∧ (out.process.values.get 0 0 o D).amt ^ 2 =
        processVar (predicted t p n x D q) (devFactor t p n D q) (fun k => (p.average k).exponent) v D q o) ∧
      (∀ o < n, (out.stdErr.values.get 0 0 o D).NoInf ∧ 0 ≤ (out.stdErr.values.get 0 0 o D).amt ∧
        (out.stdErr.values.get 0 0 o D).amt ^ 2 = (out.parameter.values.get 0 0 o D).amt ^ 2 +
          (out.process.values.get 0 0 o D).amt ^ 2) ∧
      (0 ≤ (out.totalProcess.values.get 0 0 0 D).amt ∧
        (out.totalProcess.values.get 0 0 0 D).amt ^ 2 = ∑ o ∈ Finset.range n,
          processVar (predicted t p n x D q) (devFactor t p n D q) (fun k => (p.average k).exponent) v D q o) ∧
      (0 ≤ (out.totalParameter.values.get 0 0 0 D).amt ∧ (out.totalParameter.values.get 0 0 0 D).amt ^ 2 =
        totalParameterVar (predicted t p n x D q) (devFactor t p n D q) (devMass t p n D q) v n D q) ∧
      (HasTrend t p n D q v → ∀ o < n, 0 ≤ (out.parameter.values.get 0 0 o D).amt ∧
        (out.parameter.values.get 0 0 o D).amt ^ 2 =
          parameterVar (predicted t p n x D q) (devFactor t p n D q) (devMass t p n D q) v D q o) ∧
      (¬ HasTrend t p n D q v → ∀ o < n, out.parameter.values.get 0 0 o D = .fin 0) ∧
      out.total.NoInf ∧ 0 ≤ out.total.amt ∧
      out.total.amt ^ 2 = (∑ o ∈ Finset.range n,
          processVar (predicted t p n x D q) (devFactor t p n D q) (fun k => (p.average k).exponent) v D q o) +
        totalParameterVar (predicted t p n x D q) (devFactor t p n D q) (devMass t p n D q) v n D q := by
  obtain ⟨y, hy, hys, hyf, hlat⟩ := predict_same h.standard h.index hf.pattern hx
  obtain ⟨u, z, hu, hz, huc, hp⟩ := riskParts h hf hyf
  have hadd1 : 1 ≤ Tail.addedPeriods 12 y.dgrain := by cases y.dgrain <;> decide
  obtain ⟨pa, se, pr, tq, er, tp, tt, e1, e2, e3, e4, e5, e6, e7, r1, r2, r3, r4, r5, r6, r7⟩ :=
    hp.risks hys (hyf.pattern h hf.pattern) (by omega)
  obtain ⟨o0, ho0⟩ := hf.runs
  have eqp : ∀ o < n, ∀ k, predicted t p n y D q o k = predicted t p n x D q o k := by
    intro o ho k
    unfold predicted
    rw [hlat o ho]
  have eproc : ∀ o < n, processVar (predicted t p n y D q) (devFactor t p n D q) (fun k => (p.average k).exponent) v D q o =
      processVar (predicted t p n x D q) (devFactor t p n D q) (fun k => (p.average k).exponent) v D q o := by
    intro o ho
    unfold processVar
    simp only [eqp o ho]
  have epar : ∀ o < n, parameterVar (predicted t p n y D q) (devFactor t p n D q) (devMass t p n D q) v D q o =
      parameterVar (predicted t p n x D q) (devFactor t p n D q) (devMass t p n D q) v D q o := by
    intro o ho
    unfold parameterVar
    simp only [eqp o ho]
  have etot : totalParameterVar (predicted t p n y D q) (devFactor t p n D q) (devMass t p n D q) v n D q =
      totalParameterVar (predicted t p n x D q) (devFactor t p n D q) (devMass t p n D q) v n D q := by
    unfold totalParameterVar
    refine Finset.sum_congr rfl fun k _ => ?_
    congr 2
    refine Finset.sum_congr rfl fun o ho => ?_
    rw [Finset.mem_filter, Finset.mem_range] at ho
    exact eqp o ho.1 _
  have esum : ∑ o ∈ Finset.range n, processVar (predicted t p n y D q) (devFactor t p n D q)
      (fun k => (p.average k).exponent) v D q o = ∑ o ∈ Finset.range n, processVar (predicted t p n x D q)
      (devFactor t p n D q) (fun k => (p.average k).exponent) v D q o :=
    Finset.sum_congr rfl fun o ho => eproc o (Finset.mem_range.1 ho)
  refine ⟨⟨u, z, pa, pr, er, tp, tq, tt⟩, ?_, ?_, ?_, r2, ?_, ?_, ?_, r6, ?_⟩
  · unfold mackPredict
    simp only [ho0, hf.stats, hy, bind, Except.bind, Option.getD_none]
    unfold mackRisks
    simp only [hu, hz, e1, e2, e3, e4, e5, e6, e7, bind, Except.bind]
  · intro o ho
    rw [← eqp o ho]
    exact huc o ho
  · intro o ho
    rw [← eproc o ho]
    exact r1 o ho
  · rw [← esum]
    exact r3
  · rw [← etot]
    exact r4
  · intro ht o ho
    rw [← epar o ho]
    exact r5 ht o ho
  · rw [← esum, ← etot]
    exact r7

/-- **C75**: predicting another triangle on the same ages with as many origins gives Mack's standard errors for its
own amounts with the factors, sigmas and weights of the fit.  Partial: the new triangle has no statistics of its own,
as many origins and ages as the fitted one (see `C75_origins_false`), and there is a trend (see `C70_no_trend_false`). -/
theorem C75_partial (h : MackReady t a n D q p) (m : Munich.Interp) {f s e : Tri ℝ}
    (hfs : Dev.fitStats t p m false = .ok (f, s, e)) {v : Nat → ℝ} (hv : SigmaIs s D v) (ht : HasTrend t p n D q v)
    (hx : Follows t x a' n D q) :
    ∃ out, mackPredict t p m x none = .ok out ∧
      (∀ o < n, out.ultimate.values.get 0 0 o 0 = .fin (predicted t p n x D q o (D - 1))) ∧
      (∀ o < n, (out.stdErr.values.get 0 0 o D).NoInf ∧ 0 ≤ (out.stdErr.values.get 0 0 o D).amt ∧
        (out.stdErr.values.get 0 0 o D).amt ^ 2 = predicted t p n x D q o (D - 1) ^ 2 *
          ∑ k ∈ Finset.Ico (D - 1 - q * o) (D - 1), v k ^ 2 / devFactor t p n D q k ^ 2 *
            (1 / predicted t p n x D q o k ^ (2 - (p.average k).exponent) + 1 / devMass t p n D q k)) ∧
      (∀ o < n, 0 ≤ (out.parameter.values.get 0 0 o D).amt ∧
        (out.parameter.values.get 0 0 o D).amt ^ 2 = predicted t p n x D q o (D - 1) ^ 2 *
          ∑ k ∈ Finset.Ico (D - 1 - q * o) (D - 1), v k ^ 2 / devFactor t p n D q k ^ 2 * (1 / devMass t p n D q k)) ∧
      ∀ o < n, 0 ≤ (out.process.values.get 0 0 o D).amt ∧
        (out.process.values.get 0 0 o D).amt ^ 2 = predicted t p n x D q o (D - 1) ^ 2 *
          ∑ k ∈ Finset.Ico (D - 1 - q * o) (D - 1), v k ^ 2 / devFactor t p n D q k ^ 2 *
            (1 / predicted t p n x D q o k ^ (2 - (p.average k).exponent)) := by
  obtain ⟨g, c, hf⟩ := fitted h m hfs hv
  obtain ⟨out, hout, r0, r1, r2, -, -, r5, -⟩ := mackPredict_run h hf hx
  refine ⟨out, hout, r0, fun o ho => ⟨(r2 o ho).1, (r2 o ho).2.1, ?_⟩, r5 ht, r1⟩
  rw [(r2 o ho).2.2, (r5 ht o ho).2, (r1 o ho).2]
  unfold parameterVar processVar
  rw [← mul_add, ← Finset.sum_add_distrib]
  congr 1
  exact Finset.sum_congr rfl fun k _ => by ring

/-- **C75**, totals: process variances of the new origins are added, and the parameter variance is that of the sum of
the new ultimates.  Partial as `C75_partial`, but without a trend. -/
theorem C75_total_partial (h : MackReady t a n D q p) (m : Munich.Interp) {f s e : Tri ℝ}
    (hfs : Dev.fitStats t p m false = .ok (f, s, e)) {v : Nat → ℝ} (hv : SigmaIs s D v)
    (hx : Follows t x a' n D q) :
    ∃ out, mackPredict t p m x none = .ok out ∧ out.total.NoInf ∧ 0 ≤ out.total.amt ∧
      out.total.amt ^ 2 = (out.totalProcess.values.get 0 0 0 D).amt ^ 2 +
        (out.totalParameter.values.get 0 0 0 D).amt ^ 2 ∧
      (out.totalProcess.values.get 0 0 0 D).amt ^ 2 =
        ∑ o ∈ Finset.range n, (out.process.values.get 0 0 o D).amt ^ 2 ∧
      (out.totalParameter.values.get 0 0 0 D).amt ^ 2 = ∑ k ∈ Finset.range (D - 1),
        v k ^ 2 / devFactor t p n D q k ^ 2 * (1 / devMass t p n D q k) *
          (∑ o ∈ (Finset.range n).filter (fun o => D - 1 - q * o ≤ k), predicted t p n x D q o (D - 1)) ^ 2 := by
  obtain ⟨g, c, hf⟩ := fitted h m hfs hv
  obtain ⟨out, hout, -, r1, -, r3, r4, -, -, r7⟩ := mackPredict_run h hf hx
  refine ⟨out, hout, r7.1, r7.2.1, ?_, ?_, r4.2⟩
  · rw [r7.2.2, r3.2, r4.2]
  · rw [r3.2]
    exact Finset.sum_congr rfl fun o ho => ((r1 o (Finset.mem_range.1 ho)).2).symm

theorem follows_self (h : MackReady t a n D q p) : Follows t t a n D q :=
  ⟨h.standard, fun _ ho => h.latest_pos ho, h.cumulative, h.index, h.column, rfl, rfl, rfl, le_rfl, h.rows, h.early⟩

/-- **C75**, the fitted triangle itself: the prediction repeats the standard errors of the fit. -/
theorem C75_same_partial (h : MackReady t a n D q p) (m : Munich.Interp) {f s e : Tri ℝ}
    (hfs : Dev.fitStats t p m false = .ok (f, s, e)) {v : Nat → ℝ} (hv : SigmaIs s D v) :
    ∃ fit out, mackFit t p m = .ok fit ∧ mackPredict t p m t none = .ok out ∧ out.total.amt = fit.total.amt ∧
      ∀ o < n, (out.stdErr.values.get 0 0 o D).amt = (fit.stdErr.values.get 0 0 o D).amt ∧
        (out.process.values.get 0 0 o D).amt = (fit.process.values.get 0 0 o D).amt ∧
        (out.parameter.values.get 0 0 o D).amt = (fit.parameter.values.get 0 0 o D).amt := by
  obtain ⟨g, c, hf⟩ := fitted h m hfs hv
  obtain ⟨out, hout, -, r1, r2, r3, r4, r5, r6, r7⟩ := mackPredict_run h hf (follows_self h)
  obtain ⟨fit, hfit, f1, f2, f3, f4, f5, f6, f7, -⟩ := mackFit_run h m hfs hv
  have hproc : ∀ o < n, (out.process.values.get 0 0 o D).amt = (fit.process.values.get 0 0 o D).amt := fun o ho =>
    (sq_eq_sq₀ (r1 o ho).1 (f1 o ho).2.1).mp ((r1 o ho).2.trans (f1 o ho).2.2.symm)
  have hpar : ∀ o < n, (out.parameter.values.get 0 0 o D).amt = (fit.parameter.values.get 0 0 o D).amt := by
    intro o ho
    by_cases ht : HasTrend t p n D q v
    · exact (sq_eq_sq₀ (r5 ht o ho).1 (f5 ht o ho).2.1).mp ((r5 ht o ho).2.trans (f5 ht o ho).2.2.symm)
    · rw [r6 ht o ho, f6 ht o ho]
  refine ⟨fit, out, hfit, hout, ?_, fun o ho => ⟨?_, hproc o ho, hpar o ho⟩⟩
  · exact (sq_eq_sq₀ r7.2.1 f7.2.1).mp (r7.2.2.trans f7.2.2.symm)
  · refine (sq_eq_sq₀ (r2 o ho).2.1 (f2 o ho).2.1).mp ?_
    rw [(r2 o ho).2.2, (f2 o ho).2.2, hproc o ho, hpar o ho]

/-- Weights of another number of origins cannot be used. -/
theorem fullStdErr_origins {z : Tri ℝ} {sig w w' se : Arr ℝ} {avg : List Nat}
    (hok : fullStdErr Real.sqrt x z sig w' avg = .ok se) (hne : w.d2 ≠ x.values.d2) :
    fullStdErr Real.sqrt x z sig w avg = .error .valueError := by
  unfold fullStdErr at hok ⊢
  split_ifs at hok ⊢ with h1 h2
  · obtain ⟨b, hb, hok⟩ := bind_ok hok
    obtain ⟨r, hr, hok⟩ := bind_ok hok
    simp only [hb, hr, bind, Except.bind]
    unfold Arr.cat2
    dsimp only
    rw [if_neg (fun h => hne h.2.2)]

/-- **C75** is false for another number of origins, for instance the next valuation with one more origin: `w_` of the
fit has a row for every origin of the fit, and it is joined with a column of ones for the origins of the new
triangle. -/
theorem C75_origins_false (h : MackReady t a n D q p) (m : Munich.Interp) {f s e : Tri ℝ}
    (hfs : Dev.fitStats t p m false = .ok (f, s, e)) {v : Nat → ℝ} (hv : SigmaIs s D v)
    (hx : Follows t x a' n' D q) (hn : n' ≠ n) : mackPredict t p m x none = .error .valueError := by
  obtain ⟨g, c, hf⟩ := fitted h m hfs hv
  obtain ⟨y, hy, hs, hyf, -⟩ := predict_same h.standard h.index hf.pattern hx
  have hgp := hyf.pattern h hf.pattern
  have D2 := hs.two_ages
  have hadd1 : 1 ≤ Tail.addedPeriods 12 y.dgrain := by cases y.dgrain <;> decide
  obtain ⟨u, hu, hua⟩ := chainladder_ult hs hgp
  obtain ⟨z, hz, zc⟩ := completed hs hyf.cumulative hgp hyf.rows hua
  obtain ⟨o0, ho0⟩ := hf.runs
  have hup : ∀ x : Arr ℝ, x.Dims 1 1 1 D → x.Up y.kdims.length y.vdims.length n' D := fun x hx =>
    ⟨Or.inr hx.1, Or.inr hx.2.1, Or.inr hx.2.2.1, hx.2.2.2⟩
  have hlift : ∀ x : Arr ℝ, x.Dims 1 1 1 D → ∀ i < y.kdims.length, ∀ c < y.vdims.length, ∀ o < n', ∀ d,
      x.lift y.kdims.length y.vdims.length n' i c o d = x.get 0 0 0 d := by
    intro x hx i hi c hc o ho d
    rw [hyf.index] at hi
    rw [hyf.column] at hc
    obtain rfl : i = 0 := by omega
    obtain rfl : c = 0 := by omega
    unfold Arr.lift
    rw [hx.1, hx.2.1, hx.2.2.1, hyf.index, hyf.column]
    congr 1
    unfold Arr.bix
    split_ifs <;> omega
  obtain ⟨pa, hpa⟩ : ∃ pa, mackRisk Real.sqrt y g z c.stdErr = .ok pa := by
    by_cases ht : HasTrend t p n D q v
    · obtain ⟨pa, hpa, -⟩ := riskTri Real.sqrt hs.toGrid hgp (by omega) zc (hup _ hf.errDims)
        (S := fun _ _ _ d => if d + 1 < D then riskErr (devMass t p n D q) v d else 0) (fun i hi c' hc o ho d hd => by
          rw [hlift _ hf.errDims i hi c' hc o ho]
          beta_reduce
          split_ifs with h1
          · exact hf.errCells d h1
          · rw [show d = D - 1 by omega]
            exact hf.trend ht)
      exact ⟨pa, hpa⟩
    · obtain ⟨pa, hpa, -⟩ := mackRisk_nan Real.sqrt hs.toGrid hgp (by omega) zc (hup _ hf.errDims)
        (S := fun _ _ _ d => riskErr (devMass t p n D q) v d) (fun i hi c' hc o ho d hd => by
          rw [hlift _ hf.errDims i hi c' hc o ho]
          exact hf.errCells d (by omega)) (fun i hi c' hc o ho => by
          rw [hlift _ hf.errDims i hi c' hc o ho]
          exact hf.noTrend ht)
      exact ⟨pa, hpa⟩
  have sigd : (c.sigma.map Num.nan0).Dims 1 1 1 D := hf.sigmaDims
  obtain ⟨se, hse, -⟩ := fullStdErr_spec C38.isSqrt hs.toGrid hgp.covers zc
    (sigma := c.sigma.map Num.nan0) (w := ⟨1, 1, n', D - 1, fun _ _ _ _ => .fin 1⟩) (avg := c.avg) (hup _ sigd)
    (σ := fun _ _ _ d => if d + 1 < D then v d else 0)
    (by
      intro i hi c' hc o ho d hd
      rw [hlift _ sigd i hi c' hc o ho]
      show (c.sigma.get 0 0 0 d).nan0 = _
      rcases hf.sigma d hd with e | ⟨e, e0⟩
      · rw [e]; rfl
      · rw [e, e0]; rfl)
    ⟨rfl, rfl, rfl, rfl⟩ (fun _ _ _ _ => Num.noInf_fin _) hf.avgLen hf.avgLe
  rw [← fullStdErr_zero] at hse
  have herr := fullStdErr_origins (w := c.w) hse (by
    rw [hf.wdims.2.2.1, hs.wf.2.2.1, hs.lenO]
    exact fun e => hn e.symm)
  unfold mackPredict
  simp only [ho0, hf.stats, hy, bind, Except.bind, Option.getD_none]
  unfold mackRisks
  simp only [hu, hz, hpa, herr, bind, Except.bind]

/-- Standard errors for every age but the last cannot be used. -/
theorem mackPredict_short (h : MackReady t a n D q p) {m : Munich.Interp} {f s e : Tri ℝ}
    (hfs : Dev.fitStats t p m false = .ok (f, s, e)) {v : Nat → ℝ} (hv : SigmaIs s D v)
    (hx : Follows t x a' n' D q) (hD : 3 ≤ D) {c : MackStats} (hc : c.stdErr.d3 = D - 1) :
    mackPredict t p m x (some c) = .error .valueError := by
  obtain ⟨g, c0, hf⟩ := fitted h m hfs hv
  obtain ⟨y, hy, hs, hyf, -⟩ := predict_same h.standard h.index hf.pattern hx
  have hgp := hyf.pattern h hf.pattern
  obtain ⟨u, hu, hua⟩ := chainladder_ult hs hgp
  obtain ⟨z, hz, zc⟩ := completed hs hyf.cumulative hgp hyf.rows hua
  obtain ⟨o0, ho0⟩ := hf.runs
  have zl : z.ddims.length = D + Tail.addedPeriods 12 y.dgrain + 1 := by rw [zc.ages, fullAges_length]
  obtain ⟨b, hb, -, -, -, b3, -⟩ := Arr.sliceD_upto z.values (y := D) (by rw [zc.wf.2.2.2, zl]; omega)
  have hzip : Arr.zip (· * ·) (b.map Num.nanToNum) c.stdErr = .error .valueError := by
    have hnone : Arr.bdim (b.map Num.nanToNum).d3 c.stdErr.d3 = none := by
      show Arr.bdim b.d3 c.stdErr.d3 = none
      rw [b3, hc]
      unfold Arr.bdim
      rw [if_neg (by omega), if_neg (by omega), if_neg (by omega)]
    unfold Arr.zip
    rw [hnone]
    split
    · rename_i e
      cases e
    · rfl
  have herr : mackRisk Real.sqrt y g z c.stdErr = .error .valueError := by
    unfold mackRisk
    rw [hs.lenD]
    simp only [hb, hzip, bind, Except.bind]
  unfold mackPredict
  simp only [ho0, hf.stats, hy, bind, Except.bind, Option.getD_some]
  unfold mackRisks
  simp only [hu, hz, herr, bind, Except.bind]

/-- The statistics of `Development` have one column fewer than the triangle. -/
theorem devStats_run (hs : Standard x a' n' D q) (hd : p.NoDrop) (hn : ∀ d, p.nPeriods d < 1) (m : Munich.Interp) :
    ∃ c, devStats x p m = .ok c ∧ c.stdErr.d3 = D - 1 := by
  obtain ⟨w', f', s', e', hw', -, hst, -, -, -, -, -, -, -, -, -, he⟩ := Dev.stats_run hs hd hn m false
  refine ⟨⟨s'.values, e'.values, w', (List.range (x.values.d3 - 1)).map fun d => (p.average d).exponent⟩, ?_, ?_⟩
  · unfold devStats
    simp only [hst, hw', bind, Except.bind]
  · show e'.values.d3 = D - 1
    rw [he]
    show x.values.d3 - 1 = D - 1
    rw [hs.wf.2.2.2, hs.lenD]

/-- **C75** is false for a new triangle that went through `Development` itself, be it the `Development` of the fit (as
in `Pipeline.predict`) or another one fitted to the new triangle: it has standard errors of its own, one column fewer
than the recursion needs, because only the fit adds a tail. -/
theorem C75_transformed_false (h : MackReady t a n D q p) (m : Munich.Interp) {f s e : Tri ℝ}
    (hfs : Dev.fitStats t p m false = .ok (f, s, e)) {v : Nat → ℝ} (hv : SigmaIs s D v)
    (hx : Follows t x a' n' D q) (hD : 3 ≤ D) :
    (∃ c, devStats t p m = .ok c ∧ mackPredict t p m x (some c) = .error .valueError) ∧
      ∀ p' : Dev.Params ℝ, p'.NoDrop → (∀ d, p'.nPeriods d < 1) → ∀ m',
        ∃ c, devStats x p' m' = .ok c ∧ mackPredict t p m x (some c) = .error .valueError := by
  constructor
  · obtain ⟨c, hc, h3⟩ := devStats_run h.standard h.noDrop h.all m
    exact ⟨c, hc, mackPredict_short h hfs hv hx hD h3⟩
  · intro p' hd hn m'
    obtain ⟨c, hc, h3⟩ := devStats_run hx.standard hd hn m'
    exact ⟨c, hc, mackPredict_short h hfs hv hx hD h3⟩

namespace C75

/-- The triangle one year later: the latest amounts are 10, 20, 30 and 40. -/
noncomputable def later : Tri ℝ :=
  { Tail.C69.tri with
    odims := [24252, 24264, 24276, 24288]
    vd := 24299
    values := ⟨1, 1, 4, 4, fun _ _ o d => match o, d with
      | 0, 0 => .fin 1 | 0, 1 => .fin 4 | 0, 2 => .fin 8 | 0, 3 => .fin 10
      | 1, 0 => .fin 3 | 1, 1 => .fin 9 | 1, 2 => .fin 20
      | 2, 0 => .fin 9 | 2, 1 => .fin 30
      | 3, 0 => .fin 40
      | _, _ => .nan⟩ }

/-- The same without its newest origin. -/
noncomputable def fewer : Tri ℝ :=
  { later with
    odims := [24252, 24264, 24276]
    values := ⟨1, 1, 3, 4, later.values.get⟩ }

theorem follows : Follows Tail.C69.tri later 24252 4 4 1 where
  standard := {
    wf := ⟨rfl, rfl, rfl, rfl⟩
    finite := by
      intro i hi c hc o ho d hd
      replace ho : o < 4 := ho
      replace hd : d < 4 := hd
      interval_cases o <;> interval_cases d <;> trivial
    isVal := rfl
    cumulative := by decide
    noPattern := rfl
    multiplicative := rfl
    index_pos := le_rfl
    columns_pos := le_rfl
    two_origins := by decide
    period := le_rfl
    recent := by decide
    odims := rfl
    ddims := rfl
    vd := rfl
    short := by decide
    early := by decide
    known := by
      intro i hi c hc o ho d hd hlt
      interval_cases o <;> interval_cases d <;> first | rfl | omega }
  positive := by
    intro o ho
    interval_cases o
    · show (0 : ℝ) < 10; norm_num
    · show (0 : ℝ) < 20; norm_num
    · show (0 : ℝ) < 30; norm_num
    · show (0 : ℝ) < 40; norm_num
  cumulative := rfl
  index := rfl
  column := rfl
  keyLabels := rfl
  ograin := rfl
  dgrain := rfl
  date := by decide
  rows := by decide
  early := by decide

theorem follows' : Follows Tail.C69.tri fewer 24252 3 4 1 where
  standard := {
    wf := ⟨rfl, rfl, rfl, rfl⟩
    finite := by
      intro i hi c hc o ho d hd
      replace ho : o < 3 := ho
      replace hd : d < 4 := hd
      interval_cases o <;> interval_cases d <;> trivial
    isVal := rfl
    cumulative := by decide
    noPattern := rfl
    multiplicative := rfl
    index_pos := le_rfl
    columns_pos := le_rfl
    two_origins := by decide
    period := le_rfl
    recent := by decide
    odims := rfl
    ddims := rfl
    vd := rfl
    short := by decide
    early := by decide
    known := by
      intro i hi c hc o ho d hd hlt
      interval_cases o <;> interval_cases d <;> first | rfl | omega }
  positive := by
    intro o ho
    interval_cases o
    · show (0 : ℝ) < 10; norm_num
    · show (0 : ℝ) < 20; norm_num
    · show (0 : ℝ) < 30; norm_num
  cumulative := rfl
  index := rfl
  column := rfl
  keyLabels := rfl
  ograin := rfl
  dgrain := rfl
  date := by decide
  rows := by decide
  early := by decide

/-- The factor 3/2 and sigma 1 of the fit, the amount 20 of the new triangle: process risk 20 and parameter risk 20 of
an ultimate of 30 (simple averages: the variance grows with the square of the amount). -/
example : ∃ out, mackPredict Tail.C69.tri Tail.C69.simple .mack later none = .ok out ∧
    out.ultimate.values.get 0 0 1 0 = .fin 30 ∧
    (out.process.values.get 0 0 1 4).amt = 20 ∧ (out.parameter.values.get 0 0 1 4).amt = 20 := by
  obtain ⟨w, f, s, e, -, -, hr, -⟩ := Dev.stats_run Tail.C69.standard C70.noDrop C70.all .mack false
  obtain ⟨out, hout, hu, -, hpa, hpr⟩ := C75_partial C70.ready' .mack hr (C70.sigma' hr) C70.trend' follows
  have a2 : devFactor Tail.C69.tri Tail.C69.simple 4 4 1 2 = 3 / 2 := Tail.C69.average2
  have hl : latestAmt later 4 1 1 = 20 := rfl
  have i2 : Finset.Ico 2 3 = {2} := by decide
  have p3 : predicted Tail.C69.tri Tail.C69.simple 4 later 4 1 1 3 = 30 := by
    unfold predicted
    rw [hl, show 4 - 1 - 1 * 1 = 2 from rfl, i2, Finset.prod_singleton, a2]
    norm_num
  have hm : devMass Tail.C69.tri Tail.C69.simple 4 4 1 2 = 1 := by
    show Dev.mass Tail.C69.tri 0 0 2 (pairs 4 4 1 2) .simple = 1
    unfold Dev.mass
    rw [Tail.C69.pairs2, Finset.sum_singleton]
    norm_num [Avg.exponent]
  refine ⟨out, hout, ?_, ?_, ?_⟩
  · rw [hu 1 (by decide), p3]
  · obtain ⟨h0, h1⟩ := hpr 1 (by decide)
    rw [show (4 : Nat) - 1 = 3 from rfl, p3, show 3 - 1 * 1 = 2 from rfl, i2, Finset.sum_singleton, a2] at h1
    refine (sq_eq_sq₀ h0 (by norm_num)).mp (h1.trans ?_)
    rw [show (Tail.C69.simple.average 2).exponent = 2 from rfl]
    norm_num
  · obtain ⟨h0, h1⟩ := hpa 1 (by decide)
    rw [show (4 : Nat) - 1 = 3 from rfl, p3, show 3 - 1 * 1 = 2 from rfl, i2, Finset.sum_singleton, a2, hm] at h1
    refine (sq_eq_sq₀ h0 (by norm_num)).mp (h1.trans ?_)
    norm_num

/-- Three origins instead of four. -/
example : mackPredict Tail.C69.tri Tail.C69.simple .mack fewer none = .error .valueError := by
  obtain ⟨w, f, s, e, -, -, hr, -⟩ := Dev.stats_run Tail.C69.standard C70.noDrop C70.all .mack false
  exact C75_origins_false C70.ready' .mack hr (C70.sigma' hr) follows' (by decide)

/-- Four origins, after the `Development` of the fit. -/
example : ∃ c, devStats Tail.C69.tri Tail.C69.simple .mack = .ok c ∧
    mackPredict Tail.C69.tri Tail.C69.simple .mack later (some c) = .error .valueError := by
  obtain ⟨w, f, s, e, -, -, hr, -⟩ := Dev.stats_run Tail.C69.standard C70.noDrop C70.all .mack false
  exact (C75_transformed_false C70.ready' .mack hr (C70.sigma' hr) follows (by decide)).1

/-- Four origins, after `Development`. -/
example : ∃ c, devStats later Tail.C69.simple .mack = .ok c ∧
    mackPredict Tail.C69.tri Tail.C69.simple .mack later (some c) = .error .valueError := by
  obtain ⟨w, f, s, e, -, -, hr, -⟩ := Dev.stats_run Tail.C69.standard C70.noDrop C70.all .mack false
  exact (C75_transformed_false C70.ready' .mack hr (C70.sigma' hr) follows (by decide)).2 _ C70.noDrop C70.all .mack

end C75
end Work
end CL
