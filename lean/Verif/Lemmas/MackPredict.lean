import Verif.Model.MackPredict
import Verif.Props.C48
import Verif.Props.C70

set_option linter.unusedSectionVars false

/-! # The recursions of Mack for any triangle, pattern and statistics -/

namespace CL
namespace Work
open Tri

/-- The standard error of a factor. -/
noncomputable def riskErr (M v : Nat → ℝ) (k : Nat) : ℝ := Real.sqrt (v k ^ 2 / M k)

/-- The parameter variance of an origin, with the projected amounts `C`, the factors `G`, the sums of weights `M` and
the values `v` of sigma. -/
noncomputable def parameterVar (C : Nat → Nat → ℝ) (G M v : Nat → ℝ) (D q o : Nat) : ℝ :=
  C o (D - 1) ^ 2 * ∑ k ∈ Finset.Ico (D - 1 - q * o) (D - 1), v k ^ 2 / G k ^ 2 * (1 / M k)

/-- The process variance of an origin. -/
noncomputable def processVar (C : Nat → Nat → ℝ) (G : Nat → ℝ) (α : Nat → Nat) (v : Nat → ℝ) (D q o : Nat) : ℝ :=
  C o (D - 1) ^ 2 * ∑ k ∈ Finset.Ico (D - 1 - q * o) (D - 1), v k ^ 2 / G k ^ 2 * (1 / C o k ^ (2 - α k))

/-- The parameter variance of the sum of all origins. -/
noncomputable def totalParameterVar (C : Nat → Nat → ℝ) (G M v : Nat → ℝ) (n D q : Nat) : ℝ :=
  ∑ k ∈ Finset.range (D - 1), v k ^ 2 / G k ^ 2 * (1 / M k) *
    (∑ o ∈ (Finset.range n).filter (fun o => D - 1 - q * o ≤ k), C o (D - 1)) ^ 2

/-- What the recursions need to know: the full triangle `z` of `x` holds the amounts `C`, which grow by the factors
`G`; `sig`, `err`, `w` and `avg` are the statistics.  `T` tells whether the tail has a standard error. -/
structure RiskParts (x : Tri ℝ) (n D q F : Nat) (α : Nat → Nat) (v G M : Nat → ℝ) (C : Nat → Nat → ℝ) (T : Prop)
    (g z : Tri ℝ) (w sig err : Arr ℝ) (avg : List Nat) : Prop where
  index : x.kdims.length = 1
  column : x.vdims.length = 1
  rows : 2 ≤ linkRows n D q
  completed : Completed x z n D q F
  cells : ∀ o < n, ∀ k < D, D - 1 - q * o ≤ k → (z.values.get 0 0 o k).amt = C o k
  cpos : ∀ o < n, ∀ k < D, 0 < C o k
  grow : ∀ o < n, ∀ k, D - 1 - q * o ≤ k → k + 1 < D → C o (k + 1) = C o k * G k
  gpos : ∀ k, k + 1 < D → 0 < G k
  mpos : ∀ k, k + 1 < D → 0 < M k
  riskFactor : ∀ k < D, g.riskFactor D 0 0 k = if k + 1 < D then G k else 1
  wdims : w.Dims 1 1 n (D - 1)
  wcells : ∀ o < n, ∀ k < D - 1, w.get 0 0 o k = .nan ∨ w.get 0 0 o k = .fin 1
  sigma : ∀ k < D, sig.get 0 0 0 k = .fin (if k + 1 < D then v k else 0) ∨
    (sig.get 0 0 0 k = .nan ∧ (if k + 1 < D then v k else 0) = 0)
  sigmaDims : sig.Dims 1 1 1 D
  errCells : ∀ k, k + 1 < D → err.get 0 0 0 k = .fin (riskErr M v k)
  errDims : err.Dims 1 1 1 D
  trend : T → err.get 0 0 0 (D - 1) = .fin 0
  noTrend : ¬ T → err.get 0 0 0 (D - 1) = .nan
  avgLen : avg.length = D - 1
  avgLe : ∀ e ∈ avg, e ≤ 2
  avgCells : ∀ k, k + 1 < D → avgAt avg k = α k
  alpha : ∀ k, α k ≤ 2

namespace RiskParts
variable {x : Tri ℝ} {a : Int} {n D q F : Nat} {α : Nat → Nat} {v G M : Nat → ℝ} {C : Nat → Nat → ℝ} {T : Prop}
  {g z : Tri ℝ} {w sig err : Arr ℝ} {avg : List Nat}

theorem later (hp : RiskParts x n D q F α v G M C T g z w sig err avg) {o : Nat} (ho : o < n) {k : Nat}
    (hL : D - 1 - q * o ≤ k) : ∀ j, k + j < D → C o (k + j) = C o k * ∏ i ∈ Finset.Ico k (k + j), G i
  | 0, _ => by simp
  | j + 1, hj => by
    rw [← Nat.add_assoc, hp.grow o ho (k + j) (by omega) (by omega), hp.later ho hL j (by omega),
      Finset.prod_Ico_succ_top (by omega), mul_assoc]

theorem ult_term (hp : RiskParts x n D q F α v G M C T g z w sig err avg) {o k : Nat} (ho : o < n)
    (hL : D - 1 - q * o ≤ k) (hk : k + 1 < D) :
    C o k * ∏ j ∈ Finset.Ico (k + 1) (D - 1), G j = C o (D - 1) / G k := by
  have h1 := hp.later ho (k := k + 1) (by omega) (D - 1 - (k + 1)) (by omega)
  rw [show k + 1 + (D - 1 - (k + 1)) = D - 1 by omega, hp.grow o ho k hL hk] at h1
  rw [h1, mul_right_comm, mul_div_assoc, div_self (hp.gpos k hk).ne', mul_one]

theorem param_term (hp : RiskParts x n D q F α v G M C T g z w sig err avg) {o k : Nat} (ho : o < n)
    (hL : D - 1 - q * o ≤ k) (hk : k + 1 < D) :
    (C o k * riskErr M v k) ^ 2 * ∏ j ∈ Finset.Ico (k + 1) (D - 1), G j ^ 2 =
      C o (D - 1) ^ 2 * (v k ^ 2 / G k ^ 2 * (1 / M k)) := by
  rw [Finset.prod_pow, mul_pow, mul_right_comm, ← mul_pow, hp.ult_term ho hL hk]
  unfold riskErr
  rw [Real.sq_sqrt (div_nonneg (sq_nonneg _) (hp.mpos k hk).le), div_pow]
  ring

theorem proc_term (hp : RiskParts x n D q F α v G M C T g z w sig err avg) {o k : Nat} (ho : o < n)
    (hL : D - 1 - q * o ≤ k) (hk : k + 1 < D) :
    v k ^ 2 * C o k ^ α k * ∏ j ∈ Finset.Ico (k + 1) (D - 1), G j ^ 2 =
      C o (D - 1) ^ 2 * (v k ^ 2 / G k ^ 2 * (1 / C o k ^ (2 - α k))) := by
  have hC := (hp.cpos o ho k (by omega)).ne'
  have hF := (hp.gpos k hk).ne'
  have e := hp.ult_term ho hL hk
  have e2 : C o k ^ 2 = C o k ^ α k * C o k ^ (2 - α k) := by
    rw [← pow_add, Nat.add_sub_cancel' (hp.alpha _)]
  have e3 : C o (D - 1) ^ 2 = C o k ^ 2 * G k ^ 2 * (∏ j ∈ Finset.Ico (k + 1) (D - 1), G j) ^ 2 := by
    have : C o (D - 1) = C o k * G k * ∏ j ∈ Finset.Ico (k + 1) (D - 1), G j := by
      rw [mul_right_comm, e]
      field_simp
    rw [this]
    ring
  rw [e3, e2, Finset.prod_pow]
  have h1 := pow_ne_zero (2 - α k) hC
  field_simp

/-- The recursions run, and their results at ultimate are Mack's. -/
theorem risks (hp : RiskParts x n D q F α v G M C T g z w sig err avg) (hs : Standard x a n D q)
    (hgp : GridPattern x g a n D q F) (hF : D < F) :
    ∃ pa se pr tq er tp tt, mackRisk Real.sqrt x g z err = .ok pa ∧
      fullStdErr Real.sqrt x z sig w avg = .ok se ∧ mackRisk Real.sqrt x g z se = .ok pr ∧
      totalProcess Real.sqrt pr = .ok tp ∧ mackTotalParameter Real.sqrt x g z err = .ok tq ∧
      totalMackStdErr Real.sqrt pr tq 0 0 = .ok tt ∧ mackStdErr Real.sqrt pa pr = .ok er ∧
      (∀ o < n, 0 ≤ (pr.values.get 0 0 o D).amt ∧ (pr.values.get 0 0 o D).amt ^ 2 = processVar C G α v D q o) ∧
      (∀ o < n, (er.values.get 0 0 o D).NoInf ∧ 0 ≤ (er.values.get 0 0 o D).amt ∧ (er.values.get 0 0 o D).amt ^ 2 =
        (pa.values.get 0 0 o D).amt ^ 2 + (pr.values.get 0 0 o D).amt ^ 2) ∧
      (0 ≤ (tp.values.get 0 0 0 D).amt ∧
        (tp.values.get 0 0 0 D).amt ^ 2 = ∑ o ∈ Finset.range n, processVar C G α v D q o) ∧
      (0 ≤ (tq.values.get 0 0 0 D).amt ∧ (tq.values.get 0 0 0 D).amt ^ 2 = totalParameterVar C G M v n D q) ∧
      (T → ∀ o < n, 0 ≤ (pa.values.get 0 0 o D).amt ∧
        (pa.values.get 0 0 o D).amt ^ 2 = parameterVar C G M v D q o) ∧
      (¬ T → ∀ o < n, pa.values.get 0 0 o D = .fin 0) ∧
      tt.NoInf ∧ 0 ≤ tt.amt ∧
      tt.amt ^ 2 = (∑ o ∈ Finset.range n, processVar C G α v D q o) + totalParameterVar C G M v n D q := by
  have lD := hs.lenD
  have lO := hs.lenO
  have D2 := hs.two_ages
  have n2 := hs.two_origins
  have i0 : 0 < x.kdims.length := hs.index_pos
  have c0 : 0 < x.vdims.length := hs.columns_pos
  have hup : ∀ y : Arr ℝ, y.Dims 1 1 1 D → y.Up x.kdims.length x.vdims.length n D := fun y hy =>
    ⟨Or.inr hy.1, Or.inr hy.2.1, Or.inr hy.2.2.1, hy.2.2.2⟩
  have hlift : ∀ y : Arr ℝ, y.Dims 1 1 1 D → ∀ i < x.kdims.length, ∀ c < x.vdims.length, ∀ o < n, ∀ d,
      y.lift x.kdims.length x.vdims.length n i c o d = y.get 0 0 0 d := by
    intro y hy i hi c hc o ho d
    rw [hp.index] at hi
    rw [hp.column] at hc
    obtain rfl : i = 0 := by omega
    obtain rfl : c = 0 := by omega
    unfold Arr.lift
    rw [hy.1, hy.2.1, hy.2.2.1, hp.index, hp.column]
    congr 1
    unfold Arr.bix
    split_ifs <;> omega
  -- process risk
  have sigd : (sig.map Num.nan0).Dims 1 1 1 D := hp.sigmaDims
  obtain ⟨se, hse, sed, S, sc, sS⟩ := fullStdErr_spec C38.isSqrt hs.toGrid hgp.covers hp.completed
    (sigma := sig.map Num.nan0) (w := w) (avg := avg) (hup _ sigd) (σ := fun _ _ _ d => if d + 1 < D then v d else 0)
    (by
      intro i hi c hc o ho d hd
      rw [hlift _ sigd i hi c hc o ho]
      show (sig.get 0 0 0 d).nan0 = _
      rcases hp.sigma d hd with e | ⟨e, e0⟩
      · rw [e]; rfl
      · rw [e, e0]; rfl)
    hp.wdims (by
      intro o ho d hd
      rcases hp.wcells o ho d hd with e | e <;> rw [e]
      · exact Num.noInf_nan
      · exact Num.noInf_fin _) hp.avgLen hp.avgLe
  have hse' : fullStdErr Real.sqrt x z sig w avg = .ok se := by rw [fullStdErr_zero]; exact hse
  obtain ⟨pr, hpr, prt⟩ := riskTri Real.sqrt hs.toGrid hgp hF hp.completed sed.up (S := S)
    (fun i hi c hc o ho d hd => by rw [sed.lift]; exact sc i hi c hc o ho d hd)
  have hw1 : ∀ o < n, ∀ d, linkWeight w D o d = 1 := by
    intro o ho d
    unfold linkWeight
    by_cases hd : d + 1 < D
    · rw [if_pos hd]
      rcases hp.wcells o ho d (by omega) with e | e <;> rw [e]
      · rfl
      · rfl
    · rw [if_neg hd]
  have hterm : ∀ o < n, ∀ k < D, D - 1 - q * o ≤ k →
      ((z.values.get 0 0 o k).amt * S 0 0 o k) ^ 2 =
        if k + 1 < D then v k ^ 2 * C o k ^ α k else 0 := by
    intro o ho k hk hL
    have hC := hp.cpos o ho k hk
    have hz := hp.cells o ho k hk hL
    rw [sS 0 i0 0 c0 o ho k hk (by rw [hz]; intro e; exact absurd e hC.ne')
      (by rw [hz]; intro e; exact absurd hC (not_lt.mpr e.le)), hw1 o ho, hz]
    split_ifs with h1
    · rw [hp.avgCells k h1]; ring
    · ring
  have hproc : ∀ o < n, pr.values.get 0 0 o D = .fin (quad Real.sqrt
      (fun d => (z.values.get 0 0 o d).amt * S 0 0 o d) (g.riskFactor D 0 0)
      (fun d => if q * o + d + 1 ≤ D then 0 else 1) D) := fun o ho =>
    prt.cells 0 i0 0 c0 o (by rw [lO]; exact ho) D (by rw [lD]; omega)
  have hq : ∀ o < n, 0 ≤ quad Real.sqrt (fun d => (z.values.get 0 0 o d).amt * S 0 0 o d) (g.riskFactor D 0 0)
      (fun d => if q * o + d + 1 ≤ D then 0 else 1) D ∧
      quad Real.sqrt (fun d => (z.values.get 0 0 o d).amt * S 0 0 o d) (g.riskFactor D 0 0)
      (fun d => if q * o + d + 1 ≤ D then 0 else 1) D ^ 2 = processVar C G α v D q o := by
    intro o ho
    have hr := hs.row_le ho
    rw [Nat.mul_comm] at hr
    have hrow := risk_row C38.isSqrt hs.toGrid ho (T := fun d => (z.values.get 0 0 o d).amt * S 0 0 o d)
      (L := g.riskFactor D 0 0)
    refine ⟨hrow.nonneg D le_rfl, ?_⟩
    rw [row_ult hrow (by omega) (by omega) (by
      have := hterm o ho (D - 1) (by omega) (by omega)
      rw [if_neg (by omega)] at this
      exact pow_eq_zero_iff two_ne_zero |>.mp this) hp.riskFactor]
    unfold processVar
    rw [Finset.mul_sum]
    refine Finset.sum_congr rfl fun k hk => ?_
    rw [Finset.mem_Ico] at hk
    rw [hterm o ho k (by omega) hk.1, if_pos (by omega)]
    exact hp.proc_term ho hk.1 (by omega)
  -- total process risk
  obtain ⟨tp, htp, tpt⟩ := totalProcess_spec (s := Real.sqrt) hs.toGrid prt
  -- parameter risk
  have hTsum : ∀ k < D, k + 1 < D → ∀ G : Nat → ℝ, G k = riskErr M v k →
      (∑ o ∈ Finset.range n, if q * o + k + 1 < D then 0 else (z.values.get 0 0 o k).amt * G k) =
      (∑ o ∈ (Finset.range n).filter (fun o => D - 1 - q * o ≤ k), C o k) *
        riskErr M v k := by
    intro k hk hk1 G hG
    rw [Finset.sum_mul, Finset.sum_filter]
    refine Finset.sum_congr rfl fun o ho => ?_
    have ho := Finset.mem_range.1 ho
    have hr := hs.row_le ho
    rw [Nat.mul_comm] at hr
    by_cases hk : q * o + k + 1 < D
    · rw [if_pos hk, if_neg (by omega)]
    · rw [if_neg hk, if_pos (by omega), hp.cells o ho k (by omega) (by omega), hG]
  obtain ⟨E, hE⟩ : ∃ E : Nat → ℝ, E = fun k => if k + 1 < D then riskErr M v k else 0 := ⟨_, rfl⟩
  have herrc : ∀ i < x.kdims.length, ∀ c < x.vdims.length, ∀ o < n, ∀ d < D,
      err.lift x.kdims.length x.vdims.length n i c o d = .fin (E d) ∨
        (err.lift x.kdims.length x.vdims.length n i c o d = .nan ∧ E d = 0) := by
    intro i hi c hc o ho d hd
    rw [hlift _ hp.errDims i hi c hc o ho, hE]
    beta_reduce
    by_cases h1 : d + 1 < D
    · rw [if_pos h1]
      exact Or.inl (hp.errCells d h1)
    · rw [if_neg h1, show d = D - 1 by omega]
      by_cases ht : T
      · exact Or.inl (hp.trend ht)
      · exact Or.inr ⟨hp.noTrend ht, rfl⟩
  obtain ⟨tq, htq, tqt⟩ := mackTotalParameter_missing Real.sqrt hs hgp hF hp.rows hp.completed (se := err)
    (hup _ hp.errDims) (S := fun _ _ _ d => E d) herrc
  have hparam : ∃ (pa : Tri ℝ) (P : Nat → Nat → Nat → Nat → ℝ), mackRisk Real.sqrt x g z err = .ok pa ∧ RiskTri x pa x.odims (fun i c o d => .fin (P i c o d)) ∧
      (T → ∀ o < n, 0 ≤ P 0 0 o D ∧ P 0 0 o D ^ 2 = parameterVar C G M v D q o) ∧
      (¬ T → ∀ o < n, P 0 0 o D = 0) := by
    by_cases ht : T
    · obtain ⟨pa, hpa, pat⟩ := riskTri Real.sqrt hs.toGrid hgp hF hp.completed (hup _ hp.errDims)
        (S := fun _ _ _ d => E d) (fun i hi c hc o ho d hd => by
          rcases herrc i hi c hc o ho d hd with e | ⟨e, -⟩
          · exact e
          · rw [hlift _ hp.errDims i hi c hc o ho] at e ⊢
            by_cases h1 : d + 1 < D
            · rw [hp.errCells d h1] at e
              cases e
            · rw [show d = D - 1 by omega, hp.trend ht] at e
              cases e)
      refine ⟨pa, _, hpa, pat, fun _ o ho => ?_, fun hno => absurd ht hno⟩
      have hr := hs.row_le ho
      rw [Nat.mul_comm] at hr
      have hrow := risk_row C38.isSqrt hs.toGrid ho (T := fun d => (z.values.get 0 0 o d).amt * E d)
        (L := g.riskFactor D 0 0)
      refine ⟨hrow.nonneg D le_rfl, ?_⟩
      beta_reduce
      rw [row_ult hrow (by omega) (by omega) (by
        rw [hE]; beta_reduce; rw [if_neg (by omega), mul_zero]) hp.riskFactor]
      unfold parameterVar
      rw [Finset.mul_sum]
      refine Finset.sum_congr rfl fun k hk => ?_
      rw [Finset.mem_Ico] at hk
      rw [← hp.param_term ho hk.1 (by omega), hp.cells o ho k (by omega) hk.1, hE]
      beta_reduce
      rw [if_pos (by omega)]
    · obtain ⟨pa, hpa, pat⟩ := mackRisk_nan Real.sqrt hs.toGrid hgp hF hp.completed (hup _ hp.errDims)
        (S := fun _ _ _ d => E d) (fun i hi c hc o ho d hd => by
          rw [hlift _ hp.errDims i hi c hc o ho, hp.errCells d (by omega), hE]
          beta_reduce
          rw [if_pos (by omega)]) (fun i hi c hc o ho => by
          rw [hlift _ hp.errDims i hi c hc o ho]
          exact hp.noTrend ht)
      refine ⟨pa, fun i c o d => if d < D then quad Real.sqrt (fun d => (z.values.get i c o d).amt * E d)
        (g.riskFactor D i c) (fun d => if q * o + d + 1 ≤ D then 0 else 1) d else 0, hpa,
        ⟨pat.wf, pat.labels, ?_⟩, fun hyes => absurd hyes ht, fun _ o ho => if_neg (lt_irrefl D)⟩
      intro i hi c hc o ho d hd
      rw [pat.cells i hi c hc o ho d hd]
      beta_reduce
      split_ifs <;> rfl
  obtain ⟨pa, P, hpa, pat, hP1, hP2⟩ := hparam
  obtain ⟨er, her, ert⟩ := mackStdErr_spec (s := Real.sqrt) hs.toGrid hgp pat prt
  have hpac : ∀ o < n, pa.values.get 0 0 o D = .fin (P 0 0 o D) := fun o ho =>
    pat.cells 0 i0 0 c0 o (by rw [lO]; exact ho) D (by rw [lD]; omega)
  have root : ∀ {x : ℝ}, 0 ≤ x → ∀ {v : Num ℝ}, (v = if x = 0 then .nan else .fin (Real.sqrt x)) →
      v.NoInf ∧ 0 ≤ v.amt ∧ v.amt ^ 2 = x := by
    intro x hx v hv
    rw [hv]
    split_ifs with h0
    · exact ⟨Num.noInf_nan, le_rfl, by rw [h0]; show (0 : ℝ) ^ 2 = 0; ring⟩
    · exact ⟨Num.noInf_fin _, C38.isSqrt x hx⟩
  obtain ⟨tt, htt, ett⟩ := totalMackStdErr_spec C38.isSqrt hs.toGrid hgp prt tqt i0 c0
  have hpar : 0 ≤ (tq.values.get 0 0 0 D).amt ∧ (tq.values.get 0 0 0 D).amt ^ 2 = totalParameterVar C G M v n D q := by
    have e1 := tqt.cells 0 i0 0 c0 0 (by rw [List.length_take, lO]; omega) D (by rw [lD]; omega)
    beta_reduce at e1
    rw [e1, Num.amt_fin]
    have hrow := quad_row C38.isSqrt (T := fun d => ∑ o ∈ Finset.range n,
        if q * o + d + 1 < D then 0 else (z.values.get 0 0 o d).amt * E d)
      (L := g.riskFactor D 0 0) (M := fun d => if d = 0 then 0 else 1) (l := 0) (D := D)
      (fun d hd => if_pos (by omega)) (fun d h1 _ => if_neg (by omega))
    have hq' : ∀ d, quad Real.sqrt (fun d => ∑ o ∈ Finset.range n,
        if q * o + d + 1 < D then 0 else (z.values.get 0 0 o d).amt * E d) (g.riskFactor D 0 0)
        (fun d => if d = 0 then 0 else 1) d = quad Real.sqrt (fun d => ∑ o ∈ Finset.range n,
        if q * o + d + 1 < D then 0 else (z.values.get 0 0 o d).amt * E d) (g.riskFactor D 0 0)
        (fun _ => 1) d := by
      intro d
      induction d with
      | zero => rfl
      | succ d ih =>
        show _ * _ = _ * _
        rw [ih]
        show _ * (if d + 1 = 0 then (0 : ℝ) else 1) = _ * 1
        rw [if_neg (Nat.succ_ne_zero d)]
    rw [← hq']
    refine ⟨hrow.nonneg D le_rfl, ?_⟩
    rw [row_ult hrow (by omega) (by omega) (by
      refine Finset.sum_eq_zero fun o _ => ?_
      rw [hE]
      beta_reduce
      rw [if_neg (show ¬ D - 1 + 1 < D by omega), mul_zero, ite_self]) hp.riskFactor]
    unfold totalParameterVar
    rw [Nat.Ico_zero_eq_range]
    refine Finset.sum_congr rfl fun k hk => ?_
    rw [Finset.mem_range] at hk
    rw [hTsum k (by omega) (by omega) E (by rw [hE]; beta_reduce; rw [if_pos (by omega)]), Finset.prod_pow, mul_pow,
      mul_right_comm, ← mul_pow, Finset.sum_mul]
    have : ∀ o ∈ (Finset.range n).filter (fun o => D - 1 - q * o ≤ k), C o k *
        ∏ j ∈ Finset.Ico (k + 1) (D - 1), G j =
        C o (D - 1) / G k := by
      intro o ho
      rw [Finset.mem_filter] at ho
      exact hp.ult_term (Finset.mem_range.1 ho.1) ho.2 (by omega)
    rw [Finset.sum_congr rfl this]
    simp only [div_eq_mul_inv (C _ (D - 1))]
    rw [← Finset.sum_mul, ← div_eq_mul_inv]
    unfold riskErr
    rw [Real.sq_sqrt (div_nonneg (sq_nonneg _) (hp.mpos k (by omega)).le), div_pow]
    ring
  have hparc : tq.values.get 0 0 0 D = .fin (tq.values.get 0 0 0 D).amt := by
    rw [tqt.cells 0 i0 0 c0 0 (by rw [List.length_take, lO]; omega) D (by rw [lD]; omega), Num.amt_fin]
  refine ⟨pa, se, pr, tq, er, tp, tt, hpa, hse', hpr, htp, htq, htt, her, ?_, ?_, ?_, hpar, ?_, ?_, ?_⟩
  · intro o ho
    rw [hproc o ho]
    exact hq o ho
  · intro o ho
    rw [hpac o ho, hproc o ho]
    refine root (add_nonneg (sq_nonneg _) (sq_nonneg _)) ?_
    exact ert.cells 0 i0 0 c0 o (by rw [lO]; exact ho) D (by rw [lD]; omega)
  · have e1 := tpt.cells 0 i0 0 c0 0 (by rw [List.length_take, lO]; omega) D (by rw [lD]; omega)
    have e2 : ∑ o ∈ Finset.range n, processVar C G α v D q o = _ :=
      Finset.sum_congr rfl fun o ho => ((hq o (Finset.mem_range.1 ho)).2).symm
    rw [e2]
    refine (root (Finset.sum_nonneg fun o _ => sq_nonneg _) ?_).2
    rw [e1, sqrt_numToNan (Finset.sum_nonneg fun o _ => sq_nonneg _)]
  · intro ht o ho
    rw [hpac o ho]
    exact hP1 ht o ho
  · intro ht o ho
    rw [hpac o ho, hP2 ht o ho]
  · have e2 : ∑ o ∈ Finset.range n, processVar C G α v D q o = _ :=
      Finset.sum_congr rfl fun o ho => ((hq o (Finset.mem_range.1 ho)).2).symm
    have e3 := hpar.2
    rw [tqt.cells 0 i0 0 c0 0 (by rw [List.length_take, lO]; omega) D (by rw [lD]; omega), Num.amt_fin] at e3
    rw [e2, ← e3]
    exact root (add_nonneg (Finset.sum_nonneg fun o _ => sq_nonneg _) (sq_nonneg _)) ett

end RiskParts
end Work
end CL
