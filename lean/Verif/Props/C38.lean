import Verif.Lemmas.MackTotal
import Verif.Props.C34
import Mathlib.Analysis.Real.Sqrt
import Mathlib.Tactic.LinearCombination
import Mathlib.Tactic.Linarith

set_option linter.unusedSectionVars false

/-! # C38: Mack standard errors -/

namespace CL
variable {K : Type} [Field K] [LinearOrder K] [IsStrictOrderedRing K]

/-- Only the squares of the terms matter. -/
theorem MackRow.congr {T T' φ φ' r : Nat → K} {L D : Nat} (h : MackRow T φ L D r)
    (hT : ∀ d, L ≤ d → d < D → T d ^ 2 = T' d ^ 2) (hφ : ∀ d, L ≤ d → d < D → φ d = φ' d) :
    MackRow T' φ' L D r where
  known := h.known
  nonneg := h.nonneg
  step d h1 h2 := by rw [h.step d h1 h2, hT d h1 h2, hφ d h1 h2]

namespace Tri
variable {t f u : Tri K} {a : Int} {n D q F : Nat} {U : Nat → Nat → Nat → K}

/-- The ultimate of the chain ladder method. -/
theorem chainladder_ult (h : Standard t a n D q) (hf : GridPattern t f a n D q F) :
    ∃ u, t.chainladder f none = .ok u ∧
      UltAmounts t u fun i c o => t.latest D q i c o * f.toUlt i c (D - 1 - q * o) := by
  obtain ⟨l, hl, hd⟩ := h.latest
  obtain ⟨u, rows, hu, hr, hul⟩ := C33_ultimate_partial h.cumTri hf.toPatternFor hl
  have hrr : rows = List.range n := by
    refine List.Pairwise.eq_of_mem_iff hr.rows_inc hd.rows_inc ?_
    intro o
    rw [hr.mem_rows, hd.mem_rows]
  subst hrr
  exact ⟨u, hu, hul.ultAmounts h⟩

/-- A cell is known exactly up to the latest development of its origin. -/
theorem Grid.known_iff (h : Grid t a n D q) {o d : Nat} (ho : o < n) (hd : d < D) :
    t.valuation o d ≤ t.vd ↔ d ≤ D - 1 - q * o := by
  have := h.valuation_gt ho hd
  have := h.row_le ho
  rw [Nat.mul_comm] at this
  omega

theorem risk_row {s : K → K} (hs : IsSqrt s) (h : Grid t a n D q) {o : Nat} (ho : o < n) {T L : Nat → K} :
    MackRow T L (D - 1 - q * o) D (quad s T L fun d => if q * o + d + 1 ≤ D then 0 else 1) := by
  have hr := h.row_le ho
  rw [Nat.mul_comm] at hr
  refine quad_row hs ?_ ?_
  · intro d hd; exact if_pos (by omega)
  · intro d h1 h2; exact if_neg (by omega)

theorem riskTri (s : K → K) (h : Grid t a n D q) (hf : GridPattern t f a n D q F) (hF : D < F)
    {z : Tri K} (hz : Completed t z n D q F) {se : Arr K} (hse : se.Up t.kdims.length t.vdims.length n D)
    {S : Nat → Nat → Nat → Nat → K}
    (cse : ∀ i < t.kdims.length, ∀ c < t.vdims.length, ∀ o < n, ∀ d < D,
      se.lift t.kdims.length t.vdims.length n i c o d = .fin (S i c o d)) :
    ∃ r, mackRisk s t f z se = .ok r ∧ RiskTri t r t.odims fun i c o d =>
        .fin (quad s (fun d => (z.values.get i c o d).amt * S i c o d) (f.riskFactor D i c)
          (fun d => if q * o + d + 1 ≤ D then 0 else 1) d) := by
  obtain ⟨r, hr, rw, rl, rc⟩ := mackRisk_spec s h hf hF hz hse cse
  exact ⟨r, hr, rw, rl, by rw [h.lenO, h.lenD]; exact rc⟩

/-- Parameter and process risk, for standard errors `S` of whatever origin: they are zero up to the
valuation date; afterwards `r(k+1)^2 = (f_k r(k))^2 + (C_k S_k)^2`, so they are the closed-form sum.  `C`
is the full triangle of the chain ladder method, and the last factor is the tail.  Missing: a pattern
without an age after those of the triangle (false, see `C38_no_extension_false`), the regression that
gives `S`, and two origins of which only one has an earlier cell. -/
theorem C38_risk_partial {s : K → K} (hs : IsSqrt s) (h : Standard t a n D q) (hc : t.isCum = some true)
    (hf : GridPattern t f a n D q F) (hF : D < F) (h2 : 2 ≤ linkRows n D q) {se : Arr K}
    (hse : se.Up t.kdims.length t.vdims.length n D) {S : Nat → Nat → Nat → Nat → K}
    (cse : ∀ i < t.kdims.length, ∀ c < t.vdims.length, ∀ o < n, ∀ d < D,
      se.lift t.kdims.length t.vdims.length n i c o d = .fin (S i c o d)) :
    ∃ u z r, t.chainladder f none = .ok u ∧ fullTriangle t f u true = .ok z ∧
      mackRisk s t f z se = .ok r ∧ WF r ∧ r.kdims = t.kdims ∧ r.vdims = t.vdims ∧ r.odims = t.odims ∧
      r.ddims = t.ddims ++ [9999] ∧
      ∀ i < t.kdims.length, ∀ c < t.vdims.length, ∀ o < n, ∃ ρ : Nat → K,
        (∀ d < D + 1, r.values.get i c o d = .fin (ρ d) ∧ 0 ≤ ρ d) ∧
        (∀ d < D, t.valuation o d ≤ t.vd → ρ d = 0) ∧
        (∀ d < D, t.vd ≤ t.valuation o d → ρ (d + 1) ^ 2 =
          (f.riskFactor D i c d * ρ d) ^ 2 + ((z.values.get i c o d).amt * S i c o d) ^ 2) ∧
        ∀ d, D - 1 - q * o ≤ d → d ≤ D → ρ d ^ 2 =
          ∑ k ∈ Finset.Ico (D - 1 - q * o) d, ((z.values.get i c o k).amt * S i c o k) ^ 2 *
            ∏ l ∈ Finset.Ico (k + 1) d, f.riskFactor D i c l ^ 2 := by
  obtain ⟨u, hu, hua⟩ := chainladder_ult h hf
  obtain ⟨z, hz, zc⟩ := completed h hc hf h2 hua
  obtain ⟨r, hr, rt⟩ := riskTri s h.toGrid hf hF zc hse cse
  refine ⟨u, z, r, hu, hz, hr, rt.wf, by rw [rt.labels], by rw [rt.labels], by rw [rt.labels],
    by rw [rt.labels], ?_⟩
  intro i hi c hc o ho
  have hrow := risk_row hs h.toGrid ho (T := fun d => (z.values.get i c o d).amt * S i c o d)
    (L := f.riskFactor D i c)
  refine ⟨_, fun d hd => ⟨rt.cells i hi c hc o (by rw [h.lenO]; exact ho) d (by rw [h.lenD]; exact hd),
    hrow.nonneg d (by omega)⟩, ?_, ?_, hrow.closed⟩
  · intro d hd hv
    exact hrow.known d ((h.known_iff ho hd).1 hv)
  · intro d hd hv
    refine hrow.step d ?_ hd
    by_contra hcon
    have e1 := h.valuation_vd ho hd
    have := h.row_le ho
    rw [Nat.mul_comm] at this
    have := h.valuation_gt ho hd
    omega

/-- The process risk with the standard errors the code computes from `sigma_`: the term that is added is
`sigma^2 * C^alpha * w^2`, where `alpha` is 0, 1 or 2 with the kind of average.  Missing: more than one
index entry or column (false, see `C38_many_false`), and cells of the full triangle that are zero with
`alpha` 0 or negative with `alpha` 1 (the code adds nothing for them). -/
theorem C38_process_partial {s : K → K} (hs : IsSqrt s) (h : Standard t a n D q) (hc : t.isCum = some true)
    (hf : GridPattern t f a n D q F) (hF : D < F) (h2 : 2 ≤ linkRows n D q) {sigma w : Arr K} {avg : List Nat}
    (hsig : sigma.Up t.kdims.length t.vdims.length n D) {σ : Nat → Nat → Nat → Nat → K}
    (csig : ∀ i < t.kdims.length, ∀ c < t.vdims.length, ∀ o < n, ∀ d < D,
      sigma.lift t.kdims.length t.vdims.length n i c o d = .fin (σ i c o d))
    (hw : w.Dims 1 1 n (D - 1)) (cw : ∀ o < n, ∀ d < D - 1, (w.get 0 0 o d).NoInf)
    (havg : avg.length = D - 1) (ha : ∀ x ∈ avg, x ≤ 2) :
    ∃ u z se r, t.chainladder f none = .ok u ∧ fullTriangle t f u true = .ok z ∧
      fullStdErr s t z sigma w avg = .ok se ∧ mackRisk s t f z se = .ok r ∧
      ∀ i < t.kdims.length, ∀ c < t.vdims.length, ∀ o < n,
        (∀ d < D, D - 1 - q * o ≤ d → ((z.values.get i c o d).amt = 0 → avgAt avg d ≠ 0) ∧
          ((z.values.get i c o d).amt < 0 → avgAt avg d ≠ 1)) →
        ∃ ρ : Nat → K,
        (∀ d < D + 1, r.values.get i c o d = .fin (ρ d) ∧ 0 ≤ ρ d) ∧
        (∀ d < D, t.valuation o d ≤ t.vd → ρ d = 0) ∧
        ∀ d < D, D - 1 - q * o ≤ d → ρ (d + 1) ^ 2 = (f.riskFactor D i c d * ρ d) ^ 2 +
          σ i c o d ^ 2 * (z.values.get i c o d).amt ^ avgAt avg d * linkWeight w D o d ^ 2 := by
  obtain ⟨u, hu, hua⟩ := chainladder_ult h hf
  obtain ⟨z, hz, zc⟩ := completed h hc hf h2 hua
  obtain ⟨se, hse, sd, S, sc, sS⟩ := fullStdErr_spec hs h.toGrid hf.covers zc hsig csig hw cw havg ha
  obtain ⟨r, hr, rt⟩ := riskTri s h.toGrid hf hF zc sd.up
    (by intro i hi c hc o ho d hd; rw [sd.lift]; exact sc i hi c hc o ho d hd)
  refine ⟨u, z, se, r, hu, hz, hse, hr, ?_⟩
  intro i hi c hc o ho hok
  have hrow := risk_row hs h.toGrid ho (T := fun d => (z.values.get i c o d).amt * S i c o d)
    (L := f.riskFactor D i c)
  refine ⟨_, fun d hd => ⟨rt.cells i hi c hc o (by rw [h.lenO]; exact ho) d (by rw [h.lenD]; exact hd),
    hrow.nonneg d (by omega)⟩, ?_, ?_⟩
  · intro d hd hv
    exact hrow.known d ((h.known_iff ho hd).1 hv)
  · intro d hd hl
    rw [hrow.step d hl hd, sS i hi c hc o ho d hd (hok d hd hl).1 (hok d hd hl).2]

/-- The squared standard error of every cell is the sum of the two squared risks; the squared total
process risk is the sum over the origins; the total parameter risk follows the recursion with the terms
of the origins that are still developing added up; the squared total standard error is the sum of the
two squared totals.  Missing: as in `C38_risk_partial`. -/
theorem C38_std_err_partial {s : K → K} (hs : IsSqrt s) (h : Standard t a n D q) (hc : t.isCum = some true)
    (hf : GridPattern t f a n D q F) (hF : D < F) (h2 : 2 ≤ linkRows n D q) {se se' : Arr K}
    (hse : se.Up t.kdims.length t.vdims.length n D) {S S' : Nat → Nat → Nat → Nat → K}
    (cse : ∀ i < t.kdims.length, ∀ c < t.vdims.length, ∀ o < n, ∀ d < D,
      se.lift t.kdims.length t.vdims.length n i c o d = .fin (S i c o d))
    (hse' : se'.Up t.kdims.length t.vdims.length n D)
    (cse' : ∀ i < t.kdims.length, ∀ c < t.vdims.length, ∀ o < n, ∀ d < D,
      se'.lift t.kdims.length t.vdims.length n i c o d = .fin (S' i c o d)) :
    ∃ u z param proc err tproc tparam, t.chainladder f none = .ok u ∧ fullTriangle t f u true = .ok z ∧
      mackRisk s t f z se = .ok param ∧ mackRisk s t f z se' = .ok proc ∧
      mackStdErr s param proc = .ok err ∧ totalProcess s proc = .ok tproc ∧
      mackTotalParameter s t f z se = .ok tparam ∧
      err.odims = t.odims ∧ err.ddims = t.ddims ++ [9999] ∧
      tproc.odims = t.odims.take 1 ∧ tproc.ddims = t.ddims ++ [9999] ∧
      tparam.odims = t.odims.take 1 ∧ tparam.ddims = t.ddims ++ [9999] ∧
      ∀ i < t.kdims.length, ∀ c < t.vdims.length,
        (∀ o < n, ∀ d < D + 1,
          (err.values.get i c o d).NoInf ∧ 0 ≤ (err.values.get i c o d).amt ∧
          (err.values.get i c o d).amt ^ 2 =
            (param.values.get i c o d).amt ^ 2 + (proc.values.get i c o d).amt ^ 2) ∧
        (∀ d < D + 1, (tproc.values.get i c 0 d).NoInf ∧ 0 ≤ (tproc.values.get i c 0 d).amt ∧
          (tproc.values.get i c 0 d).amt ^ 2 =
            ∑ o ∈ Finset.range n, (proc.values.get i c o d).amt ^ 2) ∧
        MackRow (fun d => ∑ o ∈ Finset.range n,
            if D - 1 - q * o ≤ d then (z.values.get i c o d).amt * S i c o d else 0)
          (f.riskFactor D i c) 0 D (fun d => (tparam.values.get i c 0 d).amt) ∧
        ∃ x, totalMackStdErr s proc tparam i c = .ok x ∧ x.NoInf ∧ 0 ≤ x.amt ∧
          x.amt ^ 2 = (tproc.values.get i c 0 D).amt ^ 2 + (tparam.values.get i c 0 D).amt ^ 2 := by
  obtain ⟨u, hu, hua⟩ := chainladder_ult h hf
  obtain ⟨z, hz, zc⟩ := completed h hc hf h2 hua
  obtain ⟨p, hp, pt⟩ := riskTri s h.toGrid hf hF zc hse cse
  obtain ⟨r, hr, rt⟩ := riskTri s h.toGrid hf hF zc hse' cse'
  obtain ⟨e, he, et⟩ := mackStdErr_spec (s := s) h.toGrid hf pt rt
  obtain ⟨tp, htp, tpt⟩ := totalProcess_spec (s := s) h.toGrid rt
  obtain ⟨tq, htq, tqt⟩ := mackTotalParameter_spec s h hf hF h2 zc hse cse
  have lO := h.lenO
  have lD := h.lenD
  have n2 := h.two_origins
  have root : ∀ {x : K}, 0 ≤ x → ∀ {v : Num K}, (v = if x = 0 then .nan else .fin (s x)) →
      v.NoInf ∧ 0 ≤ v.amt ∧ v.amt ^ 2 = x := by
    intro x hx v hv
    rw [hv]
    split_ifs with h0
    · exact ⟨Num.noInf_nan, le_rfl, by rw [h0]; show (0 : K) ^ 2 = 0; ring⟩
    · exact ⟨Num.noInf_fin _, hs x hx⟩
  refine ⟨u, z, p, r, e, tp, tq, hu, hz, hp, hr, he, htp, htq, by rw [et.labels], by rw [et.labels],
    by rw [tpt.labels], by rw [tpt.labels], by rw [tqt.labels], by rw [tqt.labels], ?_⟩
  intro i hi c hc
  have l1 : 0 < (t.odims.take 1).length := by rw [List.length_take, lO]; omega
  have ctp : ∀ d < D + 1, (tp.values.get i c 0 d).NoInf ∧ 0 ≤ (tp.values.get i c 0 d).amt ∧
      (tp.values.get i c 0 d).amt ^ 2 = ∑ o ∈ Finset.range n, (r.values.get i c o d).amt ^ 2 := by
    intro d hd
    have e1 := tpt.cells i hi c hc 0 l1 d (by rw [lD]; exact hd)
    have e2 : ∑ o ∈ Finset.range n, (r.values.get i c o d).amt ^ 2 = _ :=
      Finset.sum_congr rfl fun o ho => by
        rw [rt.cells i hi c hc o (by rw [lO]; exact Finset.mem_range.1 ho) d (by rw [lD]; exact hd), Num.amt_fin]
    rw [e2]
    refine root (Finset.sum_nonneg fun o _ => sq_nonneg _) ?_
    rw [e1, sqrt_numToNan (Finset.sum_nonneg fun o _ => sq_nonneg _)]
  refine ⟨?_, ctp, ?_, ?_⟩
  · intro o ho d hd
    have ho' : o < t.odims.length := by rw [lO]; exact ho
    have hd' : d < t.ddims.length + 1 := by rw [lD]; exact hd
    refine root (add_nonneg (sq_nonneg _) (sq_nonneg _)) ?_
    rw [et.cells i hi c hc o ho' d hd', pt.cells i hi c hc o ho' d hd', rt.cells i hi c hc o ho' d hd']
    rfl
  · have hrow := quad_row hs (T := fun d => ∑ o ∈ Finset.range n,
        if q * o + d + 1 < D then 0 else (z.values.get i c o d).amt * S i c o d)
      (L := f.riskFactor D i c) (M := fun d => if d = 0 then 0 else 1) (l := 0) (D := D)
      (fun d hd => if_pos (by omega)) (fun d h1 _ => if_neg (by omega))
    have hq : ∀ d, quad s (fun d => ∑ o ∈ Finset.range n,
        if q * o + d + 1 < D then 0 else (z.values.get i c o d).amt * S i c o d) (f.riskFactor D i c)
        (fun d => if d = 0 then 0 else 1) d = quad s (fun d => ∑ o ∈ Finset.range n,
        if q * o + d + 1 < D then 0 else (z.values.get i c o d).amt * S i c o d) (f.riskFactor D i c)
        (fun _ => 1) d := by
      intro d
      induction d with
      | zero => rfl
      | succ d ih =>
        show _ * _ = _ * _
        rw [ih]
        show _ * (if d + 1 = 0 then (0 : K) else 1) = _ * 1
        rw [if_neg (Nat.succ_ne_zero d)]
    have hT : (fun d => ∑ o ∈ Finset.range n,
        if D - 1 - q * o ≤ d then (z.values.get i c o d).amt * S i c o d else 0) = fun d =>
        ∑ o ∈ Finset.range n,
        if q * o + d + 1 < D then 0 else (z.values.get i c o d).amt * S i c o d := by
      funext d
      refine Finset.sum_congr rfl fun o ho => ?_
      have := h.row_le (Finset.mem_range.1 ho)
      rw [Nat.mul_comm] at this
      by_cases hk : q * o + d + 1 < D
      · rw [if_pos hk, if_neg (by omega)]
      · rw [if_neg hk, if_pos (by omega)]
    rw [hT]
    have hcell : ∀ d ≤ D, (tq.values.get i c 0 d).amt = quad s (fun d => ∑ o ∈ Finset.range n,
        if q * o + d + 1 < D then 0 else (z.values.get i c o d).amt * S i c o d) (f.riskFactor D i c)
        (fun d => if d = 0 then 0 else 1) d := fun d hd => by
      rw [tqt.cells i hi c hc 0 l1 d (by rw [lD]; omega), Num.amt_fin]
      exact (hq d).symm
    refine ⟨?_, ?_, ?_⟩
    · intro d hd
      rw [hcell d (by omega)]; exact hrow.known d hd
    · intro d hd
      rw [hcell d hd]; exact hrow.nonneg d hd
    · intro d h1 h2
      rw [hcell d (by omega), hcell (d + 1) (by omega)]; exact hrow.step d h1 h2
  · obtain ⟨x, hx, ex⟩ := totalMackStdErr_spec hs h.toGrid hf rt tqt hi hc
    refine ⟨x, hx, ?_⟩
    have eq1 := (ctp D (by omega)).2.2
    have eq2 : ∑ o ∈ Finset.range n, (r.values.get i c o D).amt ^ 2 = _ :=
      Finset.sum_congr rfl fun o ho => by
        rw [rt.cells i hi c hc o (by rw [lO]; exact Finset.mem_range.1 ho) D (by rw [lD]; omega), Num.amt_fin]
    rw [eq1, eq2]
    refine root (add_nonneg (Finset.sum_nonneg fun o _ => sq_nonneg _) (sq_nonneg _)) ?_
    rw [ex, tqt.cells i hi c hc 0 l1 D (by rw [lD]; omega), Num.amt_fin]

/-- All amounts multiplied by `x`. -/
def scaled (t : Tri K) (x : K) : Tri K := { t with values := t.values.map fun v => .fin x * v }

theorem amt_scale (x : K) {v : Num K} (hv : v.NoInf) : (Num.fin x * v).amt = x * v.amt := by
  rcases Num.noInf_cases hv with e | ⟨y, e⟩ <;> rw [e]
  · rw [Num.mul_nan]; show (0 : K) = x * 0; ring
  · rw [Num.fin_mul_fin]; rfl

theorem Standard.scaled (h : Standard t a n D q) (x : K) : Standard (t.scaled x) a n D q where
  wf := h.wf
  finite := by
    intro i hi c hc o ho d hd
    show (Num.fin x * t.values.get i c o d).NoInf
    rcases Num.noInf_cases (h.finite i hi c hc o ho d hd) with e | ⟨y, e⟩ <;> rw [e]
    · rw [Num.mul_nan]; exact Num.noInf_nan
    · rw [Num.fin_mul_fin]; exact Num.noInf_fin _
  isVal := h.isVal
  index_pos := h.index_pos
  columns_pos := h.columns_pos
  two_origins := h.two_origins
  period := h.period
  recent := h.recent
  odims := h.odims
  ddims := h.ddims
  vd := h.vd
  short := h.short
  early := h.early
  known := by
    intro i hi c hc o ho d hd hk
    show Num.fin x * t.values.get i c o d = .nan
    rw [h.known i hi c hc o ho d hd hk, Num.mul_nan]
  cumulative := h.cumulative
  noPattern := h.noPattern
  multiplicative := h.multiplicative

theorem GridPattern.scaled (hf : GridPattern t f a n D q F) (x : K) : GridPattern (t.scaled x) f a n D q F :=
  ⟨⟨hf.wf, hf.pattern, hf.incremental, hf.multiplicative, hf.ages, hf.ograin, hf.dgrain, hf.keyLabels, hf.index,
    hf.columns, hf.origin, hf.starts, hf.factors⟩, hf.grid, hf.covers, hf.short, hf.early, hf.date⟩

/-- The full triangle scales with the triangle. -/
theorem full_scaled (h : Standard t a n D q) (hc : t.isCum = some true)
    (hf : GridPattern t f a n D q F) (h2 : 2 ≤ linkRows n D q) {x : K} (hx : 0 < x) :
    ∃ u z u' z', t.chainladder f none = .ok u ∧ fullTriangle t f u true = .ok z ∧
      (t.scaled x).chainladder f none = .ok u' ∧ fullTriangle (t.scaled x) f u' true = .ok z' ∧
      Completed t z n D q F ∧ Completed (t.scaled x) z' n D q F ∧
      ∀ i < t.kdims.length, ∀ c < t.vdims.length, ∀ o < n, ∀ d < F + 1,
        (z'.values.get i c o d).amt = x * (z.values.get i c o d).amt := by
  obtain ⟨u, hu, hua⟩ := chainladder_ult h hf
  obtain ⟨z, hz, zc⟩ := completed h hc hf h2 hua
  obtain ⟨u', hu', hua'⟩ := chainladder_ult (h.scaled x) (hf.scaled x)
  obtain ⟨z', hz', zc'⟩ := completed (h.scaled x) hc (hf.scaled x) h2 hua'
  refine ⟨u, z, u', z', hu, hz, hu', hz', zc, zc', ?_⟩
  obtain ⟨y, hy, -, -, -, -, -, -, -, -, -, -, -, -, ycell⟩ := full_spec h hc hf h2 hua
  obtain ⟨y', hy', -, -, -, -, -, -, -, -, -, -, -, -, ycell'⟩ := full_spec (h.scaled x) hc (hf.scaled x) h2 hua'
  rw [hz] at hy
  rw [hz'] at hy'
  injection hy with hy
  injection hy' with hy'
  subst hy hy'
  intro i hi c hc o ho d hd
  have hcov := hf.covers
  have hr := h.row_le ho
  rw [Nat.mul_comm] at hr
  have D2 := h.two_ages
  have fin : ∀ e < D, (t.values.get i c o e).NoInf := fun e he =>
    h.finite i (by rw [h.wf.1]; exact hi) c (by rw [h.wf.2.1]; exact hc) o
      (by rw [h.wf.2.2.1, h.lenO]; exact ho) e (by rw [h.wf.2.2.2, h.lenD]; exact he)
  have hl : (t.scaled x).latest D q i c o = x * t.latest D q i c o := amt_scale x (fin _ (by omega))
  rw [ycell i hi c hc o ho d hd, ycell' i hi c hc o ho d hd]
  split_ifs with hk
  · rw [Num.amt_numToNan, Num.amt_numToNan]
    exact amt_scale x (fin d (by omega))
  · rw [Num.amt_numToNan, Num.amt_numToNan]
    rw [Num.amt_fin, Num.amt_fin]
    unfold emerged
    simp only [hl, mul_assoc x]
    simp only [mul_eq_zero, hx.ne', false_or]
    split_ifs
    · ring
    · ring

/-- Scaling the triangle with the standard errors of the factors unchanged (they are ratios) scales the
parameter risk.  Missing: as in `C38_risk_partial`. -/
theorem C38_scale_partial {s : K → K} (hs : IsSqrt s) (h : Standard t a n D q) (hc : t.isCum = some true)
    (hf : GridPattern t f a n D q F) (hF : D < F) (h2 : 2 ≤ linkRows n D q) {se : Arr K}
    (hse : se.Up t.kdims.length t.vdims.length n D) {S : Nat → Nat → Nat → Nat → K}
    (cse : ∀ i < t.kdims.length, ∀ c < t.vdims.length, ∀ o < n, ∀ d < D,
      se.lift t.kdims.length t.vdims.length n i c o d = .fin (S i c o d)) {x : K} (hx : 0 < x) :
    ∃ u z r u' z' r', t.chainladder f none = .ok u ∧ fullTriangle t f u true = .ok z ∧
      mackRisk s t f z se = .ok r ∧
      (t.scaled x).chainladder f none = .ok u' ∧ fullTriangle (t.scaled x) f u' true = .ok z' ∧
      mackRisk s (t.scaled x) f z' se = .ok r' ∧
      ∀ i < t.kdims.length, ∀ c < t.vdims.length, ∀ o < n, ∀ d < D + 1, ∃ v,
        r.values.get i c o d = .fin v ∧ r'.values.get i c o d = .fin (x * v) := by
  obtain ⟨u, z, u', z', hu, hz, hu', hz', zc, zc', hcell⟩ := full_scaled h hc hf h2 hx
  obtain ⟨r, hr, rt⟩ := riskTri s h.toGrid hf hF zc hse cse
  obtain ⟨r', hr', rt'⟩ := riskTri s (h.scaled x).toGrid (hf.scaled x) hF zc' (se := se) hse cse
  refine ⟨u, z, r, u', z', r', hu, hz, hr, hu', hz', hr', ?_⟩
  intro i hi c hc o ho d hd
  refine ⟨_, rt.cells i hi c hc o (by rw [h.lenO]; exact ho) d (by rw [h.lenD]; exact hd), ?_⟩
  refine (rt'.cells i hi c hc o (by show o < t.odims.length; rw [h.lenO]; exact ho) d
    (by show d < t.ddims.length + 1; rw [h.lenD]; exact hd)).trans ?_
  congr 1
  have hF' := hf.covers
  refine MackRow.unique (risk_row hs (h.scaled x).toGrid ho) (MackRow.congr
    (MackRow.scale (risk_row hs h.toGrid ho) hx.le) ?_ fun _ _ _ => rfl) (by omega)
  intro d _ hd
  rw [hcell i hi c hc o ho d (by omega)]
  ring

/-- Scaling the triangle by `x` and `sigma` by the square root of `x^(2 - alpha)` scales the process
risk.  Missing: as in `C38_process_partial`. -/
theorem C38_scale_process_partial {s : K → K} (hs : IsSqrt s) (h : Standard t a n D q)
    (hc : t.isCum = some true)
    (hf : GridPattern t f a n D q F) (hF : D < F) (h2 : 2 ≤ linkRows n D q) {sigma sigma' w : Arr K}
    {avg : List Nat} (hsig : sigma.Up t.kdims.length t.vdims.length n D) {σ σ' : Nat → Nat → Nat → Nat → K}
    (csig : ∀ i < t.kdims.length, ∀ c < t.vdims.length, ∀ o < n, ∀ d < D,
      sigma.lift t.kdims.length t.vdims.length n i c o d = .fin (σ i c o d))
    (hsig' : sigma'.Up t.kdims.length t.vdims.length n D)
    (csig' : ∀ i < t.kdims.length, ∀ c < t.vdims.length, ∀ o < n, ∀ d < D,
      sigma'.lift t.kdims.length t.vdims.length n i c o d = .fin (σ' i c o d))
    (hw : w.Dims 1 1 n (D - 1)) (cw : ∀ o < n, ∀ d < D - 1, (w.get 0 0 o d).NoInf)
    (havg : avg.length = D - 1) (ha : ∀ y ∈ avg, y ≤ 2) {x : K} (hx : 0 < x)
    (hσ : ∀ i < t.kdims.length, ∀ c < t.vdims.length, ∀ o < n, ∀ d < D,
      σ' i c o d ^ 2 * x ^ avgAt avg d = x ^ 2 * σ i c o d ^ 2) :
    ∃ u z se r u' z' se' r', t.chainladder f none = .ok u ∧ fullTriangle t f u true = .ok z ∧
      fullStdErr s t z sigma w avg = .ok se ∧ mackRisk s t f z se = .ok r ∧
      (t.scaled x).chainladder f none = .ok u' ∧ fullTriangle (t.scaled x) f u' true = .ok z' ∧
      fullStdErr s (t.scaled x) z' sigma' w avg = .ok se' ∧ mackRisk s (t.scaled x) f z' se' = .ok r' ∧
      ∀ i < t.kdims.length, ∀ c < t.vdims.length, ∀ o < n,
        (∀ d < D, D - 1 - q * o ≤ d → ((z.values.get i c o d).amt = 0 → avgAt avg d ≠ 0) ∧
          ((z.values.get i c o d).amt < 0 → avgAt avg d ≠ 1)) →
        ∀ d < D + 1, ∃ v, r.values.get i c o d = .fin v ∧ r'.values.get i c o d = .fin (x * v) := by
  obtain ⟨u, z, u', z', hu, hz, hu', hz', zc, zc', hcell⟩ := full_scaled h hc hf h2 hx
  obtain ⟨se, hse, sd, S, sc, sS⟩ := fullStdErr_spec hs h.toGrid hf.covers zc hsig csig hw cw havg ha
  obtain ⟨se', hse', sd', S', sc', sS'⟩ := fullStdErr_spec hs (h.scaled x).toGrid hf.covers zc' (sigma := sigma')
    hsig' csig' hw cw havg ha
  obtain ⟨r, hr, rt⟩ := riskTri s h.toGrid hf hF zc sd.up
    (by intro i hi c hc o ho d hd; rw [sd.lift]; exact sc i hi c hc o ho d hd)
  obtain ⟨r', hr', rt'⟩ := riskTri s (h.scaled x).toGrid (hf.scaled x) hF zc' (se := se') sd'.up
    (by intro i hi c hc o ho d hd; rw [sd'.lift]; exact sc' i hi c hc o ho d hd)
  refine ⟨u, z, se, r, u', z', se', r', hu, hz, hse, hr, hu', hz', hse', hr', ?_⟩
  intro i hi c hc o ho hok d hd
  refine ⟨_, rt.cells i hi c hc o (by rw [h.lenO]; exact ho) d (by rw [h.lenD]; exact hd), ?_⟩
  refine (rt'.cells i hi c hc o (by show o < t.odims.length; rw [h.lenO]; exact ho) d
    (by show d < t.ddims.length + 1; rw [h.lenD]; exact hd)).trans ?_
  congr 1
  have hF' := hf.covers
  refine MackRow.unique (risk_row hs (h.scaled x).toGrid ho) (MackRow.congr
    (MackRow.scale (risk_row hs h.toGrid ho) hx.le) ?_ fun _ _ _ => rfl) (by omega)
  intro d hl hd
  have e := hcell i hi c hc o ho d (by omega)
  have p1 : (z'.values.get i c o d).amt = 0 → avgAt avg d ≠ 0 := by
    rw [e]; intro e0
    exact (hok d hd hl).1 ((mul_eq_zero.1 e0).resolve_left hx.ne')
  have p2 : (z'.values.get i c o d).amt < 0 → avgAt avg d ≠ 1 := by
    rw [e]; intro e0
    refine (hok d hd hl).2 ?_
    by_contra hcon
    have := mul_nonneg hx.le (not_lt.1 hcon)
    linarith
  rw [sS' i hi c hc o ho d hd p1 p2, mul_pow, sS i hi c hc o ho d hd (hok d hd hl).1 (hok d hd hl).2, e,
    mul_pow]
  have := hσ i hi c hc o ho d hd
  linear_combination (-(z.values.get i c o d).amt ^ avgAt avg d * linkWeight w D o d ^ 2) * this

/-- With more than one index entry or column there is no process risk: the weights of `Development`
have the shape of the link ratios, and joining them with an array of ones of shape `(1, 1, n, 1)` is an
error.  Holds of every such triangle. -/
theorem C38_many_false (s : K → K) (h : Standard t a n D q) (hc : t.isCum = some true)
    (hf : GridPattern t f a n D q F) (h2 : 2 ≤ linkRows n D q)
    (hm : t.kdims.length ≠ 1 ∨ t.vdims.length ≠ 1) {sigma w : Arr K} {avg : List Nat}
    (hsig : sigma.Up t.kdims.length t.vdims.length n D) (hw : w.Dims t.kdims.length t.vdims.length n (D - 1))
    (havg : avg.length = D - 1) :
    ∃ u z, t.chainladder f none = .ok u ∧ fullTriangle t f u true = .ok z ∧
      fullStdErr s t z sigma w avg = .error .valueError := by
  obtain ⟨u, hu, hua⟩ := chainladder_ult h hf
  obtain ⟨z, hz, zc⟩ := completed h hc hf h2 hua
  exact ⟨u, z, hu, hz, fullStdErr_many s h.toGrid hf.covers zc hsig (by rw [hw.1, hw.2.1]; exact hm) havg⟩

/-- If the tail adds no age after those of the triangle (`projection_period` below a year), the column
of the ultimate risk is not computed: the values have one column fewer than the labels.  Holds of every
such triangle. -/
theorem C38_no_extension_false (s : K → K) (h : Standard t a n D q) (hc : t.isCum = some true)
    (hf : GridPattern t f a n D q D) (h2 : 2 ≤ linkRows n D q) {se : Arr K}
    (hse : se.Up t.kdims.length t.vdims.length n D) {S : Nat → Nat → Nat → Nat → K}
    (cse : ∀ i < t.kdims.length, ∀ c < t.vdims.length, ∀ o < n, ∀ d < D,
      se.lift t.kdims.length t.vdims.length n i c o d = .fin (S i c o d)) :
    ∃ u z r, t.chainladder f none = .ok u ∧ fullTriangle t f u true = .ok z ∧
      mackRisk s t f z se = .ok r ∧ r.ddims.length = D + 1 ∧ r.values.d3 = D := by
  obtain ⟨u, hu, hua⟩ := chainladder_ult h hf
  obtain ⟨z, hz, zc⟩ := completed h hc hf h2 hua
  obtain ⟨r, hr, h1, h2, -⟩ := mackRisk_short s h.toGrid hf zc hse cse
  exact ⟨u, z, r, hu, hz, hr, by rw [h2, List.length_append, h.lenD]; rfl, h1⟩

namespace C38

theorem isSqrt : IsSqrt Real.sqrt := fun x hx => ⟨Real.sqrt_nonneg x, Real.sq_sqrt hx⟩

/-- Amounts of a 3 x 3 cumulative triangle. -/
def cum (K : Type) [Field K] : Nat → Nat → Num K
  | 0, 0 => .fin 100 | 0, 1 => .fin 150 | 0, 2 => .fin 165
  | 1, 0 => .fin 110 | 1, 1 => .fin 168 | 1, 2 => .nan
  | 2, 0 => .fin 120 | 2, 1 => .nan | 2, 2 => .nan
  | _, _ => .nan

/-- Origins 2020, 2021, 2022, ages 12, 24, 36, valuation date December 2022, for every column the same
amounts. -/
def tri (K : Type) [Field K] (cols : List String) : Tri K where
  kdims := [["Total"]]
  keyLabels := ["Total"]
  vdims := cols
  odims := [24240, 24252, 24264]
  ddims := [12, 24, 36]
  isVal := false
  ograin := .Y
  dgrain := .Y
  vd := 24275
  isCum := some true
  isPattern := false
  isAdditive := none
  values := ⟨1, cols.length, 3, 3, fun _ _ o d => cum K o d⟩

/-- Factors 2, 3/2, 5/4 and 1. -/
def factor (K : Type) [Field K] : Nat → K
  | 0 => 2 | 1 => 3 / 2 | 2 => 5 / 4 | _ => 1

/-- The pattern with the first `F` factors. -/
def pat (K : Type) [Field K] (cols : List String) (F : Nat) : Tri K where
  kdims := [["Total"]]
  keyLabels := ["Total"]
  vdims := cols
  odims := [24240]
  ddims := (List.range F).map fun d : Nat => (((d + 1) * 12 : Nat) : Int)
  isVal := false
  ograin := .Y
  dgrain := .Y
  vd := ultVal
  isCum := some false
  isPattern := true
  isAdditive := none
  values := ⟨1, cols.length, 1, F, fun _ _ _ d => .fin (factor K d)⟩

theorem standard {cols : List String} (hc : 1 ≤ cols.length) : Standard (tri K cols) 24240 3 3 1 where
  wf := ⟨rfl, rfl, rfl, rfl⟩
  finite := by
    intro i hi c hc o ho d hd
    have ho : o < 3 := ho
    have hd : d < 3 := hd
    show (cum K o d).NoInf
    interval_cases o <;> interval_cases d <;> first | exact Num.noInf_fin _ | exact Num.noInf_nan
  isVal := rfl
  index_pos := le_rfl
  columns_pos := hc
  two_origins := by decide
  period := le_rfl
  recent := by decide
  odims := rfl
  ddims := rfl
  vd := rfl
  short := by show 3 * 12 < 9999; omega
  early := by show (24275 : Int) ≤ 12 * 2261 + 11; omega
  known := by
    intro i hi c hc o ho d hd h
    show cum K o d = .nan
    interval_cases o <;> interval_cases d <;> first | rfl | omega
  cumulative := by show (some true : Option Bool) ≠ some false; decide
  noPattern := rfl
  multiplicative := rfl

theorem gridPattern {cols : List String} {F : Nat} (h3 : 3 ≤ F) (h4 : F ≤ 4) :
    GridPattern (tri K cols) (pat K cols F) 24240 3 3 1 F where
  wf := ⟨rfl, rfl, rfl, by show F = ((List.range F).map _).length; simp⟩
  pattern := rfl
  incremental := by show (some false : Option Bool) ≠ some true; decide
  multiplicative := rfl
  ages := rfl
  ograin := rfl
  dgrain := rfl
  keyLabels := rfl
  index := Or.inl rfl
  columns := Or.inl rfl
  origin := rfl
  starts := by
    show ((List.range F).map fun d : Nat => (((d + 1) * 12 : Nat) : Int)).take 3 = [12, 24, 36]
    interval_cases F <;> rfl
  factors := by
    intro i hi c hc j hj
    refine ⟨factor K j, ?_, rfl⟩
    match j with
    | 0 => exact two_ne_zero
    | 1 => exact div_ne_zero three_ne_zero two_ne_zero
    | 2 => exact div_ne_zero (by norm_num) four_ne_zero
    | j + 3 => exact one_ne_zero
  grid := rfl
  covers := h3
  short := by show F * 12 < 9999; omega
  early := by
    show (24240 : Int) + ((1 * (3 - 1) + F + 1) * 12 : Nat) ≤ 12 * 2261 + 11
    omega
  date := le_rfl

/-- Standard errors 1/10, 1/20 and 0. -/
def se (K : Type) [Field K] : Arr K := ⟨1, 1, 1, 3, fun _ _ _ d => .fin ([1 / 10, 1 / 20, 0].getD d 0)⟩

/-- With the standard errors 1/10, 1/20, 0 and the factors 2, 3/2, 5/4: the risk of the last origin is
zero at first, then its square is `(120/10)^2`. -/
example : ∃ u z r, (tri ℝ ["paid"]).chainladder (pat ℝ ["paid"] 4) none = .ok u ∧
    fullTriangle (tri ℝ ["paid"]) (pat ℝ ["paid"] 4) u true = .ok z ∧
    mackRisk Real.sqrt (tri ℝ ["paid"]) (pat ℝ ["paid"] 4) z (se ℝ) = .ok r ∧
    r.values.get 0 0 2 0 = .fin 0 ∧ (r.values.get 0 0 2 1).amt ^ 2 = 144 := by
  have hst := standard (K := ℝ) (cols := ["paid"]) le_rfl
  have hgp := gridPattern (K := ℝ) (cols := ["paid"]) (F := 4) (by omega) (by omega)
  obtain ⟨u, z, r, h1, h2, h3, -, -, -, -, -, h4⟩ := C38_risk_partial isSqrt hst
    rfl hgp (by omega) (by decide) (se := se ℝ)
    ⟨Or.inl rfl, Or.inl rfl, Or.inr rfl, rfl⟩ (S := fun _ _ _ d => [1 / 10, 1 / 20, 0].getD d 0)
    (fun _ _ _ _ _ _ _ _ => rfl)
  obtain ⟨ρ, h5, h6, h7, -⟩ := h4 0 (Nat.zero_lt_one) 0 (Nat.zero_lt_one) 2 (by omega)
  have v0 : (tri ℝ ["paid"]).valuation 2 0 = (tri ℝ ["paid"]).vd := by
    have h1 := (hst.known_iff (o := 2) (d := 0) (by omega) (by omega)).2 (by omega)
    have h2 := hst.valuation_vd (o := 2) (d := 0) (by omega) (by omega)
    rw [h2]
  refine ⟨u, z, r, h1, h2, h3, ?_, ?_⟩
  · rw [(h5 0 (by omega)).1, h6 0 (by omega) v0.le]
  · have hz : (z.values.get 0 0 2 0).amt = 120 := by
      obtain ⟨u', hu', hua⟩ := chainladder_ult hst hgp
      obtain ⟨z', hz', zc⟩ := completed hst rfl hgp (by decide) hua
      rw [h1] at hu'
      injection hu' with hu'
      subst hu'
      rw [h2] at hz'
      injection hz' with hz'
      subst hz'
      rw [zc.known 0 (Nat.zero_lt_one) 0 (Nat.zero_lt_one) 2 (by omega) 0 (by omega) (by omega), Num.amt_numToNan]
      rfl
    rw [(h5 1 (by omega)).1, Num.amt_fin, h7 0 (by omega) v0.ge, h6 0 (by omega) v0.le, hz]
    show _ + ((120 : ℝ) * (1 / 10)) ^ 2 = _
    norm_num

/-- A triangle with two columns. -/
example (s : ℚ → ℚ) : ∃ u z, (tri ℚ ["paid", "incurred"]).chainladder (pat ℚ ["paid", "incurred"] 4) none = .ok u ∧
    fullTriangle (tri ℚ ["paid", "incurred"]) (pat ℚ ["paid", "incurred"] 4) u true = .ok z ∧
    fullStdErr s (tri ℚ ["paid", "incurred"]) z (se ℚ) ⟨1, 2, 3, 2, fun _ _ _ _ => .fin 1⟩ [1, 1] =
      .error .valueError :=
  C38_many_false s (standard (by decide)) rfl (gridPattern (by omega) (by omega)) (by decide)
    (Or.inr (by decide)) ⟨Or.inl rfl, Or.inr rfl, Or.inr rfl, rfl⟩ ⟨rfl, rfl, rfl, rfl⟩ rfl

/-- Three ages and three factors: no extension. -/
example (s : ℚ → ℚ) : ∃ u z r, (tri ℚ ["paid"]).chainladder (pat ℚ ["paid"] 3) none = .ok u ∧
    fullTriangle (tri ℚ ["paid"]) (pat ℚ ["paid"] 3) u true = .ok z ∧
    mackRisk s (tri ℚ ["paid"]) (pat ℚ ["paid"] 3) z (se ℚ) = .ok r ∧ r.ddims.length = 4 ∧ r.values.d3 = 3 :=
  C38_no_extension_false s (standard (by decide)) rfl (gridPattern (by omega) (by omega)) (by decide)
    (se := se ℚ) ⟨Or.inl rfl, Or.inl rfl, Or.inr rfl, rfl⟩ (S := fun _ _ _ d => [1 / 10, 1 / 20, 0].getD d 0)
    (fun _ _ _ _ _ _ _ _ => rfl)

/-- The process risk with a volume average, weights one and `sigma` 1. -/
example : ∃ u z e r, (tri ℝ ["paid"]).chainladder (pat ℝ ["paid"] 4) none = .ok u ∧
    fullTriangle (tri ℝ ["paid"]) (pat ℝ ["paid"] 4) u true = .ok z ∧
    fullStdErr Real.sqrt (tri ℝ ["paid"]) z ⟨1, 1, 1, 3, fun _ _ _ _ => .fin 1⟩
      ⟨1, 1, 3, 2, fun _ _ _ _ => .fin 1⟩ [1, 1] = .ok e ∧
    mackRisk Real.sqrt (tri ℝ ["paid"]) (pat ℝ ["paid"] 4) z e = .ok r := by
  obtain ⟨u, z, e, r, h1, h2, h3, h4, -⟩ := C38_process_partial isSqrt (standard (K := ℝ) (cols := ["paid"]) le_rfl)
    rfl (gridPattern (F := 4) (by omega) (by omega)) (by omega) (by decide)
    (sigma := ⟨1, 1, 1, 3, fun _ _ _ _ => .fin 1⟩) (w := ⟨1, 1, 3, 2, fun _ _ _ _ => .fin 1⟩) (avg := [1, 1])
    ⟨Or.inl rfl, Or.inl rfl, Or.inr rfl, rfl⟩ (σ := fun _ _ _ _ => 1) (fun _ _ _ _ _ _ _ _ => rfl)
    ⟨rfl, rfl, rfl, rfl⟩ (fun _ _ _ _ => Num.noInf_fin _) rfl (by decide)
  exact ⟨u, z, e, r, h1, h2, h3, h4⟩

end C38

end Tri
end CL
