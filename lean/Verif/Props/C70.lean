import Verif.Lemmas.MackFit
import Verif.Props.C68

set_option linter.unusedSectionVars false

/-! # C70: `MackChainladder` gives Mack's standard errors

From the triangle to the standard error of the ultimate of every origin, with `Development` and the tail of one that
the methods add. -/

namespace CL
namespace Work
open Tri

/-- The factor of age `k`. -/
noncomputable def devFactor (t : Tri ℝ) (p : Dev.Params ℝ) (n D q k : Nat) : ℝ :=
  Dev.average t 0 0 k (pairs n D q k) (p.average k)

/-- The latest amount of an origin. -/
noncomputable def latestAmt (t : Tri ℝ) (D q o : Nat) : ℝ := (t.values.get 0 0 o (D - 1 - q * o)).amt

/-- The amount of an origin projected to age `k`. -/
noncomputable def projected (t : Tri ℝ) (p : Dev.Params ℝ) (n D q o k : Nat) : ℝ :=
  latestAmt t D q o * ∏ j ∈ Finset.Ico (D - 1 - q * o) k, devFactor t p n D q j

/-- The sum of the weights of age `k`. -/
noncomputable def devMass (t : Tri ℝ) (p : Dev.Params ℝ) (n D q k : Nat) : ℝ :=
  Dev.mass t 0 0 k (pairs n D q k) (p.average k)

/-- A triangle to which Mack's model is fitted: one index and column, positive amounts, no link ratio excluded, and
the link ratios of an age with at least two of them differ.  No projected ultimate equals the latest amount (then the
full triangle is wrong, see `C58_factor_one_false`). -/
structure MackReady (t : Tri ℝ) (a : Int) (n D q : Nat) (p : Dev.Params ℝ) : Prop where
  standard : Standard t a n D q
  positive : Positive t n D q
  cumulative : t.isCum = some true
  index : t.kdims.length = 1
  column : t.vdims.length = 1
  noDrop : p.NoDrop
  all : ∀ d, p.nPeriods d < 1
  rows : 2 ≤ linkRows n D q
  spread : ∀ k, q + k + 1 < D → 0 < Dev.variance t 0 0 k (pairs n D q k) (p.average k)
  moves : ∀ o, 1 ≤ o → o < n → projected t p n D q o (D - 1) ≠ latestAmt t D q o
  short : (D + 12 / t.dgrain.months) * t.dgrain.months < 9999
  early : a + ((q * (n - 1) + (D + 12 / t.dgrain.months) + 1) * t.dgrain.months : Nat) ≤ ultVal

/-- The cells of `sigma_` are the numbers `v`, or missing, which counts as zero. -/
def SigmaIs (s : Tri ℝ) (D : Nat) (v : Nat → ℝ) : Prop :=
  ∀ k, k + 1 < D → 0 ≤ v k ∧ (s.values.get 0 0 0 k = .fin (v k) ∨ (s.values.get 0 0 0 k = .nan ∧ v k = 0))

/-- The standard error of the factor of age `k`. -/
noncomputable def factorErr (t : Tri ℝ) (p : Dev.Params ℝ) (n D q : Nat) (v : Nat → ℝ) (k : Nat) : ℝ :=
  Real.sqrt (v k ^ 2 / devMass t p n D q k)

/-- There is a trend of the factors above one, and one of the standard errors that are not zero. -/
def HasTrend (t : Tri ℝ) (p : Dev.Params ℝ) (n D q : Nat) (v : Nat → ℝ) : Prop :=
  Tail.Tilted (D - 1) ((Finset.range (D - 1)).filter fun k => 1 < devFactor t p n D q k)
      (fun k => Real.log (devFactor t p n D q k - 1)) ∧
    Tail.Tilted (D - 1) ((Finset.range (D - 1)).filter fun k => 0 < v k)
      (fun k => Real.log (factorErr t p n D q v k))

section
variable {t : Tri ℝ} {a : Int} {n D q : Nat} {p : Dev.Params ℝ}

theorem MackReady.factor_pos (h : MackReady t a n D q p) {k : Nat} (hk : k + 1 < D) : 0 < devFactor t p n D q k :=
  average_pos h.positive h.standard.two_origins (by rw [h.index]; omega) (by rw [h.column]; omega) hk _

theorem MackReady.latest_pos (h : MackReady t a n D q p) {o : Nat} (ho : o < n) : 0 < latestAmt t D q o := by
  have := h.standard.row_le ho
  rw [Nat.mul_comm] at this
  have := h.standard.two_ages
  obtain ⟨x, hx, e⟩ := h.positive 0 (by rw [h.index]; omega) 0 (by rw [h.column]; omega) o ho (D - 1 - q * o)
    (by omega) (by omega)
  unfold latestAmt
  rw [e]
  exact hx

theorem MackReady.projected_pos (h : MackReady t a n D q p) {o : Nat} (ho : o < n) {k : Nat} (hk : k < D) :
    0 < projected t p n D q o k :=
  mul_pos (h.latest_pos ho) (Finset.prod_pos fun j hj => h.factor_pos (by rw [Finset.mem_Ico] at hj; omega))

theorem MackReady.mass_pos (h : MackReady t a n D q p) {k : Nat} (hk : k + 1 < D) : 0 < devMass t p n D q k := by
  refine Dev.mass_pos t _ (Finset.card_pos.mpr (pairs_nonempty h.standard.two_origins hk)) fun o ho => ?_
  exact (amt_pos h.positive (by rw [h.index]; omega) (by rw [h.column]; omega) hk ho).1

/-- What is left of the projection after age `k`. -/
theorem projected_ult (h : MackReady t a n D q p) {o k : Nat} (hL : D - 1 - q * o ≤ k) (hk : k + 1 < D) :
    projected t p n D q o k * ∏ j ∈ Finset.Ico (k + 1) (D - 1), devFactor t p n D q j =
      projected t p n D q o (D - 1) / devFactor t p n D q k := by
  have e : ∏ j ∈ Finset.Ico (D - 1 - q * o) (D - 1), devFactor t p n D q j =
      (∏ j ∈ Finset.Ico (D - 1 - q * o) k, devFactor t p n D q j) * (devFactor t p n D q k *
        ∏ j ∈ Finset.Ico (k + 1) (D - 1), devFactor t p n D q j) := by
    rw [← Finset.prod_Ico_consecutive _ hL (show k ≤ D - 1 by omega),
      Finset.prod_eq_prod_Ico_succ_bot (show k < D - 1 by omega)]
  unfold projected
  rw [e]
  have := (h.factor_pos hk).ne'
  field_simp

/-- What is known about the fit before the recursions are run. -/
structure MackParts (t : Tri ℝ) (n D q F : Nat) (p : Dev.Params ℝ) (m : Munich.Interp) (v : Nat → ℝ) (f s e : Tri ℝ) (w : Arr ℝ) (g u z : Tri ℝ) :
    Prop where
  weights : Dev.weights t p = .ok w
  tail : Tail.constant t f 1 (1 / 2) none 12 = .ok g
  ult : t.chainladder g none = .ok u
  full : fullTriangle t g u true = .ok z
  completed : Completed t z n D q F
  cells : ∀ o < n, ∀ k < D, D - 1 - q * o ≤ k → (z.values.get 0 0 o k).amt = projected t p n D q o k
  amounts : ∀ o < n, t.latest D q 0 0 o * g.toUlt 0 0 (D - 1 - q * o) = projected t p n D q o (D - 1)
  riskFactor : ∀ k < D, g.riskFactor D 0 0 k = if k + 1 < D then devFactor t p n D q k else 1
  wdims : w.Dims 1 1 n (D - 1)
  wcells : ∀ o < n, ∀ k < D - 1, w.get 0 0 o k = .nan ∨ w.get 0 0 o k = .fin 1
  sigma : ∀ k < D, (Tail.tailSigma f g (Tail.addedPeriods 12 t.dgrain) s.values).get 0 0 0 k =
    .fin (if k + 1 < D then v k else 0) ∨
    ((Tail.tailSigma f g (Tail.addedPeriods 12 t.dgrain) s.values).get 0 0 0 k = .nan ∧
      (if k + 1 < D then v k else 0) = 0)
  sigmaDims : (Tail.tailSigma f g (Tail.addedPeriods 12 t.dgrain) s.values).Dims 1 1 1 D
  err : ∀ k, k + 1 < D → (Tail.tailStdErr f g (Tail.addedPeriods 12 t.dgrain) e.values).get 0 0 0 k =
    .fin (factorErr t p n D q v k)
  errDims : (Tail.tailStdErr f g (Tail.addedPeriods 12 t.dgrain) e.values).Dims 1 1 1 D
  trend : HasTrend t p n D q v →
    (Tail.tailStdErr f g (Tail.addedPeriods 12 t.dgrain) e.values).get 0 0 0 (D - 1) = .fin 0
  noTrend : ¬ HasTrend t p n D q v →
    (Tail.tailStdErr f g (Tail.addedPeriods 12 t.dgrain) e.values).get 0 0 0 (D - 1) = .nan

theorem mackParts (h : MackReady t a n D q p) (m : Munich.Interp) {f s e : Tri ℝ}
    (hfs : Dev.fitStats t p m false = .ok (f, s, e)) {v : Nat → ℝ} (hv : SigmaIs s D v) :
    ∃ w g u z, GridPattern t g a n D q (D + Tail.addedPeriods 12 t.dgrain) ∧
      MackParts t n D q (D + Tail.addedPeriods 12 t.dgrain) p m v f s e w g u z := by
  have hst := h.standard
  have lD := hst.lenD
  have D2 := hst.two_ages
  have n2 := hst.two_origins
  obtain ⟨w, f', s', e', hw, hf, hfs', s1, e1, -, -, s2, e2, s3, e3, hs, he⟩ :=
    Dev.stats_run hst h.noDrop h.all m false
  rw [hfs] at hfs'
  injection hfs' with hfs'
  injection hfs' with q1 q2
  injection q2 with q2 q3
  subst q1 q2 q3
  obtain ⟨f', hf', hlp, hlen, hage⟩ := C56_development hst h.positive h.noDrop h.all
  rw [hf] at hf'
  injection hf' with hf'
  subst hf'
  obtain ⟨lr, hlr, -⟩ := hst.linkRatio
  obtain ⟨f', hf', k1, k2, -, -, -, kv, -⟩ := Dev.C28_fit hst.regular h.noDrop h.all hlr
  rw [hf] at hf'
  injection hf' with hf'
  subst hf'
  obtain ⟨f', s', e', hf', hfs', -, -, -, -, -, -, hplain⟩ :=
    Dev.C68_plain_partial hst h.positive h.noDrop h.all m
  rw [hfs] at hfs'
  injection hfs' with hfs'
  injection hfs' with q1 q2
  injection q2 with q2 q3
  subst q1 q2 q3
  obtain ⟨hl, hl1⟩ := hlp.length
  have hadd : Tail.addedPeriods 12 t.dgrain = 12 / t.dgrain.months := by simp [Tail.addedPeriods]
  have hadd1 : 1 ≤ Tail.addedPeriods 12 t.dgrain ∧ Tail.addedPeriods 12 t.dgrain ≤ 12 := by
    cases t.dgrain <;> decide
  obtain ⟨g, hg, hgt⟩ := Tail.C37_tail_partial (age := none) (k := D - 1) (tail := 1) (decay := 1 / 2) hst.isVal hlp.wf
    hl (by omega) (Or.inl ⟨Or.inl rfl, by rw [lD]; omega⟩) (by omega) 12 (by unfold Tail.tailLength; omega)
    (by norm_num) (by norm_num) (Or.inl rfl)
  have hgt' : Tail.HasTail f g (t.ddims.length - 1) t.dgrain 12 fun _ _ _ => (1 : ℝ) := by rw [lD]; exact hgt
  have hto : Tail.TailOf f g (Tail.addedPeriods 12 t.dgrain) fun _ _ => 1 :=
    Tail.tailOf hlp hst.index_pos hst.columns_pos hgt'
  have hgp : GridPattern t g a n D q (D + Tail.addedPeriods 12 t.dgrain) :=
    Tail.HasTail.gridPattern hst.toGrid hlp hgt' (by rw [kv]) (by rw [hadd]; exact h.short)
      (by rw [hadd]; exact h.early)
  obtain ⟨u, hu, hua⟩ := chainladder_ult hst hgp
  obtain ⟨z, hz, zc⟩ := completed hst h.cumulative hgp h.rows hua
  obtain ⟨u', z', hu', hz', zcell⟩ := C58_partial hst h.cumulative hgp h.rows
  rw [hu] at hu'
  injection hu' with hu'
  subst hu'
  rw [hz] at hz'
  injection hz' with hz'
  subst hz'
  have i0 : 0 < t.kdims.length := hst.index_pos
  have c0 : 0 < t.vdims.length := hst.columns_pos
  have f0 : f.values.d0 = 1 := by rw [hlp.wf.1, k1, h.index]
  have f1 : f.values.d1 = 1 := by rw [hlp.wf.2.1, k2, h.column]
  have f3 : f.values.d3 = D - 1 := by rw [hlp.wf.2.2.2]; omega
  have t0 : t.values.d0 = 1 := by rw [hst.wf.1, h.index]
  have t1 : t.values.d1 = 1 := by rw [hst.wf.2.1, h.column]
  have t2 : t.values.d2 = n := by rw [hst.wf.2.2.1, hst.lenO]
  have t3 : t.values.d3 = D := by rw [hst.wf.2.2.2, lD]
  have sd : s.values.Dims 1 1 1 (D - 1) := by rw [hs, ← t3]; exact ⟨t0, t1, rfl, rfl⟩
  have ed : e.values.Dims 1 1 1 (D - 1) := by rw [he, ← t3]; exact ⟨t0, t1, rfl, rfl⟩
  -- the factors
  have fcell : ∀ k, k + 1 < D → f.values.get 0 0 0 k = .fin (devFactor t p n D q k) := by
    intro k hk
    obtain ⟨x, -, hx⟩ := hlp.factors 0 (by omega) 0 (by omega) k (by omega)
    have e0 := hage 0 i0 0 c0 k hk
    unfold Tri.ageFactor at e0
    rw [ite_self, ite_self, hx] at e0
    rw [hx]
    exact congrArg Num.fin e0
  have gage : ∀ k, k + 1 < D → g.ageFactor 0 0 k = devFactor t p n D q k := by
    intro k hk
    unfold Tri.ageFactor
    rw [ite_self, ite_self, hgt.before 0 0 0 k (by omega), fcell k hk]
    rfl
  have fage : ∀ k, k + 1 < D → f.ageFactor 0 0 k = devFactor t p n D q k := fun k hk => hage 0 i0 0 c0 k hk
  have hult : ∀ k < D, g.toUlt 0 0 k = ∏ j ∈ Finset.Ico k (D - 1), devFactor t p n D q j := by
    intro k hk
    rw [(hgt'.pattern hlp).2 0 i0 0 c0 k (by rw [lD]; exact hk), mul_one, lD]
    exact Finset.prod_congr rfl fun j hj => fage j (by rw [Finset.mem_Ico] at hj; omega)
  have hnt := hto.none fun _ _ _ _ => rfl
  have herr : ∀ k, k + 1 < D → e.values.get 0 0 0 k = .fin (factorErr t p n D q v k) := by
    intro k hk
    obtain ⟨h1, h2, h3, h4⟩ := hplain 0 i0 0 c0 k hk
    obtain ⟨v0, hv0⟩ := hv k hk
    by_cases hq : q + k + 1 < D
    · have e5 := h1 hq (h.spread k hq)
      have e6 : v k = Real.sqrt (Dev.variance t 0 0 k (pairs n D q k) (p.average k)) := by
        rcases hv0 with e | ⟨e, -⟩
        · rw [e] at e5
          injection e5
        · rw [e] at e5
          cases e5
      rw [h2 hq]
      unfold factorErr
      rw [e6, Real.sq_sqrt (h.spread k hq).le]
      rfl
    · rcases hv0 with e5 | ⟨e5, e6⟩
      · exact h3 hq (v k) v0 e5
      · rw [h4 hq e5]
        unfold factorErr
        rw [e6]
        simp [Num.zero_def]
  -- rows of the logarithms
  have rowF : Tail.Row f.values.d3 (fun k => Tail.logExcess (f.values.get 0 0 0 k))
      ((Finset.range (D - 1)).filter fun k => 1 < devFactor t p n D q k)
      (fun k => Real.log (devFactor t p n D q k - 1)) := by
    rw [f3]
    refine ⟨fun k hk => ?_, fun k hk => ?_, fun k hk hn => ?_⟩
    · rw [Finset.mem_filter, Finset.mem_range] at hk
      exact hk.1
    · rw [Finset.mem_filter, Finset.mem_range] at hk
      rw [fcell k (by omega), Tail.logExcess_gt hk.2]
    · rw [Finset.mem_filter, Finset.mem_range, not_and] at hn
      rw [fcell k (by omega), Tail.logExcess_le (not_lt.mp (hn hk))]
  have rowE : Tail.Row e.values.d3 (fun k => Tail.log ((e.values.get 0 0 0 k).numToNan))
      ((Finset.range (D - 1)).filter fun k => 0 < v k) (fun k => Real.log (factorErr t p n D q v k)) := by
    rw [ed.2.2.2]
    refine ⟨fun k hk => ?_, fun k hk => ?_, fun k hk hn => ?_⟩
    · rw [Finset.mem_filter, Finset.mem_range] at hk
      exact hk.1
    · rw [Finset.mem_filter, Finset.mem_range] at hk
      have hpos : 0 < factorErr t p n D q v k :=
        Real.sqrt_pos.mpr (div_pos (pow_pos hk.2 2) (h.mass_pos (by omega)))
      rw [herr k (by omega), Num.numToNan_fin_of_ne hpos.ne', Tail.log_pos hpos]
    · rw [Finset.mem_filter, Finset.mem_range, not_and] at hn
      have hv0 : v k = 0 := le_antisymm (not_lt.mp (hn hk)) (hv k (by omega)).1
      rw [herr k (by omega)]
      unfold factorErr
      rw [hv0]
      simp [Num.numToNan_fin, Tail.log]
  have htail : (Tail.tailStdErr f g (Tail.addedPeriods 12 t.dgrain) e.values).get 0 0 0 (D - 1) =
      Tail.tailStat f g (Tail.addedPeriods 12 t.dgrain) 0 0 e.values.d3 fun k => (e.values.get 0 0 0 k).numToNan := by
    unfold Tail.tailStdErr
    simp only [ed.2.2.2, lt_irrefl, if_false]
  have hstat := Tail.tailStat_zero (m := Tail.addedPeriods 12 t.dgrain) (g := g) hnt (by rw [ed.2.2.2]; omega)
    (by omega) rowF rowE
  rw [f3, ed.2.2.2] at hstat
  rw [ed.2.2.2] at htail
  refine ⟨w, g, u, z, hgp, ⟨hw, hg, hu, hz, zc, ?_, ?_, ?_, ?_, ?_, ?_, ?_, ?_, ?_, ?_, ?_⟩⟩
  · intro o ho k hk hL
    have hr := hst.row_le ho
    rw [Nat.mul_comm] at hr
    by_cases hkL : k = D - 1 - q * o
    · rw [zc.known 0 i0 0 c0 o ho k hk (by omega), Num.amt_numToNan, hkL]
      unfold projected latestAmt
      rw [Finset.Ico_self, Finset.prod_empty, mul_one]
    · have ho1 : 1 ≤ o := by
        rcases Nat.eq_zero_or_pos o with rfl | h0
        · rw [Nat.mul_zero] at hkL hL; omega
        · exact h0
      rw [zcell 0 i0 0 c0 o ho k (by omega) (by omega) (by
        rw [hult _ (by omega)]
        intro e0
        refine h.moves o ho1 ho ?_
        unfold projected
        rw [e0, mul_one]), Num.amt_numToNan, Num.amt_fin]
      unfold projected latestAmt
      congr 1
      exact Finset.prod_congr rfl fun j hj => gage j (by rw [Finset.mem_Ico] at hj; omega)
  · intro o ho
    rw [hult _ (by omega)]
    rfl
  · intro k hk
    unfold Tri.riskFactor
    split_ifs with h1
    · exact gage k h1
    · rw [hult _ (by omega), Finset.Ico_self, Finset.prod_empty]
  · have := Dev.weights_shape h.noDrop h.all (by rw [t3]; omega) hw
    rw [t0, t1, t2, t3] at this
    exact this
  · intro o ho k hk
    obtain ⟨w', hw', wc⟩ := Dev.weights_all (t := t) h.noDrop h.all
    rw [hw] at hw'
    injection hw' with hw'
    subst hw'
    rw [wc 0 (by omega) 0 (by omega) o (by omega) k (by omega)]
    have hfin := hst.finite 0 (by omega) 0 (by omega) o (by omega) k (by omega)
    have hnan : t.nanTri o k = .nan ∨ t.nanTri o k = .fin 1 := by
      unfold nanTri
      split_ifs <;> first | exact Or.inl rfl | exact Or.inr rfl
    rcases Num.noInf_cases hfin with e | ⟨x, e⟩ <;> rcases hnan with e' | e' <;> rw [e, e'] <;>
      simp [Num.zero_def, Num.one_def]
  · intro k hk
    unfold Tail.tailSigma
    simp only [sd.2.2.2]
    by_cases h1 : k + 1 < D
    · rw [if_pos (show k < D - 1 by omega), if_pos h1]
      exact (hv k h1).2
    · rw [if_neg (show ¬ k < D - 1 by omega), if_neg h1]
      have := Tail.tailStat_none (f := f) (i := 0) (c := 0) (n := D - 1) hnt.2 (fun k => s.values.get 0 0 0 k)
      revert this
      generalize Tail.tailStat f g (Tail.addedPeriods 12 t.dgrain) 0 0 (D - 1) (fun k => s.values.get 0 0 0 k) = y
      intro hy
      cases y
      · exact Or.inr ⟨rfl, rfl⟩
      · cases hy
      · exact Or.inl hy
      · cases hy
  · exact ⟨sd.1, sd.2.1, sd.2.2.1, by show s.values.d3 + 1 = D; rw [sd.2.2.2]; omega⟩
  · intro k hk
    unfold Tail.tailStdErr
    simp only [ed.2.2.2]
    rw [if_pos (show k < D - 1 by omega)]
    exact herr k hk
  · exact ⟨ed.1, ed.2.1, ed.2.2.1, by show e.values.d3 + 1 = D; rw [ed.2.2.2]; omega⟩
  · intro ht
    rw [htail]
    exact hstat.1 ht
  · intro ht
    rw [htail]
    exact hstat.2 ht

/-- The squared risk at ultimate, without a term for the tail. -/
theorem row_ult {T φ r G : Nat → ℝ} {L : Nat} (hr : MackRow T φ L D r) (hL : L ≤ D - 1) (hD : 1 ≤ D)
    (hT : T (D - 1) = 0) (hφ : ∀ k < D, φ k = if k + 1 < D then G k else 1) :
    r D ^ 2 = ∑ k ∈ Finset.Ico L (D - 1), T k ^ 2 * ∏ j ∈ Finset.Ico (k + 1) (D - 1), G j ^ 2 := by
  have h1 := hr.step (D - 1) hL (by omega)
  rw [show D - 1 + 1 = D by omega, hT, hφ _ (by omega), if_neg (by omega), one_mul, zero_pow two_ne_zero, add_zero] at h1
  rw [h1, hr.closed (D - 1) hL (by omega)]
  refine Finset.sum_congr rfl fun k _ => ?_
  congr 1
  refine Finset.prod_congr rfl fun j hj => ?_
  rw [Finset.mem_Ico] at hj
  rw [hφ j (by omega), if_pos (by omega)]

/-- Mack's parameter variance of the ultimate of an origin. -/
noncomputable def paramVar (t : Tri ℝ) (p : Dev.Params ℝ) (n D q : Nat) (v : Nat → ℝ) (o : Nat) : ℝ :=
  projected t p n D q o (D - 1) ^ 2 * ∑ k ∈ Finset.Ico (D - 1 - q * o) (D - 1),
    v k ^ 2 / devFactor t p n D q k ^ 2 * (1 / devMass t p n D q k)

/-- Mack's process variance of the ultimate of an origin. -/
noncomputable def procVar (t : Tri ℝ) (p : Dev.Params ℝ) (n D q : Nat) (v : Nat → ℝ) (o : Nat) : ℝ :=
  projected t p n D q o (D - 1) ^ 2 * ∑ k ∈ Finset.Ico (D - 1 - q * o) (D - 1),
    v k ^ 2 / devFactor t p n D q k ^ 2 * (1 / projected t p n D q o k ^ (2 - (p.average k).exponent))

/-- Mack's parameter variance of the sum of all ultimates. -/
noncomputable def totalParamVar (t : Tri ℝ) (p : Dev.Params ℝ) (n D q : Nat) (v : Nat → ℝ) : ℝ :=
  ∑ k ∈ Finset.range (D - 1), v k ^ 2 / devFactor t p n D q k ^ 2 * (1 / devMass t p n D q k) *
    (∑ o ∈ (Finset.range n).filter (fun o => D - 1 - q * o ≤ k), projected t p n D q o (D - 1)) ^ 2

theorem exponent_le (x : Avg) : x.exponent ≤ 2 := by cases x <;> simp [Avg.exponent]

/-- One term of the parameter variance. -/
theorem param_term (h : MackReady t a n D q p) {v : Nat → ℝ} {o k : Nat} (hL : D - 1 - q * o ≤ k) (hk : k + 1 < D) :
    (projected t p n D q o k * factorErr t p n D q v k) ^ 2 * ∏ j ∈ Finset.Ico (k + 1) (D - 1), devFactor t p n D q j ^ 2 =
      projected t p n D q o (D - 1) ^ 2 * (v k ^ 2 / devFactor t p n D q k ^ 2 * (1 / devMass t p n D q k)) := by
  rw [Finset.prod_pow, mul_pow, mul_right_comm, ← mul_pow, projected_ult h hL hk]
  unfold factorErr
  rw [Real.sq_sqrt (div_nonneg (sq_nonneg _) (h.mass_pos hk).le), div_pow]
  ring

/-- One term of the process variance. -/
theorem proc_term (h : MackReady t a n D q p) {v : Nat → ℝ} {o k : Nat} (ho : o < n) (hL : D - 1 - q * o ≤ k)
    (hk : k + 1 < D) :
    v k ^ 2 * projected t p n D q o k ^ (p.average k).exponent *
        ∏ j ∈ Finset.Ico (k + 1) (D - 1), devFactor t p n D q j ^ 2 =
      projected t p n D q o (D - 1) ^ 2 * (v k ^ 2 / devFactor t p n D q k ^ 2 *
        (1 / projected t p n D q o k ^ (2 - (p.average k).exponent))) := by
  have hC := (h.projected_pos ho (k := k) (by omega)).ne'
  have hF := (h.factor_pos hk).ne'
  have e := projected_ult h hL hk
  have e2 : projected t p n D q o k ^ 2 = projected t p n D q o k ^ (p.average k).exponent *
      projected t p n D q o k ^ (2 - (p.average k).exponent) := by
    rw [← pow_add, Nat.add_sub_cancel' (exponent_le _)]
  have e3 : (projected t p n D q o (D - 1)) ^ 2 = projected t p n D q o k ^ 2 * devFactor t p n D q k ^ 2 *
      (∏ j ∈ Finset.Ico (k + 1) (D - 1), devFactor t p n D q j) ^ 2 := by
    have : projected t p n D q o (D - 1) = projected t p n D q o k * devFactor t p n D q k *
        ∏ j ∈ Finset.Ico (k + 1) (D - 1), devFactor t p n D q j := by
      rw [mul_right_comm, e]
      field_simp
    rw [this]
    ring
  rw [e3, e2, Finset.prod_pow]
  have h1 := pow_ne_zero (2 - (p.average k).exponent) hC
  field_simp

/-- The whole fit. -/
theorem mackFit_run (h : MackReady t a n D q p) (m : Munich.Interp) {f s e : Tri ℝ}
    (hfs : Dev.fitStats t p m false = .ok (f, s, e)) {v : Nat → ℝ} (hv : SigmaIs s D v) :
    ∃ out, mackFit t p m = .ok out ∧
      (∀ o < n, (out.process.values.get 0 0 o D).NoInf ∧ 0 ≤ (out.process.values.get 0 0 o D).amt ∧
        (out.process.values.get 0 0 o D).amt ^ 2 = procVar t p n D q v o) ∧
      (∀ o < n, (out.stdErr.values.get 0 0 o D).NoInf ∧ 0 ≤ (out.stdErr.values.get 0 0 o D).amt ∧
        (out.stdErr.values.get 0 0 o D).amt ^ 2 = (out.parameter.values.get 0 0 o D).amt ^ 2 +
          (out.process.values.get 0 0 o D).amt ^ 2) ∧
      ((out.totalProcess.values.get 0 0 0 D).NoInf ∧ 0 ≤ (out.totalProcess.values.get 0 0 0 D).amt ∧
        (out.totalProcess.values.get 0 0 0 D).amt ^ 2 = ∑ o ∈ Finset.range n, procVar t p n D q v o) ∧
      ((out.totalParameter.values.get 0 0 0 D).NoInf ∧ 0 ≤ (out.totalParameter.values.get 0 0 0 D).amt ∧
        (out.totalParameter.values.get 0 0 0 D).amt ^ 2 = totalParamVar t p n D q v) ∧
      (HasTrend t p n D q v → ∀ o < n, (out.parameter.values.get 0 0 o D).NoInf ∧
        0 ≤ (out.parameter.values.get 0 0 o D).amt ∧
        (out.parameter.values.get 0 0 o D).amt ^ 2 = paramVar t p n D q v o) ∧
      (¬ HasTrend t p n D q v → ∀ o < n, out.parameter.values.get 0 0 o D = .fin 0) ∧
      (out.total.NoInf ∧ 0 ≤ out.total.amt ∧
        out.total.amt ^ 2 = (∑ o ∈ Finset.range n, procVar t p n D q v o) + totalParamVar t p n D q v) ∧
      out.stdErr.values.Dims 1 1 n (D + 1) ∧
      ∃ g, GridPattern t g a n D q (D + Tail.addedPeriods 12 t.dgrain) ∧ t.chainladder g none = .ok out.ultimate ∧
        ∀ o < n, t.latest D q 0 0 o * g.toUlt 0 0 (D - 1 - q * o) = projected t p n D q o (D - 1) := by
  have hst := h.standard
  have lD := hst.lenD
  have lO := hst.lenO
  have D2 := hst.two_ages
  have n2 := hst.two_origins
  have t3 : t.values.d3 = D := by rw [hst.wf.2.2.2, lD]
  have i0 : 0 < t.kdims.length := hst.index_pos
  have c0 : 0 < t.vdims.length := hst.columns_pos
  obtain ⟨w, g, u, z, hgp, hp⟩ := mackParts h m hfs hv
  have hadd1 : 1 ≤ Tail.addedPeriods 12 t.dgrain := by cases t.dgrain <;> decide
  have hF : D < D + Tail.addedPeriods 12 t.dgrain := by omega
  set sig := Tail.tailSigma f g (Tail.addedPeriods 12 t.dgrain) s.values with hsig
  set err := Tail.tailStdErr f g (Tail.addedPeriods 12 t.dgrain) e.values with herr
  have hup : ∀ x : Arr ℝ, x.Dims 1 1 1 D → x.Up t.kdims.length t.vdims.length n D := fun x hx =>
    ⟨Or.inr hx.1, Or.inr hx.2.1, Or.inr hx.2.2.1, hx.2.2.2⟩
  have hlift : ∀ x : Arr ℝ, x.Dims 1 1 1 D → ∀ i < t.kdims.length, ∀ c < t.vdims.length, ∀ o < n, ∀ d,
      x.lift t.kdims.length t.vdims.length n i c o d = x.get 0 0 0 d := by
    intro x hx i hi c hc o ho d
    rw [h.index] at hi
    rw [h.column] at hc
    obtain rfl : i = 0 := by omega
    obtain rfl : c = 0 := by omega
    unfold Arr.lift
    rw [hx.1, hx.2.1, hx.2.2.1, h.index, h.column]
    congr 1
    unfold Arr.bix
    split_ifs <;> omega
  -- process risk
  have sigd : (sig.map Num.nan0).Dims 1 1 1 D := hp.sigmaDims
  obtain ⟨avg, havg⟩ : ∃ avg, avg = (List.range (t.values.d3 - 1)).map fun d => (p.average d).exponent := ⟨_, rfl⟩
  have lavg : avg.length = D - 1 := by rw [havg, t3]; simp
  have aavg : ∀ k, k + 1 < D → avgAt avg k = (p.average k).exponent := by
    intro k hk
    unfold avgAt
    rw [List.getD_eq_getElem _ _ (by simp [lavg]; omega), List.getElem_append_left (by omega)]
    simp [havg]
  obtain ⟨se, hse, sed, S, sc, sS⟩ := fullStdErr_spec C38.isSqrt hst.toGrid hgp.covers hp.completed
    (sigma := sig.map Num.nan0) (w := w) (avg := avg) (hup _ sigd) (σ := fun _ _ _ d => if d + 1 < D then v d else 0)
    (by
      intro i hi c hc o ho d hd
      rw [hlift _ sigd i hi c hc o ho]
      show (sig.get 0 0 0 d).nan0 = _
      rcases hp.sigma d hd with e | ⟨e, e0⟩
      · rw [e]; rfl
      · rw [e, e0]; rfl)
    hp.wdims (by
      intro o ho d hd
      rcases hp.wcells o ho d hd with e | e <;> rw [e]
      · exact Num.noInf_nan
      · exact Num.noInf_fin _) lavg (by
      intro x hx
      rw [havg, List.mem_map] at hx
      obtain ⟨d, -, rfl⟩ := hx
      exact exponent_le _)
  have hse' : fullStdErr Real.sqrt t z sig w avg = .ok se := by rw [fullStdErr_zero]; exact hse
  obtain ⟨pr, hpr, prt⟩ := riskTri Real.sqrt hst.toGrid hgp hF hp.completed sed.up (S := S)
    (fun i hi c hc o ho d hd => by rw [sed.lift]; exact sc i hi c hc o ho d hd)
  have hw1 : ∀ o < n, ∀ d, linkWeight w D o d = 1 := by
    intro o ho d
    unfold linkWeight
    by_cases hd : d + 1 < D
    · rw [if_pos hd]
      rcases hp.wcells o ho d (by omega) with e | e <;> rw [e]
      · rfl
      · rfl
    · rw [if_neg hd]
  have hterm : ∀ o < n, ∀ k < D, D - 1 - q * o ≤ k →
      ((z.values.get 0 0 o k).amt * S 0 0 o k) ^ 2 =
        if k + 1 < D then v k ^ 2 * projected t p n D q o k ^ (p.average k).exponent else 0 := by
    intro o ho k hk hL
    have hC := h.projected_pos ho (k := k) hk
    have hz := hp.cells o ho k hk hL
    rw [sS 0 i0 0 c0 o ho k hk (by rw [hz]; intro e; exact absurd e hC.ne')
      (by rw [hz]; intro e; exact absurd hC (not_lt.mpr e.le)), hw1 o ho, hz]
    split_ifs with h1
    · rw [aavg k h1]; ring
    · ring
  have hproc : ∀ o < n, pr.values.get 0 0 o D = .fin (quad Real.sqrt
      (fun d => (z.values.get 0 0 o d).amt * S 0 0 o d) (g.riskFactor D 0 0)
      (fun d => if q * o + d + 1 ≤ D then 0 else 1) D) := fun o ho =>
    prt.cells 0 i0 0 c0 o (by rw [lO]; exact ho) D (by rw [lD]; omega)
  have hq : ∀ o < n, 0 ≤ quad Real.sqrt (fun d => (z.values.get 0 0 o d).amt * S 0 0 o d) (g.riskFactor D 0 0)
      (fun d => if q * o + d + 1 ≤ D then 0 else 1) D ∧
      quad Real.sqrt (fun d => (z.values.get 0 0 o d).amt * S 0 0 o d) (g.riskFactor D 0 0)
      (fun d => if q * o + d + 1 ≤ D then 0 else 1) D ^ 2 = procVar t p n D q v o := by
    intro o ho
    have hr := hst.row_le ho
    rw [Nat.mul_comm] at hr
    have hrow := risk_row C38.isSqrt hst.toGrid ho (T := fun d => (z.values.get 0 0 o d).amt * S 0 0 o d)
      (L := g.riskFactor D 0 0)
    refine ⟨hrow.nonneg D le_rfl, ?_⟩
    rw [row_ult hrow (by omega) (by omega) (by
      have := hterm o ho (D - 1) (by omega) (by omega)
      rw [if_neg (by omega)] at this
      exact pow_eq_zero_iff two_ne_zero |>.mp this) hp.riskFactor]
    unfold procVar
    rw [Finset.mul_sum]
    refine Finset.sum_congr rfl fun k hk => ?_
    rw [Finset.mem_Ico] at hk
    rw [hterm o ho k (by omega) hk.1, if_pos (by omega)]
    exact proc_term h ho hk.1 (by omega)
  -- total process risk
  obtain ⟨tp, htp, tpt⟩ := totalProcess_spec (s := Real.sqrt) hst.toGrid prt
  -- parameter risk
  have hTsum : ∀ k < D, k + 1 < D → ∀ G : Nat → ℝ, G k = factorErr t p n D q v k →
      (∑ o ∈ Finset.range n, if q * o + k + 1 < D then 0 else (z.values.get 0 0 o k).amt * G k) =
      (∑ o ∈ (Finset.range n).filter (fun o => D - 1 - q * o ≤ k), projected t p n D q o k) *
        factorErr t p n D q v k := by
    intro k hk hk1 G hG
    rw [Finset.sum_mul, Finset.sum_filter]
    refine Finset.sum_congr rfl fun o ho => ?_
    have ho := Finset.mem_range.1 ho
    have hr := hst.row_le ho
    rw [Nat.mul_comm] at hr
    by_cases hk : q * o + k + 1 < D
    · rw [if_pos hk, if_neg (by omega)]
    · rw [if_neg hk, if_pos (by omega), hp.cells o ho k (by omega) (by omega), hG]
  obtain ⟨E, hE⟩ : ∃ E : Nat → ℝ, E = fun k => if k + 1 < D then factorErr t p n D q v k else 0 := ⟨_, rfl⟩
  have herrc : ∀ i < t.kdims.length, ∀ c < t.vdims.length, ∀ o < n, ∀ d < D,
      err.lift t.kdims.length t.vdims.length n i c o d = .fin (E d) ∨
        (err.lift t.kdims.length t.vdims.length n i c o d = .nan ∧ E d = 0) := by
    intro i hi c hc o ho d hd
    rw [hlift _ hp.errDims i hi c hc o ho, hE]
    beta_reduce
    by_cases h1 : d + 1 < D
    · rw [if_pos h1]
      exact Or.inl (hp.err d h1)
    · rw [if_neg h1, show d = D - 1 by omega]
      by_cases ht : HasTrend t p n D q v
      · exact Or.inl (hp.trend ht)
      · exact Or.inr ⟨hp.noTrend ht, rfl⟩
  obtain ⟨tq, htq, tqt⟩ := mackTotalParameter_missing Real.sqrt hst hgp hF h.rows hp.completed (se := err)
    (hup _ hp.errDims) (S := fun _ _ _ d => E d) herrc
  have hparam : ∃ (pa : Tri ℝ) (P : Nat → Nat → Nat → Nat → ℝ), mackRisk Real.sqrt t g z err = .ok pa ∧ RiskTri t pa t.odims (fun i c o d => .fin (P i c o d)) ∧
      (HasTrend t p n D q v → ∀ o < n, 0 ≤ P 0 0 o D ∧ P 0 0 o D ^ 2 = paramVar t p n D q v o) ∧
      (¬ HasTrend t p n D q v → ∀ o < n, P 0 0 o D = 0) := by
    by_cases ht : HasTrend t p n D q v
    · obtain ⟨pa, hpa, pat⟩ := riskTri Real.sqrt hst.toGrid hgp hF hp.completed (hup _ hp.errDims)
        (S := fun _ _ _ d => E d) (fun i hi c hc o ho d hd => by
          rcases herrc i hi c hc o ho d hd with e | ⟨e, -⟩
          · exact e
          · rw [hlift _ hp.errDims i hi c hc o ho] at e ⊢
            by_cases h1 : d + 1 < D
            · rw [hp.err d h1] at e
              cases e
            · rw [show d = D - 1 by omega, hp.trend ht] at e
              cases e)
      refine ⟨pa, _, hpa, pat, fun _ o ho => ?_, fun hno => absurd ht hno⟩
      have hr := hst.row_le ho
      rw [Nat.mul_comm] at hr
      have hrow := risk_row C38.isSqrt hst.toGrid ho (T := fun d => (z.values.get 0 0 o d).amt * E d)
        (L := g.riskFactor D 0 0)
      refine ⟨hrow.nonneg D le_rfl, ?_⟩
      beta_reduce
      rw [row_ult hrow (by omega) (by omega) (by
        rw [hE]; beta_reduce; rw [if_neg (by omega), mul_zero]) hp.riskFactor]
      unfold paramVar
      rw [Finset.mul_sum]
      refine Finset.sum_congr rfl fun k hk => ?_
      rw [Finset.mem_Ico] at hk
      rw [← param_term h hk.1 (by omega), hp.cells o ho k (by omega) hk.1, hE]
      beta_reduce
      rw [if_pos (by omega)]
    · obtain ⟨pa, hpa, pat⟩ := mackRisk_nan Real.sqrt hst.toGrid hgp hF hp.completed (hup _ hp.errDims)
        (S := fun _ _ _ d => E d) (fun i hi c hc o ho d hd => by
          rw [hlift _ hp.errDims i hi c hc o ho, hp.err d (by omega), hE]
          beta_reduce
          rw [if_pos (by omega)]) (fun i hi c hc o ho => by
          rw [hlift _ hp.errDims i hi c hc o ho]
          exact hp.noTrend ht)
      refine ⟨pa, fun i c o d => if d < D then quad Real.sqrt (fun d => (z.values.get i c o d).amt * E d)
        (g.riskFactor D i c) (fun d => if q * o + d + 1 ≤ D then 0 else 1) d else 0, hpa,
        ⟨pat.wf, pat.labels, ?_⟩, fun hyes => absurd hyes ht, fun _ o ho => if_neg (lt_irrefl D)⟩
      intro i hi c hc o ho d hd
      rw [pat.cells i hi c hc o ho d hd]
      beta_reduce
      split_ifs <;> rfl
  obtain ⟨pa, P, hpa, pat, hP1, hP2⟩ := hparam
  obtain ⟨er, her, ert⟩ := mackStdErr_spec (s := Real.sqrt) hst.toGrid hgp pat prt
  have hpac : ∀ o < n, pa.values.get 0 0 o D = .fin (P 0 0 o D) := fun o ho =>
    pat.cells 0 i0 0 c0 o (by rw [lO]; exact ho) D (by rw [lD]; omega)
  have root : ∀ {x : ℝ}, 0 ≤ x → ∀ {v : Num ℝ}, (v = if x = 0 then .nan else .fin (Real.sqrt x)) →
      v.NoInf ∧ 0 ≤ v.amt ∧ v.amt ^ 2 = x := by
    intro x hx v hv
    rw [hv]
    split_ifs with h0
    · exact ⟨Num.noInf_nan, le_rfl, by rw [h0]; show (0 : ℝ) ^ 2 = 0; ring⟩
    · exact ⟨Num.noInf_fin _, C38.isSqrt x hx⟩
  obtain ⟨tt, htt, ett⟩ := totalMackStdErr_spec C38.isSqrt hst.toGrid hgp prt tqt i0 c0
  have hpar : 0 ≤ (tq.values.get 0 0 0 D).amt ∧ (tq.values.get 0 0 0 D).amt ^ 2 = totalParamVar t p n D q v := by
    have e1 := tqt.cells 0 i0 0 c0 0 (by rw [List.length_take, lO]; omega) D (by rw [lD]; omega)
    beta_reduce at e1
    rw [e1, Num.amt_fin]
    have hrow := quad_row C38.isSqrt (T := fun d => ∑ o ∈ Finset.range n,
        if q * o + d + 1 < D then 0 else (z.values.get 0 0 o d).amt * E d)
      (L := g.riskFactor D 0 0) (M := fun d => if d = 0 then 0 else 1) (l := 0) (D := D)
      (fun d hd => if_pos (by omega)) (fun d h1 _ => if_neg (by omega))
    have hq' : ∀ d, quad Real.sqrt (fun d => ∑ o ∈ Finset.range n,
        if q * o + d + 1 < D then 0 else (z.values.get 0 0 o d).amt * E d) (g.riskFactor D 0 0)
        (fun d => if d = 0 then 0 else 1) d = quad Real.sqrt (fun d => ∑ o ∈ Finset.range n,
        if q * o + d + 1 < D then 0 else (z.values.get 0 0 o d).amt * E d) (g.riskFactor D 0 0)
        (fun _ => 1) d := by
      intro d
      induction d with
      | zero => rfl
      | succ d ih =>
        show _ * _ = _ * _
        rw [ih]
        show _ * (if d + 1 = 0 then (0 : ℝ) else 1) = _ * 1
        rw [if_neg (Nat.succ_ne_zero d)]
    rw [← hq']
    refine ⟨hrow.nonneg D le_rfl, ?_⟩
    rw [row_ult hrow (by omega) (by omega) (by
      refine Finset.sum_eq_zero fun o _ => ?_
      rw [hE]
      beta_reduce
      rw [if_neg (show ¬ D - 1 + 1 < D by omega), mul_zero, ite_self]) hp.riskFactor]
    unfold totalParamVar
    rw [Nat.Ico_zero_eq_range]
    refine Finset.sum_congr rfl fun k hk => ?_
    rw [Finset.mem_range] at hk
    rw [hTsum k (by omega) (by omega) E (by rw [hE]; beta_reduce; rw [if_pos (by omega)]), Finset.prod_pow, mul_pow,
      mul_right_comm, ← mul_pow, Finset.sum_mul]
    have : ∀ o ∈ (Finset.range n).filter (fun o => D - 1 - q * o ≤ k), projected t p n D q o k *
        ∏ j ∈ Finset.Ico (k + 1) (D - 1), devFactor t p n D q j =
        projected t p n D q o (D - 1) / devFactor t p n D q k := by
      intro o ho
      rw [Finset.mem_filter] at ho
      exact projected_ult h ho.2 (by omega)
    rw [Finset.sum_congr rfl this]
    simp only [div_eq_mul_inv (projected t p n D q _ (D - 1))]
    rw [← Finset.sum_mul, ← div_eq_mul_inv]
    unfold factorErr
    rw [Real.sq_sqrt (div_nonneg (sq_nonneg _) (h.mass_pos (by omega)).le), div_pow]
    ring
  have hparc : tq.values.get 0 0 0 D = .fin (tq.values.get 0 0 0 D).amt := by
    rw [tqt.cells 0 i0 0 c0 0 (by rw [List.length_take, lO]; omega) D (by rw [lD]; omega), Num.amt_fin]
  refine ⟨⟨u, z, pa, pr, er, tp, tq, tt⟩, ?_, ?_, ?_, ?_, ?_, ?_, ?_, ?_, ?_, g, hgp, hp.ult, hp.amounts⟩
  · unfold mackFit
    simp only [hfs, hp.weights, hp.tail, hp.ult, hp.full, Tail.avePeriod_eq, ← hsig, ← herr, ← havg, hpa, hse', hpr,
      htq, her, htp, htt, bind, Except.bind]
  · intro o ho
    show (pr.values.get 0 0 o D).NoInf ∧ 0 ≤ (pr.values.get 0 0 o D).amt ∧ (pr.values.get 0 0 o D).amt ^ 2 = _
    rw [hproc o ho]
    exact ⟨Num.noInf_fin _, hq o ho⟩
  · intro o ho
    show (er.values.get 0 0 o D).NoInf ∧ 0 ≤ (er.values.get 0 0 o D).amt ∧ (er.values.get 0 0 o D).amt ^ 2 =
      (pa.values.get 0 0 o D).amt ^ 2 + (pr.values.get 0 0 o D).amt ^ 2
    rw [hpac o ho, hproc o ho]
    refine root (add_nonneg (sq_nonneg _) (sq_nonneg _)) ?_
    exact ert.cells 0 i0 0 c0 o (by rw [lO]; exact ho) D (by rw [lD]; omega)
  · show (tp.values.get 0 0 0 D).NoInf ∧ 0 ≤ (tp.values.get 0 0 0 D).amt ∧ (tp.values.get 0 0 0 D).amt ^ 2 = _
    have e1 := tpt.cells 0 i0 0 c0 0 (by rw [List.length_take, lO]; omega) D (by rw [lD]; omega)
    have e2 : ∑ o ∈ Finset.range n, procVar t p n D q v o = _ :=
      Finset.sum_congr rfl fun o ho => ((hq o (Finset.mem_range.1 ho)).2).symm
    rw [e2]
    refine root (Finset.sum_nonneg fun o _ => sq_nonneg _) ?_
    rw [e1, sqrt_numToNan (Finset.sum_nonneg fun o _ => sq_nonneg _)]
  · show (tq.values.get 0 0 0 D).NoInf ∧ 0 ≤ (tq.values.get 0 0 0 D).amt ∧ (tq.values.get 0 0 0 D).amt ^ 2 = _
    exact ⟨by rw [hparc]; exact Num.noInf_fin _, hpar⟩
  · intro ht o ho
    show (pa.values.get 0 0 o D).NoInf ∧ 0 ≤ (pa.values.get 0 0 o D).amt ∧ (pa.values.get 0 0 o D).amt ^ 2 = _
    rw [hpac o ho]
    exact ⟨Num.noInf_fin _, hP1 ht o ho⟩
  · intro ht o ho
    show pa.values.get 0 0 o D = _
    rw [hpac o ho, hP2 ht o ho]
  · show tt.NoInf ∧ 0 ≤ tt.amt ∧ tt.amt ^ 2 = _
    have e2 : ∑ o ∈ Finset.range n, procVar t p n D q v o = _ :=
      Finset.sum_congr rfl fun o ho => ((hq o (Finset.mem_range.1 ho)).2).symm
    have e3 := hpar.2
    rw [tqt.cells 0 i0 0 c0 0 (by rw [List.length_take, lO]; omega) D (by rw [lD]; omega), Num.amt_fin] at e3
    rw [e2, ← e3]
    exact root (add_nonneg (Finset.sum_nonneg fun o _ => sq_nonneg _) (sq_nonneg _)) ett
  · refine ⟨?_, ?_, ?_, ?_⟩
    · show er.values.d0 = 1
      rw [ert.wf.1, ert.labels]
      exact h.index
    · show er.values.d1 = 1
      rw [ert.wf.2.1, ert.labels]
      exact h.column
    · show er.values.d2 = n
      rw [ert.wf.2.2.1, ert.labels]
      exact lO
    · show er.values.d3 = D + 1
      rw [ert.wf.2.2.2, ert.labels]
      simp [lD]

/-- **C70**: the standard errors of `MackChainladder` at ultimate are those of Mack, for every origin and for the
total.  Partial: besides `MackReady`, there is a trend of the factors and of their standard errors; otherwise see
`C70_no_trend_false`. -/
theorem C70_partial (h : MackReady t a n D q p) (m : Munich.Interp) {f s e : Tri ℝ}
    (hfs : Dev.fitStats t p m false = .ok (f, s, e)) {v : Nat → ℝ} (hv : SigmaIs s D v) (ht : HasTrend t p n D q v) :
    ∃ out, mackFit t p m = .ok out ∧
      (∀ o < n, (out.stdErr.values.get 0 0 o D).NoInf ∧ 0 ≤ (out.stdErr.values.get 0 0 o D).amt ∧
        (out.stdErr.values.get 0 0 o D).amt ^ 2 = projected t p n D q o (D - 1) ^ 2 *
          ∑ k ∈ Finset.Ico (D - 1 - q * o) (D - 1), v k ^ 2 / devFactor t p n D q k ^ 2 *
            (1 / projected t p n D q o k ^ (2 - (p.average k).exponent) + 1 / devMass t p n D q k)) ∧
      (∀ o < n, 0 ≤ (out.parameter.values.get 0 0 o D).amt ∧
        (out.parameter.values.get 0 0 o D).amt ^ 2 = paramVar t p n D q v o) ∧
      ∀ o < n, 0 ≤ (out.process.values.get 0 0 o D).amt ∧
        (out.process.values.get 0 0 o D).amt ^ 2 = procVar t p n D q v o := by
  obtain ⟨out, hout, h1, h2, -, -, h3, -, -⟩ := mackFit_run h m hfs hv
  refine ⟨out, hout, fun o ho => ⟨(h2 o ho).1, (h2 o ho).2.1, ?_⟩, fun o ho => (h3 ht o ho).2, fun o ho => (h1 o ho).2⟩
  rw [(h2 o ho).2.2, (h3 ht o ho).2.2, (h1 o ho).2.2]
  unfold paramVar procVar
  rw [← mul_add, ← Finset.sum_add_distrib]
  congr 1
  exact Finset.sum_congr rfl fun k _ => by ring

/-- **C70**, totals: the process variances of the origins are added, and the parameter variance is that of the sum of
the ultimates.  Trends are not needed.  Partial: as `MackReady` says. -/
theorem C70_total_partial (h : MackReady t a n D q p) (m : Munich.Interp) {f s e : Tri ℝ}
    (hfs : Dev.fitStats t p m false = .ok (f, s, e)) {v : Nat → ℝ} (hv : SigmaIs s D v) :
    ∃ out, mackFit t p m = .ok out ∧
      0 ≤ (out.totalProcess.values.get 0 0 0 D).amt ∧ 0 ≤ (out.totalParameter.values.get 0 0 0 D).amt ∧
      (out.totalProcess.values.get 0 0 0 D).amt ^ 2 = ∑ o ∈ Finset.range n, procVar t p n D q v o ∧
      (out.totalParameter.values.get 0 0 0 D).amt ^ 2 = totalParamVar t p n D q v ∧
      out.total.NoInf ∧ 0 ≤ out.total.amt ∧
      out.total.amt ^ 2 = (∑ o ∈ Finset.range n, procVar t p n D q v o) + totalParamVar t p n D q v := by
  obtain ⟨out, hout, -, -, h1, h2, -, -, h3, -⟩ := mackFit_run h m hfs hv
  exact ⟨out, hout, h1.2.1, h2.2.1, h1.2.2, h2.2.2, h3⟩

/-- **C70** is false when a trend is missing: the standard error of the tail is then NaN, which the recursion turns
into a parameter risk of zero, although Mack's is positive; the standard error is the process risk alone. -/
theorem C70_no_trend_false (h : MackReady t a n D q p) (m : Munich.Interp) {f s e : Tri ℝ}
    (hfs : Dev.fitStats t p m false = .ok (f, s, e)) {v : Nat → ℝ} (hv : SigmaIs s D v) (ht : ¬ HasTrend t p n D q v) :
    ∃ out, mackFit t p m = .ok out ∧ ∀ o < n, out.parameter.values.get 0 0 o D = .fin 0 ∧
      (out.stdErr.values.get 0 0 o D).amt ^ 2 = procVar t p n D q v o ∧
      ((∃ k, D - 1 - q * o ≤ k ∧ k + 1 < D ∧ 0 < v k) → 0 < paramVar t p n D q v o) := by
  obtain ⟨out, hout, h1, h2, -, -, -, h3, -⟩ := mackFit_run h m hfs hv
  refine ⟨out, hout, fun o ho => ⟨h3 ht o ho, ?_, ?_⟩⟩
  · rw [(h2 o ho).2.2, h3 ht o ho, (h1 o ho).2.2, Num.amt_fin]
    ring
  · rintro ⟨k, hL, hk, hvk⟩
    have D2 := h.standard.two_ages
    refine mul_pos (pow_pos (h.projected_pos ho (by omega)) 2) ?_
    have hnn : ∀ j ∈ Finset.Ico (D - 1 - q * o) (D - 1), 0 ≤ v j ^ 2 / devFactor t p n D q j ^ 2 *
        (1 / devMass t p n D q j) := fun j hj => by
      rw [Finset.mem_Ico] at hj
      exact mul_nonneg (div_nonneg (sq_nonneg _) (sq_nonneg _)) (one_div_nonneg.mpr (h.mass_pos (by omega)).le)
    refine lt_of_lt_of_le ?_ (Finset.single_le_sum hnn (Finset.mem_Ico.mpr ⟨hL, by omega⟩))
    exact mul_pos (div_pos (pow_pos hvk 2) (pow_pos (h.factor_pos hk) 2)) (one_div_pos.mpr (h.mass_pos hk))

/-- **C70**, summary: the columns of `summary_` are the latest amount, what is missing from it to the ultimate, the
ultimate (the latest amount times the fitted factors) and the standard error of the ultimate. -/
theorem C70_summary_partial (h : MackReady t a n D q p) (m : Munich.Interp) {f s e : Tri ℝ}
    (hfs : Dev.fitStats t p m false = .ok (f, s, e)) {v : Nat → ℝ} (hv : SigmaIs s D v) :
    ∃ out x, mackFit t p m = .ok out ∧ mackSummary t out = .ok x ∧ x.Dims 1 1 n 4 ∧ ∀ o < n,
      x.get 0 0 o 0 = .fin (latestAmt t D q o) ∧
      x.get 0 0 o 1 = (Num.fin (projected t p n D q o (D - 1) - latestAmt t D q o)).numToNan ∧
      x.get 0 0 o 2 = .fin (projected t p n D q o (D - 1)) ∧
      x.get 0 0 o 3 = out.stdErr.values.get 0 0 o D := by
  have hst := h.standard
  have D2 := hst.two_ages
  have i0 : 0 < t.kdims.length := hst.index_pos
  have c0 : 0 < t.vdims.length := hst.columns_pos
  obtain ⟨w0, w1, w2, w3⟩ := hst.wf
  have lO := hst.lenO
  have lD := hst.lenD
  obtain ⟨out, hout, -, -, -, -, -, -, -, hdim, g, hgp, hu, hamt⟩ := mackFit_run h m hfs hv
  obtain ⟨l, hl, hd⟩ := hst.latest
  obtain ⟨u, rows, hu', hr, hul⟩ := C33_ultimate_partial hst.cumTri hgp.toPatternFor hl
  have hrr : rows = List.range n := by
    refine List.Pairwise.eq_of_mem_iff hr.rows_inc hd.rows_inc ?_
    intro o
    rw [hr.mem_rows, hd.mem_rows]
  subst hrr
  rw [hu] at hu'
  injection hu' with hu'
  subst hu'
  obtain ⟨b, hb, bwf, bk, bv, bo, bd, bc⟩ := C33_ibnr hst.cumTri hl hul
  have hua := hul.ultAmounts hst
  have ldim : l.values.Dims 1 1 n 1 := by
    refine ⟨?_, ?_, ?_, ?_⟩
    · rw [hd.wf.1, hd.index, h.index]
    · rw [hd.wf.2.1, hd.columns, h.column]
    · rw [hd.wf.2.2.1, hd.origins.1, List.length_range]
    · rw [hd.wf.2.2.2, hd.one]
  have udim : out.ultimate.values.Dims 1 1 n 1 := by
    refine ⟨?_, ?_, ?_, ?_⟩
    · rw [hua.wf.1, hua.index, h.index]
    · rw [hua.wf.2.1, hua.columns, h.column]
    · rw [hua.wf.2.2.1, hua.origins, lO]
    · rw [hua.wf.2.2.2, hua.one]
  have bdim : b.values.Dims 1 1 n 1 := by
    refine ⟨?_, ?_, ?_, ?_⟩
    · rw [bwf.1, bk, h.index]
    · rw [bwf.2.1, bv, h.column]
    · rw [bwf.2.2.1, bo, hua.origins, lO]
    · rw [bwf.2.2.2, bd, hua.one]
  obtain ⟨er, her, e0, e1, e2, e3, ec⟩ := Arr.sliceD_of (a := out.stdErr.values) (start := some (-1)) (stop := none)
    (x := D) (y := D + 1) (by
      rw [hdim.2.2.2]
      unfold PySlice.indices
      simp)
  have edim : er.Dims 1 1 n 1 := ⟨by rw [e0, hdim.1], by rw [e1, hdim.2.1], by rw [e2, hdim.2.2.1], by rw [e3]; omega⟩
  obtain ⟨x1, hx1, d1, a1, b1⟩ := Arr.cat2_cols ldim bdim
  obtain ⟨x2, hx2, d2, a2, b2⟩ := Arr.cat2_cols d1 udim
  obtain ⟨x3, hx3, d3, a3, b3⟩ := Arr.cat2_cols d2 edim
  refine ⟨out, x3, hout, ?_, d3, ?_⟩
  · unfold mackSummary
    simp only [hl, hb, her, hx1, hx2, hx3, bind, Except.bind]
  intro o ho
  have hro := hst.row_le ho
  rw [Nat.mul_comm] at hro
  have hval := (hst.valuation_vd ho (d := D - 1 - q * o) (by omega)).mpr (by omega)
  have hpos := h.latest_pos ho
  have hppos := h.projected_pos ho (k := D - 1) (by omega)
  have hlat := hd.cells 0 0 o (D - 1 - q * o) (by omega) (by omega) (by rw [List.length_range]; exact ho) (by omega)
    (by rw [List.getElem_range]; exact hval)
  rw [List.getElem_range] at hlat
  have hib := bc 0 0 o (D - 1 - q * o) (by omega) (by omega) (by rw [List.length_range]; exact ho) (by omega)
    (by rw [List.getElem_range]; exact hval)
  rw [List.getElem_range] at hib
  have hfin := hst.finite 0 (by omega) 0 (by omega) o (by omega) (D - 1 - q * o) (by omega)
  refine ⟨?_, ?_, ?_, ?_⟩
  · rw [a3 _ _ _ _ (by omega), a2 _ _ _ _ (by omega), a1 _ _ _ _ (by omega), hlat, numToNan_amt hfin]
    exact Num.numToNan_fin_of_ne hpos.ne'
  · rw [a3 _ _ _ _ (by omega), a2 _ _ _ _ (by omega), b1 0 0 o 0, hib]
    have := hamt o ho
    unfold Tri.latest at this
    rw [this]
    rfl
  · rw [a3 _ _ _ _ (by omega), b2 0 0 o 0, hua.cells 0 i0 0 c0 o (by rw [lO]; exact ho)]
    have := hamt o ho
    unfold Tri.latest at this
    rw [this]
    exact Num.numToNan_fin_of_ne hppos.ne'
  · rw [b3 0 0 o 0, ec _ _ _ _ (by omega)]
    rfl

/-- Factors above one and positive standard errors whose least-squares lines are not flat. -/
theorem hasTrend_of {v : Nat → ℝ} (hD : 3 ≤ D) (hF : ∀ k, k + 1 < D → 1 < devFactor t p n D q k)
    (tF : Tail.Trend (D - 1) fun k => Real.log (devFactor t p n D q k - 1)) (hv : ∀ k, k + 1 < D → 0 < v k)
    (tv : Tail.Trend (D - 1) fun k => Real.log (factorErr t p n D q v k)) : HasTrend t p n D q v := by
  have e : ∀ P : Nat → Prop, [DecidablePred P] → (∀ k, k + 1 < D → P k) →
      (Finset.range (D - 1)).filter P = Finset.range (D - 1) := by
    intro P _ hP
    refine Finset.filter_true_of_mem fun k hk => ?_
    rw [Finset.mem_range] at hk
    exact hP k (by omega)
  unfold HasTrend
  rw [Finset.filter_true_of_mem fun k hk => hF k (by rw [Finset.mem_range] at hk; omega),
    Finset.filter_true_of_mem fun k hk => hv k (by rw [Finset.mem_range] at hk; omega)]
  exact ⟨Tail.ageSum_ne (by omega) tF, Tail.ageSum_ne (by omega) tv⟩

/-- Without a factor above one there is no trend. -/
theorem noTrend_of {v : Nat → ℝ} (hF : ∀ k, k + 1 < D → devFactor t p n D q k ≤ 1) : ¬ HasTrend t p n D q v := by
  rintro ⟨h1, -⟩
  refine h1 ?_
  rw [Finset.filter_false_of_mem fun k hk => not_lt.mpr (hF k (by rw [Finset.mem_range] at hk; omega))]
  simp

end

namespace C70

theorem noDrop : Tail.C69.simple.NoDrop := ⟨rfl, rfl, rfl, rfl, rfl, rfl⟩
theorem all (d : Nat) : Tail.C69.simple.nPeriods d < 1 := by show (-1 : Int) < 1; decide

/-- Amounts 16, 8, 2, 1 / 16, 4, 3 / 16, 12 / 16: link ratios 1/2, 1/4 and 3/4, then 1/4 and 3/4, then 1/2. -/
noncomputable def falling : Tri ℝ :=
  { Tail.C69.tri with
    values := ⟨1, 1, 4, 4, fun _ _ o d => match o, d with
      | 0, 0 => .fin 16 | 0, 1 => .fin 8 | 0, 2 => .fin 2 | 0, 3 => .fin 1
      | 1, 0 => .fin 16 | 1, 1 => .fin 4 | 1, 2 => .fin 3
      | 2, 0 => .fin 16 | 2, 1 => .fin 12
      | 3, 0 => .fin 16
      | _, _ => .nan⟩ }

theorem standard : Standard falling 24240 4 4 1 where
  wf := ⟨rfl, rfl, rfl, rfl⟩
  finite := by
    intro i hi c hc o ho d hd
    replace ho : o < 4 := ho
    replace hd : d < 4 := hd
    interval_cases o <;> interval_cases d <;> trivial
  isVal := rfl
  cumulative := by decide
  noPattern := rfl
  multiplicative := rfl
  index_pos := le_rfl
  columns_pos := le_rfl
  two_origins := by decide
  period := le_rfl
  recent := by decide
  odims := rfl
  ddims := rfl
  vd := rfl
  short := by decide
  early := by decide
  known := by
    intro i hi c hc o ho d hd hlt
    interval_cases o <;> interval_cases d <;> first | rfl | omega

theorem positive : Positive falling 4 4 1 := by
  intro i hi c hc o ho d hd hle
  interval_cases o <;> interval_cases d <;>
    first
    | omega
    | exact ⟨_, by norm_num, rfl⟩

theorem average0 : devFactor falling Tail.C69.simple 4 4 1 0 = 1 / 2 := by
  show Dev.average falling 0 0 0 (pairs 4 4 1 0) .simple = 1 / 2
  unfold Dev.average
  rw [Tail.C69.pairs0]
  simp only [Finset.sum_insert, Finset.sum_singleton, Finset.mem_insert, Finset.mem_singleton, not_or,
    (by decide : (0 : Nat) ≠ 1 ∧ (0 : Nat) ≠ 2), (by decide : (1 : Nat) ≠ 2), not_false_iff, and_self, Tail.C69.card0]
  show ((8 : ℝ) / 16 + (4 / 16 + 12 / 16)) / 3 = 1 / 2
  norm_num

theorem average1 : devFactor falling Tail.C69.simple 4 4 1 1 = 1 / 2 := by
  show Dev.average falling 0 0 1 (pairs 4 4 1 1) .simple = 1 / 2
  unfold Dev.average
  rw [Tail.C69.pairs1]
  simp only [Finset.sum_pair (by decide : (0 : Nat) ≠ 1), Tail.C69.card1]
  show ((2 : ℝ) / 8 + 3 / 4) / 2 = 1 / 2
  norm_num

theorem average2 : devFactor falling Tail.C69.simple 4 4 1 2 = 1 / 2 := by
  show Dev.average falling 0 0 2 (pairs 4 4 1 2) .simple = 1 / 2
  unfold Dev.average
  rw [Tail.C69.pairs2]
  simp only [Finset.sum_singleton, Finset.card_singleton]
  show ((1 : ℝ) / 2) / ((1 : Nat) : ℝ) = 1 / 2
  norm_num

theorem variance0 : Dev.variance falling 0 0 0 (pairs 4 4 1 0) .simple = 1 / 16 := by
  have := average0
  unfold devFactor at this
  unfold Dev.variance
  rw [show Dev.average falling 0 0 0 (pairs 4 4 1 0) .simple = 1 / 2 from this, Tail.C69.pairs0]
  simp only [Finset.sum_insert, Finset.sum_singleton, Finset.mem_insert, Finset.mem_singleton, not_or,
    (by decide : (0 : Nat) ≠ 1 ∧ (0 : Nat) ≠ 2), (by decide : (1 : Nat) ≠ 2), not_false_iff, and_self, Tail.C69.card0]
  show ((16 : ℝ) ^ 0 * (8 / 16 - 1 / 2) ^ 2 + (16 ^ 0 * (4 / 16 - 1 / 2) ^ 2 + 16 ^ 0 * (12 / 16 - 1 / 2) ^ 2)) /
    (3 - 1) = 1 / 16
  norm_num

theorem variance1 : Dev.variance falling 0 0 1 (pairs 4 4 1 1) .simple = 1 / 8 := by
  have := average1
  unfold devFactor at this
  unfold Dev.variance
  rw [show Dev.average falling 0 0 1 (pairs 4 4 1 1) .simple = 1 / 2 from this, Tail.C69.pairs1]
  simp only [Finset.sum_pair (by decide : (0 : Nat) ≠ 1), Tail.C69.card1]
  show ((8 : ℝ) ^ 0 * (2 / 8 - 1 / 2) ^ 2 + 4 ^ 0 * (3 / 4 - 1 / 2) ^ 2) / (2 - 1) = 1 / 8
  norm_num

theorem ready : MackReady falling 24240 4 4 1 Tail.C69.simple where
  standard := standard
  positive := positive
  cumulative := rfl
  index := rfl
  column := rfl
  noDrop := noDrop
  all := all
  rows := by decide
  spread := by
    intro k hk
    have : k < 2 := by omega
    interval_cases k
    · show 0 < Dev.variance falling 0 0 0 (pairs 4 4 1 0) .simple
      rw [variance0]; norm_num
    · show 0 < Dev.variance falling 0 0 1 (pairs 4 4 1 1) .simple
      rw [variance1]; norm_num
  moves := by
    intro o h1 h2
    unfold projected
    interval_cases o
    · show (3 : ℝ) * ∏ j ∈ Finset.Ico 2 3, _ ≠ 3
      rw [Finset.prod_Ico_eq_prod_range]
      norm_num [Finset.prod_range_succ, average2]
    · show (12 : ℝ) * ∏ j ∈ Finset.Ico 1 3, _ ≠ 12
      rw [Finset.prod_Ico_eq_prod_range]
      norm_num [Finset.prod_range_succ, average1, average2]
    · show (16 : ℝ) * ∏ j ∈ Finset.Ico 0 3, _ ≠ 16
      rw [Finset.prod_Ico_eq_prod_range]
      norm_num [Finset.prod_range_succ, average0, average1, average2]
  short := by decide
  early := by decide

/-- Sigmas of 1/4, the root of 1/8 and (by Mack's rule) 1/4. -/
theorem sigma {f s e : Tri ℝ} (hr : Dev.fitStats falling Tail.C69.simple .mack false = .ok (f, s, e)) :
    SigmaIs s 4 fun k => if k = 1 then Real.sqrt (1 / 8) else 1 / 4 := by
  obtain ⟨f', s', e', -, hr', -, -, -, -, -, -, hst⟩ := Dev.C68_plain_partial standard positive noDrop all .mack
  rw [hr] at hr'
  obtain ⟨rfl, rfl, rfl⟩ : f = f' ∧ s = s' ∧ e = e' := by
    injection hr' with hr'
    injection hr' with h1 h2
    injection h2 with h2 h3
    exact ⟨h1, h2, h3⟩
  have v0 : Dev.variance falling 0 0 0 (pairs 4 4 1 0) (Tail.C69.simple.average 0) = 1 / 16 := variance0
  have v1 : Dev.variance falling 0 0 1 (pairs 4 4 1 1) (Tail.C69.simple.average 1) = 1 / 8 := variance1
  have r4 : Real.sqrt (1 / 16) = 1 / 4 := by
    rw [show (1 / 16 : ℝ) = (1 / 4) ^ 2 by norm_num, Real.sqrt_sq (by norm_num)]
  have c0 := hst 0 (by decide) 0 (by decide) 0 (by decide)
  have c1 := hst 0 (by decide) 0 (by decide) 1 (by decide)
  rw [v0] at c0
  rw [v1] at c1
  intro k hk
  have : k < 3 := by omega
  interval_cases k
  · refine ⟨by norm_num, Or.inl ?_⟩
    rw [c0.1 (by decide) (by norm_num), r4]
    rfl
  · refine ⟨by positivity, Or.inl ?_⟩
    rw [c1.1 (by decide) (by norm_num)]
    rfl
  · refine ⟨by norm_num, Or.inl ?_⟩
    have hs : (1 / 4 : ℝ) ≤ Real.sqrt (1 / 8) := Real.le_sqrt_of_sq_le (by norm_num)
    rw [Dev.C68_mack_partial standard positive noDrop all hr (i := 0) (c := 0) (d := 2) (by decide) (by decide) le_rfl
      (by decide) (by decide) (by decide) (u := Real.sqrt (1 / 8)) (v := 1 / 4) (by positivity) (by norm_num)
      (by rw [Real.sq_sqrt (by norm_num)]; exact v1) (by rw [v0]; norm_num), Real.sq_sqrt (by norm_num)]
    have h1 : (1 / 8 : ℝ) / (1 / 4) = 1 / 2 := by norm_num
    rw [h1, min_eq_right (by rw [min_le_iff]; exact Or.inl (by norm_num)), min_eq_left hs]
    rfl

/-- The triangle of `C69`: factors 3, 2 and 3/2. -/
theorem ready' : MackReady Tail.C69.tri 24240 4 4 1 Tail.C69.simple where
  standard := Tail.C69.standard
  positive := Tail.C69.positive
  cumulative := rfl
  index := rfl
  column := rfl
  noDrop := noDrop
  all := all
  rows := by decide
  spread := by
    intro k hk
    have : k < 2 := by omega
    interval_cases k
    · show 0 < Dev.variance Tail.C69.tri 0 0 0 (pairs 4 4 1 0) .simple
      rw [Tail.C69.variance0]; norm_num
    · show 0 < Dev.variance Tail.C69.tri 0 0 1 (pairs 4 4 1 1) .simple
      rw [Tail.C69.variance1]; norm_num
  moves := by
    intro o h1 h2
    have a0 : devFactor Tail.C69.tri Tail.C69.simple 4 4 1 0 = 3 := Tail.C69.average0
    have a1 : devFactor Tail.C69.tri Tail.C69.simple 4 4 1 1 = 2 := Tail.C69.average1
    have a2 : devFactor Tail.C69.tri Tail.C69.simple 4 4 1 2 = 3 / 2 := Tail.C69.average2
    unfold projected
    interval_cases o
    · show (18 : ℝ) * ∏ j ∈ Finset.Ico 2 3, _ ≠ 18
      rw [Finset.prod_Ico_eq_prod_range]
      norm_num [Finset.prod_range_succ, a2]
    · show (10 : ℝ) * ∏ j ∈ Finset.Ico 1 3, _ ≠ 10
      rw [Finset.prod_Ico_eq_prod_range]
      norm_num [Finset.prod_range_succ, a1, a2]
    · show (5 : ℝ) * ∏ j ∈ Finset.Ico 0 3, _ ≠ 5
      rw [Finset.prod_Ico_eq_prod_range]
      norm_num [Finset.prod_range_succ, a0, a1, a2]
  short := by decide
  early := by decide

/-- Sigmas of 2, the root of 2 and (by Mack's rule) 1. -/
theorem sigma' {f s e : Tri ℝ} (hr : Dev.fitStats Tail.C69.tri Tail.C69.simple .mack false = .ok (f, s, e)) :
    SigmaIs s 4 fun k => if k = 0 then 2 else if k = 1 then Real.sqrt 2 else 1 := by
  obtain ⟨f', s', e', -, hr', -, -, -, -, -, -, hst⟩ :=
    Dev.C68_plain_partial Tail.C69.standard Tail.C69.positive noDrop all .mack
  rw [hr] at hr'
  obtain ⟨rfl, rfl, rfl⟩ : f = f' ∧ s = s' ∧ e = e' := by
    injection hr' with hr'
    injection hr' with h1 h2
    injection h2 with h2 h3
    exact ⟨h1, h2, h3⟩
  have v0 : Dev.variance Tail.C69.tri 0 0 0 (pairs 4 4 1 0) (Tail.C69.simple.average 0) = 4 := Tail.C69.variance0
  have v1 : Dev.variance Tail.C69.tri 0 0 1 (pairs 4 4 1 1) (Tail.C69.simple.average 1) = 2 := Tail.C69.variance1
  have r4 : Real.sqrt 4 = 2 := by
    rw [show (4 : ℝ) = 2 ^ 2 by norm_num, Real.sqrt_sq (by norm_num)]
  have c0 := hst 0 (by decide) 0 (by decide) 0 (by decide)
  have c1 := hst 0 (by decide) 0 (by decide) 1 (by decide)
  rw [v0] at c0
  rw [v1] at c1
  intro k hk
  have : k < 3 := by omega
  interval_cases k
  · refine ⟨by norm_num, Or.inl ?_⟩
    rw [c0.1 (by decide) (by norm_num), r4]
    rfl
  · refine ⟨by norm_num, Or.inl ?_⟩
    rw [c1.1 (by decide) (by norm_num)]
    rfl
  · refine ⟨by norm_num, Or.inl ?_⟩
    rw [Dev.C68_mack_partial Tail.C69.standard Tail.C69.positive noDrop all hr (i := 0) (c := 0) (d := 2) (by decide)
      (by decide) le_rfl (by decide) (by decide) (by decide) (u := Real.sqrt 2) (v := 2) (by positivity) two_pos
      (by rw [Real.sq_sqrt (by norm_num)]; exact v1) (by rw [v0]; norm_num), Real.sq_sqrt (by norm_num)]
    have h1 : (1 : ℝ) ≤ Real.sqrt 2 := Real.le_sqrt_of_sq_le (by norm_num)
    rw [div_self two_ne_zero, min_eq_left (le_min (by norm_num) h1)]
    rfl

theorem trend' : HasTrend Tail.C69.tri Tail.C69.simple 4 4 1
    fun k => if k = 0 then 2 else if k = 1 then Real.sqrt 2 else 1 := by
  have a0 : devFactor Tail.C69.tri Tail.C69.simple 4 4 1 0 = 3 := Tail.C69.average0
  have a1 : devFactor Tail.C69.tri Tail.C69.simple 4 4 1 1 = 2 := Tail.C69.average1
  have a2 : devFactor Tail.C69.tri Tail.C69.simple 4 4 1 2 = 3 / 2 := Tail.C69.average2
  have m0 : devMass Tail.C69.tri Tail.C69.simple 4 4 1 0 = 3 := Tail.C69.mass0
  have m1 : devMass Tail.C69.tri Tail.C69.simple 4 4 1 1 = 2 := Tail.C69.mass1
  have m2 : devMass Tail.C69.tri Tail.C69.simple 4 4 1 2 = 1 := Tail.C69.mass2
  have hpos : 0 < Real.log 2 := Real.log_pos (by norm_num)
  refine hasTrend_of (by decide) ?_ ?_ ?_ ?_
  · intro k hk
    have : k < 3 := by omega
    interval_cases k
    · rw [a0]; norm_num
    · rw [a1]; norm_num
    · rw [a2]; norm_num
  · have lF : Tail.LeastSquares 3 (fun k => Real.log (devFactor Tail.C69.tri Tail.C69.simple 4 4 1 k - 1))
        (2 * Real.log 2) (- Real.log 2) := by
      refine Tail.leastSquares_of fun k hk => ?_
      interval_cases k
      · rw [a0, show (3 - 1 : ℝ) = 2 by norm_num]
        push_cast
        ring
      · rw [a1, show (2 - 1 : ℝ) = 1 by norm_num, Real.log_one]
        push_cast
        ring
      · rw [a2, show (3 / 2 - 1 : ℝ) = 2⁻¹ by norm_num, Real.log_inv]
        push_cast
        ring
    exact Tail.trend_of (by omega) lF (by linarith)
  · intro k hk
    have : k < 3 := by omega
    interval_cases k <;> norm_num
  · have hx : 0 < Real.log (Real.sqrt (4 / 3)) := by
      rw [Real.log_sqrt (by norm_num)]
      have := Real.log_pos (show (1 : ℝ) < 4 / 3 by norm_num)
      linarith
    have f0 : factorErr Tail.C69.tri Tail.C69.simple 4 4 1
        (fun k => if k = 0 then 2 else if k = 1 then Real.sqrt 2 else 1) 0 = Real.sqrt (4 / 3) := by
      unfold factorErr
      rw [m0]
      norm_num
    have f1 : factorErr Tail.C69.tri Tail.C69.simple 4 4 1
        (fun k => if k = 0 then 2 else if k = 1 then Real.sqrt 2 else 1) 1 = 1 := by
      unfold factorErr
      rw [m1]
      norm_num
    have f2 : factorErr Tail.C69.tri Tail.C69.simple 4 4 1
        (fun k => if k = 0 then 2 else if k = 1 then Real.sqrt 2 else 1) 2 = 1 := by
      unfold factorErr
      rw [m2]
      norm_num
    intro a ha
    generalize Real.sqrt (4 / 3) = y at hx f0
    have h2 := ha (a + Real.log y) (- (Real.log y / 2))
    simp only [Finset.sum_range_succ, Finset.sum_range_zero, f0, f1, f2, Real.log_one] at h2
    push_cast at h2
    nlinarith

end C70

/-- Simple averages of 3, 2 and 3/2; the ultimate of the newest origin is 45, with a squared standard error of
45^2 (4/9 (1 + 1/3) + 2/4 (1 + 1/2) + 4/9 (1 + 1)). -/
example : ∃ out, mackFit Tail.C69.tri Tail.C69.simple .mack = .ok out ∧
    0 ≤ (out.stdErr.values.get 0 0 3 4).amt ∧ (out.stdErr.values.get 0 0 3 4).amt ^ 2 = 18075 / 4 := by
  obtain ⟨f, s, e, -, hr, -⟩ :=
    Dev.C68_plain_partial Tail.C69.standard Tail.C69.positive C70.noDrop C70.all .mack
  obtain ⟨out, hout, h1, -⟩ := C70_partial C70.ready' .mack hr (C70.sigma' hr) C70.trend'
  refine ⟨out, hout, (h1 3 (by decide)).2.1, ?_⟩
  rw [(h1 3 (by decide)).2.2]
  have a0 : devFactor Tail.C69.tri Tail.C69.simple 4 4 1 0 = 3 := Tail.C69.average0
  have a1 : devFactor Tail.C69.tri Tail.C69.simple 4 4 1 1 = 2 := Tail.C69.average1
  have a2 : devFactor Tail.C69.tri Tail.C69.simple 4 4 1 2 = 3 / 2 := Tail.C69.average2
  have m0 : devMass Tail.C69.tri Tail.C69.simple 4 4 1 0 = 3 := Tail.C69.mass0
  have m1 : devMass Tail.C69.tri Tail.C69.simple 4 4 1 1 = 2 := Tail.C69.mass1
  have m2 : devMass Tail.C69.tri Tail.C69.simple 4 4 1 2 = 1 := Tail.C69.mass2
  have hu : projected Tail.C69.tri Tail.C69.simple 4 4 1 3 (4 - 1) = 45 := by
    unfold projected
    show (5 : ℝ) * ∏ j ∈ Finset.Ico 0 3, _ = 45
    rw [Finset.prod_Ico_eq_prod_range]
    norm_num [Finset.prod_range_succ, a0, a1, a2]
  have he : ∀ k, (Tail.C69.simple.average k).exponent = 2 := fun _ => rfl
  rw [hu]
  simp only [he, Nat.sub_self, pow_zero]
  show (45 : ℝ) ^ 2 * ∑ k ∈ Finset.Ico 0 3, _ = _
  rw [Finset.sum_Ico_eq_sum_range]
  norm_num [Finset.sum_range_succ, a0, a1, a2, m0, m1, m2]

/-- With factors of 1/2, the code gives a parameter risk of zero for the newest origin. -/
example : ∃ out, mackFit C70.falling Tail.C69.simple .mack = .ok out ∧
    out.parameter.values.get 0 0 3 4 = .fin 0 ∧
    0 < paramVar C70.falling Tail.C69.simple 4 4 1 (fun k => if k = 1 then Real.sqrt (1 / 8) else 1 / 4) 3 := by
  obtain ⟨f, s, e, -, hr, -⟩ := Dev.C68_plain_partial C70.standard C70.positive C70.noDrop C70.all .mack
  obtain ⟨out, hout, h1⟩ := C70_no_trend_false C70.ready .mack hr (C70.sigma hr) (noTrend_of fun k hk => by
    have : k < 3 := by omega
    interval_cases k
    · rw [C70.average0]; norm_num
    · rw [C70.average1]; norm_num
    · rw [C70.average2]; norm_num)
  exact ⟨out, hout, (h1 3 (by decide)).1, (h1 3 (by decide)).2.2 ⟨0, by decide, by decide, by norm_num⟩⟩

/-- The last origin of the same triangle: latest 5, IBNR 40, ultimate 45. -/
example : ∃ out x, mackFit Tail.C69.tri Tail.C69.simple .mack = .ok out ∧ mackSummary Tail.C69.tri out = .ok x ∧
    x.get 0 0 3 0 = .fin 5 ∧ x.get 0 0 3 1 = .fin 40 ∧ x.get 0 0 3 2 = .fin 45 := by
  obtain ⟨f, s, e, -, hr, -⟩ :=
    Dev.C68_plain_partial Tail.C69.standard Tail.C69.positive C70.noDrop C70.all .mack
  obtain ⟨out, x, hout, hx, -, h1⟩ := C70_summary_partial C70.ready' .mack hr (C70.sigma' hr)
  have a0 : devFactor Tail.C69.tri Tail.C69.simple 4 4 1 0 = 3 := Tail.C69.average0
  have a1 : devFactor Tail.C69.tri Tail.C69.simple 4 4 1 1 = 2 := Tail.C69.average1
  have a2 : devFactor Tail.C69.tri Tail.C69.simple 4 4 1 2 = 3 / 2 := Tail.C69.average2
  have hl : latestAmt Tail.C69.tri 4 1 3 = 5 := rfl
  have hu : projected Tail.C69.tri Tail.C69.simple 4 4 1 3 (4 - 1) = 45 := by
    unfold projected
    show (5 : ℝ) * ∏ j ∈ Finset.Ico 0 3, _ = 45
    rw [Finset.prod_Ico_eq_prod_range]
    norm_num [Finset.prod_range_succ, a0, a1, a2]
  obtain ⟨c0, c1, c2, -⟩ := h1 3 (by decide)
  rw [hu, hl, Num.numToNan_fin_of_ne (by norm_num)] at c1
  rw [hu] at c2
  exact ⟨out, x, hout, hx, c0, by rw [c1]; norm_num, c2⟩

end Work
end CL
