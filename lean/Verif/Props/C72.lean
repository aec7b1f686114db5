import Verif.Lemmas.Clark
import Verif.Lemmas.Munich
import Verif.Lemmas.Residuals
import Verif.Model.ClarkScale

set_option linter.unusedSectionVars false

/-! # C72: scale and normalised residuals of `ClarkLDF` -/

namespace CL
namespace Clark
open Tri

variable {t : Tri ℝ} {a : Int} {n D q : Nat} {growth : String} {theta omega : Nat → Nat → ℝ}

/-- The increment of age `d`. -/
noncomputable def observed (t : Tri ℝ) (i c o d : Nat) : ℝ :=
  (t.values.get i c o d).amt - if d = 0 then 0 else (t.values.get i c o (d - 1)).amt

/-- The increment of age `d` according to the curve: the latest amount is spread in proportion to the growth of the
curve over the age. -/
noncomputable def expected (growth : String) (theta omega : Nat → Nat → ℝ) (t : Tri ℝ) (D q i c o d : Nat) : ℝ :=
  t.latest D q i c o * ((startValue growth t (theta i c) (omega i c) (d + 1) -
    startValue growth t (theta i c) (omega i c) d) / startValue growth t (theta i c) (omega i c) (D - q * o))

/-- The ages of origin `o` that are known. -/
def knownAges (D q o : Nat) : Finset Nat := (Finset.range D).filter fun d => q * o + d < D

/-- Degrees of freedom. -/
noncomputable def degrees (capeCod : Bool) (n D q : Nat) : ℝ :=
  (∑ o ∈ Finset.range n, ((knownAges D q o).card : ℝ)) - 2 - if capeCod then 1 else n

/-- Pearson's statistic. -/
noncomputable def chiSquare (growth : String) (theta omega : Nat → Nat → ℝ) (t : Tri ℝ) (n D q i c : Nat) : ℝ :=
  ∑ o ∈ Finset.range n, ∑ d ∈ knownAges D q o,
    (observed t i c o d - expected growth theta omega t D q i c o d) ^ 2 / expected growth theta omega t D q i c o d

theorem nanTri_grid (h : Grid t a n D q) {o d : Nat} (ho : o < n) (hd : d < D) :
    t.nanTri o d = if q * o + d < D then 1 else .nan := by
  have D2 := h.two_ages
  have n2 := h.two_origins
  unfold Tri.nanTri
  rw [if_neg (by rw [h.wf.2.2.1, h.wf.2.2.2, h.lenO, h.lenD]; omega)]
  have h3 := h.valuation_gt ho hd
  by_cases hk : q * o + d < D
  · rw [if_pos hk, if_neg]
    intro h4
    have := h3.1 h4
    omega
  · rw [if_neg hk, if_pos]
    exact h3.2 (by omega)

theorem startValue_pos (ht : ∀ i c, 0 < theta i c) (i c d : Nat) :
    0 < startValue growth t (theta i c) (omega i c) (d + 1) :=
  (value_bounds (ht i c) (endAt_pos t d)).1

theorem startValue_lt (ht : ∀ i c, 0 < theta i c) (ho : ∀ i c, 0 < omega i c) (i c d : Nat) :
    startValue growth t (theta i c) (omega i c) d < startValue growth t (theta i c) (omega i c) (d + 1) := by
  cases d with
  | zero => exact startValue_pos ht i c 0
  | succ d =>
    refine value_lt (ht i c) (ho i c) (endAt_pos t d) ?_
    unfold endAt
    have hm : (0 : ℝ) < t.dgrain.months := by cases t.dgrain <;> norm_num [Grain.months]
    push_cast
    linarith

theorem expected_pos (ht : ∀ i c, 0 < theta i c) (ho : ∀ i c, 0 < omega i c) {i c o : Nat}
    (hl : 0 < t.latest D q i c o) (hD : q * o < D) (d : Nat) : 0 < expected growth theta omega t D q i c o d := by
  obtain ⟨k, hk⟩ : ∃ k, D - q * o = k + 1 := ⟨D - q * o - 1, by omega⟩
  unfold expected
  rw [hk]
  exact mul_pos hl (div_pos (sub_pos.mpr (startValue_lt ht ho i c d)) (startValue_pos ht i c k))

/-- The cells of `incremental_fits_`. -/
theorem fits_cells (h : Grid t a n D q) (hg : Known growth) (ht : ∀ i c, 0 < theta i c)
    (hl : ∀ i < t.kdims.length, ∀ c < t.vdims.length, ∀ o < n, 0 < t.latest D q i c o) :
    ∃ f, fits growth theta omega t = .ok f ∧ f.SameShape t.values ∧
      ∀ i < t.kdims.length, ∀ c < t.vdims.length, ∀ o < n, ∀ d < D, f.get i c o d =
        if q * o + d < D then .fin (expected growth theta omega t D q i c o d) else .nan := by
  obtain ⟨w0, w1, w2, w3⟩ := h.wf
  have lO := h.lenO
  have lD := h.lenD
  obtain ⟨f, hf, f0, f1, f2, f3, hv⟩ := fits_eq h hg (omega := omega) ht
  refine ⟨f, hf, ⟨f0, f1, by rw [f2, w2, lO], by rw [f3, w3, lD]⟩, ?_⟩
  intro i hi c hc o ho d hd
  rw [hv i c o d (by omega) (by omega) ho hd, nanTri_grid h ho hd]
  have hr := h.row_le ho
  rw [Nat.mul_comm] at hr
  split_ifs with hk
  · have hfin := h.finite i (by omega) c (by omega) o (by omega) (D - 1 - q * o) (by omega)
    have hpos := hl i hi c hc o ho
    rcases Num.noInf_cases hfin with e | ⟨x, e⟩
    · unfold Tri.latest at hpos
      rw [e] at hpos
      exact absurd hpos (lt_irrefl _)
    · have hx : t.latest D q i c o = x := by unfold Tri.latest; rw [e]; rfl
      rw [hx] at hpos
      rw [e, Num.numToNan_fin_of_ne hpos.ne', Num.fin_mul_fin, Num.fin_mul_fin, Num.one_def, Num.fin_mul_fin]
      congr 1
      unfold expected
      rw [hx, show D - q * o = (D - 1 - q * o) + 1 by omega]
      show _ * (1 / startValue growth t (theta i c) (omega i c) ((D - 1 - q * o) + 1) * x) * 1 = _
      ring
  · rw [Num.mul_nan]

/-- The cells of `incremental_act_` at known ages. -/
theorem act_cells (h : Standard t a n D q) :
    ∃ u, t.cumToIncr = .ok u ∧ u = { t with
        isCum := some false
        values := u.values } ∧ u.values.SameShape t.values ∧
      ∀ i < t.kdims.length, ∀ c < t.vdims.length, ∀ o < n, ∀ d < D, (u.values.get i c o d).NoInf ∧
        (q * o + d < D → (u.values.get i c o d).amt = observed t i c o d ∧
          (d = 0 → u.values.get i c o d = t.values.get i c o 0) ∧
          (d ≠ 0 → u.values.get i c o d = (Num.fin (observed t i c o d)).numToNan)) := by
  obtain ⟨w0, w1, w2, w3⟩ := h.wf
  have lO := h.lenO
  have lD := h.lenD
  have D2 := h.two_ages
  obtain ⟨u, hu, e, hs, hv⟩ := cumToIncr_cells h.wf h.toGrid.ordered h.toGrid.dated h.cumulative h.noPattern
    (by rw [w3, lD]; exact D2) h.toGrid.nodup
  refine ⟨u, hu, e, hs, ?_⟩
  intro i hi c hc o ho d hd
  have hfin : ∀ d < D, (t.values.get i c o d).NoInf := fun d hd =>
    h.finite i (by omega) c (by omega) o (by omega) d (by omega)
  rw [hv i c o d ⟨by omega, by omega, by omega, by omega⟩]
  by_cases h0 : d = 0
  · subst h0
    rw [if_pos rfl]
    refine ⟨hfin 0 hd, fun _ => ⟨?_, fun _ => rfl, fun hh => absurd rfl hh⟩⟩
    unfold observed
    rw [if_pos rfl, sub_zero]
  · rw [if_neg h0, Num.nanToNum_eq (hfin d hd), Num.nanToNum_eq (hfin (d - 1) (by omega))]
    have hm : t.diffMask o d = 1 ∨ (t.diffMask o d = .nan ∧ ¬ q * o + d < D) := by
      unfold diffMask
      split_ifs with h1 h2
      · exact Or.inl rfl
      · right
        refine ⟨rfl, ?_⟩
        have := (h.valuation_gt ho hd).1 h2
        omega
      · exact Or.inl rfl
    rcases hm with e1 | ⟨e1, e2⟩
    · have : (Num.fin (t.values.get i c o d).amt - Num.fin (t.values.get i c o (d - 1)).amt) *
          (t.diffMask o d).nanToNum = .fin (observed t i c o d) := by
        rw [e1]
        unfold observed
        rw [if_neg h0]
        simp [Num.nanToNum]
      rw [this]
      exact ⟨Num.noInf_numToNan (Num.noInf_fin _), fun _ => ⟨by rw [Num.amt_numToNan]; rfl, fun hh => absurd hh h0,
        fun _ => rfl⟩⟩
    · refine ⟨?_, fun hh => absurd hh e2⟩
      rw [e1]
      refine Num.noInf_numToNan ?_
      simp [Num.nanToNum]

theorem nan0_numToNan (x : ℝ) : ((Num.fin x).numToNan).nan0 = .fin x := by
  by_cases h : x = 0
  · subst h
    rw [Num.numToNan_zero']
    rfl
  · rw [Num.numToNan_fin_of_ne h]
    rfl

/-- The sum over origins and then over ages. -/
theorem sum_sum {r : Tri ℝ} {X : Nat → Nat → Nat → Nat → ℝ} (hD : r.values.d3 ≠ 1)
    (hX : ∀ i < r.values.d0, ∀ c < r.values.d1, ∀ o < r.values.d2, ∀ d < r.values.d3,
      (r.values.get i c o d).nan0 = .fin (X i c o d)) :
    ∃ u, r.sum .origin = .tri u ∧
      (∀ x, u.sum .development = .scalar x → r.values.d0 = 1 ∧ r.values.d1 = 1 ∧
        x = (Num.fin (∑ o ∈ Finset.range r.values.d2, ∑ d ∈ Finset.range r.values.d3, X 0 0 o d)).numToNan) ∧
      ∀ v, u.sum .development = .tri v → ∀ i < r.values.d0, ∀ c < r.values.d1, v.values.get i c 0 0 =
        (Num.fin (∑ o ∈ Finset.range r.values.d2, ∑ d ∈ Finset.range r.values.d3, X i c o d)).numToNan := by
  refine ⟨r.sumKeep .origin, ?_, ?_⟩
  · unfold Tri.sum toAgg
    rw [if_neg]
    rintro ⟨-, -, -, h3⟩
    exact hD h3
  have key : ∀ i < r.values.d0, ∀ c < r.values.d1,
      ((r.sumKeep .origin).sumKeep .development).values.get i c 0 0 =
        (Num.fin (∑ o ∈ Finset.range r.values.d2, ∑ d ∈ Finset.range r.values.d3, X i c o d)).numToNan := by
    intro i hi c hc
    show (∑ d ∈ Finset.range r.values.d3,
      ((∑ o ∈ Finset.range r.values.d2, (r.values.get i c o d).nan0).numToNan).nan0).numToNan = _
    rw [Finset.sum_comm, ← Num.sum_fin]
    congr 1
    refine Finset.sum_congr rfl fun d hd => ?_
    rw [Finset.sum_congr rfl fun o ho =>
      hX i hi c hc o (Finset.mem_range.1 ho) d (Finset.mem_range.1 hd), Num.sum_fin, nan0_numToNan]
  have e : (r.sumKeep .origin).sum .development = ((r.sumKeep .origin).sumKeep .development).toAgg := rfl
  rw [e]
  unfold toAgg
  split_ifs with h1
  · have h0 : r.values.d0 = 1 := h1.1
    have h2 : r.values.d1 = 1 := h1.2.1
    refine ⟨?_, ?_⟩
    · intro x hx
      injection hx with hx
      exact ⟨h0, h2, by rw [← hx, key 0 (by omega) 0 (by omega)]⟩
    · intro v hv
      cases hv
  · refine ⟨?_, ?_⟩
    · intro x hx
      cases hx
    · intro v hv
      injection hv with hv
      rw [← hv]
      exact key

theorem freedom_eq (h : Grid t a n D q) (capeCod : Bool) :
    freedom capeCod t = .fin (degrees capeCod n D q) := by
  unfold freedom degrees
  rw [h.lenO, h.lenD]
  have : ∑ o ∈ Finset.range n, ∑ d ∈ Finset.range D, (t.nanTri o d).nan0 =
      .fin (∑ o ∈ Finset.range n, ((knownAges D q o).card : ℝ)) := by
    rw [← Num.sum_fin]
    refine Finset.sum_congr rfl fun o ho => ?_
    have e : ((knownAges D q o).card : ℝ) = ∑ d ∈ Finset.range D, if q * o + d < D then (1 : ℝ) else 0 := by
      unfold knownAges
      rw [Finset.sum_ite, Finset.sum_const_zero, add_zero, Finset.sum_const, nsmul_eq_mul, mul_one]
    rw [e, ← Num.sum_fin]
    refine Finset.sum_congr rfl fun d hd => ?_
    rw [nanTri_grid h (Finset.mem_range.1 ho) (Finset.mem_range.1 hd)]
    split_ifs <;> rfl
  rw [this, Num.fin_sub_fin, Num.fin_sub_fin]
  cases capeCod <;> simp

/-- What the two properties need. -/
structure Fitted (growth : String) (theta omega : Nat → Nat → ℝ) (t : Tri ℝ) (a : Int) (n D q : Nat) : Prop
    extends Standard t a n D q where
  curve : Known growth
  scalePos : ∀ i c, 0 < theta i c
  shapePos : ∀ i c, 0 < omega i c
  paid : ∀ i < t.kdims.length, ∀ c < t.vdims.length, ∀ o < n, 0 < t.latest D q i c o

theorem Fitted.expected_pos (h : Fitted growth theta omega t a n D q) {i c o : Nat} (hi : i < t.kdims.length)
    (hc : c < t.vdims.length) (ho : o < n) (d : Nat) : 0 < expected growth theta omega t D q i c o d := by
  have hr := h.row_le ho
  rw [Nat.mul_comm] at hr
  have := h.toGrid.two_ages
  exact Clark.expected_pos h.scalePos h.shapePos (h.paid i hi c hc o ho) (by omega) d

/-- `scale_` is Pearson's statistic over the degrees of freedom; a statistic of zero gives NaN. -/
theorem C72_scale_partial (h : Fitted growth theta omega t a n D q) (capeCod : Bool) :
    ∃ f s, fits growth theta omega t = .ok f ∧ scale capeCod t f = .ok s ∧
      ∀ i < t.kdims.length, ∀ c < t.vdims.length, s i c =
        (Num.fin (chiSquare growth theta omega t n D q i c)).numToNan / .fin (degrees capeCod n D q) := by
  obtain ⟨w0, w1, w2, w3⟩ := h.wf
  have lO := h.lenO
  have lD := h.lenD
  have D2 := h.toGrid.two_ages
  obtain ⟨f, hf, fs, fc⟩ := fits_cells h.toGrid h.curve (omega := omega) h.scalePos h.paid
  obtain ⟨f0, f1, f2, f3⟩ := fs
  obtain ⟨u, hu, ue, us, uc⟩ := act_cells h.toStandard
  obtain ⟨u0, u1, u2, u3⟩ := us
  let fit : Tri ℝ := { t with
    values := f
    isCum := some false }
  have wfit : WF fit := ⟨f0.trans w0, f1.trans w1, f2.trans w2, f3.trans w3⟩
  have wu : WF u := by
    rw [ue]
    exact ⟨u0.trans w0, u1.trans w1, u2.trans w2, u3.trans w3⟩
  have same : SameAxes fit u := by
    rw [ue]
    exact ⟨rfl, rfl, rfl, rfl, rfl, rfl, rfl, rfl⟩
  have hsub := sub_same same wfit wu
  have uvd : u.vd = t.vd := by rw [ue]
  have upat : u.isPattern = t.isPattern := by rw [ue]
  have hmask : ∀ o < n, ∀ d < D, nanTri { fit with vd := max fit.vd u.vd } o d =
      if q * o + d < D then 1 else .nan := by
    intro o ho d hd
    rw [← nanTri_grid h.toGrid ho hd, uvd]
    show nanTri { fit with vd := max t.vd t.vd } o d = _
    rw [max_self]
    unfold nanTri
    show (if min f.d2 f.d3 = 1 then _ else _) = _
    rw [f2, f3]
    rfl
  obtain ⟨r, hr, rd, rc⟩ : ∃ r, fit.sub u = .ok r ∧ (WF r ∧ SameAxes (r.pow 2) fit) ∧
      ∀ i < t.kdims.length, ∀ c < t.vdims.length, ∀ o < n, ∀ d < D, q * o + d < D → r.values.get i c o d =
        (Num.fin (expected growth theta omega t D q i c o d - observed t i c o d)).numToNan := by
    refine ⟨_, hsub, ⟨wfit, ⟨rfl, rfl, rfl, rfl, rfl, rfl, rfl, rfl⟩⟩, ?_⟩
    intro i hi c hc o ho d hd hk
    show (((f.get i c o d).nanToNum - (u.values.get i c o d).nanToNum) *
      (nanTri { fit with vd := max fit.vd u.vd } o d).nanToNum).numToNan = _
    obtain ⟨hn, hu2⟩ := uc i hi c hc o ho d hd
    rw [hmask o ho d hd, fc i hi c hc o ho d hd, if_pos hk, if_pos hk, Num.nanToNum_eq hn, (hu2 hk).1]
    simp [Num.nanToNum, Num.one_def]
  have wr : WF (r.pow 2) := rd.1
  have hdiv : ∃ z, (r.pow 2).div fit = .ok z ∧ z.values.d0 = t.kdims.length ∧ z.values.d1 = t.vdims.length ∧
      z.values.d2 = n ∧ z.values.d3 = D ∧ ∀ i c o d, z.values.get i c o d =
        (r.values.get i c o d).nanToNum.npow 2 / f.get i c o d := by
    have hs := rd.2.shape wr wfit
    have e : (r.pow 2).div fit = .ok { r.pow 2 with
        isPattern := (r.pow 2).isPattern && fit.isPattern
        vd := max (r.pow 2).vd fit.vd
        values := { (r.pow 2).values with get := fun i c o d =>
          ((r.pow 2).values.get i c o d / fit.values.get i c o d) } } := by
      unfold Tri.div
      rw [validate_same rd.2 wr wfit]
      simp only [bind, Except.bind, divArr, zipArr]
      rw [Arr.zip_same _ (by exact hs)]
    refine ⟨_, e, ?_⟩
    · obtain ⟨s0, s1, s2, s3⟩ := hs
      exact ⟨s0.trans (f0.trans w0), s1.trans (f1.trans w1), s2.trans (f2.trans (w2.trans lO)),
        s3.trans (f3.trans (w3.trans lD)), fun i c o d => rfl⟩
  obtain ⟨z, hz, z0, z1, z2, z3, zc⟩ := hdiv
  obtain ⟨y, hy, ya, yb⟩ := sum_sum (r := z) (X := fun i c o d => if q * o + d < D then
      (observed t i c o d - expected growth theta omega t D q i c o d) ^ 2 / expected growth theta omega t D q i c o d
      else 0) (by omega) (by
    intro i hi c hc o ho d hd
    rw [z0] at hi
    rw [z1] at hc
    rw [z2] at ho
    rw [z3] at hd
    rw [zc, fc i hi c hc o ho d hd]
    split_ifs with hk
    · rw [rc i hi c hc o ho d hd hk, Num.nanToNum_eq (Num.noInf_numToNan (Num.noInf_fin _)), Num.amt_numToNan,
        Num.amt_fin, Num.npow_two, Num.fin_div_fin_of_ne _ (h.expected_pos hi hc ho d).ne']
      show Num.fin _ = _
      congr 2
      ring
    · rw [Num.div_nan]
      rfl)
  rw [z2, z3] at ya yb
  have hchi : ∀ i c, (∑ o ∈ Finset.range n, ∑ d ∈ Finset.range D, if q * o + d < D then
      (observed t i c o d - expected growth theta omega t D q i c o d) ^ 2 / expected growth theta omega t D q i c o d
      else 0) = chiSquare growth theta omega t n D q i c := by
    intro i c
    unfold chiSquare knownAges
    refine Finset.sum_congr rfl fun o _ => ?_
    rw [Finset.sum_filter]
  have hrun : scale capeCod t f = match y.sum .development with
      | .scalar x => .ok fun _ _ => x / freedom capeCod t
      | .tri v => .ok fun i c => v.values.get i c 0 0 / freedom capeCod t := by
    unfold scale
    simp only [hu, bind, Except.bind]
    rw [show Tri.sub _ u = .ok r from hr]
    simp only
    rw [show Tri.div _ _ = .ok z from hz]
    simp only
    rw [hy]
    rfl
  rw [freedom_eq h.toGrid] at hrun
  cases hs : y.sum .development with
  | scalar x =>
    obtain ⟨a0, a1, a2⟩ := ya x hs
    rw [hs] at hrun
    refine ⟨f, _, hf, hrun, ?_⟩
    intro i hi c hc
    obtain rfl : i = 0 := by omega
    obtain rfl : c = 0 := by omega
    rw [a2, hchi]
  | tri v =>
    rw [hs] at hrun
    refine ⟨f, _, hf, hrun, ?_⟩
    intro i hi c hc
    rw [yb v hs i (by omega) c (by omega), hchi]

/-- The residuals before the scale is known to be positive. -/
theorem resid_run (h : Fitted growth theta omega t a n D q) (capeCod : Bool) :
    ∃ f s g, fits growth theta omega t = .ok f ∧ scale capeCod t f = .ok s ∧ normResid capeCod t f = .ok g ∧
      (∀ i < t.kdims.length, ∀ c < t.vdims.length, s i c =
        (Num.fin (chiSquare growth theta omega t n D q i c)).numToNan / .fin (degrees capeCod n D q)) ∧
      ∀ i < t.kdims.length, ∀ c < t.vdims.length, ∀ o < n, ∀ d < D,
        (¬ q * o + d < D → g.get i c o d = .nan) ∧
        (q * o + d < D → g.get i c o d =
          ((if d = 0 then t.values.get i c o 0 else (Num.fin (observed t i c o d)).numToNan) -
            .fin (expected growth theta omega t D q i c o d)) /
            Tail.sqrt (s i c * .fin (expected growth theta omega t D q i c o d))) := by
  obtain ⟨f, s, hf, hs, sc⟩ := C72_scale_partial h capeCod
  obtain ⟨f', hf', fs, fc⟩ := fits_cells h.toGrid h.curve (omega := omega) h.scalePos h.paid
  obtain rfl : f = f' := by
    rw [hf] at hf'
    injection hf'
  obtain ⟨f0, f1, f2, f3⟩ := fs
  obtain ⟨u, hu, ue, us, uc⟩ := act_cells h.toStandard
  obtain ⟨u0, u1, u2, u3⟩ := us
  have hrun : normResid capeCod t f = .ok { u.values with get := fun i c o d =>
      ((u.values.get i c o d - f.get i c o d) / Tail.sqrt (s i c * f.get i c o d)) } := by
    unfold normResid
    simp only [hu, hs, bind, Except.bind]
    rw [Arr.zip_same (a := u.values) (b := f) _
      ⟨u0.trans f0.symm, u1.trans f1.symm, u2.trans f2.symm, u3.trans f3.symm⟩]
    exact Arr.zip_same _ (show Arr.SameShape _ _ from
      ⟨u0.trans f0.symm, u1.trans f1.symm, u2.trans f2.symm, u3.trans f3.symm⟩)
  refine ⟨f, s, _, hf, hs, hrun, sc, ?_⟩
  intro i hi c hc o ho d hd
  obtain ⟨-, hu2⟩ := uc i hi c hc o ho d hd
  refine ⟨fun hk => ?_, fun hk => ?_⟩
  · show (u.values.get i c o d - f.get i c o d) / Tail.sqrt (s i c * f.get i c o d) = _
    rw [fc i hi c hc o ho d hd, if_neg hk, Num.sub_nan, Num.nan_div]
  · show (u.values.get i c o d - f.get i c o d) / Tail.sqrt (s i c * f.get i c o d) = _
    rw [fc i hi c hc o ho d hd, if_pos hk]
    congr 2
    split_ifs with h0
    · subst h0
      exact (hu2 hk).2.1 rfl
    · exact (hu2 hk).2.2 h0

/-- The residual of a known cell is the difference of observed and expected increment over the root of scale times
expected increment; a known increment of zero after the first age has no residual, nor has an unknown cell. -/
theorem C72_residuals_partial (h : Fitted growth theta omega t a n D q) (capeCod : Bool)
    (hdf : 0 < degrees capeCod n D q) :
    ∃ f g, fits growth theta omega t = .ok f ∧ normResid capeCod t f = .ok g ∧
      ∀ i < t.kdims.length, ∀ c < t.vdims.length, 0 < chiSquare growth theta omega t n D q i c →
      ∀ o < n, ∀ d < D,
        (¬ q * o + d < D → g.get i c o d = .nan) ∧
        (q * o + d < D → observed t i c o d = 0 → d ≠ 0 → g.get i c o d = .nan) ∧
        (q * o + d < D → observed t i c o d ≠ 0 → g.get i c o d =
          .fin ((observed t i c o d - expected growth theta omega t D q i c o d) /
            Real.sqrt (chiSquare growth theta omega t n D q i c / degrees capeCod n D q *
              expected growth theta omega t D q i c o d))) := by
  obtain ⟨f, s, g, hf, -, hg, sc, gc⟩ := resid_run h capeCod
  refine ⟨f, g, hf, hg, ?_⟩
  intro i hi c hc hchi o ho d hd
  obtain ⟨g1, g2⟩ := gc i hi c hc o ho d hd
  have hs : s i c = .fin (chiSquare growth theta omega t n D q i c / degrees capeCod n D q) := by
    rw [sc i hi c hc, Num.numToNan_fin_of_ne hchi.ne', Num.fin_div_fin_of_ne _ hdf.ne']
  have he := h.expected_pos hi hc ho d
  refine ⟨g1, fun hk hz h0 => ?_, fun hk hz => ?_⟩
  · rw [g2 hk, if_neg h0, hz, Num.numToNan_zero', Num.nan_sub, Num.nan_div]
  · have hpos := mul_pos (div_pos hchi hdf) he
    have hcell : (if d = 0 then t.values.get i c o 0 else (Num.fin (observed t i c o d)).numToNan) =
        .fin (observed t i c o d) := by
      split_ifs with h0
      · subst h0
        have e : observed t i c o 0 = (t.values.get i c o 0).amt := by
          unfold observed
          rw [if_pos rfl, sub_zero]
        obtain ⟨w0, w1, w2, w3⟩ := h.wf
        have lO := h.lenO
        have lD := h.lenD
        rcases Num.noInf_cases (h.finite i (by omega) c (by omega) o (by omega) 0 (by omega)) with e1 | ⟨x, e1⟩
        · rw [e, e1] at hz
          exact absurd rfl hz
        · rw [e, e1]
          rfl
      · exact Num.numToNan_fin_of_ne hz
    rw [g2 hk, hcell, hs, Num.fin_mul_fin, Munich.sqrt_fin hpos.le, Num.fin_sub_fin,
      Num.fin_div_fin_of_ne _ (Real.sqrt_pos.mpr hpos).ne']

/-- The squares of the residuals add up to the degrees of freedom, less what the increments of zero would have
given. -/
theorem C72_squares_partial (h : Fitted growth theta omega t a n D q) (capeCod : Bool)
    (hdf : 0 < degrees capeCod n D q) :
    ∃ f g, fits growth theta omega t = .ok f ∧ normResid capeCod t f = .ok g ∧
      ∀ i < t.kdims.length, ∀ c < t.vdims.length, 0 < chiSquare growth theta omega t n D q i c →
      (∀ o < n, observed t i c o 0 ≠ 0) →
      ∑ o ∈ Finset.range n, ∑ d ∈ knownAges D q o, (g.get i c o d).amt ^ 2 =
        degrees capeCod n D q - ∑ o ∈ Finset.range n, ∑ d ∈ (knownAges D q o).filter fun d => observed t i c o d = 0,
          expected growth theta omega t D q i c o d /
            (chiSquare growth theta omega t n D q i c / degrees capeCod n D q) := by
  obtain ⟨f, g, hf, hg, gc⟩ := C72_residuals_partial h capeCod hdf
  refine ⟨f, g, hf, hg, ?_⟩
  intro i hi c hc hchi h0
  set s := chiSquare growth theta omega t n D q i c / degrees capeCod n D q with hs
  have spos : 0 < s := div_pos hchi hdf
  have hd : degrees capeCod n D q = ∑ o ∈ Finset.range n, ∑ d ∈ knownAges D q o,
      (observed t i c o d - expected growth theta omega t D q i c o d) ^ 2 /
        expected growth theta omega t D q i c o d / s := by
    have : degrees capeCod n D q = chiSquare growth theta omega t n D q i c / s := by
      rw [hs]
      field_simp
    rw [this]
    unfold chiSquare
    rw [div_eq_mul_inv, Finset.sum_mul]
    refine Finset.sum_congr rfl fun o _ => ?_
    rw [Finset.sum_mul]
    exact Finset.sum_congr rfl fun d _ => (div_eq_mul_inv _ _).symm
  rw [hd, ← Finset.sum_sub_distrib]
  refine Finset.sum_congr rfl fun o ho => ?_
  rw [Finset.sum_filter, ← Finset.sum_sub_distrib]
  refine Finset.sum_congr rfl fun d hd => ?_
  have ho' := Finset.mem_range.1 ho
  obtain ⟨hd1, hk⟩ := Finset.mem_filter.1 hd
  have hd' := Finset.mem_range.1 hd1
  have he := h.expected_pos hi hc ho' d
  obtain ⟨-, g2, g3⟩ := gc i hi c hc hchi o ho' d hd'
  split_ifs with hz
  · have d0 : d ≠ 0 := by
      rintro rfl
      exact h0 o ho' hz
    rw [g2 hk hz d0, hz]
    show (0 : ℝ) ^ 2 = _
    field_simp
    ring
  · rw [g3 hk hz, Num.amt_fin, div_pow, Real.sq_sqrt (mul_pos spos he).le, sub_zero]
    field_simp

namespace Ex

/-- Three origins; nothing is paid in the second year. -/
noncomputable def flat : Tri ℝ where
  kdims := [["All"]]
  keyLabels := ["Total"]
  vdims := ["loss"]
  odims := [24240, 24252, 24264]
  ddims := [12, 24, 36]
  isVal := false
  ograin := .Y
  dgrain := .Y
  vd := 24275
  isCum := some true
  isPattern := false
  isAdditive := none
  values := ⟨1, 1, 3, 3, fun _ _ o d => if o + d < 3 then .fin (if d = 2 then 150 else 100) else .nan⟩

theorem flat_standard : flat.Standard 24240 3 3 1 where
  wf := ⟨rfl, rfl, rfl, rfl⟩
  finite := by
    intro i hi c hc o ho d hd
    show (if o + d < 3 then (.fin (if d = 2 then 150 else 100) : Num ℝ) else .nan).NoInf
    split_ifs
    · exact Num.noInf_fin _
    · exact Num.noInf_fin _
    · exact Num.noInf_nan
  isVal := rfl
  index_pos := le_rfl
  columns_pos := le_rfl
  two_origins := by decide
  period := le_rfl
  recent := by decide
  odims := rfl
  ddims := rfl
  vd := rfl
  short := by show 3 * 12 < 9999; omega
  early := by show (24275 : Int) ≤ 12 * 2261 + 11; omega
  known := by
    intro i hi c hc o ho d hd h
    show (if o + d < 3 then (.fin (if d = 2 then 150 else 100) : Num ℝ) else .nan) = .nan
    rw [if_neg (by omega)]
  cumulative := by show (some true : Option Bool) ≠ some false; decide
  noPattern := rfl
  multiplicative := rfl

theorem flat_amt {o d : Nat} (h : o + d < 3) :
    (flat.values.get 0 0 o d).amt = if d = 2 then 150 else 100 := by
  show (if o + d < 3 then (.fin (if d = 2 then 150 else 100) : Num ℝ) else .nan).amt = _
  rw [if_pos h, Num.amt_fin]

theorem flat_latest {o : Nat} (h : o < 3) :
    flat.latest 3 1 0 0 o = if o = 0 then 150 else 100 := by
  show (flat.values.get 0 0 o (3 - 1 - 1 * o)).amt = _
  rw [flat_amt (by omega)]
  congr 1
  simp only [eq_iff_iff]
  omega

theorem flat_fitted : Fitted "loglogistic" (fun _ _ => 12) (fun _ _ => 1) flat 24240 3 3 1 where
  toStandard := flat_standard
  curve := .inl rfl
  scalePos := fun _ _ => by norm_num
  shapePos := fun _ _ => by norm_num
  paid := by
    intro i hi c hc o ho
    have hi' : i < 1 := hi
    have hc' : c < 1 := hc
    obtain rfl : i = 0 := by omega
    obtain rfl : c = 0 := by omega
    rw [flat_latest ho]
    split_ifs <;> norm_num

theorem flat_degrees : degrees false 3 3 1 = 1 := by
  have : ∑ o ∈ Finset.range 3, ((knownAges 3 1 o).card : ℝ) = 6 := by
    have : ∑ o ∈ Finset.range 3, (knownAges 3 1 o).card = 6 := by decide
    exact_mod_cast this
  unfold degrees
  rw [this]
  norm_num

theorem flat_zero : observed flat 0 0 0 1 = 0 := by
  unfold observed
  rw [flat_amt (by omega), if_neg (by omega), flat_amt (by omega)]
  norm_num

theorem flat_chi : 0 < chiSquare "loglogistic" (fun _ _ => 12) (fun _ _ => 1) flat 3 3 1 0 0 := by
  have nn : ∀ o ∈ Finset.range 3, ∀ d ∈ knownAges 3 1 o,
      0 ≤ (observed flat 0 0 o d - expected "loglogistic" (fun _ _ => 12) (fun _ _ => 1) flat 3 1 0 0 o d) ^ 2 /
        expected "loglogistic" (fun _ _ => 12) (fun _ _ => 1) flat 3 1 0 0 o d := fun o ho d _ =>
    div_nonneg (sq_nonneg _) (flat_fitted.expected_pos (by decide) (by decide) (Finset.mem_range.1 ho) d).le
  refine Finset.sum_pos' (fun o ho => Finset.sum_nonneg (nn o ho)) ⟨0, by decide, ?_⟩
  refine Finset.sum_pos' (nn 0 (by decide)) ⟨1, by decide, ?_⟩
  have he := flat_fitted.expected_pos (i := 0) (c := 0) (o := 0) (by decide) (by decide) (by decide) 1
  rw [flat_zero]
  exact div_pos (by rw [zero_sub, neg_sq]; exact pow_pos he 2) he

end Ex

/-- The increments of the first origin are 100, 0 and 50, expected are 70, 56 and 24, with one degree of freedom. -/
example : (∀ d < 3, observed Ex.flat 0 0 0 d = [100, 0, 50].getD d 0 ∧
    expected "loglogistic" (fun _ _ => 12) (fun _ _ => 1) Ex.flat 3 1 0 0 0 d = [70, 56, 24].getD d 0) ∧
    degrees false 3 3 1 = 1 := by
  refine ⟨?_, Ex.flat_degrees⟩
  have hv : ∀ d, startValue "loglogistic" Ex.flat 12 1 (d + 1) =
      (12 * (d + 1) - 6) / (12 * (d + 1) - 6 + 12) := by
    intro d
    show value "loglogistic" 12 1 (endAt Ex.flat d) = _
    unfold value endAt
    show (if "loglogistic" = "loglogistic" then _ else _) = _
    rw [if_pos rfl, Real.rpow_one, Real.rpow_one]
    show (((d + 1 : Nat) : ℝ) * (12 : Nat) - (12 : Nat) / 2) /
      (((d + 1 : Nat) : ℝ) * (12 : Nat) - (12 : Nat) / 2 + 12) = _
    have e : ((d + 1 : Nat) : ℝ) * (12 : Nat) - (12 : Nat) / 2 = 12 * (d + 1) - 6 := by
      push_cast
      ring
    rw [e]
  have h0 : startValue "loglogistic" Ex.flat 12 1 0 = 0 := rfl
  intro d hd
  refine ⟨?_, ?_⟩
  · unfold observed
    interval_cases d
    · rw [Ex.flat_amt (by omega)]
      norm_num
    · rw [Ex.flat_amt (by omega), Ex.flat_amt (by omega)]
      norm_num
    · rw [Ex.flat_amt (by omega), Ex.flat_amt (by omega)]
      norm_num
  · unfold expected
    rw [Ex.flat_latest (by omega), show 3 - 1 * 0 = 2 + 1 from rfl]
    beta_reduce
    interval_cases d
    · rw [hv, hv, h0]; norm_num
    · rw [hv, hv, hv]; norm_num
    · rw [hv, hv]; norm_num

/-- **C72 is false of increments of zero**: `cum_to_incr` turns them into NaN, so they count in `scale_` and in the
degrees of freedom and have no residual; the squares of the residuals do not add up to the degrees of freedom. -/
theorem C72_zero_false : ¬ ∀ (growth : String) (theta omega : Nat → Nat → ℝ) (t : Tri ℝ) (a : Int) (n D q : Nat)
    (capeCod : Bool), Fitted growth theta omega t a n D q → 0 < degrees capeCod n D q →
    ∃ f g, fits growth theta omega t = .ok f ∧ normResid capeCod t f = .ok g ∧
      ∀ i < t.kdims.length, ∀ c < t.vdims.length, 0 < chiSquare growth theta omega t n D q i c →
      ∑ o ∈ Finset.range n, ∑ d ∈ knownAges D q o, (g.get i c o d).amt ^ 2 = degrees capeCod n D q := by
  intro hall
  have hdf : 0 < degrees false 3 3 1 := by rw [Ex.flat_degrees]; norm_num
  obtain ⟨f, g, hf, hg, h1⟩ := hall _ _ _ _ _ _ _ _ false Ex.flat_fitted hdf
  obtain ⟨f', g', hf', hg', h2⟩ := C72_squares_partial Ex.flat_fitted false hdf
  rw [hf] at hf'
  injection hf' with ef
  subst ef
  rw [hg] at hg'
  injection hg' with eg
  subst eg
  have e1 := h1 0 (by decide) 0 (by decide) Ex.flat_chi
  have e2 := h2 0 (by decide) 0 (by decide) Ex.flat_chi (by
    intro o ho
    unfold observed
    rw [Ex.flat_amt (by omega)]
    norm_num)
  rw [e1] at e2
  have spos := div_pos Ex.flat_chi hdf
  have nn : ∀ o ∈ Finset.range 3, ∀ d ∈ (knownAges 3 1 o).filter fun d => observed Ex.flat 0 0 o d = 0,
      0 ≤ expected "loglogistic" (fun _ _ => 12) (fun _ _ => 1) Ex.flat 3 1 0 0 o d /
        (chiSquare "loglogistic" (fun _ _ => 12) (fun _ _ => 1) Ex.flat 3 3 1 0 0 / degrees false 3 3 1) :=
    fun o ho d _ => div_nonneg
      (Ex.flat_fitted.expected_pos (by decide) (by decide) (Finset.mem_range.1 ho) d).le spos.le
  have : 0 < ∑ o ∈ Finset.range 3, ∑ d ∈ (knownAges 3 1 o).filter fun d => observed Ex.flat 0 0 o d = 0,
      expected "loglogistic" (fun _ _ => 12) (fun _ _ => 1) Ex.flat 3 1 0 0 o d /
        (chiSquare "loglogistic" (fun _ _ => 12) (fun _ _ => 1) Ex.flat 3 3 1 0 0 / degrees false 3 3 1) := by
    refine Finset.sum_pos' (fun o ho => Finset.sum_nonneg (nn o ho)) ⟨0, by decide, ?_⟩
    refine Finset.sum_pos' (nn 0 (by decide)) ⟨1, ?_, ?_⟩
    · exact Finset.mem_filter.2 ⟨by decide, Ex.flat_zero⟩
    · exact div_pos (Ex.flat_fitted.expected_pos (by decide) (by decide) (by decide) 1) spos
  linarith

end Clark
end CL
