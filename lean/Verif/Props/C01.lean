import Verif.Lemmas.Convert
import Verif.Spec.Examples

set_option linter.unusedSectionVars false

/-! # C01: cumulative/incremental round trip -/

namespace CL
namespace Tri
variable {K : Type} [Field K] [LinearOrder K] [IsStrictOrderedRing K]

private theorem noInf_diff {x y z : Num K} : ((x.nanToNum - y.nanToNum) * z.nanToNum).numToNan.NoInf :=
  Num.noInf_numToNan (Num.noInf_mul (Num.noInf_sub (Num.noInf_nanToNum _) (Num.noInf_nanToNum _))
    (Num.noInf_nanToNum _))

private theorem amt_diff {x y : Num K} (hx : x.NoInf) (hy : y.NoInf) :
    ((x.nanToNum - y.nanToNum) * (1 : Num K).nanToNum).numToNan.amt = x.amt - y.amt := by
  rw [Num.nanToNum_eq hx, Num.nanToNum_eq hy, Num.one_def]
  simp

/-- When the cell of age `d` is inside the triangle, so are the differences leading to it. -/
theorem diffMask_eq_one {t : Tri K} (hs : DevSorted t) (wf : WF t) (h3 : 2 ≤ t.values.d3)
    {o d j : Nat} (ho : o < t.values.d2) (hd : d < t.values.d3) (hj : j ≤ d)
    (hm : t.nanTri o d = 1) : t.diffMask o j = 1 := by
  unfold diffMask
  split_ifs with h1 h2
  · rfl
  · exfalso
    unfold nanTri at hm
    split_ifs at hm with h4 h5
    · omega
    · have := hs o (by rw [← wf.2.2.1]; exact ho) d (by rw [← wf.2.2.2]; exact hd) j hj
      omega
  · rfl

/-- **C01, cumulative first.**  For every ordinary cumulative triangle with at least two
developments, `cum_to_incr` succeeds, and `incr_to_cum` of its result has the same labels, shape and
amounts as the original, with nothing after the valuation date. -/
theorem C01_cum_incr_cum {t : Tri K} (h : Proper t) (hc : t.isCum = some true)
    (hp : t.isPattern = false) (h3 : 2 ≤ t.values.d3) :
    ∃ u, cumToIncr t = .ok u ∧ u.isCum = some false ∧ (incrToCum u).isCum = some true ∧
      SameLabels (incrToCum u) t ∧ SameAmounts (incrToCum u).values t.values ∧
      Known (incrToCum u) := by
  obtain ⟨u, e, eu, hshape, hcell⟩ := cumToIncr_cells h.wf h.ordered h.dated (by simp [hc]) hp h3
    h.nodup
  obtain ⟨s0, s1, s2, s3⟩ := hshape
  have hic : u.isCum = some false := by rw [eu]
  have hip : u.isPattern = false := by rw [eu]; exact hp
  have huf : Finite u := by
    intro i hi c hcc o ho d hd
    rw [s0] at hi; rw [s1] at hcc; rw [s2] at ho; rw [s3] at hd
    rw [hcell i c o d ⟨hi, hcc, ho, hd⟩]
    split_ifs with h0
    · exact h.finite i hi c hcc o ho 0 (by omega)
    · exact noInf_diff
  obtain ⟨er, hr⟩ := incrToCum_cells huf (by simp [hic]) hip
  have hnt : ∀ o d, u.nanTri o d = t.nanTri o d := by
    intro o d
    unfold nanTri
    rw [s2, s3]
    have : u.valuation o d = t.valuation o d := by rw [eu]; rfl
    rw [this]
    have : u.vd = t.vd := by rw [eu]
    rw [this]
  -- the running total of the differences
  have htel : ∀ i < t.values.d0, ∀ c < t.values.d1, ∀ o < t.values.d2, ∀ d < t.values.d3,
      t.nanTri o d = 1 →
      ∑ j ∈ Finset.range (d + 1), (u.values.get i c o j).amt = (t.values.get i c o d).amt := by
    intro i hi c hcc o ho d hd hm
    have : ∀ e ≤ d, ∑ j ∈ Finset.range (e + 1), (u.values.get i c o j).amt =
        (t.values.get i c o e).amt := by
      intro e
      induction e with
      | zero =>
        intro _
        simp [hcell i c o 0 ⟨hi, hcc, ho, by omega⟩]
      | succ e ih =>
        intro he
        rw [Finset.sum_range_succ, ih (by omega), hcell i c o (e + 1) ⟨hi, hcc, ho, by omega⟩,
          if_neg (by omega), diffMask_eq_one h.sorted h.wf h3 ho hd he hm, amt_diff]
        · simp
        · exact h.finite i hi c hcc o ho (e + 1) (by omega)
        · exact h.finite i hi c hcc o ho _ (by omega)
    exact this d le_rfl
  have hval : ∀ i < t.values.d0, ∀ c < t.values.d1, ∀ o < t.values.d2, ∀ d < t.values.d3,
      u.cumSumVals.get i c o d = .nan ∧ (t.values.get i c o d) = .nan ∨
      u.cumSumVals.get i c o d = (Num.fin (t.values.get i c o d).amt).numToNan := by
    intro i hi c hcc o ho d hd
    rw [hr i (by omega) c (by omega) o (by omega) d (by omega), hnt]
    rcases nanTri_eq t o d with hm | ⟨hm, hv⟩
    · right
      rw [htel i hi c hcc o ho d hd hm, hm, Num.one_def, Num.fin_mul_fin, mul_one]
    · left
      exact ⟨by simp [hm], h.known i hi c hcc o ho d hd hv⟩
  refine ⟨u, e, hic, by rw [er], ?_, ⟨?_, ?_⟩, ?_⟩
  · rw [er, eu]
    exact ⟨rfl, rfl, rfl, rfl, rfl, rfl, rfl, rfl, rfl, rfl⟩
  · rw [er]; exact ⟨s0, s1, s2, s3⟩
  · intro i hi c hcc o ho d hd
    rw [er]
    rcases hval i hi c hcc o ho d hd with ⟨h1, h2⟩ | h1
    · show (u.cumSumVals.get i c o d).amt = _
      rw [h1, h2]
    · show (u.cumSumVals.get i c o d).amt = _
      rw [h1]; simp
  · intro i hi c hcc o ho d hd hv
    rw [er] at hi hcc ho hd hv ⊢
    have hi : i < t.values.d0 := by rw [← s0]; exact hi
    have hcc : c < t.values.d1 := by rw [← s1]; exact hcc
    have ho : o < t.values.d2 := by rw [← s2]; exact ho
    have hd : d < t.values.d3 := by rw [← s3]; exact hd
    have hv' : t.valuation o d > t.vd := by rw [eu] at hv; exact hv
    show u.cumSumVals.get i c o d = _
    rcases hval i hi c hcc o ho d hd with ⟨h1, -⟩ | h1
    · exact h1
    · rw [h1, h.known i hi c hcc o ho d hd hv']; simp

example : ∃ u, cumToIncr (Ex.tri3 (some true) Ex.cum3) = .ok u ∧
    SameAmounts (incrToCum u).values (Ex.tri3 (some true) Ex.cum3).values := by
  obtain ⟨u, h1, -, -, -, h2, -⟩ :=
    C01_cum_incr_cum (Ex.proper_tri3 (some true)) rfl rfl (by decide)
  exact ⟨u, h1, h2⟩

/-- **C01, incremental first** (partial: at least three developments, or a single origin; see
`C01_incr_cum_incr_false` for why).  `incr_to_cum` then `cum_to_incr` has the same labels, shape and
amounts as the original and nothing after the valuation date. -/
theorem C01_incr_cum_incr_partial {t : Tri K} (h : Proper t) (hc : t.isCum = some false)
    (hp : t.isPattern = false) (h3 : 2 ≤ t.values.d3)
    (h23 : 3 ≤ t.values.d3 ∨ t.values.d2 = 1) :
    ∃ u, cumToIncr (incrToCum t) = .ok u ∧ u.isCum = some false ∧
      SameLabels u t ∧ SameAmounts u.values t.values ∧ Known u := by
  obtain ⟨er, hr⟩ := incrToCum_cells h.finite (by simp [hc]) hp
  rw [er]
  set w : Tri K := { t with isCum := some true, values := t.cumSumVals } with hw
  obtain ⟨u, e, eu, hshape, hcell⟩ := cumToIncr_cells (t := w) h.wf h.ordered h.dated (by simp [hw])
    hp h3 h.nodup
  obtain ⟨s0, s1, s2, s3⟩ := hshape
  suffices hA : SameAmounts u.values t.values by
    refine ⟨u, e, by rw [eu], ?_, hA, ?_⟩
    · rw [eu]; exact ⟨rfl, rfl, rfl, rfl, rfl, rfl, rfl, rfl, rfl, rfl⟩
    intro i hi c hcc o ho d hd hv
    have hi : i < t.values.d0 := by rw [s0] at hi; exact hi
    have hcc : c < t.values.d1 := by rw [s1] at hcc; exact hcc
    have ho : o < t.values.d2 := by rw [s2] at ho; exact ho
    have hd : d < t.values.d3 := by rw [s3] at hd; exact hd
    have hv' : t.valuation o d > t.vd := by rw [eu] at hv; exact hv
    have h0 := hA.2 i hi c hcc o ho d hd
    rw [h.known i hi c hcc o ho d hd hv', Num.amt_nan] at h0
    have hx : ∃ x : Num K, x.NoInf ∧ u.values.get i c o d = x.numToNan := by
      rw [hcell i c o d ⟨hi, hcc, ho, hd⟩]
      split_ifs with hd0
      · refine ⟨_, ?_, hr i hi c hcc o ho 0 (by omega)⟩
        rcases nanTri_eq t o 0 with hm | ⟨hm, -⟩ <;> rw [hm] <;> simp [Num.one_def]
      · exact ⟨_, Num.noInf_mul (Num.noInf_sub (Num.noInf_nanToNum _) (Num.noInf_nanToNum _))
          (Num.noInf_nanToNum _), rfl⟩
    obtain ⟨x, hx, ex⟩ := hx
    rw [ex] at h0 ⊢
    rw [Num.amt_numToNan] at h0
    rw [← Num.numToNan_fin_amt hx, h0, Num.numToNan_fin_zero]
  refine ⟨⟨s0, s1, s2, s3⟩, ?_⟩
  intro i hi c hcc o ho d hd
  have hwd : ∀ e, e < t.values.d3 → w.values.get i c o e =
      (Num.fin (∑ j ∈ Finset.range (e + 1), (t.values.get i c o j).amt) * t.nanTri o e).numToNan :=
    fun e he => hr i hi c hcc o ho e he
  rw [hcell i c o d ⟨hi, hcc, ho, hd⟩]
  have hmono : ∀ e ≤ d, t.nanTri o d = 1 → t.nanTri o e = 1 := by
    intro e he hm
    unfold nanTri at hm ⊢
    split_ifs at hm ⊢ with h1 h2 h4
    · rfl
    · exfalso
      have := h.sorted o (by rw [← h.wf.2.2.1]; exact ho) d (by rw [← h.wf.2.2.2]; exact hd) e he
      omega
    · rfl
  split_ifs with h0
  · subst h0
    rw [hwd 0 (by omega)]
    rcases nanTri_eq t o 0 with hm | ⟨hm, hv⟩
    · rw [hm, Num.one_def]; simp
    · rw [hm, h.known i hi c hcc o ho 0 hd hv]; simp
  · rw [hwd d hd, hwd (d - 1) (by omega)]
    rcases nanTri_eq t o d with hm | ⟨hm, hv⟩
    · have hmask : w.diffMask o d = 1 :=
        diffMask_eq_one (t := t) h.sorted h.wf h3 ho hd le_rfl hm
      rw [hmask, hm, hmono (d - 1) (by omega) hm, amt_diff]
      · obtain ⟨d', rfl⟩ : ∃ d', d = d' + 1 := ⟨d - 1, by omega⟩
        simp only [Nat.add_sub_cancel, Num.one_def, Num.fin_mul_fin, mul_one, Num.amt_numToNan,
          Num.amt_fin]
        rw [Finset.sum_range_succ]; ring
      · exact Num.noInf_numToNan (by simp [Num.one_def])
      · exact Num.noInf_numToNan (by simp [Num.one_def])
    · have hmask : w.diffMask o d = .nan := by
        have hone : ¬ min t.values.d2 t.values.d3 = 1 := by
          intro hh; simp [nanTri, hh, Num.one_def] at hm
        show (if min t.values.d2 (t.values.d3 - 1) = 1 then (1 : Num K)
          else if t.valuation o d > t.vd then .nan else 1) = .nan
        rw [if_neg (by omega), if_pos hv]
      rw [hmask, h.known i hi c hcc o ho d hd hv]
      obtain ⟨a, ha⟩ := Num.nanToNum_isFin (Num.fin (∑ j ∈ Finset.range (d + 1),
        (t.values.get i c o j).amt) * t.nanTri o d).numToNan
      obtain ⟨b, hb⟩ := Num.nanToNum_isFin (Num.fin (∑ j ∈ Finset.range (d - 1 + 1),
        (t.values.get i c o j).amt) * t.nanTri o (d - 1)).numToNan
      rw [ha, hb]; simp

example : ∃ u, cumToIncr (incrToCum (Ex.tri3 (some false) Ex.cum3)) = .ok u ∧
    SameAmounts u.values (Ex.tri3 (some false) Ex.cum3).values := by
  obtain ⟨u, h1, -, -, h2, -⟩ :=
    C01_incr_cum_incr_partial (Ex.proper_tri3 (some false)) rfl rfl (by decide) (by decide)
  exact ⟨u, h1, h2⟩

/-- The 2 x 2 triangle 10 20 / 30 -. -/
def C01_witness : Tri ℚ := Ex.tri2 (some false) fun o d =>
  if o = 0 then (if d = 0 then .fin 10 else .fin 20) else if d = 0 then .fin 30 else .nan

theorem C01_witness_proper : Proper C01_witness :=
  Ex.proper_of (by decide) (by decide) (by decide) (by decide) (by decide) (by decide) (by decide)

/-- **C01 is false with exactly two developments**: an ordinary incremental 2 x 2 triangle for which
`incr_to_cum` then `cum_to_incr` invents the amount -30 in the unobserved cell. -/
theorem C01_incr_cum_incr_false :
    ∃ t : Tri ℚ, Proper t ∧ t.isCum = some false ∧ t.isPattern = false ∧ 2 ≤ t.values.d3 ∧
      ∃ u, cumToIncr (incrToCum t) = .ok u ∧ t.values.get 0 0 1 1 = .nan ∧
        u.values.get 0 0 1 1 = .fin (-30) ∧ ¬ SameAmounts u.values t.values := by
  refine ⟨C01_witness, C01_witness_proper, rfl, rfl, by decide, ?_⟩
  obtain ⟨er, hr⟩ := incrToCum_cells C01_witness_proper.finite (by decide) rfl
  have hp := C01_witness_proper
  rw [er]
  obtain ⟨u, e, eu, hshape, hcell⟩ := cumToIncr_cells
    (t := ({ C01_witness with isCum := some true, values := C01_witness.cumSumVals } : Tri ℚ))
    hp.wf hp.ordered hp.dated (by simp) rfl (by decide) hp.nodup
  have h1 := hcell 0 0 1 1 ⟨by decide, by decide, by decide, by decide⟩
  have h2 : u.values.get 0 0 1 1 = .fin (-30) := by
    rw [h1]; decide +kernel
  refine ⟨u, e, rfl, h2, ?_⟩
  intro hs
  have := hs.2 0 (by decide) 0 (by decide) 1 (by decide) 1 (by decide)
  rw [h2] at this
  revert this
  decide

/-- A triangle with a single age. -/
def C01_single : Tri ℚ :=
  { Ex.tri2 (some true) (fun _ _ => .fin 10) with
    ddims := [12]
    values := ⟨1, 1, 2, 1, fun _ _ _ _ => .fin 10⟩ }

/-- **C01 is false with a single development**: `cum_to_incr` raises IndexError. -/
theorem C01_single_development_false :
    ∃ t : Tri ℚ, Proper t ∧ t.isCum = some true ∧ t.isPattern = false ∧ t.values.d3 = 1 ∧
      cumToIncr t = .error .indexError :=
  ⟨C01_single, Ex.proper_of (by decide) (by decide) (by decide) (by decide) (by decide) (by decide)
    (by decide), rfl, rfl, rfl, by rfl⟩

end Tri
end CL
