import Verif.Lemmas.Arith
import Verif.Props.C01

set_option linter.unusedSectionVars false

/-! # C03: no amount is invented after the valuation date -/

namespace CL
namespace Tri
variable {K : Type} [Field K] [LinearOrder K] [IsStrictOrderedRing K]

/-- **C03 for `cum_to_incr`** (partial: at least two origins and three developments; see
`C03_two_developments_false` and `C03_single_origin_false`). -/
theorem C03_cum_to_incr_partial {t u : Tri K} (h : Proper t) (hc : t.isCum = some true)
    (hp : t.isPattern = false) (h2 : 2 ≤ t.values.d2) (h3 : 3 ≤ t.values.d3)
    (e : cumToIncr t = .ok u) : Known u := by
  obtain ⟨u', e', eu, hshape, hcell⟩ := cumToIncr_cells h.wf h.ordered h.dated (by simp [hc]) hp
    (by omega) h.nodup
  rw [e] at e'
  injection e' with e'
  subst e'
  obtain ⟨s0, s1, s2, s3⟩ := hshape
  intro i hi c hcc o ho d hd hv
  rw [s0] at hi; rw [s1] at hcc; rw [s2] at ho; rw [s3] at hd
  have hv' : t.valuation o d > t.vd := by rw [eu] at hv; exact hv
  rw [hcell i c o d ⟨hi, hcc, ho, hd⟩]
  split_ifs with h0
  · subst h0; exact h.known i hi c hcc o ho 0 hd hv'
  · have : t.diffMask o d = .nan := by
      unfold diffMask; rw [if_neg (by omega), if_pos hv']
    rw [this]
    obtain ⟨a, ha⟩ := Num.nanToNum_isFin (t.values.get i c o d)
    obtain ⟨b, hb⟩ := Num.nanToNum_isFin (t.values.get i c o (d - 1))
    rw [ha, hb]; simp

example : ∃ u, cumToIncr (Ex.tri3 (some true) Ex.cum3) = .ok u ∧ Known u := by
  obtain ⟨u, h1, -⟩ := C01_cum_incr_cum (Ex.proper_tri3 (some true)) rfl rfl (by decide)
  exact ⟨u, h1, C03_cum_to_incr_partial (Ex.proper_tri3 (some true)) rfl rfl (by decide) (by decide)
    h1⟩

/-- **C03 for addition and subtraction** on common axes: if neither operand has a number after the
later of the two valuation dates (which is the valuation date of the result), neither has the
result. -/
theorem C03_add {x y : Tri K} (h : SameAxes x y) (wx : WF x) (wy : WF y)
    (kx : Known { x with vd := max x.vd y.vd })
    (ky : Known { y with vd := max x.vd y.vd }) :
    ∃ z, x.add y = .ok z ∧ z.vd = max x.vd y.vd ∧ Known z := by
  refine ⟨_, add_same h wx wy, rfl, ?_⟩
  obtain ⟨s0, s1, s2, s3⟩ := h.shape wx wy
  intro i hi c hc o ho d hd hv
  have hvx := h.valuationOf (max x.vd y.vd) o d
  have h1 : x.values.get i c o d = .nan := kx i hi c hc o ho d hd hv
  have h2 : y.values.get i c o d = .nan :=
    ky i (by rw [← s0]; exact hi) c (by rw [← s1]; exact hc) o (by rw [← s2]; exact ho) d
      (by rw [← s3]; exact hd) (by
        have : valuationOf x.isVal x.odims x.ddims (max x.vd y.vd) o d > max x.vd y.vd := hv
        rw [hvx] at this; exact this)
  show (((x.values.get i c o d).nanToNum + (y.values.get i c o d).nanToNum) * _).numToNan = _
  rw [h1, h2]
  obtain ⟨m, hm⟩ := Num.nanToNum_isFin (nanTri { x with vd := max x.vd y.vd } o d)
  rw [hm]; simp

theorem C03_sub {x y : Tri K} (h : SameAxes x y) (wx : WF x) (wy : WF y)
    (kx : Known { x with vd := max x.vd y.vd })
    (ky : Known { y with vd := max x.vd y.vd }) :
    ∃ z, x.sub y = .ok z ∧ z.vd = max x.vd y.vd ∧ Known z := by
  refine ⟨_, sub_same h wx wy, rfl, ?_⟩
  obtain ⟨s0, s1, s2, s3⟩ := h.shape wx wy
  intro i hi c hc o ho d hd hv
  have hvx := h.valuationOf (max x.vd y.vd) o d
  have h1 : x.values.get i c o d = .nan := kx i hi c hc o ho d hd hv
  have h2 : y.values.get i c o d = .nan :=
    ky i (by rw [← s0]; exact hi) c (by rw [← s1]; exact hc) o (by rw [← s2]; exact ho) d
      (by rw [← s3]; exact hd) (by
        have : valuationOf x.isVal x.odims x.ddims (max x.vd y.vd) o d > max x.vd y.vd := hv
        rw [hvx] at this; exact this)
  show (((x.values.get i c o d).nanToNum - (y.values.get i c o d).nanToNum) * _).numToNan = _
  rw [h1, h2]
  obtain ⟨m, hm⟩ := Num.nanToNum_isFin (nanTri { x with vd := max x.vd y.vd } o d)
  rw [hm]; simp

theorem zip_shape {f : Num K → Num K → Num K} {a b r : Arr K} (h : Arr.zip f a b = .ok r) :
    ∀ i c o d, ∃ x y, r.get i c o d = f x y := by
  unfold Arr.zip at h
  split at h
  · injection h with h
    subst h
    intro i c o d
    exact ⟨_, _, rfl⟩
  · cases h

/-- Whatever the operands (including operands with other labels that have to be aligned first) and
whatever they contain, a sum or difference has no number after its valuation date, provided it has
at least two origins and two developments. -/
theorem C03_add_any {x y z : Tri K} (e : x.add y = .ok z)
    (h : min z.values.d2 z.values.d3 ≠ 1) : Known z := by
  unfold add at e
  rcases hv : validate x y with er | ⟨x', a⟩
  · rw [hv] at e; cases e
  · rw [hv] at e
    simp only [bind, Except.bind, addArr, zipArr] at e
    rcases hz : Arr.zip (fun p q => p.nanToNum + q.nanToNum) x'.values a with er | r
    · rw [hz] at e; cases e
    · rw [hz] at e
      simp only [Except.ok.injEq] at e
      subst e
      apply known_cleanup
      · exact h
      · intro i _ c _ o _ d _
        obtain ⟨p, q, hpq⟩ := zip_shape hz i c o d
        show (r.get i c o d).NoInf
        rw [hpq]
        exact Num.noInf_add (Num.noInf_nanToNum _) (Num.noInf_nanToNum _)

theorem C03_sub_any {x y z : Tri K} (e : x.sub y = .ok z)
    (h : min z.values.d2 z.values.d3 ≠ 1) : Known z := by
  unfold sub at e
  rcases hv : validate x y with er | ⟨x', a⟩
  · rw [hv] at e; cases e
  · rw [hv] at e
    simp only [bind, Except.bind, subArr, zipArr] at e
    rcases hz : Arr.zip (fun p q => p.nanToNum - q.nanToNum) x'.values a with er | r
    · rw [hz] at e; cases e
    · rw [hz] at e
      simp only [Except.ok.injEq] at e
      subst e
      apply known_cleanup
      · exact h
      · intro i _ c _ o _ d _
        obtain ⟨p, q, hpq⟩ := zip_shape hz i c o d
        show (r.get i c o d).NoInf
        rw [hpq]
        exact Num.noInf_sub (Num.noInf_nanToNum _) (Num.noInf_nanToNum _)

example : ∃ z, (Ex.tri3 (some true) Ex.cum3).add (Ex.tri3 (some true) Ex.cum3) = .ok z ∧ Known z ∧
    z.values.get 0 0 0 0 = .fin 200 := by
  have hp := Ex.proper_tri3 (some true)
  have hs : SameAxes (Ex.tri3 (some true) Ex.cum3) (Ex.tri3 (some true) Ex.cum3) :=
    ⟨rfl, rfl, rfl, rfl, rfl, rfl, rfl, rfl⟩
  obtain ⟨z, hz, -, hk⟩ := C03_add hs hp.wf hp.wf
    (by rw [max_self]; exact hp.known) (by rw [max_self]; exact hp.known)
  refine ⟨z, hz, hk, ?_⟩
  rw [add_same hs hp.wf hp.wf] at hz
  injection hz with hz
  rw [← hz]
  decide +kernel

/-- **C03 is false with two developments**: 30 in the only observed cell of the second origin gives
-30 in its unobserved cell. -/
theorem C03_two_developments_false :
    ∃ t u : Tri ℚ, Proper t ∧ t.isCum = some true ∧ t.isPattern = false ∧ t.values.d2 = 2 ∧
      t.values.d3 = 2 ∧ cumToIncr t = .ok u ∧ u.valuation 1 1 > u.vd ∧
      u.values.get 0 0 1 1 = .fin (-30) := by
  have hp : Proper ({ C01_witness with isCum := some true } : Tri ℚ) :=
    Ex.proper_of (by decide) (by decide) (by decide) (by decide) (by decide) (by decide) (by decide)
  obtain ⟨u, e, eu, -, hcell⟩ := cumToIncr_cells hp.wf hp.ordered hp.dated (by decide) rfl
    (by decide) hp.nodup
  refine ⟨_, u, hp, rfl, rfl, rfl, rfl, e, ?_, ?_⟩
  · rw [eu]; show valuationOf false [24252, 24264] [12, 24] 24275 1 1 > 24275; decide
  · rw [hcell 0 0 1 1 ⟨by decide, by decide, by decide, by decide⟩]
    decide +kernel

/-- **C03 is false with a single origin**, whatever the number of developments. -/
theorem C03_single_origin_false :
    ∃ t u : Tri ℚ, Proper t ∧ t.isCum = some true ∧ t.isPattern = false ∧ t.values.d3 = 3 ∧
      cumToIncr t = .ok u ∧ u.valuation 0 1 > u.vd ∧ u.values.get 0 0 0 1 = .fin (-120) := by
  have hp : Proper (Ex.tri1 (some true) fun _ d => if d = 0 then .fin 120 else .nan) :=
    Ex.proper_of (by decide) (by decide) (by decide) (by decide) (by decide) (by decide) (by decide)
  obtain ⟨u, e, eu, -, hcell⟩ := cumToIncr_cells hp.wf hp.ordered hp.dated (by decide) rfl
    (by decide) hp.nodup
  refine ⟨_, u, hp, rfl, rfl, rfl, e, ?_, ?_⟩
  · rw [eu]; show valuationOf false [24264] [12, 24, 36] 24275 0 1 > 24275; decide
  · rw [hcell 0 0 0 1 ⟨by decide, by decide, by decide, by decide⟩]
    decide +kernel

end Tri
end CL
