import Verif.Lemmas.Clark
import Verif.Spec.Examples

set_option linter.unusedSectionVars false

/-! # C45: Clark growth curves give proper development -/

namespace CL
namespace Clark

/-- **C45, range**: with positive parameters the curve lies strictly between 0 and 1 at positive
ages and is 0 at age 0. -/
theorem C45_range {growth : String} (hg : growth = "loglogistic" ∨ growth = "weibull")
    {theta omega : ℝ} (ht : 0 < theta) :
    curve growth theta omega 0 = .fin 0 ∧
    ∀ age, 0 < age → ∃ g, curve growth theta omega age = .fin g ∧ 0 < g ∧ g < 1 :=
  ⟨curve_zero _ _ _, fun _ ha => ⟨_, curve_eq hg ht ha, value_bounds ht ha⟩⟩

/-- **C45, growth**: the curve increases with the age. -/
theorem C45_increasing {growth : String} (hg : growth = "loglogistic" ∨ growth = "weibull")
    {theta omega : ℝ} (ht : 0 < theta) (ho : 0 < omega) {a b : ℝ} (ha : 0 ≤ a) (hab : a < b) :
    ∃ x y, curve growth theta omega a = .fin x ∧ curve growth theta omega b = .fin y ∧ x < y := by
  rcases ha.eq_or_lt with rfl | ha
  · exact ⟨0, _, curve_zero _ _ _, curve_eq hg ht hab, (value_bounds ht hab).1⟩
  · exact ⟨_, _, curve_eq hg ht ha, curve_eq hg ht (ha.trans hab), value_lt ht ho ha hab⟩

/-- **C45, limit**: everything is developed in the end. -/
theorem C45_limit {growth : String} (hg : growth = "loglogistic" ∨ growth = "weibull")
    {theta omega : ℝ} (ht : 0 < theta) (ho : 0 < omega) :
    Filter.Tendsto (fun age => (curve growth theta omega age).amt) Filter.atTop (nhds 1) := by
  have e : (fun age => (curve growth theta omega age).amt) =ᶠ[Filter.atTop]
      value growth theta omega := by
    filter_upwards [Filter.eventually_gt_atTop 0] with age ha
    rw [curve_eq hg ht ha, Num.amt_fin]
  refine Filter.Tendsto.congr' e.symm ?_
  rcases hg with rfl | rfl
  · have h1 : Filter.Tendsto (fun age : ℝ => 1 / (1 + theta ^ omega * age ^ (-omega)))
        Filter.atTop (nhds (1 / (1 + theta ^ omega * 0))) :=
      tendsto_const_nhds.div (tendsto_const_nhds.add
        (tendsto_const_nhds.mul (tendsto_rpow_neg_atTop ho))) (by norm_num)
    rw [mul_zero, add_zero, div_one] at h1
    refine h1.congr' ?_
    filter_upwards [Filter.eventually_gt_atTop 0] with age ha
    have h2 := Real.rpow_pos_of_pos ht omega
    have h3 := Real.rpow_pos_of_pos ha omega
    unfold value
    rw [if_pos rfl, Real.rpow_neg ha.le]
    field_simp
  · have h1 : Filter.Tendsto (fun age : ℝ => (age / theta) ^ omega) Filter.atTop Filter.atTop :=
      (tendsto_rpow_atTop ho).comp (Filter.tendsto_id.atTop_div_const ht)
    have h2 : Filter.Tendsto (fun age : ℝ => 1 - Real.exp (-((age / theta) ^ omega)))
        Filter.atTop (nhds (1 - 0)) :=
      tendsto_const_nhds.sub (Real.tendsto_exp_neg_atTop_nhds_zero.comp h1)
    rw [sub_zero] at h2
    refine h2.congr fun age => ?_
    unfold value
    rw [if_neg (by decide)]

/-- Loglogistic with scale 12 and shape 1: half developed at age 12. -/
example : curve "loglogistic" 12 1 12 = .fin (1 / 2) := by
  rw [curve_eq (.inl rfl) (by norm_num) (by norm_num)]
  unfold value
  norm_num

/-- Weibull with scale 12 and shape 1: an exponential curve. -/
example : curve "weibull" 12 1 24 = .fin (1 - Real.exp (-2)) := by
  rw [curve_eq (.inr rfl) (by norm_num) (by norm_num)]
  unfold value
  rw [if_neg (by decide)]
  norm_num

/-- **C45, factors**: with positive parameters every age-to-age factor is greater than 1 and is
the ratio of the curve at two ages of the latest diagonal, and the factors from an age to the last
multiply to the ratio of the curve at the two.  What is missing: the factors stand for the
ages of the latest diagonal, so the labels, those of the link ratios, fit only triangles with as many
origins as ages (`C45_labels_false`). -/
theorem C45_factors_partial {t : Tri ℝ} {a : Int} {n D q : Nat} (h : t.Standard a n D q)
    {growth : String} (hg : growth = "loglogistic" ∨ growth = "weibull")
    {theta omega : Nat → Nat → ℝ} (ht : ∀ i c, 0 < theta i c) (ho : ∀ i c, 0 < omega i c) :
    ∃ u, ldf growth theta omega t = .ok u ∧ u.values.d3 = n - 1 ∧ (n = D → Tri.WF u) ∧
      ∀ i c, ∃ g : Nat → ℝ,
        (∀ o d, o < n → d < D → t.valuation o d = t.vd →
          curve growth (theta i c) (omega i c)
            ((t.ddims.getD d 0 : ℝ) - (t.dgrain.months : ℝ) / 2) = .fin (g (n - 1 - o))) ∧
        ∀ k, k + 1 < n →
          u.values.get i c 0 k = .fin (g (k + 1) / g k) ∧ 1 < g (k + 1) / g k ∧
          ∏ j ∈ Finset.Ico k (n - 1), u.values.get i c 0 j = .fin (g (n - 1) / g k) := by
  obtain ⟨u, hu, e1, e2, e3, e4, e5, e6, e7, e8, hv⟩ := ldf_eq h hg theta omega
  have hr := h.recent
  have h2 := h.two_origins
  refine ⟨u, hu, e8, ?_, ?_⟩
  · rintro rfl
    refine ⟨?_, ?_, ?_, ?_⟩
    · rw [e5, e3]; exact h.wf.1
    · rw [e6, e4]; exact h.wf.2.1
    · rw [e7, e2, List.length_take, h.lenO]; omega
    · rw [e8, e1, List.length_dropLast, h.lenD]
  intro i c
  refine ⟨fun k => value growth (theta i c) (omega i c) (ageAt t n D q k), ?_, ?_⟩
  · intro o d ho' hd e
    rw [h.valuation_vd ho' hd] at e
    have e1 : q * (n - 1 - o) + q * o = q * (n - 1) := by rw [← Nat.mul_add]; congr 1; omega
    have e9 : (t.ddims.getD d 0 : ℝ) - (t.dgrain.months : ℝ) / 2 = ageAt t n D q (n - 1 - o) := by
      rw [h.getDv hd]
      unfold ageAt
      rw [show D - q * (n - 1) + q * (n - 1 - o) = d + 1 by omega]
      push_cast
      ring
    rw [e9]
    exact curve_eq hg (ht i c) (ageAt_pos hr _)
  · have hf : ∀ k, k + 1 < n → u.values.get i c 0 k =
        .fin (value growth (theta i c) (omega i c) (ageAt t n D q (k + 1)) /
          value growth (theta i c) (omega i c) (ageAt t n D q k)) := by
      intro k hk
      have p1 := (value_bounds (growth := growth) (omega := omega i c) (ht i c)
        (ageAt_pos (t := t) hr k)).1
      have p2 := (value_bounds (growth := growth) (omega := omega i c) (ht i c)
        (ageAt_pos (t := t) hr (k + 1))).1
      rw [hv i c k hk, recip_eq hg (ht i c) (ageAt_pos hr _), recip_eq hg (ht i c) (ageAt_pos hr _),
        Num.fin_div_fin_of_ne _ (by positivity)]
      congr 1
      field_simp
    intro k hk
    refine ⟨hf k hk, ?_, ?_⟩
    · rw [one_lt_div (value_bounds (ht i c) (ageAt_pos hr k)).1]
      exact value_lt (ht i c) (ho i c) (ageAt_pos hr k) (ageAt_lt h.period (by omega))
    · have gen : ∀ m, k + m < n → ∏ j ∈ Finset.Ico k (k + m), u.values.get i c 0 j =
          .fin (value growth (theta i c) (omega i c) (ageAt t n D q (k + m)) /
            value growth (theta i c) (omega i c) (ageAt t n D q k)) := by
        intro m
        induction m with
        | zero =>
          intro _
          have p1 := (value_bounds (growth := growth) (omega := omega i c) (ht i c)
            (ageAt_pos (t := t) hr k)).1
          simp [div_self p1.ne', Num.one_def]
        | succ m ih =>
          intro hm
          have p1 := (value_bounds (growth := growth) (omega := omega i c) (ht i c)
            (ageAt_pos (t := t) hr (k + m))).1
          rw [← Nat.add_assoc, Finset.prod_Ico_succ_top (by omega), ih (by omega), hf (k + m) (by omega),
            Num.fin_mul_fin]
          congr 1
          field_simp
      have := gen (n - 1 - k) (by omega)
      rwa [show k + (n - 1 - k) = n - 1 by omega] at this

/-- **C45, fitted increments**: on every regular triangle the fitted increments of an origin add up
to its latest amount. -/
theorem C45_fits {t : Tri ℝ} {a : Int} {n D q : Nat} (h : t.Grid a n D q) {growth : String}
    (hg : growth = "loglogistic" ∨ growth = "weibull")
    {theta omega : Nat → Nat → ℝ} (ht : ∀ i c, 0 < theta i c) :
    ∃ f, fits growth theta omega t = .ok f ∧
      ∀ i c o d, i < t.values.d0 → c < t.values.d1 → o < n → d < D → t.valuation o d = t.vd →
        ∑ e ∈ Finset.range D, (f.get i c o e).amt = (t.values.get i c o d).amt ∧
        ∀ e < D, d < e → f.get i c o e = .nan := by
  obtain ⟨f, hf, -, -, -, -, hv⟩ := fits_eq h hg (omega := omega) ht
  refine ⟨f, hf, ?_⟩
  intro i c o d hi hc ho hd e
  have h1 := h.two_ages
  have h2 := h.two_origins
  rw [h.valuation_vd ho hd] at e
  have hnt : ∀ e < D, t.nanTri o e = if e ≤ d then 1 else .nan := by
    intro e' he
    unfold Tri.nanTri
    rw [if_neg (by rw [h.wf.2.2.1, h.wf.2.2.2, h.lenO, h.lenD]; omega)]
    have h3 := h.valuation_gt ho he
    by_cases hle : e' ≤ d
    · rw [if_pos hle, if_neg]
      intro h4
      have := h3.1 h4
      omega
    · rw [if_neg hle, if_pos]
      exact h3.2 (by omega)
  have ed : D - 1 - q * o = d := by omega
  refine ⟨?_, ?_⟩
  · have hfin := h.finite i hi c hc o (by rw [h.wf.2.2.1, h.lenO]; exact ho) d
      (by rw [h.wf.2.2.2, h.lenD]; exact hd)
    rcases Num.noInf_cases (Num.noInf_numToNan hfin) with h5 | ⟨x, h5⟩
    · rw [← Num.amt_numToNan, h5]
      refine (Finset.sum_eq_zero ?_).trans rfl
      intro e' he
      rw [hv i c o e' hi hc ho (Finset.mem_range.1 he), ed, h5, Num.mul_nan, Num.mul_nan, Num.nan_mul]
      rfl
    · have p := (value_bounds (growth := growth) (omega := omega i c) (ht i c) (endAt_pos t d)).1
      rw [← Num.amt_numToNan, h5, Num.amt_fin]
      have e1 : ∀ e' ∈ Finset.range D, (f.get i c o e').amt = if e' ∈ Finset.range (d + 1) then
          (startValue growth t (theta i c) (omega i c) (e' + 1) -
            startValue growth t (theta i c) (omega i c) e') *
            (1 / value growth (theta i c) (omega i c) (endAt t d) * x) else 0 := by
        intro e' he
        rw [hv i c o e' hi hc ho (Finset.mem_range.1 he), ed, h5, hnt e' (Finset.mem_range.1 he)]
        simp only [Finset.mem_range, Nat.lt_succ_iff]
        split_ifs
        · rw [Num.fin_mul_fin, Num.fin_mul_fin, Num.one_def, Num.fin_mul_fin, Num.amt_fin, mul_one]
        · rw [Num.mul_nan]; rfl
      rw [Finset.sum_congr rfl e1, ← Finset.sum_filter, Finset.filter_mem_eq_inter,
        Finset.inter_eq_right.2 (Finset.range_subset_range.2 (by omega)), ← Finset.sum_mul,
        Finset.sum_range_sub]
      show (value growth (theta i c) (omega i c) (endAt t d) - 0) * _ = _
      field_simp
      ring
  · intro e' he hlt
    rw [hv i c o e' hi hc ho he, hnt e' he, if_neg (by omega), Num.mul_nan]

namespace Ex

/-- Two origins, three years. -/
noncomputable def wide : Tri ℝ where
  kdims := [["All"]]
  keyLabels := ["Total"]
  vdims := ["loss"]
  odims := [24240, 24252]
  ddims := [12, 24, 36]
  isVal := false
  ograin := .Y
  dgrain := .Y
  vd := 24275
  isCum := some true
  isPattern := false
  isAdditive := none
  values := ⟨1, 1, 2, 3, fun _ _ o d => if o + d < 3 then .fin (100 * (d + 1 : Nat)) else .nan⟩

theorem wide_standard : wide.Standard 24240 2 3 1 where
  wf := ⟨rfl, rfl, rfl, rfl⟩
  finite := by
    intro i hi c hc o ho d hd
    show (if o + d < 3 then (.fin (100 * (d + 1 : Nat)) : Num ℝ) else .nan).NoInf
    split_ifs
    · exact Num.noInf_fin _
    · exact Num.noInf_nan
  isVal := rfl
  index_pos := le_rfl
  columns_pos := le_rfl
  two_origins := by decide
  period := le_rfl
  recent := by decide
  odims := rfl
  ddims := rfl
  vd := rfl
  short := by show 3 * 12 < 9999; omega
  early := by show (24275 : Int) ≤ 12 * 2261 + 11; omega
  known := by
    intro i hi c hc o ho d hd h
    show (if o + d < 3 then (.fin (100 * (d + 1 : Nat)) : Num ℝ) else .nan) = .nan
    rw [if_neg (by omega)]
  cumulative := by show (some true : Option Bool) ≠ some false; decide
  noPattern := rfl
  multiplicative := rfl

end Ex

/-- **C45 is false of the labels**: with two origins and three ages there is one factor, from the
first to the second age of the latest diagonal, under two labels. -/
theorem C45_labels_false : ∃ (t u : Tri ℝ), t.Standard 24240 2 3 1 ∧
    ldf "loglogistic" (fun _ _ => 12) (fun _ _ => 1) t = .ok u ∧ u.values.d3 = 1 ∧
    u.ddims = [12, 24] ∧ u.values.get 0 0 0 0 = .fin (25 / 21) ∧ ¬ Tri.WF u := by
  obtain ⟨u, hu, e1, -, -, -, -, -, -, e8, hv⟩ :=
    ldf_eq Ex.wide_standard (.inl rfl) (fun _ _ => 12) (fun _ _ => 1)
  refine ⟨_, u, Ex.wide_standard, hu, e8, e1, ?_, ?_⟩
  · rw [hv 0 0 0 (by omega)]
    have a0 : ageAt Ex.wide 2 3 1 0 = 18 := by
      show ((3 - 1 * (2 - 1) + 1 * 0 : Nat) : ℝ) * (12 : Nat) - (12 : Nat) / 2 = 18
      norm_num
    have a1 : ageAt Ex.wide 2 3 1 (0 + 1) = 30 := by
      show ((3 - 1 * (2 - 1) + 1 * (0 + 1) : Nat) : ℝ) * (12 : Nat) - (12 : Nat) / 2 = 30
      norm_num
    rw [a0, a1, recip_eq (.inl rfl) (by norm_num) (by norm_num),
      recip_eq (.inl rfl) (by norm_num) (by norm_num)]
    unfold value
    norm_num
    rw [Num.fin_div_fin_of_ne _ (by norm_num)]
    norm_num
  · intro hw
    have := hw.2.2.2
    rw [e8, e1] at this
    exact absurd this (by decide)

/-- Scale 12 and shape 1: the fitted increments of the first origin add up to 300. -/
example : ∃ f, fits "weibull" (fun _ _ => 12) (fun _ _ => 1) Ex.wide = .ok f ∧
    ∑ e ∈ Finset.range 3, (f.get 0 0 0 e).amt = 300 := by
  obtain ⟨f, hf, hv⟩ := C45_fits Ex.wide_standard.toGrid (.inr rfl) (theta := fun _ _ => 12)
    (omega := fun _ _ => 1) (fun _ _ => by norm_num)
  refine ⟨f, hf, ?_⟩
  rw [(hv 0 0 0 2 (by decide) (by decide) (by decide) (by decide) (by decide)).1]
  show (if 0 + 2 < 3 then (.fin (100 * ((2 + 1 : Nat) : ℝ)) : Num ℝ) else .nan).amt = 300
  rw [if_pos (by omega), Num.amt_fin]
  norm_num

/-- **An unknown curve**: the error the code means to raise is not raised; the fit fails one line
later with an `UnboundLocalError`. -/
theorem C45_unknown_false : ∃ (growth : String) (t : Tri ℝ), t.Standard 24240 2 3 1 ∧
    ldf growth (fun _ _ => 12) (fun _ _ => 1) t = .error .unboundLocalError := by
  refine ⟨"gompertz", _, Ex.wide_standard, ?_⟩
  obtain ⟨lr, hlr, -⟩ := Ex.wide_standard.linkRatio
  unfold ldf
  rw [hlr, latestAges_eq Ex.wide_standard.toGrid]
  simp only [bind, Except.bind]
  unfold check
  rw [if_pos (by decide)]


end Clark
end CL
