import Verif.Props.C36
import Verif.Props.C48

set_option linter.unusedSectionVars false

/-! # C48: predicting with the exposure based methods -/

namespace CL
namespace Tri
variable {K : Type} [Field K] [LinearOrder K] [IsStrictOrderedRing K]

theorem Extends.exposureFor {x m z w : Tri K} (h : Extends x m z) (hw : ExposureFor x w) :
    ExposureFor z w :=
  ⟨hw.wf, hw.finite, by rw [h.keyLabels]; exact hw.keyLabels, by rw [h.ograin]; exact hw.ograin,
    by rw [h.kdims]; exact hw.index, by rw [h.vdims]; exact hw.columns,
    by rw [h.odims]; exact hw.origins, hw.one⟩

/-- The latest diagonal of a regular triangle with two origins or more is a triangle. -/
theorem CumTri.latest_regular {t : Tri K} (ht : CumTri t) (hn : 2 ≤ t.odims.length)
    {D q : Nat} (hq : 1 ≤ q) (hD : D < t.ddims.length) (hqD : q * (t.odims.length - 1) ≤ D)
    (hv : ∀ o < t.odims.length, t.valuation o (D - q * o) = t.vd) :
    ∃ l, t.latestDiagonal = .ok (.tri l) := by
  obtain ⟨l, hl, hd⟩ := C05_regular ht.wf ht.ordered ht.dated ht.distinct ht.ages_two ht.origins_pos
    hq hD hqD hv
  refine ⟨l, hl.trans (congrArg _ ?_)⟩
  unfold toAgg
  rw [if_neg]
  rintro ⟨-, -, h2, -⟩
  rw [hd.wf.2.2.1, hd.origins.1, List.length_range] at h2
  omega

/-- **C48 for the exposure based methods** (partial: as `C48_regular_partial` and
`C35_benktander_partial`): predicting a regular triangle `x`, at least as recent as the triangle `m` of
the model, gives the credibility iterations from the expectation of the new exposure, with the new
latest amounts and the model's factors.  `p` sorts the index. -/
theorem C48_benktander_partial {m f x w : Tri K} (hx : CumTri x) (so : x.odims.Pairwise (· < ·))
    (h2 : 2 ≤ x.odims.length) (hm : Older m x) (hk : f.kdims = x.kdims)
    (hf : PatternFor ({ x with ddims := m.ddims } : Tri K) f) (hw : ExposureFor x w)
    {D q : Nat} (hq : 1 ≤ q) (hD : D < x.ddims.length) (hqD : q * (x.odims.length - 1) ≤ D)
    (hv : ∀ o < x.odims.length, x.valuation o (D - q * o) = x.vd) (apriori : K) (n : Nat)
    (hz : ∀ i < x.kdims.length, ∀ c < x.vdims.length, ∀ o < x.odims.length,
      (x.values.get i c o (D - q * o)).amt + apriori * w.exposure i c o ≠ 0 ∨
        ((x.values.get i c o (D - q * o)).amt = 0 ∧ apriori * w.exposure i c o = 0))
    (hne : ∀ i < x.kdims.length, ∀ c < x.vdims.length, ∀ d < m.ddims.length,
      1 - 1 / f.toUlt i c d ≠ -(1 / 10 ^ 16)) :
    ∃ u p, benktanderPredict m f x (some w) apriori n = .ok u ∧
      p.Perm (List.range x.kdims.length) ∧ At x.kdims u.kdims p ∧ u.kdims.Pairwise (· ≤ ·) ∧
      (x.kdims.Pairwise (· ≤ ·) → p = List.range x.kdims.length) ∧
      u.vdims = x.vdims ∧ u.odims = x.odims ∧ u.ddims = [ultVal] ∧
      ∀ i, (hi : i < p.length) → ∀ c < x.vdims.length, ∀ o < x.odims.length, u.values.get i c o 0 =
        (Num.fin (benkIter (x.values.get p[i] c o (D - q * o)).amt (f.toUlt p[i] c (D - q * o))
          (apriori * w.exposure p[i] c o) n)).numToNan := by
  have hle := hm.length_le
  obtain ⟨z, f', hb, ez, cz, pz, hu⟩ := predictBase_run hx so h2 hm hk hf (o := 0) (by omega)
    (d := D) hD (by simpa using hv 0 (by omega))
  have hvz : ∀ o < z.odims.length, z.valuation o (D - q * o) = z.vd := by
    intro o ho
    rw [ez.odims] at ho
    rw [ez.valuation hm hx.ages o (by omega), ez.vd]
    exact hv o ho
  have hDz : D < z.ddims.length := by rw [ez.ddims]; omega
  obtain ⟨l, hl⟩ := cz.latest_regular (by rw [ez.odims]; exact h2) hq hDz (by rw [ez.odims]; exact hqD) hvz
  have hall : AllCurrent z := fun o ho => ⟨D - q * o, by omega, hvz o ho⟩
  have hcell : ∀ i < x.kdims.length, ∀ c < x.vdims.length, ∀ o < x.odims.length,
      (z.values.get i c o (D - q * o)).amt = (x.values.get i c o (D - q * o)).amt := by
    intro i hi c hc o ho
    have := hv o ho
    rw [ez.cells i hi c hc o ho _ (by omega), if_pos ⟨by omega, by omega⟩, Num.amt_numToNan]
  obtain ⟨u, p, h1, h3⟩ := C35_benktander_partial cz pz (ez.exposureFor hw) hall hl apriori n (by
    intro i hi c hc o ho d hd hval
    obtain rfl : d = D - q * o := cz.distinct o ho d hd (D - q * o) (by omega) (by rw [hval, hvz o ho])
    rw [ez.kdims] at hi
    rw [ez.vdims] at hc
    rw [ez.odims] at ho
    rw [hcell i hi c hc o ho]
    exact hz i hi c hc o ho) (by
    intro i hi c hc d hd
    rw [ez.kdims] at hi
    rw [ez.vdims] at hc
    rw [ez.ddims] at hd
    rw [hu i hi c hc]
    exact hne i hi c hc d hd)
  refine ⟨u, p, ?_, ?_, ?_, h3.sorted, ?_, h3.columns.trans ez.vdims, h3.origins.trans ez.odims,
    h3.development.1, ?_⟩
  · unfold benktanderPredict
    simp only [hb, bind, Except.bind]
    exact h1
  · rw [← ez.kdims]; exact h3.perm
  · rw [← ez.kdims]; exact h3.index
  · rw [← ez.kdims]; exact h3.keeps
  · intro i hi c hc o ho
    have hpi : p[i] < x.kdims.length := by
      have := h3.perm.mem_iff.1 (List.getElem_mem hi)
      rw [ez.kdims] at this
      exact List.mem_range.1 this
    rw [h3.cells i c o (D - q * o) hi (by rw [ez.vdims]; exact hc) (by rw [ez.odims]; exact ho) (by omega)
      (hvz o (by rw [ez.odims]; exact ho)), hcell _ hpi c hc o ho, hu _ hpi c hc]

/-- A triangle with increasing ages is as recent as itself. -/
theorem Older.refl {x : Tri K} (hx : CumTri x) (sd : x.ddims.Pairwise (· < ·))
    (ha : ∀ d ∈ x.ddims, 1 ≤ d ∧ d < 9999) : Older x x :=
  ⟨hx.wf, hx.ages, hx.index_pos, hx.columns_pos, hx.origins_pos, sd, ha, List.take_length, rfl, rfl, rfl,
    le_rfl⟩

/-- **C48**: predicting the triangle a chain-ladder or Benktander model was fitted on gives the ultimates
of the fit. -/
theorem C48_refit_partial {f x w : Tri K} (hx : CumTri x) (so : x.odims.Pairwise (· < ·))
    (h2 : 2 ≤ x.odims.length) (sd : x.ddims.Pairwise (· < ·)) (ha : ∀ d ∈ x.ddims, 1 ≤ d ∧ d < 9999)
    (hk : f.kdims = x.kdims) (hf : PatternFor x f) (hw : ExposureFor x w)
    {D q : Nat} (hq : 1 ≤ q) (hD : D < x.ddims.length) (hqD : q * (x.odims.length - 1) ≤ D)
    (hv : ∀ o < x.odims.length, x.valuation o (D - q * o) = x.vd) (apriori : K) (n : Nat)
    (hz : ∀ i < x.kdims.length, ∀ c < x.vdims.length, ∀ o < x.odims.length,
      (x.values.get i c o (D - q * o)).amt + apriori * w.exposure i c o ≠ 0 ∨
        ((x.values.get i c o (D - q * o)).amt = 0 ∧ apriori * w.exposure i c o = 0))
    (hne : ∀ i < x.kdims.length, ∀ c < x.vdims.length, ∀ d < x.ddims.length,
      1 - 1 / f.toUlt i c d ≠ -(1 / 10 ^ 16)) :
    (∃ u v, chainladderPredict x f x = .ok u ∧ x.chainladder f none = .ok v ∧ u.odims = v.odims ∧
      ∀ i < x.kdims.length, ∀ c < x.vdims.length, ∀ o < x.odims.length,
        u.values.get i c o 0 = v.values.get i c o 0) ∧
    ∃ u v, benktanderPredict x f x (some w) apriori n = .ok u ∧ x.benktander f (some w) apriori n = .ok v ∧
      u.kdims.Perm v.kdims ∧ (x.kdims.Pairwise (· ≤ ·) → u.kdims = v.kdims ∧ u.odims = v.odims ∧
        ∀ i < x.kdims.length, ∀ c < x.vdims.length, ∀ o < x.odims.length,
          u.values.get i c o 0 = v.values.get i c o 0) := by
  have ho := Older.refl hx sd ha
  constructor
  · obtain ⟨u, a1, a2, a3⟩ := C48_regular_partial hx so h2 ho hk hf hq hD hqD hv
    obtain ⟨v, b1, b2, b3⟩ := C33_regular hx hf h2 hq hD hqD hv
    exact ⟨u, v, a1, b1, a2.trans b2.symm, fun i hi c hc o ho =>
      (a3 i hi c hc o ho).trans (b3 i hi c hc o ho).symm⟩
  · obtain ⟨l, hl⟩ := hx.latest_regular h2 hq hD hqD hv
    obtain ⟨u, p, a1, a2, a3, a4, a5, -, a7, -, a9⟩ := C48_benktander_partial hx so h2 ho hk hf hw hq hD
      hqD hv apriori n hz hne
    obtain ⟨v, r, b1, b2⟩ := C35_benktander_partial hx hf hw
      (fun o ho => ⟨D - q * o, by omega, hv o ho⟩) hl apriori n (by
        intro i hi c hc o ho d hd hval
        obtain rfl : d = D - q * o := hx.distinct o ho d hd (D - q * o) (by omega) (by rw [hval, hv o ho])
        exact hz i hi c hc o ho) hne
    have hat : ∀ {l l' : List (List String)} {p : List Nat}, At l l' p → p.Perm (List.range l.length) →
        l'.Perm l := by
      intro l l' p h hp
      have e : l' = p.map (l.getD · []) := by
        apply List.ext_getElem?
        intro j
        by_cases hj : j < p.length
        · have hm : p[j] < l.length := List.mem_range.1 (hp.mem_iff.1 (List.getElem_mem hj))
          rw [h.2 j hj, List.getElem?_map, List.getElem?_eq_getElem hj, List.getElem?_eq_getElem hm,
            Option.map_some, List.getD_eq_getElem _ _ hm]
        · rw [List.getElem?_eq_none (by rw [h.1]; omega), List.getElem?_eq_none (by simpa using hj)]
      rw [e]
      refine (hp.map _).trans (List.Perm.of_eq ?_)
      exact map_getD_range l []
    refine ⟨u, v, a1, b1, (hat a3 a2).trans (hat b2.index b2.perm).symm, fun hs => ?_⟩
    obtain rfl := a5 hs
    have hr := b2.keeps hs
    subst hr
    refine ⟨?_, a7.trans b2.origins.symm, ?_⟩
    · apply List.ext_getElem?
      intro j
      by_cases hj : j < (List.range x.kdims.length).length
      · rw [a3.2 j hj, b2.index.2 j hj]
      · rw [List.getElem?_eq_none (by rw [a3.1]; omega), List.getElem?_eq_none (by rw [b2.index.1]; omega)]
    · intro i hi c hc o ho
      have hl : i < (List.range x.kdims.length).length := by simpa using hi
      rw [a9 i hl c hc o ho, b2.cells i c o (D - q * o) hl hc ho (by omega) (hv o ho)]

/-- A triangle with an age beyond the ages of the pattern cannot be predicted, with or without an
exposure. -/
theorem C48_rejects_exposure {m f x : Tri K} (hx : x.isVal = false) {d : Int} (hd : d ∈ x.ddims)
    (hlate : ∀ a ∈ f.ddims, a < d) (w : Option (Tri K)) (apriori : K) (n : Nat) :
    benktanderPredict m f x w apriori n = .error .valueError := by
  unfold benktanderPredict
  unfold predictBase valToDev
  rw [if_pos hx]
  simp only [bind, Except.bind]
  cases hmax : f.ddims.max? with
  | none => rfl
  | some a =>
    have ha := (List.max?_eq_some_iff.1 hmax).1
    have : (x.ddims.any fun d => decide (a < d)) = true :=
      List.any_eq_true.2 ⟨d, hd, decide_eq_true (hlate a ha)⟩
    dsimp only
    rw [if_pos this]

/-- Without an exposure nothing is predicted. -/
theorem C48_no_exposure {m f x u : Tri K} (apriori : K) (n : Nat) :
    benktanderPredict m f x none apriori n ≠ .ok u := by
  unfold benktanderPredict
  cases predictBase m f x with
  | error e => simp [bind, Except.bind]
  | ok r => simp [bind, Except.bind]

/-- **C48 for Cape Cod** (partial: as `C48_benktander_partial` and `C36_fit_partial`): the a-prioris are
those of the new triangle and the new exposure with the model's factors, not those of the model, and the
ultimate is that of the Benktander method with the new expectation. -/
theorem C48_capecod_partial {m f x w : Tri K} (hx : CumTri x) (so : x.odims.Pairwise (· < ·))
    (h2 : 2 ≤ x.odims.length) (hm : Older m x) (hk : f.kdims = x.kdims)
    (hf : PatternFor ({ x with ddims := m.ddims } : Tri K) f) (hw : ExposureFor x w)
    (hwo : w.odims = x.odims)
    {D q : Nat} (hq : 1 ≤ q) (hD : D < x.ddims.length) (hqD : q * (x.odims.length - 1) ≤ D)
    (hv : ∀ o < x.odims.length, x.valuation o (D - q * o) = x.vd)
    {decay : K} (hdec : 0 ≤ decay) {fac : Int → K} (hfac : ∀ m, 0 < fac m) {tr : Arr K}
    (htr : x.trendFactors fac = .ok tr) {labels : List String}
    (hlab : (w.keyLabels.filter fun l => decide (l ∉ labels)).length ≤ 1) (n : Nat)
    (hexp : ∀ i < x.kdims.length, ∀ c < x.vdims.length, ∀ o < x.odims.length, 0 < w.exposure i c o)
    (hcdf : ∀ i < x.kdims.length, ∀ c < x.vdims.length, ∀ d < x.ddims.length, 0 < f.toUlt i c d)
    (hlat : ∀ i < x.kdims.length, ∀ c < x.vdims.length, ∀ o < x.odims.length,
      0 ≤ (x.values.get i c o (D - q * o)).amt)
    (hne : ∀ i < x.kdims.length, ∀ c < x.vdims.length, ∀ d < m.ddims.length,
      1 - 1 / f.toUlt i c d ≠ -(1 / 10 ^ 16)) :
    ∃ a d e u p, capecodPredict fac labels m f x (some w) decay n = .ok (a, d, e, u) ∧
      C36.RatioOf x w a (C36.apriori x f w (fun o => D - q * o) fac decay) ∧
      C36.RatioOf x w d (fun i c o =>
        C36.apriori x f w (fun o => D - q * o) fac decay i c o / C36.trendOf x fac o) ∧
      p.Perm (List.range x.kdims.length) ∧ At x.kdims u.kdims p ∧
      (x.kdims.Pairwise (· ≤ ·) → p = List.range x.kdims.length) ∧
      u.vdims = x.vdims ∧ u.odims = x.odims ∧ u.ddims = [ultVal] ∧
      ∀ i, (hi : i < p.length) → ∀ c < x.vdims.length, ∀ o < x.odims.length, u.values.get i c o 0 =
        (Num.fin (benkIter (x.values.get p[i] c o (D - q * o)).amt (f.toUlt p[i] c (D - q * o))
          (w.exposure p[i] c o * (C36.apriori x f w (fun o => D - q * o) fac decay p[i] c o /
            C36.trendOf x fac o)) n)).numToNan := by
  have hle := hm.length_le
  have hfl : m.ddims.length ≤ f.ddims.length := hf.length_le
  have h3 := hx.ages_two
  -- the pattern on the index of `x`
  obtain ⟨x', g, va, vb, hi, -, rb⟩ := intersection_same (a := x) (b := f) hx.wf hf.wf hk
    hf.keyLabels.symm hx.index_pos (by omega) (by omega)
  have hgu : ∀ i < x.kdims.length, ∀ c < x.vdims.length, ∀ d, g.toUlt i c d = f.toUlt i c d := by
    intro i hi' c hc' d
    refine toUlt_redated hf.wf hf.origin rb (by rw [hk]; exact hi') ?_ d
    rcases hf.columns with e | e
    · exact Or.inl (by rw [e]; exact hc')
    · exact Or.inr e
  have hg : PatternFor x g := by
    obtain ⟨⟨gg, rfl⟩, hc, -, -⟩ := rb
    obtain ⟨w0, w1, w2, w3⟩ := hf.wf
    refine ⟨⟨w0, w1, w2, w3⟩, hf.pattern, hf.incremental, hf.multiplicative, hf.ages, hf.ograin,
      hf.dgrain, hf.keyLabels, hf.index, hf.columns, hf.origin, ?_, ?_⟩
    · have e := hf.starts
      have e' : f.ddims.take m.ddims.length = m.ddims := e
      show f.ddims.take x.ddims.length = x.ddims
      conv_rhs => rw [← hm.starts, ← e', List.take_take, Nat.min_eq_left hle]
    · intro i hi c hc' j hj
      show ∃ y, y ≠ 0 ∧ gg i c 0 j = .fin y
      rw [show gg i c 0 j = f.values.get i c 0 j from hc i hi c hc' 0 (by rw [w2, hf.origin]; omega) j hj]
      exact hf.factors i hi c hc' j hj
  obtain ⟨l, hl⟩ := hx.latest_regular h2 hq hD hqD hv
  have hage : C36.Latest x fun o => D - q * o := fun o ho => ⟨by show D - q * o < _; omega, hv o ho⟩
  have hap : ∀ i < x.kdims.length, ∀ c < x.vdims.length, ∀ o,
      C36.apriori x g w (fun o => D - q * o) fac decay i c o =
        C36.apriori x f w (fun o => D - q * o) fac decay i c o := by
    intro i hi c hc o
    unfold C36.apriori
    simp only [hgu i hi c hc]
  obtain ⟨a, d, e, e0, e1, e2, ha, hd, e4, hnn⟩ := capecod_expectation hx hg hw hwo hage hl hdec hfac htr
    hexp (fun i hi c hc d hd => by rw [hgu i hi c hc]; exact hcdf i hi c hc d hd) hlat
  obtain ⟨u, p, u1, u2, u3, u4, u5, u6, u7, u8, u9⟩ := C48_benktander_partial hx so h2 hm hk hf e2 hq hD
    hqD hv 1 n (by
      intro i hi c hc o ho
      have h5 := hlat i hi c hc o ho
      have h6 := hnn i hi c hc o ho
      rw [one_mul]
      rcases h5.lt_or_eq with q | q
      · left; exact (add_pos_of_pos_of_nonneg q h6).ne'
      · rcases h6.lt_or_eq with q' | q'
        · left; exact (add_pos_of_nonneg_of_pos h5 q').ne'
        · right; exact ⟨q.symm, q'.symm⟩) hne
  refine ⟨a, d, e, u, p, ?_, ?_, ?_, u2, u3, u5, u6, u7, u8, ?_⟩
  · unfold capecodPredict
    simp only [hi, htr, e0, e1, u1, bind, Except.bind]
    rw [if_neg (by omega)]
  · exact ⟨ha.wf, ha.index, ha.columns, ha.origins, ha.keyLabels, ha.ograin, ha.development, ha.date,
      fun i hi c hc o ho => by rw [ha.cells i hi c hc o ho, hap i hi c hc]⟩
  · exact ⟨hd.wf, hd.index, hd.columns, hd.origins, hd.keyLabels, hd.ograin, hd.development, hd.date,
      fun i hi c hc o ho => by rw [hd.cells i hi c hc o ho, hap i hi c hc]⟩
  · intro i hi c hc o ho
    have hpi : p[i] < x.kdims.length := List.mem_range.1 (u2.mem_iff.1 (List.getElem_mem hi))
    rw [u9 i hi c hc o ho, one_mul, e4 _ hpi c hc o ho, hap _ hpi c hc]

namespace C48

/-- Premiums of the origins of `newTri`. -/
def newPremium : Tri ℚ :=
  { newTri with
    ddims := [12]
    values := ⟨1, 1, 2, 1, fun _ _ o _ => .fin (200 + 20 * o)⟩ }

theorem newExposure : ExposureFor newTri newPremium :=
  ⟨⟨rfl, rfl, rfl, rfl⟩, fun _ _ _ _ _ _ _ _ => by simp [newPremium], rfl, rfl, Or.inl rfl,
    Or.inl rfl, Or.inl rfl, rfl⟩

theorem newPattern : PatternFor ({ newTri with ddims := (Ex.tri3 (some true) Ex.cum3).ddims } : Tri ℚ)
    C33.pat :=
  ⟨by decide, rfl, by decide, rfl, rfl, rfl, rfl, rfl, Or.inl rfl, Or.inl rfl, rfl, rfl,
    C33.patternFor.factors⟩

/-- Bornhuetter-Ferguson with 90 per cent of premiums of 200 and 220 on the two latest origins. -/
example : ∃ u, benktanderPredict (Ex.tri3 (some true) Ex.cum3) C33.pat newTri (some newPremium) (9 / 10) 1
      = .ok u ∧
    u.values.get 0 0 0 0 = .fin (168 + (1 - 1 / (11 / 10 * (21 / 20))) * 180) ∧
    u.values.get 0 0 1 0 = .fin (120 + (1 - 1 / (3 / 2 * (11 / 10) * (21 / 20))) * 198) := by
  obtain ⟨u, p, h1, -, -, -, hp, -, -, -, h3⟩ := C48_benktander_partial cumTri (by decide) (by decide)
    older (f := C33.pat) rfl newPattern newExposure (D := 1) (q := 1) le_rfl (by decide) (by decide) (by decide)
    (9 / 10) 1 (by decide +kernel) (by decide +kernel)
  obtain rfl := hp (by decide)
  refine ⟨u, h1, ?_, ?_⟩
  · rw [h3 0 (by decide) 0 (by decide) 0 (by decide)]; decide +kernel
  · rw [h3 0 (by decide) 0 (by decide) 1 (by decide)]; decide +kernel

/-- Cape Cod on the two latest origins: the a-priori is the latest amounts over the used-up premiums. -/
example : ∃ r, capecodPredict (fun _ => 1) ["Total"] (Ex.tri3 (some true) Ex.cum3) C33.pat newTri
      (some newPremium) 1 1 = .ok r ∧
    r.1.values.get 0 0 0 0 = .fin ((168 + 120) /
      (200 / (11 / 10 * (21 / 20)) + 220 / (3 / 2 * (11 / 10) * (21 / 20)))) := by
  obtain ⟨tr, htr, -⟩ := ok_of (x := newTri.trendFactors fun _ => (1 : ℚ)) (fun _ => True)
    (by decide +kernel)
  obtain ⟨a, d, e, u, p, h1, h2, -⟩ := C48_capecod_partial cumTri (by decide) (by decide)
    older (f := C33.pat) rfl newPattern newExposure rfl (D := 1) (q := 1) le_rfl (by decide) (by decide) (by decide)
    (decay := 1) (by norm_num) (fac := fun _ => 1) (by norm_num) htr (labels := ["Total"]) (by decide) 1
    (by decide +kernel) (by decide +kernel) (by decide +kernel) (by decide +kernel)
  refine ⟨_, h1, ?_⟩
  rw [h2.cells 0 (by decide) 0 (by decide) 0 (by decide)]; decide +kernel

end C48
end Tri
end CL
