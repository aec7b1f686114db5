import Verif.Lemmas.CapeCod
import Verif.Props.C35
import Mathlib.Algebra.Order.BigOperators.Ring.Finset

set_option linter.unusedSectionVars false

/-! # C36: Cape Cod expected loss ratio -/

namespace CL
namespace Tri
variable {K : Type} [Field K] [LinearOrder K] [IsStrictOrderedRing K]

/-- `a` holds one ratio per index, column and origin of `t`, labelled as an ultimate value; where both
the triangle and the exposure have a single index (column), the label is that of the exposure. -/
structure C36.RatioOf (t w a : Tri K) (r : Nat → Nat → Nat → K) : Prop where
  wf : WF a
  index : a.kdims = t.kdims ∨ (t.kdims.length = 1 ∧ a.kdims = w.kdims ∧ w.kdims.length = 1)
  columns : a.vdims = t.vdims ∨ (t.vdims.length = 1 ∧ a.vdims = w.vdims ∧ w.vdims.length = 1)
  origins : a.odims = t.odims
  keyLabels : a.keyLabels = t.keyLabels
  ograin : a.ograin = t.ograin
  development : a.ddims = [ultVal] ∧ a.isVal = true
  date : a.vd = ultVal
  cells : ∀ i < t.kdims.length, ∀ c < t.vdims.length, ∀ o < t.odims.length,
    a.values.get i c o 0 = .fin (r i c o)

/-- Every origin has its latest cell at development `age o`. -/
def C36.Latest (t : Tri K) (age : Nat → Nat) : Prop :=
  ∀ o < t.odims.length, age o < t.ddims.length ∧ t.valuation o (age o) = t.vd

theorem exposure_cell {t w : Tri K} (hw : ExposureFor t w) {i c o : Nat} (hi : i < t.kdims.length)
    (hc : c < t.vdims.length) (ho : o < t.odims.length) :
    (w.values.get (if w.kdims.length = 1 then 0 else i) (if w.vdims.length = 1 then 0 else c)
      (if w.odims.length = 1 then 0 else o) 0).NoInf := by
  obtain ⟨q0, q1, q2, q3⟩ := hw.wf
  apply hw.finite
  · split_ifs with hk
    · omega
    · rcases hw.index with q | q
      · rw [q0, q]; exact hi
      · exact absurd q hk
  · split_ifs with hk
    · omega
    · rcases hw.columns with q | q
      · rw [q1, q]; exact hc
      · exact absurd q hk
  · split_ifs with hk
    · omega
    · rcases hw.origins with q | q
      · rw [q2, q]; exact ho
      · exact absurd q hk
  · rw [q3, hw.one]; omega

theorem Num.eq_fin_amt {x : Num K} (h : x.NoInf) (h0 : x.amt ≠ 0) : x = .fin x.amt := by
  rcases Num.noInf_cases h with e | ⟨a, e⟩
  · rw [e] at h0; simp at h0
  · rw [e]; rfl

theorem bix_length {m n i : Nat} (h : m = n ∨ m = 1) (hi : i < n) :
    Arr.bix m n i = if m = 1 then 0 else i := Arr.bix_eq h hi

theorem longer_eq {α : Type} {a b : List α} (h : a = b ∨ a.length = 1) (hb : 1 ≤ b.length) :
    (longer a b).length = b.length ∧
      (longer a b = b ∨ (b.length = 1 ∧ longer a b = a ∧ a.length = 1)) := by
  unfold longer
  split_ifs with hc
  · exact ⟨rfl, Or.inl rfl⟩
  · rcases h with e | e
    · exact ⟨by rw [e], Or.inl e⟩
    · have : b.length = 1 := by omega
      exact ⟨by omega, Or.inr ⟨this, rfl, e⟩⟩

/-- **C36** (partial: every origin needs a cell at the valuation date and an exposure of its own, and
the diagonal more than one cell; exposure and latest amount must not cancel; no grouping).  The
a-priori of an origin is the average of the trended on-level ratios of latest amount to used-up
exposure of all origins, weighted by used-up exposure and decay; the detrended a-priori is the a-priori
at the level of the origin. -/
theorem C36_apriori_partial {t f w l : Tri K} (ht : CumTri t) (hf : PatternFor t f)
    (hw : ExposureFor t w) (hwo : w.odims = t.odims) {age : Nat → Nat} (hage : C36.Latest t age)
    (hl : t.latestDiagonal = .ok (.tri l)) {decay : K} (hdec : 0 ≤ decay) {trend xolf swolf : Arr K}
    (htr : FactorsFor t trend) (hxo : FactorsFor t xolf) (hso : FactorsFor t swolf)
    (hpos : ∀ i < t.kdims.length, ∀ c < t.vdims.length, ∀ o < t.odims.length,
      0 < f.usedUp w age i c o)
    (hz : ∀ i < t.kdims.length, ∀ c < t.vdims.length, ∀ o < t.odims.length,
      (t.values.get i c o (age o)).amt + w.exposure i c o ≠ 0) :
    ∃ a d, t.capecodAprioris f w decay trend xolf swolf = .ok (a, d) ∧
      C36.RatioOf t w a (fun i c o => t.capeCodRatio f w age trend xolf swolf decay i c o) ∧
      C36.RatioOf t w d (fun i c o => t.capeCodRatio f w age trend xolf swolf decay i c o /
        (trend.entry i c o).amt / (xolf.entry i c o).amt * (swolf.entry i c o).amt) := by
  have hall : AllCurrent t := fun o ho => ⟨age o, (hage o ho).1, (hage o ho).2⟩
  obtain ⟨w0, w1, w2, w3⟩ := ht.wf
  obtain ⟨v, rows, hv, hr, hdg⟩ := ht.diagonal hl
  obtain ⟨hvl, hns⟩ := toAgg_tri hr.symm
  have hrows : rows = List.range t.odims.length := by
    refine List.Pairwise.eq_of_mem_iff hdg.rows_inc List.pairwise_lt_range ?_
    intro o
    rw [hdg.mem_rows, List.mem_range]
    exact ⟨fun h => h.1, fun h => ⟨h, hall o h⟩⟩
  subst hrows
  obtain ⟨s, s1, s2, s3, s4, s5, s6⟩ := alignCdf_some ht.wf ht.ordered ht.dated ht.distinct ht.finite
    ht.ages_two ht.noPattern hv hdg hf hw ht.index_pos ht.columns_pos ht.origins_pos
  obtain ⟨g1, g2, -, -, -⟩ := getVal_keeps hv
  obtain ⟨k1, k2, -, -, -⟩ := sumKeep_keeps v .development
  rw [hvl] at s3 hdg hns k1 k2
  have hsh := s3.shape s2 hdg.wf
  have hst : s.toAgg = .tri s := by
    unfold toAgg
    rw [if_neg]
    rw [hsh.1, hsh.2.1, hsh.2.2.1, hsh.2.2.2]
    exact hns
  have sk : s.kdims = t.kdims := by rw [s3.1, hdg.index]
  have sv : s.vdims = t.vdims := by rw [s3.2.2.1, hdg.columns]
  have so : s.odims = t.odims := by
    rw [s3.2.2.2.1]
    have := hdg.origins
    apply List.ext_getElem
    · rw [this.1, List.length_range]
    · intro k h1 h2
      have h3 := this.2 k (by rw [List.length_range]; exact h2)
      rw [List.getElem_range] at h3
      rw [List.getElem?_eq_getElem h1, List.getElem?_eq_getElem h2] at h3
      exact Option.some.inj h3
  have hkl : s.keyLabels = t.keyLabels := by rw [s3.2.1, k1, g1]
  have hog : s.ograin = t.ograin := by rw [s3.2.2.2.2.2.2.1, k2, g2]
  have sd : s.ddims.length = 1 := by rw [s3.2.2.2.2.1, hdg.one]
  have wk1 : 1 ≤ w.kdims.length := by
    rcases hw.index with q | q <;> rw [q]
    exact ht.index_pos
  have wc1 : 1 ≤ w.vdims.length := by
    rcases hw.columns with q | q <;> rw [q]
    exact ht.columns_pos
  -- the used-up exposure
  have hcw : Compat w s := by
    refine ⟨hw.wf, s2, by rw [hw.ograin, hog], Or.inr ?_, by rw [hw.keyLabels, hkl], ?_, ?_,
      Or.inl (by rw [hwo, so]), Or.inr (Or.inl ⟨sd, by rw [hw.one]⟩), by rw [hw.one]; omega⟩
    · rw [hw.wf.2.2.2, hw.one]; omega
    · rw [sk]
      rcases hw.index with q | q
      · exact Or.inl q
      · exact Or.inr (Or.inr ⟨q, ht.index_pos⟩)
    · rw [sv]
      rcases hw.columns with q | q
      · exact Or.inl q
      · exact Or.inr (Or.inr ⟨q, ht.columns_pos⟩)
  have erep := div_compat hcw
  set rep := combined (· / ·) w s with hrepdef
  obtain ⟨lk, lk'⟩ := longer_eq hw.index ht.index_pos
  obtain ⟨lc, lc'⟩ := longer_eq hw.columns ht.columns_pos
  have lo : longer w.odims s.odims = t.odims := by
    unfold longer
    split_ifs
    · exact so
    · exact hwo
  have ld : (longer w.ddims s.ddims).length = 1 := by
    unfold longer
    split_ifs
    · exact sd
    · exact hw.one
  have hrep : Arr.Col rep.values t.kdims.length t.vdims.length t.odims.length := by
    refine ⟨?_, ?_, ?_, ?_⟩
    · show (longer w.kdims s.kdims).length = _; rw [sk, lk]
    · show (longer w.vdims s.vdims).length = _; rw [sv, lc]
    · show (longer w.odims s.odims).length = _; rw [lo]
    · exact ld
  have hlcol : Arr.Col l.values t.kdims.length t.vdims.length t.odims.length :=
    ⟨by rw [hdg.wf.1, hdg.index], by rw [hdg.wf.2.1, hdg.columns],
      by rw [hdg.wf.2.2.1, hdg.origins.1, List.length_range], by rw [hdg.wf.2.2.2, hdg.one]⟩
  have hne : ∀ i < t.kdims.length, ∀ c < t.vdims.length, ∀ o < t.odims.length,
      w.exposure i c o ≠ 0 ∧ f.toUlt i c (age o) ≠ 0 := by
    intro i hi c hc o ho
    have := (hpos i hi c hc o ho).ne'
    unfold usedUp at this
    exact div_ne_zero_iff.1 this
  have hcellrep : ∀ i < t.kdims.length, ∀ c < t.vdims.length, ∀ o < t.odims.length,
      rep.values.get i c o 0 = .fin (f.usedUp w age i c o) ∧ 0 < f.usedUp w age i c o := by
    intro i hi c hc o ho
    refine ⟨?_, hpos i hi c hc o ho⟩
    have ho' : o < (List.range t.odims.length).length := by simpa using ho
    have hor : (List.range t.odims.length)[o] = o := List.getElem_range _
    have c2 := s6 i c o (age o) (by rw [w0]; exact hi) (by rw [w1]; exact hc) ho' (hage o ho).1
      (by rw [hor]; exact (hage o ho).2)
    rw [hor, if_neg (hz i hi c hc o ho)] at c2
    show w.values.get (Arr.bix w.values.d0 (longer w.kdims s.kdims).length i)
        (Arr.bix w.values.d1 (longer w.vdims s.vdims).length c)
        (Arr.bix w.values.d2 (longer w.odims s.odims).length o)
        (Arr.bix w.values.d3 (longer w.ddims s.ddims).length 0) /
      s.values.get (Arr.bix s.values.d0 (longer w.kdims s.kdims).length i)
        (Arr.bix s.values.d1 (longer w.vdims s.vdims).length c)
        (Arr.bix s.values.d2 (longer w.odims s.odims).length o)
        (Arr.bix s.values.d3 (longer w.ddims s.ddims).length 0) = _
    obtain ⟨q0, q1, q2, q3⟩ := hw.wf
    obtain ⟨p0, p1, p2, p3⟩ := s2
    rw [sk, sv, lo, lk, lc, ld, q0, q1, q2, q3, p0, p1, p2, p3, sk, sv, so, sd, hw.one, hwo,
      Arr.bix_self, Arr.bix_self, Arr.bix_self, Arr.bix_self, c2,
      Arr.bix_eq (hw.index.imp (congrArg List.length) id) hi,
      Arr.bix_eq (hw.columns.imp (congrArg List.length) id) hc]
    have e1 := Num.eq_fin_amt (exposure_cell hw hi hc ho) (hne i hi c hc o ho).1
    have e2 : (if w.odims.length = 1 then 0 else o) = o := by
      rw [hwo]; split_ifs <;> omega
    rw [e2] at e1
    rw [e1, Num.fin_div_fin_of_ne _ (hne i hi c hc o ho).2]
    unfold usedUp exposure
    rw [e2]
  have hcelll : ∀ i < t.kdims.length, ∀ c < t.vdims.length, ∀ o < t.odims.length,
      l.values.get i c o 0 = (Num.fin (t.values.get i c o (age o)).amt).numToNan := by
    intro i hi c hc o ho
    have ho' : o < (List.range t.odims.length).length := by simpa using ho
    have hor : (List.range t.odims.length)[o] = o := List.getElem_range _
    have c1 := hdg.cells i c o (age o) (by rw [w0]; exact hi) (by rw [w1]; exact hc) ho' (hage o ho).1
      (by rw [hor]; exact (hage o ho).2)
    rw [hor] at c1
    rw [c1]
    rcases Num.noInf_cases (ht.finite i (by rw [w0]; exact hi) c (by rw [w1]; exact hc) o
      (by rw [w2]; exact ho) (age o) (by rw [w3]; exact (hage o ho).1)) with e | ⟨x, e⟩ <;> rw [e] <;> simp
  have hfac : ∀ {x : Arr K}, FactorsFor t x → ∀ i < t.kdims.length, ∀ c < t.vdims.length,
      ∀ o < t.odims.length, x.entry i c o = .fin (x.entry i c o).amt ∧ 0 < (x.entry i c o).amt := by
    intro x hx i hi c hc o ho
    obtain ⟨y, h1, h2⟩ := hx.positive i hi c hc o ho
    rw [h2]
    exact ⟨rfl, h1⟩
  have hcf : ∀ {x : Arr K}, FactorsFor t x →
      Arr.ColFits x t.kdims.length t.vdims.length t.odims.length :=
    fun h => ⟨h.index, h.columns, h.origins, h.one⟩
  obtain ⟨a, ea, ca, va⟩ := capecodArr_spec hdec hrep hlcol (hcf htr) (hcf hxo) (hcf hso) hcellrep
    hcelll (fun i hi c hc o ho => (hfac htr i hi c hc o ho).1)
    (fun i hi c hc o ho => (hfac hxo i hi c hc o ho).1) (hfac hso)
  obtain ⟨d1, ed1, cd1, vd1⟩ := Arr.zip_col (· / ·) ca (hcf htr)
  obtain ⟨d2, ed2, cd2, vd2⟩ := Arr.zip_col (· / ·) cd1 (hcf hxo)
  obtain ⟨d3, ed3, cd3, vd3⟩ := Arr.zip_col (· * ·) cd2 (hcf hso)
  have hlen : w.values.d2 = t.odims.length := by rw [hw.wf.2.2.1, hwo]
  have hresult : ∀ (x : Arr K) (r : Nat → Nat → Nat → K),
      Arr.Col x t.kdims.length t.vdims.length t.odims.length →
      (∀ i < t.kdims.length, ∀ c < t.vdims.length, ∀ o < t.odims.length,
        x.get i c o 0 = .fin (r i c o)) →
      C36.RatioOf t w { rep with
        values := x.map fun y => if y.isFinite then y else .nan
        ddims := [ultVal]
        isVal := true
        isCum := some true
        vd := ultVal } r := by
    intro x r hx hr
    refine ⟨⟨?_, ?_, ?_, hx.2.2.2⟩, ?_, ?_, lo, hw.keyLabels, hw.ograin, ⟨rfl, rfl⟩, rfl, ?_⟩
    · show x.d0 = (longer w.kdims s.kdims).length; rw [hx.1, sk, lk]
    · show x.d1 = (longer w.vdims s.vdims).length; rw [hx.2.1, sv, lc]
    · show x.d2 = (longer w.odims s.odims).length; rw [hx.2.2.1, lo]
    · show longer w.kdims s.kdims = _ ∨ (_ ∧ longer w.kdims s.kdims = _ ∧ _)
      rw [sk]; exact lk'
    · show longer w.vdims s.vdims = _ ∨ (_ ∧ longer w.vdims s.vdims = _ ∧ _)
      rw [sv]; exact lc'
    · intro i hi c hc o ho
      show (if (x.get i c o 0).isFinite then x.get i c o 0 else .nan) = _
      rw [hr i hi c hc o ho]
      rfl
  refine ⟨_, _, ?_, hresult a _ ca va, hresult d3 _ cd3 ?_⟩
  · unfold capecodAprioris
    rw [if_neg (by rw [ht.ages]; simp [ht.cumulative])]
    simp only [hl, s1, hst, erep, bind, Except.bind, hlen, ea, divArr, mulArr, zipArr, ed1, ed2, ed3,
      setUlt]
  · intro i hi c hc o ho
    rw [vd3 i hi c hc o ho, vd2 i hi c hc o ho, vd1 i hi c hc o ho, va i hi c hc o ho,
      (hfac htr i hi c hc o ho).1, (hfac hxo i hi c hc o ho).1, (hfac hso i hi c hc o ho).1,
      Num.fin_div_fin_of_ne _ (hfac htr i hi c hc o ho).2.ne',
      Num.fin_div_fin_of_ne _ (hfac hxo i hi c hc o ho).2.ne', Num.fin_mul_fin]
    rfl

/-! ## The a-priori is an average -/

theorem wavg_between {n : Nat} {w r : Nat → K} {lo hi : K} (hw : ∀ p < n, 0 ≤ w p)
    (hs : 0 < ∑ p ∈ Finset.range n, w p) (hr : ∀ p < n, lo ≤ r p ∧ r p ≤ hi) :
    lo ≤ wavg n w r ∧ wavg n w r ≤ hi := by
  unfold wavg
  rw [le_div_iff₀ hs, div_le_iff₀ hs, Finset.mul_sum, Finset.mul_sum]
  constructor
  · refine Finset.sum_le_sum fun p hp => ?_
    rw [mul_comm]
    exact mul_le_mul_of_nonneg_left (hr p (Finset.mem_range.1 hp)).1 (hw p (Finset.mem_range.1 hp))
  · refine Finset.sum_le_sum fun p hp => ?_
    rw [mul_comm hi]
    exact mul_le_mul_of_nonneg_left (hr p (Finset.mem_range.1 hp)).2 (hw p (Finset.mem_range.1 hp))

/-- **C36**: the a-priori lies between the smallest and the largest ratio. -/
theorem C36_between (t f w : Tri K) (age : Nat → Nat) (trend xolf swolf : Arr K) {decay : K}
    (hdec : 0 ≤ decay) {i c o : Nat} (ho : o < t.odims.length)
    (hpos : ∀ p < t.odims.length, 0 < f.usedUp w age i c p) {lo hi : K}
    (hr : ∀ p < t.odims.length, lo ≤ t.lossRatio f w age trend xolf swolf i c p ∧
      t.lossRatio f w age trend xolf swolf i c p ≤ hi) :
    lo ≤ t.capeCodRatio f w age trend xolf swolf decay i c o ∧
      t.capeCodRatio f w age trend xolf swolf decay i c o ≤ hi := by
  have hnn : ∀ p < t.odims.length, 0 ≤ f.usedUp w age i c p * decay ^ apart o p := fun p hp =>
    mul_nonneg (hpos p hp).le (pow_nonneg hdec _)
  refine wavg_between hnn ?_ hr
  apply Finset.sum_pos'
  · intro p hp
    exact hnn p (Finset.mem_range.1 hp)
  · refine ⟨o, Finset.mem_range.2 ho, ?_⟩
    have : apart o o = 0 := by unfold apart; omega
    rw [this, pow_zero, mul_one]
    exact hpos o ho

/-- **C36**: with a decay of one the a-priori is the same for all origins, the total trended on-level
latest amount over the total used-up exposure. -/
theorem C36_no_decay (t f w : Tri K) (age : Nat → Nat) (trend xolf swolf : Arr K) (i c o : Nat)
    (hpos : ∀ p < t.odims.length, 0 < f.usedUp w age i c p) :
    t.capeCodRatio f w age trend xolf swolf 1 i c o =
      (∑ p ∈ Finset.range t.odims.length, (t.values.get i c p (age p)).amt * (trend.entry i c p).amt *
        (xolf.entry i c p).amt / (swolf.entry i c p).amt) /
      ∑ p ∈ Finset.range t.odims.length, w.exposure i c p / f.toUlt i c (age p) := by
  unfold capeCodRatio wavg
  simp only [one_pow, mul_one]
  congr 1
  refine Finset.sum_congr rfl fun p hp => ?_
  have := (hpos p (Finset.mem_range.1 hp)).ne'
  unfold lossRatio
  rw [← div_div, mul_div_assoc', mul_div_assoc', mul_div_cancel_left₀ _ this]

/-- **C36**: with a decay of zero the a-priori of an origin is its own ratio. -/
theorem C36_full_decay (t f w : Tri K) (age : Nat → Nat) (trend xolf swolf : Arr K) {i c o : Nat}
    (ho : o < t.odims.length) (hpos : 0 < f.usedUp w age i c o) :
    t.capeCodRatio f w age trend xolf swolf 0 i c o = t.lossRatio f w age trend xolf swolf i c o := by
  have hz : ∀ p, p ≠ o → (0 : K) ^ apart o p = 0 := by
    intro p hp
    apply zero_pow
    unfold apart
    omega
  have h0 : apart o o = 0 := by unfold apart; omega
  unfold capeCodRatio wavg
  beta_reduce
  rw [Finset.sum_eq_single o, Finset.sum_eq_single o, h0, pow_zero, mul_one,
    mul_div_cancel_left₀ _ hpos.ne']
  · intro p _ hp; rw [hz p hp, mul_zero]
  · intro h; exact absurd (Finset.mem_range.2 ho) h
  · intro p _ hp; rw [hz p hp, mul_zero, zero_mul]
  · intro h; exact absurd (Finset.mem_range.2 ho) h

/-! ## The trend factors -/

/-- **C36**: without a `trend_` attribute the trend factor of an origin covers the months from the end
of its period to the valuation date (counted from the first month of the triangle at most). -/
theorem C36_trend {t : Tri K} (ht : CumTri t) (hall : AllCurrent t) {fac : Int → K}
    (hfac : ∀ m, 0 < fac m) {tr : Arr K} (h : t.trendFactors fac = .ok tr) :
    FactorsFor t tr ∧ ∀ i c o, i < t.kdims.length → c < t.vdims.length → o < t.odims.length →
      tr.entry i c o = .fin (fac (t.vd - max (min (max t.vd (t.odims.getD 0 0))
        (t.odims.getD o 0 + t.ograin.months - 1)) (min t.vd (t.odims.getD 0 0)))) := by
  obtain ⟨w0, w1, w2, w3⟩ := ht.wf
  have h0 := ht.index_pos
  have h3 := ht.ages_two
  obtain ⟨v, e, hv, hv2, hv3⟩ := pick_contig ht.ordered ht.dated [0] (List.range t.values.d1)
    (List.range t.values.d2) t.values.d3 0
    (by intro p hp; rw [← w2]; exact List.mem_range.1 hp) (by omega) (by omega)
  have emap : ((List.range t.values.d3).map (· + 0)) = List.range t.values.d3 := by simp
  rw [emap] at e
  have hvd : v = t.vd := by
    obtain ⟨d, hd, hval⟩ := hall 0 ht.origins_pos
    have h5 := hv3 0 d (by rw [List.length_range, w2]; exact ht.origins_pos) (by rw [w3]; exact hd)
    rw [getD_range _ _ (by rw [w2]; exact ht.origins_pos), Nat.add_zero, hval] at h5
    omega
  subst hvd
  set b := t.picked [0] (List.range t.values.d1) (List.range t.values.d2) (List.range t.values.d3) t.vd
    with hb
  have el : t.iloc (.int 0) (.slc .all) (.slc .all) (.slc .all) = .ok b := by
    rw [← e]
    exact iloc_of_sel (selS_nat t.values.d0 0 (by omega)).sel (selS_all _).sel
      (selS_all _) (selS_all _)
  have hod : b.odims = t.odims := by
    show (List.range t.values.d2).map (t.odims.getD · 0) = t.odims
    rw [w2]; exact map_getD_range _ _
  have hdd : b.ddims = t.ddims := by
    show (List.range t.values.d3).map (t.ddims.getD · 0) = t.ddims
    rw [w3]; exact map_getD_range _ _
  have hvv : b.vdims = t.vdims := by
    show (List.range t.values.d1).map (t.vdims.getD · "") = t.vdims
    rw [w1]; exact map_getD_range _ _
  have b1 : b.values.d1 = t.values.d1 := by show (List.range _).length = _; simp
  have b2 : b.values.d2 = t.values.d2 := by show (List.range _).length = _; simp
  have b3 : b.values.d3 = t.values.d3 := by show (List.range _).length = _; simp
  have hwb : WF b := ⟨rfl, by rw [b1, hvv, w1], by rw [b2, hod, w2], by rw [b3, hdd, w3]⟩
  have hval : ∀ (p : Bool) g o d, (b.reval p g).valuation o d = t.valuation o d := by
    intro p g o d
    show valuationOf b.isVal b.odims b.ddims b.vd o d = _
    rw [hod, hdd]
    rfl
  have hn : ∀ (p : Bool) g o d, (b.reval p g).nanTri o d = t.nanTri o d := by
    intro p g o d
    unfold nanTri
    rw [hval]
    show (if min b.values.d2 b.values.d3 = 1 then _ else if t.valuation o d > t.vd then _ else _) = _
    rw [b2, b3]
  have em : b.mulArr (Arr.scalar 0) = .ok (b.reval false fun i c o d => b.values.get i c o d * 0) := by
    unfold mulArr zipArr
    rw [Arr.zip_scalar]
    have : b.isPattern = false := ht.noPattern
    simp only [bind, Except.bind, reval]
    rw [← this]
  set g : Nat → Nat → Nat → Nat → Num K := fun i c o d => b.values.get i c o d * 0 with hg
  set g' : Nat → Nat → Nat → Nat → Num K := fun i c o d =>
    (((g i c o d).nanToNum + (1 : Num K).nanToNum) * (t.nanTri o d).nanToNum).numToNan with hg'
  have ea : (b.reval false g).addArr (Arr.scalar 1) = .ok (b.reval false g') := by
    unfold addArr zipArr
    rw [Arr.zip_scalar]
    simp only [bind, Except.bind]
    have hn' := hn false fun i c o d => (g i c o d).nanToNum + (1 : Num K).nanToNum
    have e1 : ∀ x : Tri K, x = b.reval false (fun i c o d => (g i c o d).nanToNum + (1 : Num K).nanToNum) →
        x.cleanup = b.reval false g' := by
      intro x hx
      rw [hx]
      unfold cleanup
      simp only [hn']
      rfl
    exact congrArg _ (e1 _ rfl)
  set m : Nat → Nat → Int := fun o d => (b.reval false g').trendMonths .origin t.vd (t.odims.getD 0 0)
    none o d with hm
  have hmo : ∀ o d, m o d = t.vd - max (min (max t.vd (t.odims.getD 0 0))
        (t.odims.getD o 0 + t.ograin.months - 1)) (min t.vd (t.odims.getD 0 0)) := by
    intro o d
    show t.vd - max (min (if t.odims.getD 0 0 > t.vd then t.odims.getD 0 0 else t.vd)
      (b.odims.getD o 0 + t.ograin.months - 1))
      (if t.odims.getD 0 0 > t.vd then t.vd else t.odims.getD 0 0) = _
    rw [hod]
    split_ifs <;> omega
  set y : Nat → Nat → Nat → Nat → Num K := fun i c o d =>
    g' i c o d * (.fin (fac (m o d)) * t.nanTri o d) with hy
  have et : (b.reval false g').trend fac .origin none none none = .ok (b.reval false y) := by
    have hne : (b.reval false g').odims ≠ [] := by
      show b.odims ≠ []
      rw [hod]
      intro hcon
      have := ht.origins_pos
      rw [hcon] at this
      simp at this
    have hno : (b.reval false g').allOrigins = false := rfl
    unfold trend
    simp only [hno, hne, reduceCtorEq, if_false, and_false, Bool.false_eq_true, Option.getD_none]
    have hz : (b.reval false g').odims.getD 0 0 = t.odims.getD 0 0 := by
      show b.odims.getD 0 0 = _
      rw [hod]
    rw [hz]
    simp only [hn false g']
    rfl
  have ed : (b.reval false y).div (b.reval false g') = .ok (zipped (· / ·) (b.reval false y)
      (b.reval false g')) :=
    div_fits (SameAxes.fitsIn ⟨rfl, rfl, rfl, rfl, rfl, rfl, rfl, rfl⟩ hwb hwb)
  have hr : zipped (· / ·) (b.reval false y) (b.reval false g') =
      b.reval false fun i c o d => y i c o d / g' i c o d := by
    simp only [zipped, reval, bcell, Arr.bix_self, Bool.false_and, max_self]
  rw [hr] at ed
  set G : Nat → Nat → Nat → Nat → Num K := fun i c o d => y i c o d / g' i c o d with hG
  unfold trendFactors at h
  simp only [el, em, ea, et, ed, bind, Except.bind] at h
  cases hld : (b.reval false G).latestDiagonal with
  | error x => rw [hld] at h; cases h
  | ok r =>
    rw [hld] at h
    have hord : Ordered (b.reval false G) := by
      intro hi
      have := ht.ordered ht.ages
      show (∀ o ∈ b.odims, o ≤ t.vd) ∧ (∀ d ∈ b.ddims, 1 ≤ d) ∧ 9999 ∉ b.ddims.dropLast
      rw [hod, hdd]
      exact this
    have hdv : DistinctValuations (b.reval false G) := by
      intro o ho d hd e he
      rw [hval, hval]
      have ho : o < b.odims.length := ho
      have hd : d < b.ddims.length := hd
      have he : e < b.ddims.length := he
      rw [hod] at ho
      rw [hdd] at hd he
      exact ht.distinct o ho d hd e he
    obtain ⟨u, rows, hdg, hu⟩ := C05_latest_diagonal_partial (t := b.reval false G) hwb hord ht.dated hdv
      (by show 2 ≤ b.ddims.length; rw [hdd]; exact h3) hld
    have hrows : rows = List.range t.odims.length := by
      refine List.Pairwise.eq_of_mem_iff hdg.rows_inc List.pairwise_lt_range ?_
      intro o
      rw [hdg.mem_rows, List.mem_range]
      show o < b.odims.length ∧ (∃ d < b.ddims.length, _) ↔ _
      rw [hod, hdd]
      refine ⟨fun h => h.1, fun h => ⟨h, ?_⟩⟩
      obtain ⟨d, hd, hv⟩ := hall o h
      exact ⟨d, hd, by rw [hval]; exact hv⟩
    subst hrows
    rw [hu] at h
    cases hag : u.toAgg with
    | scalar x => rw [hag] at h; cases h
    | tri u' =>
      rw [hag] at h
      injection h with h
      subst h
      obtain ⟨huu, -⟩ := toAgg_tri hag
      subst huu
      have u0 : u.values.d0 = 1 := by rw [hdg.wf.1, hdg.index]; rfl
      have u1 : u.values.d1 = t.vdims.length := by
        rw [hdg.wf.2.1, hdg.columns]; exact congrArg List.length hvv
      have u2 : u.values.d2 = t.odims.length := by
        rw [hdg.wf.2.2.1, hdg.origins.1, List.length_range]
      have u3 : u.values.d3 = 1 := by rw [hdg.wf.2.2.2, hdg.one]
      have hcell : ∀ c < t.vdims.length, ∀ o < t.odims.length, u.values.get 0 c o 0 =
          .fin (fac (m o 0)) := by
        intro c hc o ho
        obtain ⟨d, hd, hv⟩ := hall o ho
        have hor : (List.range t.odims.length)[o]'(by simpa using ho) = o := List.getElem_range _
        have c1 := hdg.cells 0 c o d (by show 0 < 1; omega)
          (by show c < b.values.d1; rw [b1, w1]; exact hc) (by simpa using ho)
          (by show d < b.ddims.length; rw [hdd]; exact hd) (by rw [hor, hval]; exact hv)
        rw [hor] at c1
        rw [c1]
        have hnan : t.nanTri o d = 1 := by
          rcases nanTri_eq t o d with h | ⟨-, h⟩
          · exact h
          · omega
        have hgz : (g 0 c o d).nanToNum = .fin 0 := by
          rw [hg]
          dsimp only
          cases b.values.get 0 c o d with
          | nan => simp
          | fin x => simp [Num.zero_def]
          | pinf => simp [Num.zero_def, Num.pinf_mul_fin, Num.infMul]
          | ninf => simp [Num.zero_def, Num.ninf_mul_fin, Num.infMul]
        have hg1 : g' 0 c o d = .fin 1 := by
          rw [hg']
          dsimp only
          rw [hgz, hnan, Num.one_def]
          simp [Num.numToNan_fin]
        show (y 0 c o d / g' 0 c o d).numToNan = _
        have hy1 : y 0 c o d = .fin (fac (m o d)) := by
          rw [hy]
          dsimp only
          rw [hg1, hnan, Num.one_def, Num.fin_mul_fin, Num.fin_mul_fin, mul_one, one_mul]
        rw [hy1, hg1, Num.fin_div_fin_of_ne _ one_ne_zero, div_one,
          Num.numToNan_fin_of_ne (hfac _).ne', hmo o d, hmo o 0]
      have hentry : ∀ i c o, i < t.kdims.length → c < t.vdims.length → o < t.odims.length →
          u.values.entry i c o = .fin (fac (m o 0)) := by
        intro i c o hi hc ho
        unfold Arr.entry
        rw [if_pos u0]
        have e1 : (if u.values.d1 = 1 then 0 else c) = c := by rw [u1]; split_ifs <;> omega
        have e2 : (if u.values.d2 = 1 then 0 else o) = o := by rw [u2]; split_ifs <;> omega
        rw [e1, e2]
        exact hcell c hc o ho
      refine ⟨⟨Or.inr u0, Or.inl u1, Or.inl u2, u3, ?_⟩, ?_⟩
      · intro i hi c hc o ho
        exact ⟨_, hfac _, hentry i c o hi hc ho⟩
      · intro i c o hi hc ho
        rw [hentry i c o hi hc ho, hmo]

/-! ## The fitted method -/

theorem factorsFor_one (t : Tri K) : FactorsFor t (Arr.scalar 1) :=
  ⟨Or.inr rfl, Or.inr rfl, Or.inr rfl, rfl, fun _ _ _ _ _ _ => ⟨1, one_pos, rfl⟩⟩

/-- Exposure times a ratio is an exposure. -/
theorem exposure_mul {t w d : Tri K} {r : Nat → Nat → Nat → K} (h0 : 1 ≤ t.kdims.length)
    (h1 : 1 ≤ t.vdims.length) (hw : ExposureFor t w)
    (hwo : w.odims = t.odims) (hd : C36.RatioOf t w d r) :
    ∃ e, w.mul d = .ok e ∧ ExposureFor t e ∧ e.odims = t.odims ∧
      ∀ i < t.kdims.length, ∀ c < t.vdims.length, ∀ o < t.odims.length,
        e.exposure i c o = w.exposure i c o * r i c o := by
  have wk1 : 1 ≤ w.kdims.length := by
    rcases hw.index with q | q <;> rw [q]
    exact h0
  have wc1 : 1 ≤ w.vdims.length := by
    rcases hw.columns with q | q <;> rw [q]
    exact h1
  have fk : Fit w.kdims d.kdims := by
    rcases hd.index with q | ⟨-, q, -⟩
    · rw [q]
      rcases hw.index with q' | q'
      · exact Or.inl q'
      · exact Or.inr (Or.inr ⟨q', h0⟩)
    · exact Or.inl q.symm
  have fc : Fit w.vdims d.vdims := by
    rcases hd.columns with q | ⟨-, q, -⟩
    · rw [q]
      rcases hw.columns with q' | q'
      · exact Or.inl q'
      · exact Or.inr (Or.inr ⟨q', h1⟩)
    · exact Or.inl q.symm
  have dd : d.ddims.length = 1 := by rw [hd.development.1]; rfl
  have hc : Compat w d := ⟨hw.wf, hd.wf, by rw [hw.ograin, hd.ograin],
    Or.inr (by rw [hw.wf.2.2.2, hw.one]; omega), by rw [hw.keyLabels, hd.keyLabels], fk, fc,
    Or.inl (by rw [hwo, hd.origins]), Or.inr (Or.inl ⟨dd, by rw [hw.one]⟩), by rw [hw.one]; omega⟩
  have dk : d.kdims.length = t.kdims.length := by
    rcases hd.index with q | ⟨q1, q2, q3⟩
    · rw [q]
    · rw [q1, q2, q3]
  have dc : d.vdims.length = t.vdims.length := by
    rcases hd.columns with q | ⟨q1, q2, q3⟩
    · rw [q]
    · rw [q1, q2, q3]
  have lk : (longer w.kdims d.kdims).length = t.kdims.length ∧
      (longer w.kdims d.kdims = t.kdims ∨ (longer w.kdims d.kdims).length = 1) := by
    unfold longer
    split_ifs with hcc
    · refine ⟨dk, ?_⟩
      rcases hd.index with q | q
      · exact Or.inl q
      · omega
    · rcases hw.index with q | q
      · exact ⟨by rw [q], Or.inl q⟩
      · exact ⟨by omega, Or.inr q⟩
  have lc : (longer w.vdims d.vdims).length = t.vdims.length ∧
      (longer w.vdims d.vdims = t.vdims ∨ (longer w.vdims d.vdims).length = 1) := by
    unfold longer
    split_ifs with hcc
    · refine ⟨dc, ?_⟩
      rcases hd.columns with q | q
      · exact Or.inl q
      · omega
    · rcases hw.columns with q | q
      · exact ⟨by rw [q], Or.inl q⟩
      · exact ⟨by omega, Or.inr q⟩
  have lo : longer w.odims d.odims = t.odims := by
    unfold longer
    split_ifs
    · exact hd.origins
    · exact hwo
  have ld : (longer w.ddims d.ddims).length = 1 := by
    unfold longer
    split_ifs
    · exact dd
    · exact hw.one
  have hcell : ∀ i < t.kdims.length, ∀ c < t.vdims.length, ∀ o < t.odims.length,
      (combined (· * ·) w d).values.get i c o 0 = w.values.get (if w.kdims.length = 1 then 0 else i)
        (if w.vdims.length = 1 then 0 else c) (if w.odims.length = 1 then 0 else o) 0 *
        .fin (r i c o) := by
    intro i hi c hcc o ho
    show w.values.get (Arr.bix w.values.d0 (longer w.kdims d.kdims).length i)
        (Arr.bix w.values.d1 (longer w.vdims d.vdims).length c)
        (Arr.bix w.values.d2 (longer w.odims d.odims).length o)
        (Arr.bix w.values.d3 (longer w.ddims d.ddims).length 0) *
      d.values.get (Arr.bix d.values.d0 (longer w.kdims d.kdims).length i)
        (Arr.bix d.values.d1 (longer w.vdims d.vdims).length c)
        (Arr.bix d.values.d2 (longer w.odims d.odims).length o)
        (Arr.bix d.values.d3 (longer w.ddims d.ddims).length 0) = _
    obtain ⟨q0, q1, q2, q3⟩ := hw.wf
    obtain ⟨p0, p1, p2, p3⟩ := hd.wf
    rw [lk.1, lc.1, lo, ld, p0, p1, p2, p3, dk, dc, hd.origins, dd, q0, q1, q2, q3, hw.one,
      Arr.bix_self, Arr.bix_self, Arr.bix_self, Arr.bix_self, hd.cells i hi c hcc o ho,
      Arr.bix_eq (hw.index.imp (congrArg List.length) id) hi,
      Arr.bix_eq (hw.columns.imp (congrArg List.length) id) hcc,
      Arr.bix_eq (hw.origins.imp (congrArg List.length) id) ho]
  refine ⟨combined (· * ·) w d, mul_compat hc, ?_, lo, ?_⟩
  · refine ⟨wf_combined _ _ _, ?_, hw.keyLabels, hw.ograin, lk.2, lc.2, Or.inl lo, ld⟩
    intro i hi c hcc o ho x hx
    have hi : i < (longer w.kdims d.kdims).length := hi
    have hcc : c < (longer w.vdims d.vdims).length := hcc
    have ho : o < (longer w.odims d.odims).length := ho
    have hx : x < (longer w.ddims d.ddims).length := hx
    rw [lk.1] at hi
    rw [lc.1] at hcc
    rw [lo] at ho
    rw [ld] at hx
    have : x = 0 := by omega
    subst this
    rw [hcell i hi c hcc o ho]
    rcases Num.noInf_cases (exposure_cell hw hi hcc ho) with q | ⟨y, q⟩ <;> rw [q] <;> simp
  · intro i hi c hcc o ho
    have ek : (combined (· * ·) w d).kdims.length = t.kdims.length := lk.1
    have ec : (combined (· * ·) w d).vdims.length = t.vdims.length := lc.1
    have eo : (combined (· * ·) w d).odims.length = t.odims.length := congrArg List.length lo
    have e0 : (if (combined (· * ·) w d).kdims.length = 1 then 0 else i) = i := by
      rw [ek]; split_ifs <;> omega
    have e1 : (if (combined (· * ·) w d).vdims.length = 1 then 0 else c) = c := by
      rw [ec]; split_ifs <;> omega
    have e2 : (if (combined (· * ·) w d).odims.length = 1 then 0 else o) = o := by
      rw [eo]; split_ifs <;> omega
    unfold exposure
    rw [e0, e1, e2, hcell i hi c hcc o ho]
    rcases Num.noInf_cases (exposure_cell hw hi hcc ho) with q | ⟨y, q⟩ <;> rw [q] <;> simp

/-- The trend factor of origin `o`. -/
def C36.trendOf (t : Tri K) (fac : Int → K) (o : Nat) : K :=
  fac (t.vd - max (min (max t.vd (t.odims.getD 0 0)) (t.odims.getD o 0 + t.ograin.months - 1))
    (min t.vd (t.odims.getD 0 0)))

/-- The a-priori of origin `o` without on-level factors: the average trended ratio of latest amount to
used-up exposure, weighted by used-up exposure and decay. -/
def C36.apriori (t f w : Tri K) (age : Nat → Nat) (fac : Int → K) (decay : K) (i c o : Nat) : K :=
  wavg t.odims.length (fun p => w.exposure i c p / f.toUlt i c (age p) * decay ^ apart o p)
    (fun p => (t.values.get i c p (age p)).amt * C36.trendOf t fac p /
      (w.exposure i c p / f.toUlt i c (age p)))

/-- The a-prioris and the expectation. -/
theorem capecod_expectation {t f w l : Tri K} (ht : CumTri t) (hf : PatternFor t f)
    (hw : ExposureFor t w) (hwo : w.odims = t.odims) {age : Nat → Nat} (hage : C36.Latest t age)
    (hl : t.latestDiagonal = .ok (.tri l)) {decay : K} (hdec : 0 ≤ decay) {fac : Int → K}
    (hfac : ∀ m, 0 < fac m) {tr : Arr K} (htr : t.trendFactors fac = .ok tr)
    (hexp : ∀ i < t.kdims.length, ∀ c < t.vdims.length, ∀ o < t.odims.length, 0 < w.exposure i c o)
    (hcdf : ∀ i < t.kdims.length, ∀ c < t.vdims.length, ∀ d < t.ddims.length, 0 < f.toUlt i c d)
    (hlat : ∀ i < t.kdims.length, ∀ c < t.vdims.length, ∀ o < t.odims.length,
      0 ≤ (t.values.get i c o (age o)).amt) :
    ∃ a d e, t.capecodAprioris f w decay tr (Arr.scalar 1) (Arr.scalar 1) = .ok (a, d) ∧
      w.mul d = .ok e ∧ ExposureFor t e ∧
      C36.RatioOf t w a (C36.apriori t f w age fac decay) ∧
      C36.RatioOf t w d (fun i c o => C36.apriori t f w age fac decay i c o / C36.trendOf t fac o) ∧
      (∀ i < t.kdims.length, ∀ c < t.vdims.length, ∀ o < t.odims.length, e.exposure i c o =
        w.exposure i c o * (C36.apriori t f w age fac decay i c o / C36.trendOf t fac o)) ∧
      ∀ i < t.kdims.length, ∀ c < t.vdims.length, ∀ o < t.odims.length, 0 ≤ e.exposure i c o := by
  have hall : AllCurrent t := fun o ho => ⟨age o, (hage o ho).1, (hage o ho).2⟩
  obtain ⟨hff, hen⟩ := C36_trend ht hall hfac htr
  have hpos : ∀ i < t.kdims.length, ∀ c < t.vdims.length, ∀ o < t.odims.length,
      0 < f.usedUp w age i c o := fun i hi c hc o ho =>
    div_pos (hexp i hi c hc o ho) (hcdf i hi c hc _ (hage o ho).1)
  obtain ⟨a, d, h1, h2, h3⟩ := C36_apriori_partial ht hf hw hwo hage hl hdec hff (factorsFor_one t)
    (factorsFor_one t) hpos fun i hi c hc o ho =>
      (add_pos_of_nonneg_of_pos (hlat i hi c hc o ho) (hexp i hi c hc o ho)).ne'
  have hone : ∀ i c o, ((Arr.scalar 1 : Arr K).entry i c o).amt = 1 := fun _ _ _ => rfl
  have hap : ∀ i < t.kdims.length, ∀ c < t.vdims.length, ∀ o < t.odims.length,
      t.capeCodRatio f w age tr (Arr.scalar 1) (Arr.scalar 1) decay i c o =
        C36.apriori t f w age fac decay i c o := by
    intro i hi c hc o ho
    unfold capeCodRatio C36.apriori wavg
    congr 1
    refine Finset.sum_congr rfl fun p hp => ?_
    unfold lossRatio usedUp
    beta_reduce
    rw [hone, mul_one, mul_one, hen i c p hi hc (Finset.mem_range.1 hp)]
    rfl
  have ha : C36.RatioOf t w a (C36.apriori t f w age fac decay) :=
    ⟨h2.wf, h2.index, h2.columns, h2.origins, h2.keyLabels, h2.ograin, h2.development, h2.date,
      fun i hi c hc o ho => by rw [h2.cells i hi c hc o ho, hap i hi c hc o ho]⟩
  have hd : C36.RatioOf t w d (fun i c o =>
      C36.apriori t f w age fac decay i c o / C36.trendOf t fac o) := by
    refine ⟨h3.wf, h3.index, h3.columns, h3.origins, h3.keyLabels, h3.ograin, h3.development, h3.date,
      fun i hi c hc o ho => ?_⟩
    rw [h3.cells i hi c hc o ho, hap i hi c hc o ho, hone, div_one, mul_one, hen i c o hi hc ho]
    rfl
  obtain ⟨e, e1, e2, e3, e4⟩ := exposure_mul ht.index_pos ht.columns_pos hw hwo hd
  have hnn : ∀ i < t.kdims.length, ∀ c < t.vdims.length, ∀ o < t.odims.length,
      0 ≤ e.exposure i c o := by
    intro i hi c hc o ho
    rw [e4 i hi c hc o ho]
    refine mul_nonneg (hexp i hi c hc o ho).le (div_nonneg ?_ (hfac _).le)
    unfold C36.apriori wavg
    refine div_nonneg (Finset.sum_nonneg fun p hp => ?_) (Finset.sum_nonneg fun p hp => ?_)
    · have hp := Finset.mem_range.1 hp
      exact mul_nonneg (mul_nonneg (hpos i hi c hc p hp).le (pow_nonneg hdec _))
        (div_nonneg (mul_nonneg (hlat i hi c hc p hp) (hfac _).le) (hpos i hi c hc p hp).le)
    · exact mul_nonneg (hpos i hi c hc p (Finset.mem_range.1 hp)).le (pow_nonneg hdec _)
  exact ⟨a, d, e, h1, e1, e2, ha, hd, e4, hnn⟩

/-- **C36** (partial: as `C36_apriori_partial`, and `1 - 1 / cdf` must not be exactly `-1e-16`).  For
positive exposures, positive factors and latest amounts that are not negative the fitted method gives
the a-priori above, the a-priori without the trend of the origin, and the ultimate of the Benktander
method with the exposure times the detrended a-priori as expectation. -/
theorem C36_fit_partial {t f w l : Tri K} (ht : CumTri t) (hf : PatternFor t f)
    (hw : ExposureFor t w) (hwo : w.odims = t.odims) {age : Nat → Nat} (hage : C36.Latest t age)
    (hl : t.latestDiagonal = .ok (.tri l)) {decay : K} (hdec : 0 ≤ decay) {fac : Int → K}
    (hfac : ∀ m, 0 < fac m) {tr : Arr K} (htr : t.trendFactors fac = .ok tr) (n : Nat)
    (hexp : ∀ i < t.kdims.length, ∀ c < t.vdims.length, ∀ o < t.odims.length, 0 < w.exposure i c o)
    (hcdf : ∀ i < t.kdims.length, ∀ c < t.vdims.length, ∀ d < t.ddims.length, 0 < f.toUlt i c d)
    (hlat : ∀ i < t.kdims.length, ∀ c < t.vdims.length, ∀ o < t.odims.length,
      0 ≤ (t.values.get i c o (age o)).amt)
    (hq : ∀ i < t.kdims.length, ∀ c < t.vdims.length, ∀ d < t.ddims.length,
      1 - 1 / f.toUlt i c d ≠ -(1 / 10 ^ 16)) :
    ∃ a d e u p, t.capecod fac f (some w) decay n = .ok (a, d, e, u) ∧
      C36.RatioOf t w a (C36.apriori t f w age fac decay) ∧
      C36.RatioOf t w d (fun i c o => C36.apriori t f w age fac decay i c o / C36.trendOf t fac o) ∧
      (∀ i < t.kdims.length, ∀ c < t.vdims.length, ∀ o < t.odims.length, e.exposure i c o =
        w.exposure i c o * (C36.apriori t f w age fac decay i c o / C36.trendOf t fac o)) ∧
      C35.SortedUltimate t u p fun i c o d => benkIter (t.values.get i c o d).amt (f.toUlt i c d)
        (w.exposure i c o * (C36.apriori t f w age fac decay i c o / C36.trendOf t fac o)) n := by
  have hall : AllCurrent t := fun o ho => ⟨age o, (hage o ho).1, (hage o ho).2⟩
  obtain ⟨a, d, e, h1, e1, e2, ha, hd, e4, hnn⟩ := capecod_expectation ht hf hw hwo hage hl hdec hfac htr
    hexp hcdf hlat
  obtain ⟨u, p, u1, u2⟩ := C35_benktander_partial ht hf e2 hall hl 1 n (by
    intro i hi c hc o ho dd hdd hval
    have hda : dd = age o := ht.distinct o ho dd hdd (age o) (hage o ho).1
      (by rw [hval, (hage o ho).2])
    subst hda
    have h5 := hlat i hi c hc o ho
    have h6 := hnn i hi c hc o ho
    rw [one_mul]
    rcases h5.lt_or_eq with q | q
    · left; exact (add_pos_of_pos_of_nonneg q h6).ne'
    · rcases h6.lt_or_eq with q' | q'
      · left; exact (add_pos_of_nonneg_of_pos h5 q').ne'
      · right; exact ⟨q.symm, q'.symm⟩) hq
  refine ⟨a, d, e, u, p, ?_, ha, hd, e4, ?_⟩
  · unfold capecod
    simp only [htr, h1, e1, u1, bind, Except.bind]
  · obtain ⟨q1, q2, q3, q4, q5, q6, q7, q8, q9, q10, q11, q12, q13⟩ := u2
    refine ⟨q1, q2, q3, q4, q5, q6, q7, q8, q9, q10, q11, q12, ?_⟩
    intro i c o dd hi hc ho hdd hval
    have hpi : p[i] < t.kdims.length := by
      have := q1.mem_iff.1 (List.getElem_mem hi)
      exact List.mem_range.1 this
    rw [q13 i c o dd hi hc ho hdd hval, one_mul, e4 p[i] hpi c hc o ho]

/-- An exposure is required. -/
theorem C36_no_exposure (fac : Int → K) (t f : Tri K) (decay : K) (n : Nat) :
    t.capecod fac f none decay n = .error .valueError := rfl

/-! ## Example: premiums of 200, half the weight for each origin further away -/

/-- Doubling from year to year. -/
def C36.double (m : Int) : ℚ := if m < 12 then 1 else if m < 24 then 2 else 4

/-- The latest cell of origin `o` of the example is at development `2 - o`. -/
theorem C36.latest : C36.Latest (Ex.tri3 (some true) Ex.cum3) fun o => 2 - o := by
  unfold C36.Latest; decide

theorem C36.double_pos (m : Int) : 0 < C36.double m := by
  unfold C36.double; split_ifs <;> norm_num

example : ∃ a d e u, (Ex.tri3 (some true) Ex.cum3).capecod C36.double C33.pat
      (some (C35.premium fun _ => 200)) (1 / 2) 1 = .ok (a, d, e, u) ∧
    a.values.get 0 0 0 0 = .fin (297297 / 106000) ∧ a.values.get 0 0 1 0 = .fin (251559 / 113000) ∧
    a.values.get 0 0 2 0 = .fin (313929 / 173000) ∧ d.values.get 0 0 0 0 = .fin (297297 / 424000) ∧
    u.values.get 0 0 1 0 = .fin (223599 / 1130) := by
  obtain ⟨l, hl, hd⟩ := C05_regular C33.cumTri.wf C33.cumTri.ordered C33.cumTri.dated
    C33.cumTri.distinct C33.cumTri.ages_two C33.cumTri.origins_pos (D := 2) (q := 1) le_rfl (by decide)
    (by decide) (by decide)
  have hlt : l.toAgg = .tri l := by
    unfold toAgg
    rw [if_neg]
    rintro ⟨-, -, h2, -⟩
    rw [hd.wf.2.2.1, hd.origins.1, List.length_range] at h2
    exact absurd h2 (by decide)
  rw [hlt] at hl
  obtain ⟨tr, htr, -⟩ := ok_of (x := (Ex.tri3 (some true) Ex.cum3).trendFactors C36.double)
    (fun _ => True) (by decide +kernel)
  obtain ⟨a, d, e, u, p, h1, h2, h3, -, h5⟩ := C36_fit_partial C33.cumTri C33.patternFor
    (C35.exposureFor fun _ => 200) rfl C36.latest hl (decay := 1 / 2) (by norm_num) C36.double_pos htr 1
    (by decide +kernel) (by decide +kernel) (by decide +kernel) (by decide +kernel)
  have hp := h5.keeps (by decide)
  subst hp
  refine ⟨a, d, e, u, h1, ?_, ?_, ?_, ?_, ?_⟩
  · rw [h2.cells 0 (by decide) 0 (by decide) 0 (by decide)]; decide +kernel
  · rw [h2.cells 0 (by decide) 0 (by decide) 1 (by decide)]; decide +kernel
  · rw [h2.cells 0 (by decide) 0 (by decide) 2 (by decide)]; decide +kernel
  · rw [h3.cells 0 (by decide) 0 (by decide) 0 (by decide)]; decide +kernel
  · rw [h5.cells 0 0 1 1 (by decide) (by decide) (by decide) (by decide) (by decide)]; decide +kernel

/-- One premium for all origins. -/
def C36.onePremium : Tri ℚ :=
  { C35.premium fun _ => 200 with
    odims := [24264]
    values := ⟨1, 1, 1, 1, fun _ _ _ _ => .fin 200⟩ }

/-- **C36 is false for one exposure for all origins**: the decay is ignored, and the a-priori has a
single value although it is labelled with all origins. -/
theorem C36_single_exposure_false :
    ExposureFor (Ex.tri3 (some true) Ex.cum3) C36.onePremium ∧
    ∃ r, (Ex.tri3 (some true) Ex.cum3).capecod C36.double C33.pat (some C36.onePremium) (1 / 2) 1 = .ok r ∧
      r.1.odims = [24240, 24252, 24264] ∧ r.1.values.d2 = 1 ∧
      r.1.values.get 0 0 0 0 ≠ .fin (C36.apriori (Ex.tri3 (some true) Ex.cum3) C33.pat C36.onePremium
        (fun o => 2 - o) C36.double (1 / 2) 0 0 0) ∧
      r.1.values.get 0 0 0 0 = .fin (C36.apriori (Ex.tri3 (some true) Ex.cum3) C33.pat C36.onePremium
        (fun o => 2 - o) C36.double 1 0 0 0) :=
  ⟨⟨⟨rfl, rfl, rfl, rfl⟩, fun _ _ _ _ _ _ _ _ => by simp [C36.onePremium], rfl, rfl, Or.inl rfl,
    Or.inr rfl, Or.inr rfl, rfl⟩, ok_of _ (by decide +kernel)⟩

end Tri
end CL
