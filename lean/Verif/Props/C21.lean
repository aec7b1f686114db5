import Verif.Lemmas.ByLabel
import Verif.Lemmas.Increments
import Verif.Props.C55
import Verif.Spec.Examples
import Mathlib.Algebra.Order.Round
import Mathlib.Data.Rat.Floor

set_option linter.unusedSectionVars false

/-! # C21: JSON round trip -/

namespace CL
namespace Json
variable {K : Type} [Field K] [LinearOrder K] [IsStrictOrderedRing K]
open Tri Con

/-- A triangle on a regular grid of calendar origin periods, with enough amounts to find its axes: an
amount is recorded for the first origin at the first age, at the valuation date and for another origin,
and the dates recorded have the grains of the triangle.  Semi-annual grains are excluded. -/
structure Savable (x : Tri K) (a : Int) (n D q : Nat) : Prop extends Grid x a n D q where
  noPattern : x.isPattern = false
  flag : x.isCum = some false ∨ x.isCum = some true ∧ 3 ≤ D
  offset : Dev.valOffset x.dgrain x.ograin = some q
  calendar : (x.ograin.months : Int) ∣ a
  limit : D * x.dgrain.months < 9000
  before : x.vd < ultVal - 12
  keys : x.kdims.Nodup
  columns : x.vdims.Nodup
  first : ∃ i c, i < x.kdims.length ∧ c < x.vdims.length ∧ Moves x i c 0 0
  last : ∃ i c o d, i < x.kdims.length ∧ c < x.vdims.length ∧ o < n ∧ d < D ∧
    x.valuation o d = x.vd ∧ Moves x i c o d
  later : ∃ i c o d, i < x.kdims.length ∧ c < x.vdims.length ∧ o < n ∧ d < D ∧ o ≠ 0 ∧ Moves x i c o d
  noS : x.ograin ≠ .S ∧ x.dgrain ≠ .S
  ograin : ∀ l : List Int, (∀ m, m ∈ l ↔ ∃ i < x.kdims.length, ∃ c < x.vdims.length, ∃ o < n,
    ∃ d < D, Moves x i c o d ∧ x.odims.getD o 0 = m) → getGrain l = x.ograin
  dgrain : ∀ l : List Int, (∀ m, m ∈ l ↔ ∃ i < x.kdims.length, ∃ c < x.vdims.length, ∃ o < n,
    ∃ d < D, Moves x i c o d ∧ x.valuation o d = m) → getGrain l = x.dgrain

namespace Savable
variable {x : Tri K} {a : Int} {n D q : Nat}

/-- The increments that `to_json` writes. -/
theorem increments (h : Savable x a n D q) : ∃ u, x.cumToIncr = .ok u ∧ SameLabels u x ∧
    u.isCum = some false ∧ u.isPattern = false ∧ Grid u a n D q ∧
    (∀ i < x.kdims.length, ∀ c < x.vdims.length, ∀ o < n, ∀ d < D,
      (u.values.get i c o d ≠ .nan ↔ Moves x i c o d)) ∧
    ∀ i < x.kdims.length, ∀ c < x.vdims.length, ∀ o < n, ∀ d < D, x.valuation o d ≤ x.vd →
      (u.values.get i c o d).amt = if x.isCum = some true ∧ d ≠ 0 then
        (x.values.get i c o d).amt - (x.values.get i c o (d - 1)).amt
        else (x.values.get i c o d).amt :=
  h.toGrid.increments h.noPattern h.flag

theorem valuation_congr {t u : Tri K} (h : SameLabels t u) (o d : Nat) :
    t.valuation o d = u.valuation o d := by
  obtain ⟨-, -, -, l4, l5, l6, -, -, l9, -⟩ := h
  unfold Tri.valuation
  rw [l4, l5, l6, l9]

/-- What is written determines the axes. -/
theorem written (h : Savable x a n D q) {w : Tri K} (hl : SameLabels w x) (hg : Grid w a n D q)
    (hm : ∀ i < x.kdims.length, ∀ c < x.vdims.length, ∀ o < n, ∀ d < D,
      (w.values.get i c o d ≠ .nan ↔ Moves x i c o d)) : Written w a n D q := by
  have hval := valuation_congr hl
  obtain ⟨l1, l2, l3, l4, l5, l6, l7, l8, l9, l10⟩ := hl
  have h2 := h.two_ages
  have h3 := h.two_origins
  refine { hg with
    offset := by rw [l8, l7]; exact h.offset
    calendar := by rw [l7]; exact h.calendar
    limit := by rw [l8]; exact h.limit
    before := by rw [l9]; exact h.before
    keys := by rw [l1]; exact h.keys
    columns := by rw [l3]; exact h.columns
    first := ?_
    last := ?_
    later := ?_
    noS := by rw [l7, l8]; exact h.noS
    ograin := ?_
    dgrain := ?_ }
  · obtain ⟨i, c, hi, hc, hx⟩ := h.first
    exact ⟨i, c, by rw [l1]; exact hi, by rw [l3]; exact hc,
      (hm i hi c hc 0 (by omega) 0 (by omega)).mpr hx⟩
  · obtain ⟨i, c, o, d, hi, hc, ho, hd, hv, hx⟩ := h.last
    refine ⟨i, c, o, d, by rw [l1]; exact hi, by rw [l3]; exact hc, ho, hd, ?_,
      (hm i hi c hc o ho d hd).mpr hx⟩
    rw [h.valuation ho hd, h.vd] at hv
    have : (q * o + d + 1) * x.dgrain.months = D * x.dgrain.months := by omega
    exact Nat.eq_of_mul_eq_mul_right (months_pos _) this
  · obtain ⟨i, c, o, d, hi, hc, ho, hd, hne, hx⟩ := h.later
    exact ⟨i, by rw [l1]; exact hi, c, by rw [l3]; exact hc, o, by rw [l4, h.lenO]; exact ho, d,
      by rw [l5, h.lenD]; exact hd, hne, (hm i hi c hc o ho d hd).mpr hx⟩
  · intro l hmem
    rw [l7]
    refine h.ograin l fun m => ?_
    rw [hmem, l1, l3, l4]
    constructor
    · rintro ⟨i, hi, c, hc, o, ho, d, hd, hx, e⟩
      exact ⟨i, hi, c, hc, o, ho, d, hd, (hm i hi c hc o ho d hd).mp hx, e⟩
    · rintro ⟨i, hi, c, hc, o, ho, d, hd, hx, e⟩
      exact ⟨i, hi, c, hc, o, ho, d, hd, (hm i hi c hc o ho d hd).mpr hx, e⟩
  · intro l hmem
    rw [l8]
    refine h.dgrain l fun m => ?_
    rw [hmem, l1, l3]
    simp only [hval]
    constructor
    · rintro ⟨i, hi, c, hc, o, ho, d, hd, hx, e⟩
      exact ⟨i, hi, c, hc, o, ho, d, hd, (hm i hi c hc o ho d hd).mp hx, e⟩
    · rintro ⟨i, hi, c, hc, o, ho, d, hd, hx, e⟩
      exact ⟨i, hi, c, hc, o, ho, d, hd, (hm i hi c hc o ho d hd).mpr hx, e⟩

/-- What `to_json` writes. -/
theorem toJson_ok (h : Savable x a n D q) (enc : K → K) : ∃ w, Json.toJson enc x = .ok {
      isVal := false
      isCum := x.isCum
      isPattern := false
      columns := w.vdims
      keyLabels := w.keyLabels
      rows := (stored w).map (row enc w) } ∧ SameLabels w x ∧ Written w a n D q ∧
    (∀ i < x.kdims.length, ∀ c < x.vdims.length, ∀ o < n, ∀ d < D,
      (w.values.get i c o d ≠ .nan ↔ Moves x i c o d)) ∧
    ∀ i < x.kdims.length, ∀ c < x.vdims.length, ∀ o < n, ∀ d < D, x.valuation o d ≤ x.vd →
      (w.values.get i c o d).amt = if x.isCum = some true ∧ d ≠ 0 then
        (x.values.get i c o d).amt - (x.values.get i c o (d - 1)).amt
        else (x.values.get i c o d).amt := by
  obtain ⟨u, e, hl, -, -, hg, hm, hamt⟩ := h.increments
  obtain ⟨l1, l2, l3, l4, l5, l6, l7, l8, l9, l10⟩ := hl
  have hlater : Later u := by
    obtain ⟨i, c, o, d, hi, hc, ho, hd, hne, hx⟩ := h.later
    exact ⟨i, by rw [l1]; exact hi, c, by rw [l3]; exact hc, o, by rw [hg.lenO]; exact ho, d,
      by rw [hg.lenD]; exact hd, hne, (hm i hi c hc o ho d hd).mpr hx⟩
  obtain ⟨v, w, ev, ew, hlw, -, -, hsw, hcw⟩ := C07_round_trip_partial hg
    (by rw [l8, l7]; exact h.offset) hlater (by
      have := h.before
      rw [l9]
      have e : ultVal = 12 * 2261 + 11 := rfl
      omega)
  have hcw' : ∀ i < x.kdims.length, ∀ c < x.vdims.length, ∀ o < n, ∀ d < D,
      w.values.get i c o d = u.values.get i c o d := by
    intro i hi c hc o ho d hd
    exact hcw i (by rw [l1]; exact hi) c (by rw [l3]; exact hc) o (by rw [hg.lenO]; exact ho) d
      (by rw [hg.lenD]; exact hd)
  have hlx : SameLabels w x := by
    obtain ⟨m1, m2, m3, m4, m5, m6, m7, m8, m9, m10⟩ := hlw
    exact ⟨m1.trans l1, m2.trans l2, m3.trans l3, m4.trans l4, m5.trans l5, m6.trans l6,
      m7.trans l7, m8.trans l8, m9.trans l9, m10.trans l10⟩
  have hgw : Grid w a n D q := by
    refine grid_congr hg hlw hsw fun i hi c hc o ho d hd => ?_
    rw [hcw i hi c hc o (by rw [hg.lenO]; exact ho) d (by rw [hg.lenD]; exact hd)]
    by_cases hgt : D < q * o + d + 1
    · exact Or.inl ⟨hg.known i hi c hc o ho d hd hgt, hgt⟩
    · refine Or.inr ⟨hg.finite i (by rw [hg.wf.1]; exact hi) c (by rw [hg.wf.2.1]; exact hc) o
        (by rw [hg.wf.2.2.1, hg.lenO]; exact ho) d (by rw [hg.wf.2.2.2, hg.lenD]; exact hd), hgt⟩
  have hmw : ∀ i < x.kdims.length, ∀ c < x.vdims.length, ∀ o < n, ∀ d < D,
      (w.values.get i c o d ≠ .nan ↔ Moves x i c o d) := by
    intro i hi c hc o ho d hd
    rw [hcw' i hi c hc o ho d hd]
    exact hm i hi c hc o ho d hd
  have hw := h.written hlx hgw hmw
  refine ⟨w, ?_, hlx, hw, hmw, ?_⟩
  · unfold Json.toJson
    simp only [bind, Except.bind]
    rw [e]
    simp only
    rw [ev]
    simp only
    rw [ew]
    simp only
    obtain ⟨i0, hi0⟩ := hw.first_mem
    rw [if_pos ⟨hw.keys, List.ne_nil_of_mem hi0⟩, h.isVal, h.noPattern, hlx.2.2.1, hlx.2.1]
  · intro i hi c hc o ho d hd hv
    rw [hcw' i hi c hc o ho d hd]
    exact hamt i hi c hc o ho d hd hv

end Savable

/-- Reading what was written. -/
theorem Written.readJson_ok {w : Tri K} {a : Int} {n D q : Nat} (h : Written w a n D q) (enc : K → K)
    (h0 : enc 0 = 0) (b : Bool) : ∃ y n1, readJson {
      isVal := false
      isCum := some b
      isPattern := false
      columns := w.vdims
      keyLabels := w.keyLabels
      rows := (stored w).map (row enc w) } = .ok y ∧ n ≤ n1 ∧ q * (n1 - 1) < D ∧ WF y ∧ y.isCum = some b ∧ y.isPattern = false ∧
    y.isVal = false ∧ y.keyLabels = w.keyLabels ∧ y.vdims = w.vdims ∧ y.ddims = w.ddims ∧
    y.ograin = w.ograin ∧ y.dgrain = w.dgrain ∧ y.vd = w.vd ∧
    y.odims = ((List.range n1).map fun o : Nat => a + (o * q * w.dgrain.months : Nat)) ∧
    y.kdims.Pairwise (· < ·) ∧
    (∀ k, k ∈ y.kdims ↔ ∃ i o d, (i, o, d) ∈ stored w ∧ w.kdims.getD i [] = k) ∧
    (∀ o < n1, ∀ d < D, y.valuation o d = a + ((q * o + d + 1) * w.dgrain.months : Nat) - 1) ∧
    ∀ i i' c o d, i < w.kdims.length → c < w.vdims.length → o < n1 → d < D →
      y.kdims[i']? = some (w.kdims.getD i []) → (y.values.get i' c o d).amt =
        if o < n then
          if b then if q * o + d < D then ∑ j ∈ Finset.range (d + 1), enc (w.values.get i c o j).amt else 0
          else enc (w.values.get i c o d).amt
        else 0 := by
  have hne : w.vdims ≠ [] := by
    intro e
    have := h.columns_pos
    rw [e] at this
    simp at this
  obtain ⟨u, n1, hu, hg, hn1, hvd, hog, hdg, hkl, hvdims, hcum, hpat, hadd, hkn, hkm⟩ :=
    h.construct_grid enc (cols := w.vdims) (kl := w.keyLabels) hne
  have hD2 := h.two_ages
  have hn2 := hg.two_origins
  -- the amounts of the constructed triangle
  have hcell : ∀ i i' c o d, i < w.kdims.length → c < w.vdims.length → o < n1 → d < D →
      u.kdims[i']? = some (w.kdims.getD i []) → (u.values.get i' c o d).amt =
        if o < n then enc (w.values.get i c o d).amt else 0 := by
    intro i i' c o d hi hc ho hd hk
    rw [h.construct_cell enc hu hg hdg hog hi hc hk ho hd]
    by_cases hon : o < n
    · have hfin : (w.values.get i c o d).NoInf := h.finite i (by rw [h.wf.1]; exact hi) c
        (by rw [h.wf.2.1]; exact hc) o (by rw [h.wf.2.2.1, h.lenO]; exact hon) d
        (by rw [h.wf.2.2.2, h.lenD]; exact hd)
      rw [if_pos hon]
      split_ifs with hr
      · rw [Num.amt_numToNan]
        unfold text
        rw [Num.nan0_eq hfin]
        rfl
      · have hx : w.values.get i c o d = .nan := by
          by_contra hx
          exact hr ⟨hon, c, hc, hx⟩
        rw [hx, Num.amt_nan, h0]
    · rw [if_neg hon, if_neg fun hr => hon hr.1]
      rfl
  -- accumulation
  obtain ⟨s, hs⟩ : ∃ s, s = if some b = some true then u.incrToCum else u := ⟨_, rfl⟩
  have hfin : Finite u := hg.finite
  have hrun := C02_running_total_partial hfin hcum hpat (by rw [hg.wf.2.2.1, hg.lenO]; exact hn2)
    (by rw [hg.wf.2.2.2, hg.lenD]; exact hD2)
  have hsl : SameLabels s u ∧ Arr.SameShape s.values u.values ∧ s.isCum = some b := by
    rw [hs]
    cases b with
    | true => exact ⟨hrun.1, hrun.2.1, hrun.2.2.1⟩
    | false => exact ⟨⟨rfl, rfl, rfl, rfl, rfl, rfl, rfl, rfl, rfl, rfl⟩, ⟨rfl, rfl, rfl, rfl⟩, hcum⟩
  obtain ⟨hl, hsh, hsb⟩ := hsl
  have hsval := Savable.valuation_congr hl
  obtain ⟨l1, l2, l3, l4, l5, l6, l7, l8, l9, l10⟩ := hl
  obtain ⟨s0, s1, s2, s3⟩ := hsh
  have hsw : WF s := ⟨by rw [s0, hg.wf.1, l1], by rw [s1, hg.wf.2.1, l3], by rw [s2, hg.wf.2.2.1, l4],
    by rw [s3, hg.wf.2.2.2, l5]⟩
  have hsc : ∀ i i' c o d, i < w.kdims.length → c < w.vdims.length → o < n1 → d < D →
      u.kdims[i']? = some (w.kdims.getD i []) → (s.values.get i' c o d).amt =
        if o < n then
          if b then if q * o + d < D then ∑ j ∈ Finset.range (d + 1), enc (w.values.get i c o j).amt else 0
          else enc (w.values.get i c o d).amt
        else 0 := by
    intro i i' c o d hi hc ho hd hk
    have hi' : i' < u.kdims.length := (List.getElem?_eq_some_iff.mp hk).1
    rw [hs]
    cases b with
    | false =>
      simp only [Option.some.injEq, Bool.false_eq_true, if_false]
      exact hcell i i' c o d hi hc ho hd hk
    | true =>
      simp only [if_true]
      obtain ⟨k1, k2⟩ := hrun.2.2.2 i' (by rw [hg.wf.1]; exact hi') c
        (by rw [hg.wf.2.1, hvdims]; exact hc) o (by rw [hg.wf.2.2.1, hg.lenO]; exact ho) d
        (by rw [hg.wf.2.2.2, hg.lenD]; exact hd)
      by_cases hle : q * o + d < D
      · rw [k1 ((Grid.le_iff hg ho hd).mpr (by omega)), Num.amt_numToNan, Num.amt_fin, if_pos hle]
        by_cases hon : o < n
        · rw [if_pos hon]
          refine Finset.sum_congr rfl fun j hj => ?_
          rw [hcell i i' c o j hi hc ho (by have := Finset.mem_range.mp hj; omega) hk, if_pos hon]
        · rw [if_neg hon]
          refine Finset.sum_eq_zero fun j hj => ?_
          rw [hcell i i' c o j hi hc ho (by have := Finset.mem_range.mp hj; omega) hk, if_neg hon]
      · rw [k2 ((hg.valuation_gt ho hd).mpr (by omega)), if_neg hle]
        simp
  have hex : ∃ o < s.odims.length, ∃ d < s.ddims.length, s.vd ≤ s.valuation o d := by
    refine ⟨0, by rw [l4, hg.lenO]; omega, D - 1, by rw [l5, hg.lenD]; omega, ?_⟩
    rw [hsval, l9, hg.vd_eq]
  have hkne : s.kdims ≠ [] := by
    rw [l1]
    intro e
    have := hg.index_pos
    rw [e] at this
    simp at this
  obtain ⟨y, ey, hy, hperm, hsorted, hyw, hyc⟩ := select_sort hsw (by rw [l3, hvdims]; exact h.columns)
    (by rw [l3, hvdims]; exact hne) hkne (by rw [l1]; exact hkn) hex
  have hyv : ∀ o d, y.valuation o d = u.valuation o d := by
    intro o d
    rw [← hsval, hy]
    rfl
  refine ⟨y, n1, ?_, hn1, hg.recent, hyw, by rw [hy]; exact hsb, by rw [hy]; exact l10.trans hpat,
    by rw [hy]; exact l6.trans hg.isVal, by rw [hy]; exact l2.trans hkl, by rw [hy]; exact l3.trans hvdims,
    ?_, by rw [hy]; exact l7.trans hog, by rw [hy]; exact l8.trans hdg, by rw [hy]; exact l9.trans hvd,
    ?_, hsorted, ?_, ?_, ?_⟩
  · unfold readJson
    simp only [Bool.false_eq_true, if_false, bind, Except.bind, pure, Except.pure]
    rw [hu]
    simp only
    rw [← hs]
    rw [l3, hvdims] at ey
    exact ey
  · rw [hy]
    show s.ddims = _
    rw [l5, hg.ddims, h.ddims, hdg]
  · rw [hy]
    show s.odims = _
    rw [l4, hg.odims, hdg]
  · intro k
    rw [hperm.mem_iff, l1, hkm]
  · intro o ho d hd
    rw [hyv, hg.valuation ho hd, hdg]
  · intro i i' c o d hi hc ho hd hk
    have hi' : i' < y.kdims.length := (List.getElem?_eq_some_iff.mp hk).1
    have hmem : w.kdims.getD i [] ∈ s.kdims := hperm.mem_iff.mp (List.mem_of_getElem? hk)
    obtain ⟨i2, hi2, e2⟩ := List.mem_iff_getElem.mp hmem
    have hk2 : s.kdims[i2]? = some (w.kdims.getD i []) := by
      rw [List.getElem?_eq_getElem hi2, e2]
    rw [hyc i2 i' c o d (hk2.trans hk.symm) hi' (by rw [l3, hvdims]; exact hc)
      (by rw [l4, hg.lenO]; exact ho) (by rw [l5, hg.lenD]; exact hd)]
    exact hsc i i2 c o d hi hc ho hd (by rw [← l1]; exact hk2)

/-- `y` has the labels and flags of `x`: the origins of `x` come first, and the index keys of `x` that
have an amount are sorted. -/
structure Restored (x y : Tri K) : Prop where
  wf : WF y
  flags : y.isCum = x.isCum ∧ y.isPattern = x.isPattern ∧ y.isVal = x.isVal
  labels : y.keyLabels = x.keyLabels ∧ y.vdims = x.vdims ∧ y.ddims = x.ddims
  grains : y.ograin = x.ograin ∧ y.dgrain = x.dgrain
  vd : y.vd = x.vd
  origins : x.odims <+: y.odims
  spaced : ∀ r o, y.odims[r]? = some o → o = x.odims.getD 0 0 + (r * x.ograin.months : Nat)
  started : ∀ o ∈ y.odims, o ≤ x.vd
  sorted : y.kdims.Pairwise (· < ·)
  index : ∀ k, k ∈ y.kdims ↔ ∃ i, x.kdims[i]? = some k ∧ ∃ c < x.vdims.length,
    ∃ o < x.odims.length, ∃ d < x.ddims.length, Moves x i c o d

theorem odims_nodup {a : Int} {n q m : Nat} (hq : 1 ≤ q) (hm : 1 ≤ m) :
    ((List.range n).map fun o : Nat => a + (o * q * m : Nat)).Nodup := by
  refine List.Nodup.map_on ?_ List.nodup_range
  intro i _ j _ e
  have : i * q * m = j * q * m := by omega
  exact Nat.eq_of_mul_eq_mul_right hq (Nat.eq_of_mul_eq_mul_right hm this)

theorem getElem?_odims {a : Int} {n q m r : Nat} {o : Int}
    (h : ((List.range n).map fun o : Nat => a + (o * q * m : Nat))[r]? = some o) :
    r < n ∧ o = a + (r * q * m : Nat) := by
  obtain ⟨h1, e⟩ := List.getElem?_eq_some_iff.mp h
  simp at h1
  refine ⟨h1, ?_⟩
  rw [← e]
  simp

/-- The round trip, cell by cell. -/
theorem Savable.round_trip {x : Tri K} {a : Int} {n D q : Nat} (h : Savable x a n D q) (enc : K → K)
    (h0 : enc 0 = 0) : ∃ j y, toJson enc x = .ok j ∧ readJson j = .ok y ∧ Restored x y ∧
      ∀ k col o v, y.amountAt k col o v = 0 ∧ x.amountAt k col o v = 0 ∨
        ∃ i < x.kdims.length, ∃ c < x.vdims.length, ∃ r < n, ∃ d < D,
          x.valuation r d ≤ x.vd ∧ x.amountAt k col o v = (x.values.get i c r d).amt ∧
          y.amountAt k col o v = if x.isCum = some true then
            ∑ j ∈ Finset.range (d + 1), enc (increment x i c r j) else enc (increment x i c r d) := by
  obtain ⟨w, ej, hl, hw, hm, hamt⟩ := h.toJson_ok enc
  obtain ⟨b, hb⟩ : ∃ b, x.isCum = some b := by
    rcases h.flag with hf | ⟨hf, -⟩
    · exact ⟨_, hf⟩
    · exact ⟨_, hf⟩
  obtain ⟨y, n1, ey, hn1, hrec, hyw, y1, y2, y3, y4, y5, y6, y7, y8, y9, y10, y11, y12, y13, y14⟩ :=
    hw.readJson_ok enc h0 b
  obtain ⟨l1, l2, l3, l4, l5, l6, l7, l8, l9, l10⟩ := hl
  rw [hb] at ej
  have hmo := months_pos x.dgrain
  have hq := h.period
  rw [l8] at y10 y13
  rw [l1] at y14 y12
  rw [l3] at y14
  have hyl : y.odims.length = n1 := by rw [y10]; simp
  have hyd : y.ddims.length = D := by rw [y6, l5, h.lenD]
  -- what was written is the increment
  have hinc : ∀ i < x.kdims.length, ∀ c < x.vdims.length, ∀ o < n, ∀ d < D, q * o + d < D →
      (w.values.get i c o d).amt = increment x i c o d := by
    intro i hi c hc o ho d hd hk
    exact hamt i hi c hc o ho d hd ((Grid.le_iff h.toGrid ho hd).mpr (by omega))
  have hnone : ∀ i < x.kdims.length, ∀ c < x.vdims.length, ∀ o < n, ∀ d < D, ¬ q * o + d < D →
      w.values.get i c o d = .nan := by
    intro i hi c hc o ho d hd hk
    by_contra hx
    exact (Grid.le_iff h.toGrid ho hd).mp ((hm i hi c hc o ho d hd).mp hx).1 (by omega)
  have hinj : ∀ {r d d' : Nat}, a + ((q * r + d + 1) * x.dgrain.months : Nat) - 1 =
      a + ((q * r + d' + 1) * x.dgrain.months : Nat) - 1 → d = d' := by
    intro r d d' e
    have : (q * r + d + 1) * x.dgrain.months = (q * r + d' + 1) * x.dgrain.months := by omega
    have := Nat.eq_of_mul_eq_mul_right hmo this
    omega
  -- a key that is gone had no amount
  have hgone : ∀ i < x.kdims.length, x.kdims.getD i [] ∉ y.kdims → ∀ c < x.vdims.length, ∀ o < n,
      ∀ d < D, (x.values.get i c o d).amt = 0 := by
    intro i hi hk c hc o ho d hd
    have hwn : ∀ d < D, w.values.get i c o d = .nan := by
      intro d hd
      by_contra hx
      exact hk ((y12 _).mpr ⟨i, o, d, hw.mem.mpr ⟨by rw [l1]; exact hi, ho, hd, c,
        by rw [l3]; exact hc, hx⟩, rfl⟩)
    by_cases hkn : q * o + d < D
    · have hz : ∀ j < d + 1, increment x i c o j = 0 := by
        intro j hj
        rw [← hinc i hi c hc o ho j (by omega) (by omega), hwn j (by omega), Num.amt_nan]
      cases b with
      | true =>
        rw [← sum_increment x hb]
        exact Finset.sum_eq_zero fun j hj => hz j (Finset.mem_range.mp hj)
      | false =>
        have := hz d (by omega)
        unfold increment at this
        rwa [if_neg (by simp [hb])] at this
    · rw [h.known i hi c hc o ho d hd (by omega), Num.amt_nan]
  -- cells of both triangles with the same labels
  have hpos : ∀ {k col o v i' c r d}, HasLabels y k col o v i' c r d → ∃ i < x.kdims.length,
      x.kdims.getD i [] = k ∧ r < n1 ∧ d < D ∧ c < x.vdims.length ∧ x.vdims[c]? = some col ∧
      o = a + (r * q * x.dgrain.months : Nat) ∧ v = a + ((q * r + d + 1) * x.dgrain.months : Nat) - 1 := by
    rintro k col o v i' c r d ⟨p1, p2, p3, p4, p5⟩
    obtain ⟨i, o', d', hst, ek⟩ := (y12 k).mp (List.mem_of_getElem? p1)
    have hi := (hw.mem.mp hst).1
    rw [l1] at hi
    rw [y10] at p3
    obtain ⟨hr, eo⟩ := getElem?_odims p3
    rw [hyd] at p5
    rw [y5, l3] at p2
    rw [y13 r hr d p5] at p4
    exact ⟨i, hi, ek, hr, p5, (List.getElem?_eq_some_iff.mp p2).1, p2, eo, p4.symm⟩
  refine ⟨_, y, ej, ey, ?_, ?_⟩
  · refine ⟨hyw, ⟨by rw [y1, hb], by rw [y2, h.noPattern], by rw [y3, h.isVal]⟩,
      ⟨by rw [y4, l2], by rw [y5, l3], by rw [y6, l5]⟩, ⟨by rw [y7, l7], by rw [y8, l8]⟩,
      by rw [y9, l9], ?_, ?_, ?_, y11, ?_⟩
    · rw [y10, h.odims]
      refine List.IsPrefix.map _ ?_
      exact ⟨(List.range (n1 - n)).map (n + ·), by rw [← List.range_add, Nat.add_sub_cancel' hn1]⟩
    · intro r o ho
      rw [y10] at ho
      obtain ⟨-, rfl⟩ := getElem?_odims ho
      have hn0 := h.two_origins
      have e0 : x.odims.getD 0 0 = a := by
        rw [h.odims, List.getD_eq_getElem _ _ (by simp; omega)]
        simp
      rw [e0, (valOffset_months h.offset).1, Nat.mul_assoc]
    · intro o ho
      obtain ⟨r, hr⟩ := List.mem_iff_getElem?.mp ho
      rw [y10] at hr
      obtain ⟨hr1, rfl⟩ := getElem?_odims hr
      have h1 : r * q ≤ (n1 - 1) * q := Nat.mul_le_mul_right _ (by omega)
      rw [Nat.mul_comm q] at hrec
      have h2 : (r * q + 1) * x.dgrain.months ≤ D * x.dgrain.months := Nat.mul_le_mul_right _ (by omega)
      rw [Nat.add_mul] at h2
      rw [h.vd]
      omega
    · intro k
      rw [y12]
      constructor
      · rintro ⟨i, o, d, hst, ek⟩
        obtain ⟨hi, ho, hd, c, hc, hx⟩ := hw.mem.mp hst
        rw [l1] at hi
        rw [l3] at hc
        refine ⟨i, ?_, c, hc, o, by rw [h.lenO]; exact ho, d, by rw [h.lenD]; exact hd,
          (hm i hi c hc o ho d hd).mp hx⟩
        rw [← ek, List.getD_eq_getElem _ _ hi, List.getElem?_eq_getElem hi]
      · rintro ⟨i, hk, c, hc, o, ho, d, hd, hx⟩
        obtain ⟨hi, e⟩ := List.getElem?_eq_some_iff.mp hk
        rw [h.lenO] at ho
        rw [h.lenD] at hd
        refine ⟨i, o, d, hw.mem.mpr ⟨by rw [l1]; exact hi, ho, hd, c, by rw [l3]; exact hc,
          (hm i hi c hc o ho d hd).mpr hx⟩, ?_⟩
        rw [List.getD_eq_getElem _ _ hi, e]
  · intro k col o v
    by_cases hx : ∃ i c r d, HasLabels x k col o v i c r d
    · obtain ⟨i, c, r, d, hxl⟩ := hx
      have hxl' := hxl
      obtain ⟨p1, p2, p3, p4, p5⟩ := hxl'
      obtain ⟨hi, ek⟩ := List.getElem?_eq_some_iff.mp p1
      have hc := (List.getElem?_eq_some_iff.mp p2).1
      have p3' := p3
      rw [h.odims] at p3'
      obtain ⟨hr, eo⟩ := getElem?_odims p3'
      rw [h.lenD] at p5
      have ev := p4
      rw [h.valuation hr p5] at ev
      have exa : x.amountAt k col o v = (x.values.get i c r d).amt := by
        refine amountAt_some h.keys h.columns (by rw [h.odims]; exact odims_nodup hq hmo) ?_ hxl
        intro d' hd' e
        rw [h.lenD] at hd'
        rw [h.valuation hr hd', ← ev] at e
        exact hinj e
      have ek' : x.kdims.getD i [] = k := by rw [List.getD_eq_getElem _ _ hi, ek]
      by_cases hky : k ∈ y.kdims
      · obtain ⟨i', hi', ei'⟩ := List.mem_iff_getElem.mp hky
        have hk' : y.kdims[i']? = some k := by rw [List.getElem?_eq_getElem hi', ei']
        have hyl : HasLabels y k col o v i' c r d := by
          refine ⟨hk', by rw [y5, l3]; exact p2, ?_, ?_, by rw [hyd]; exact p5⟩
          · rw [y10, eo]
            simp [show r < n1 by omega]
          · rw [y13 r (by omega) d p5, ev]
        have eya : y.amountAt k col o v = (y.values.get i' c r d).amt := by
          refine amountAt_some (y11.imp ne_of_lt) (by rw [y5, l3]; exact h.columns)
            (by rw [y10]; exact odims_nodup hq hmo) ?_ hyl
          intro d' hd' e
          rw [hyd] at hd'
          rw [y13 r (by omega) d' hd', ← ev] at e
          exact hinj e
        rw [y14 i i' c r d hi hc (by omega) p5 (by rw [ek']; exact hk'), if_pos hr] at eya
        by_cases hkn : q * r + d < D
        · right
          refine ⟨i, hi, c, hc, r, hr, d, p5, (Grid.le_iff h.toGrid hr p5).mpr (by omega), exa, ?_⟩
          rw [eya, hb]
          cases b with
          | true =>
            simp only [if_true]
            rw [if_pos hkn]
            refine Finset.sum_congr rfl fun j hj => ?_
            have := Finset.mem_range.mp hj
            rw [hinc i hi c hc r hr j (by omega) (by omega)]
          | false =>
            simp only [Bool.false_eq_true, if_false, Option.some.injEq]
            rw [hinc i hi c hc r hr d p5 hkn]
        · left
          rw [exa, eya, h.known i hi c hc r hr d p5 (by omega)]
          refine ⟨?_, rfl⟩
          cases b with
          | true => rw [if_pos rfl, if_neg hkn]
          | false =>
            rw [if_neg (by simp), hnone i hi c hc r hr d p5 hkn, Num.amt_nan, h0]
      · left
        refine ⟨amountAt_none ?_, ?_⟩
        · rintro i' c' r' d' ⟨p, -⟩
          exact absurd (List.mem_of_getElem? p) hky
        · rw [exa]
          exact hgone i hi (by rw [ek']; exact hky) c hc r hr d p5
    · left
      refine ⟨amountAt_none ?_, amountAt_none fun i c r d hl => absurd ⟨i, c, r, d, hl⟩ hx⟩
      intro i' c r d hyl
      obtain ⟨i, hi, ek, hr, hd, hc, p2, eo, ev⟩ := hpos hyl
      have hrn : ¬ r < n := by
        intro hr'
        refine hx ⟨i, c, r, d, ?_, p2, ?_, ?_, by rw [h.lenD]; exact hd⟩
        · rw [← ek, List.getD_eq_getElem _ _ hi, List.getElem?_eq_getElem hi]
        · rw [h.odims, eo]
          simp [hr']
        · rw [h.valuation hr' hd, ev]
      rw [y14 i i' c r d hi hc hr hd (by rw [ek]; exact hyl.1), if_neg hrn]

/-- **C21, partial: development triangles on a regular grid of calendar periods, not semi-annual and no
patterns, amounts that survive the writing.**  `read_json(x.to_json())` has the flags, labels and grains
of `x`, and for every index, column, origin and valuation the same amount. -/
theorem _root_.CL.C21_json_partial {x : Tri K} {a : Int} {n D q : Nat} (h : Savable x a n D q)
    {enc : K → K} (h0 : enc 0 = 0)
    (hx : ∀ i < x.kdims.length, ∀ c < x.vdims.length, ∀ o < n, ∀ d < D, x.valuation o d ≤ x.vd →
      enc (increment x i c o d) = increment x i c o d) :
    ∃ j y, toJson enc x = .ok j ∧ readJson j = .ok y ∧ Restored x y ∧
      ∀ k col o v, y.amountAt k col o v = x.amountAt k col o v := by
  obtain ⟨j, y, e1, e2, hr, hc⟩ := h.round_trip enc h0
  refine ⟨j, y, e1, e2, hr, fun k col o v => ?_⟩
  rcases hc k col o v with ⟨z1, z2⟩ | ⟨i, hi, c, hc, r, hr, d, hd, hv, ex, ey⟩
  · rw [z1, z2]
  · rw [ex, ey]
    split_ifs with hcum
    · rw [← sum_increment x hcum]
      refine Finset.sum_congr rfl fun j hj => ?_
      have hjd := Finset.mem_range.mp hj
      refine hx i hi c hc r hr j (by omega) ?_
      rw [Grid.le_iff h.toGrid hr (by omega)]
      have := (Grid.le_iff h.toGrid hr hd).mp hv
      omega
    · rw [hx i hi c hc r hr d hd hv]
      unfold increment
      rw [if_neg fun hh => hcum hh.1]

/-- **C21 (rounding), partial: as `C21_json_partial`.**  Writing changes an increment by at most `ε`; the
amounts that are read differ from those of `x` by at most one `ε` for each age. -/
theorem _root_.CL.C21_rounding_partial {x : Tri K} {a : Int} {n D q : Nat} (h : Savable x a n D q)
    {enc : K → K} (h0 : enc 0 = 0) {ε : K} (hε : ∀ z, |enc z - z| ≤ ε) :
    ∃ j y, toJson enc x = .ok j ∧ readJson j = .ok y ∧ Restored x y ∧
      ∀ k col o v, |y.amountAt k col o v - x.amountAt k col o v| ≤ D * ε := by
  obtain ⟨j, y, e1, e2, hr, hc⟩ := h.round_trip enc h0
  have he : 0 ≤ ε := le_trans (abs_nonneg _) (hε 0)
  refine ⟨j, y, e1, e2, hr, fun k col o v => ?_⟩
  rcases hc k col o v with ⟨z1, z2⟩ | ⟨i, hi, c, hc, r, hr, d, hd, hv, ex, ey⟩
  · rw [z1, z2, sub_zero, abs_zero]
    positivity
  · rw [ex, ey]
    split_ifs with hcum
    · rw [← sum_increment x hcum, ← Finset.sum_sub_distrib]
      refine le_trans (Finset.abs_sum_le_sum_abs _ _) ?_
      refine le_trans (Finset.sum_le_card_nsmul _ _ ε fun j _ => hε _) ?_
      rw [Finset.card_range, nsmul_eq_mul]
      exact mul_le_mul_of_nonneg_right (by exact_mod_cast hd) he
    · have e : (x.values.get i c r d).amt = increment x i c r d := by
        unfold increment
        rw [if_neg fun hh => hcum hh.1]
      rw [e]
      refine le_trans (hε _) ?_
      have : (1 : K) ≤ D := by exact_mod_cast (by omega : 1 ≤ D)
      nlinarith

/-- **C21 (cell by cell), partial: as `C21_json_partial`, for a sorted index whose keys all have an
amount, and with all the origins that have started by the valuation date.**  Then every label and every
amount is where it was. -/
theorem _root_.CL.C21_same_partial {x : Tri K} {a : Int} {n D q : Nat} (h : Savable x a n D q)
    {enc : K → K} (h0 : enc 0 = 0)
    (hx : ∀ i < x.kdims.length, ∀ c < x.vdims.length, ∀ o < n, ∀ d < D, x.valuation o d ≤ x.vd →
      enc (increment x i c o d) = increment x i c o d)
    (hs : x.kdims.Pairwise (· < ·)) (hk : ∀ i < x.kdims.length, ∃ c < x.vdims.length, ∃ o < n, ∃ d < D,
      Moves x i c o d) (hn : D ≤ q * n) :
    ∃ j y, toJson enc x = .ok j ∧ readJson j = .ok y ∧ SameLabels y x ∧ y.isCum = x.isCum ∧
      SameAmounts y.values x.values := by
  obtain ⟨j, y, e1, e2, hr, hc⟩ := C21_json_partial h h0 hx
  have hmo := months_pos x.dgrain
  have hkd : y.kdims = x.kdims := by
    refine List.Pairwise.eq_of_mem_iff hr.sorted hs fun k => ?_
    rw [hr.index]
    constructor
    · rintro ⟨i, hi, -⟩
      exact List.mem_of_getElem? hi
    · intro hm
      obtain ⟨i, hi, e⟩ := List.mem_iff_getElem.mp hm
      obtain ⟨c, hc, o, ho, d, hd, hx⟩ := hk i hi
      exact ⟨i, by rw [List.getElem?_eq_getElem hi, e], c, hc, o, by rw [h.lenO]; exact ho, d,
        by rw [h.lenD]; exact hd, hx⟩
  have hod : y.odims = x.odims := by
    obtain ⟨l, el⟩ := hr.origins
    cases l with
    | nil => rw [← el, List.append_nil]
    | cons b l =>
      exfalso
      have hb : y.odims[n]? = some b := by
        rw [← el, List.getElem?_append_right (by rw [h.lenO]), h.lenO]
        simp
      have h1 := hr.spaced n b hb
      have h2 := hr.started b (List.mem_of_getElem? hb)
      have hn0 := h.two_origins
      have e0 : x.odims.getD 0 0 = a := by
        rw [h.odims, List.getD_eq_getElem _ _ (by simp; omega)]
        simp
      rw [h1, e0, h.vd, (valOffset_months h.offset).1] at h2
      have h3 : D * x.dgrain.months ≤ n * (q * x.dgrain.months) := by
        rw [← Nat.mul_assoc, Nat.mul_comm n]
        exact Nat.mul_le_mul_right _ hn
      omega
  have hsl : SameLabels y x := ⟨hkd, hr.labels.1, hr.labels.2.1, hod, hr.labels.2.2, hr.flags.2.2,
    hr.grains.1, hr.grains.2, hr.vd, hr.flags.2.1⟩
  obtain ⟨w0, w1, w2, w3⟩ := hr.wf
  obtain ⟨v0, v1, v2, v3⟩ := h.wf
  refine ⟨j, y, e1, e2, hsl, hr.flags.1, ⟨by rw [w0, v0, hkd], by rw [w1, v1, hr.labels.2.1],
    by rw [w2, v2, hod], by rw [w3, v3, hr.labels.2.2]⟩, ?_⟩
  intro i hi c hci o ho d hd
  rw [v0] at hi
  rw [v1] at hci
  rw [v2] at ho
  rw [v3] at hd
  have ho' : o < n := by rw [← h.lenO]; exact ho
  have hd' : d < D := by rw [← h.lenD]; exact hd
  have hinj : ∀ d' < D, x.valuation o d' = x.valuation o d → d' = d := by
    intro d' hd2 e
    rw [h.valuation ho' hd', h.valuation ho' hd2] at e
    have : (q * o + d' + 1) * x.dgrain.months = (q * o + d + 1) * x.dgrain.months := by omega
    have := Nat.eq_of_mul_eq_mul_right hmo this
    omega
  have hl : HasLabels x x.kdims[i] x.vdims[c] x.odims[o] (x.valuation o d) i c o d :=
    ⟨List.getElem?_eq_getElem hi, List.getElem?_eq_getElem hci, List.getElem?_eq_getElem ho, rfl, hd⟩
  have hnd : x.odims.Nodup := by rw [h.odims]; exact odims_nodup h.period hmo
  have hl' : HasLabels y x.kdims[i] x.vdims[c] x.odims[o] (x.valuation o d) i c o d := by
    refine ⟨by rw [hkd]; exact hl.1, by rw [hr.labels.2.1]; exact hl.2.1, by rw [hod]; exact hl.2.2.1,
      Savable.valuation_congr hsl o d, by rw [hr.labels.2.2]; exact hd⟩
  rw [← amountAt_some h.keys h.columns hnd (fun d' h1 => hinj d' (by rw [← h.lenD]; exact h1)) hl,
    ← amountAt_some (by rw [hkd]; exact h.keys) (by rw [hr.labels.2.1]; exact h.columns)
      (by rw [hod]; exact hnd) (fun d' h1 e => hinj d' (by rw [← h.lenD, ← hr.labels.2.2]; exact h1)
        (by rw [← Savable.valuation_congr hsl]; exact e)) hl']
  exact hc _ _ _ _

/-- How many consecutive periods show the grain. -/
def enough : Grain → Nat
  | .Y => 1
  | .S => 2
  | .Q => 4
  | .M => 2

/-- The grain of consecutive periods. -/
theorem getGrain_run {g : Grain} (hS : g ≠ .S) {b : Int} {N : Nat} (hN : enough g ≤ N) {l : List Int}
    (hl : ∀ m, m ∈ l ↔ ∃ k < N, m = b + (k * g.months : Nat)) : getGrain l = g := by
  have hd : ∀ x ∈ l, ∀ y ∈ l, (g.months : Int) ∣ x - y := by
    intro x hx y hy
    obtain ⟨k, -, rfl⟩ := (hl x).mp hx
    obtain ⟨k', -, rfl⟩ := (hl y).mp hy
    exact ⟨(k : Int) - k', by push_cast; ring⟩
  have hm : ∀ k < N, b + (k * g.months : Nat) ∈ l := fun k hk => (hl _).mpr ⟨k, hk, rfl⟩
  have hs := C55_sound l
  cases g with
  | S => exact absurd rfl hS
  | Y =>
    refine C55_annual ?_ hd
    intro e
    have := hm 0 hN
    rw [e] at this
    simp at this
  | Q =>
    simp only [enough] at hN
    simp only [Grain.months] at hm hl hd
    have hq := C55_quarterly_partial hd ?_
    · have h1 := hs _ (hm 1 (by omega)) _ (hm 0 (by omega))
      rcases hq with e | e | e
      · rw [e] at h1; simp only [Grain.months] at h1; omega
      · rw [e] at h1; simp only [Grain.months] at h1; omega
      · exact e
    · intro x hx y hy hlt
      obtain ⟨k, -, rfl⟩ := (hl x).mp hx
      obtain ⟨k', -, rfl⟩ := (hl y).mp hy
      refine ⟨_, hm ((k + 1) % 4) (by omega), ?_⟩
      push_cast at *
      omega
  | M =>
    simp only [enough] at hN
    have h1 := hs _ (hm 1 (by omega)) _ (hm 0 (by omega))
    simp only [Grain.months] at h1
    cases e : getGrain l with
    | M => rfl
    | Y => rw [e] at h1; simp only [] at h1; omega
    | S => rw [e] at h1; simp only [] at h1; omega
    | Q => rw [e] at h1; simp only [] at h1; omega

/-- A triangle with something recorded in every known cell, for some index key and column, and enough
origins and ages to show its grains. -/
theorem Savable.of_recorded {x : Tri K} {a : Int} {n D q : Nat} (h : Grid x a n D q)
    (noPattern : x.isPattern = false) (flag : x.isCum = some false ∨ x.isCum = some true ∧ 3 ≤ D)
    (offset : Dev.valOffset x.dgrain x.ograin = some q) (calendar : (x.ograin.months : Int) ∣ a)
    (limit : D * x.dgrain.months < 9000) (before : x.vd < ultVal - 12) (keys : x.kdims.Nodup)
    (columns : x.vdims.Nodup) (noS : x.ograin ≠ .S ∧ x.dgrain ≠ .S)
    (all : ∀ o < n, ∀ d < D, x.valuation o d ≤ x.vd →
      ∃ i < x.kdims.length, ∃ c < x.vdims.length, Moves x i c o d)
    (hn : enough x.ograin ≤ n) (hD : enough x.dgrain ≤ D) : Savable x a n D q := by
  have hn2 := h.two_origins
  have hq := h.period
  have hrec := h.recent
  have hkn : ∀ o < n, q * o < D := by
    intro o ho
    have : q * o ≤ q * (n - 1) := Nat.mul_le_mul_left _ (by omega)
    omega
  refine ⟨h, noPattern, flag, offset, calendar, limit, before, keys, columns, ?_, ?_, ?_, noS, ?_, ?_⟩
  · obtain ⟨i, hi, c, hc, hx⟩ := all 0 (by omega) 0 (by omega) (by
      rw [Grid.le_iff h (by omega) (by omega)]; omega)
    exact ⟨i, c, hi, hc, hx⟩
  · have hv : x.valuation 0 (D - 1) = x.vd := by
      rw [h.valuation (by omega) (by omega), h.vd, Nat.mul_zero, Nat.zero_add, Nat.sub_add_cancel (by omega)]
    obtain ⟨i, hi, c, hc, hx⟩ := all 0 (by omega) (D - 1) (by omega) hv.le
    exact ⟨i, c, 0, D - 1, hi, hc, by omega, by omega, hv, hx⟩
  · obtain ⟨i, hi, c, hc, hx⟩ := all 1 (by omega) 0 (by omega) (by
      rw [Grid.le_iff h (by omega) (by omega)]
      have := hkn 1 (by omega)
      omega)
    exact ⟨i, c, 1, 0, hi, hc, by omega, by omega, by omega, hx⟩
  · intro l hl
    refine getGrain_run noS.1 (b := a) hn fun m => ?_
    rw [hl, (valOffset_months offset).1]
    have ho : ∀ o < n, x.odims.getD o 0 = a + ((o * (q * x.dgrain.months) : Nat) : Int) := by
      intro o ho
      rw [h.odims, List.getD_eq_getElem _ _ (by simpa using ho)]
      simp [Nat.mul_assoc]
    constructor
    · rintro ⟨i, hi, c, hc, o, hon, d, hd, -, e⟩
      exact ⟨o, hon, by rw [← e, ho o hon]⟩
    · rintro ⟨o, hon, e⟩
      obtain ⟨i, hi, c, hc, hx⟩ := all o hon 0 (by omega) (by
        rw [Grid.le_iff h hon (by omega)]
        have := hkn o hon
        omega)
      exact ⟨i, hi, c, hc, o, hon, 0, by omega, hx, by rw [e, ho o hon]⟩
  · intro l hl
    refine getGrain_run noS.2 (b := a + x.dgrain.months - 1) hD fun m => ?_
    rw [hl]
    constructor
    · rintro ⟨i, hi, c, hc, o, hon, d, hd, hx, e⟩
      have := (Grid.le_iff h hon hd).mp hx.1
      refine ⟨q * o + d, by omega, ?_⟩
      rw [← e, h.valuation hon hd, Nat.add_mul _ 1, Nat.one_mul]
      push_cast
      ring
    · rintro ⟨k, hk, e⟩
      obtain ⟨i, hi, c, hc, hx⟩ := all 0 (by omega) k hk (by
        rw [Grid.le_iff h (by omega) hk]; omega)
      refine ⟨i, hi, c, hc, 0, by omega, k, hk, hx, ?_⟩
      rw [e, h.valuation (by omega) hk, Nat.mul_zero, Nat.zero_add, Nat.add_mul k 1, Nat.one_mul]
      push_cast
      ring

/-- Ten decimals. -/
def decimals [FloorRing K] (z : K) : K := round (z * 10 ^ 10) / 10 ^ 10

theorem decimals_error [FloorRing K] (z : K) : |decimals z - z| ≤ 1 / 2 / 10 ^ 10 := by
  have h : (0 : K) < 10 ^ 10 := by positivity
  have e : decimals z - z = (round (z * 10 ^ 10) - z * 10 ^ 10) / 10 ^ 10 := by
    unfold decimals
    rw [sub_div, mul_div_cancel_right₀ _ (ne_of_gt h)]
  rw [e, abs_div, abs_of_pos h, div_le_div_iff_of_pos_right h, abs_sub_comm]
  exact abs_sub_round _

/-- **C21 (ten decimals), partial: as `C21_json_partial`.**  Amounts differ by at most half of the tenth
decimal for each age. -/
theorem _root_.CL.C21_decimals_partial [FloorRing K] {x : Tri K} {a : Int} {n D q : Nat}
    (h : Savable x a n D q) :
    ∃ j y, toJson decimals x = .ok j ∧ readJson j = .ok y ∧ Restored x y ∧
      ∀ k col o v, |y.amountAt k col o v - x.amountAt k col o v| ≤ D * (1 / 2 / 10 ^ 10) :=
  C21_rounding_partial h (by simp [decimals]) decimals_error

/-- Whole cents are written exactly. -/
theorem decimals_cents [FloorRing K] (k : Int) : decimals ((k : K) / 100) = (k : K) / 100 := by
  have h : (0 : K) < 10 ^ 10 := by positivity
  unfold decimals
  have e : (k : K) / 100 * 10 ^ 10 = ((k * 10 ^ 8 : Int) : K) := by push_cast; ring
  rw [e, round_intCast]
  push_cast
  field_simp
  ring

namespace C21

theorem grid3 (b : Option Bool) : Grid (Ex.tri3 b Ex.cum3) 24240 3 3 1 where
  wf := (Ex.proper_tri3 b).wf
  finite := (Ex.proper_tri3 b).finite
  isVal := rfl
  index_pos := by revert b; decide
  columns_pos := by revert b; decide
  two_origins := by decide
  period := by decide
  recent := by decide
  odims := rfl
  ddims := rfl
  vd := rfl
  short := by revert b; decide
  early := by revert b; decide
  known := by
    intro i _ c _ o ho d hd h
    have ho' : o ∈ List.range 3 := List.mem_range.mpr ho
    have hd' : d ∈ List.range 3 := List.mem_range.mpr hd
    simp only [List.range, List.range.loop, List.mem_cons, List.not_mem_nil, or_false] at ho' hd'
    rcases ho' with rfl | rfl | rfl <;> rcases hd' with rfl | rfl | rfl <;> first | omega | rfl

/-- The example triangle can be saved. -/
theorem savable3 : Savable (Ex.tri3 (some true) Ex.cum3) 24240 3 3 1 := by
  refine Savable.of_recorded (grid3 _) rfl (Or.inr ⟨rfl, by decide⟩) rfl (by decide) (by decide)
    (by decide) (by decide) (by decide) (by decide) ?_ (by decide) (by decide)
  intro o ho d hd hv
  refine ⟨0, by decide, 0, by decide, hv, ?_⟩
  rw [Grid.le_iff (grid3 _) ho hd] at hv
  have ho' : o ∈ List.range 3 := List.mem_range.mpr ho
  have hd' : d ∈ List.range 3 := List.mem_range.mpr hd
  simp only [List.range, List.range.loop, List.mem_cons, List.not_mem_nil, or_false] at ho' hd'
  rcases ho' with rfl | rfl | rfl <;> rcases hd' with rfl | rfl | rfl <;>
    first | omega | decide +kernel

/-- The round trip of the example. -/
example : ∃ j, toJson decimals (Ex.tri3 (some true) Ex.cum3) = .ok j ∧
    (j.rows.map fun r => r.amount 0) = [.fin 100, .fin 50, .fin 15, .fin 110, .fin 58, .fin 120] :=
  ok_of _ (by decide +kernel)

example : ∃ y, (toJson decimals (Ex.tri3 (some true) Ex.cum3) >>= readJson) = .ok y ∧
    y.isCum = some true ∧ y.odims = [24240, 24252, 24264] ∧ y.ddims = [12, 24, 36] ∧
    y.values.get 0 0 0 2 = .fin 165 ∧ y.values.get 0 0 1 1 = .fin 168 ∧ y.values.get 0 0 1 2 = .nan :=
  ok_of _ (by decide +kernel)

example : ∃ j y, toJson decimals (Ex.tri3 (some true) Ex.cum3) = .ok j ∧ readJson j = .ok y ∧
    Restored (Ex.tri3 (some true) Ex.cum3) y ∧
    |y.amountAt ["Total"] "paid" 24240 24263 - 150| ≤ 3 * (1 / 2 / 10 ^ 10) := by
  obtain ⟨j, y, e1, e2, h1, h2⟩ := C21_decimals_partial savable3
  refine ⟨j, y, e1, e2, h1, ?_⟩
  have h := h2 ["Total"] "paid" 24240 24263
  rw [show (Ex.tri3 (some true) Ex.cum3).amountAt ["Total"] "paid" 24240 24263 = 150 by decide +kernel] at h
  exact_mod_cast h

/-- **C21 (false), flag not set.**  `to_json` writes increments of a triangle whose `is_cumulative` is
`None`, and `read_json` does not add them up: an amount of 150 is read as 50. -/
theorem _root_.CL.C21_unset_false : ∃ x y : Tri ℚ, Grid x 24240 3 3 1 ∧ x.isCum = none ∧
    (toJson decimals x >>= readJson) = .ok y ∧ x.amountAt ["Total"] "paid" 24240 24263 = 150 ∧
    y.amountAt ["Total"] "paid" 24240 24263 = 50 ∧ y.isCum = some false := by
  obtain ⟨y, e, h⟩ := ok_of (x := toJson decimals (Ex.tri3 none Ex.cum3) >>= readJson) (fun y =>
    y.amountAt ["Total"] "paid" 24240 24263 = 50 ∧ y.isCum = some false) (by decide +kernel)
  exact ⟨_, y, grid3 none, rfl, e, by decide +kernel, h⟩

/-- **C21 (false), precision.**  Eleven decimals are not read back: the whole amount is lost when it is
small. -/
theorem _root_.CL.C21_precision_false : ∃ x y : Tri ℚ, x.isCum = some true ∧ x.isPattern = false ∧
    (toJson decimals x >>= readJson) = .ok y ∧
    x.amountAt ["Total"] "paid" 24264 24275 = 1 / 10 ^ 11 ∧
    y.amountAt ["Total"] "paid" 24264 24275 = 0 := by
  obtain ⟨y, e, h⟩ := ok_of (x := toJson decimals (Ex.tri3 (some true) fun o d =>
    if o = 2 ∧ d = 0 then .fin (1 / 10 ^ 11) else Ex.cum3 o d) >>= readJson) (fun y =>
    y.amountAt ["Total"] "paid" 24264 24275 = 0) (by decide +kernel)
  exact ⟨_, y, rfl, rfl, e, by decide +kernel, h⟩

/-- **C21 (false), two ages.**  A cumulative triangle with two origins and two ages cannot be written. -/
theorem _root_.CL.C21_two_false : ∃ x : Tri ℚ, Grid x 24252 2 2 1 ∧ x.isCum = some true ∧
    x.isPattern = false ∧ toJson decimals x = .error .indexError := by
  refine ⟨Ex.tri2 (some true) fun o d => if o + d < 2 then Ex.cum3 o d else .nan, ?_, rfl, rfl,
    error_of (by decide +kernel)⟩
  refine ⟨⟨rfl, rfl, rfl, rfl⟩, by decide, rfl, by decide, by decide, by decide, by decide, by decide,
      rfl, rfl, rfl, by decide, by decide, ?_⟩
  intro i _ c _ o ho d hd hlt
  show (if o + d < 2 then Ex.cum3 o d else .nan) = .nan
  rw [if_neg (by omega)]

/-- **C21 (false), data in the first origin only.**  Such a triangle cannot be written either. -/
theorem _root_.CL.C21_first_false : ∃ x : Tri ℚ, Grid x 24240 3 3 1 ∧ x.isCum = some true ∧
    x.isPattern = false ∧ x.amountAt ["Total"] "paid" 24240 24263 = 150 ∧
    toJson decimals x = .error .indexError := by
  refine ⟨Ex.tri3 (some true) fun o d => if o = 0 then Ex.cum3 o d else .nan, ?_, rfl, rfl,
    by decide +kernel, error_of (by decide +kernel)⟩
  refine ⟨⟨rfl, rfl, rfl, rfl⟩, by decide, rfl, by decide, by decide, by decide, by decide, by decide,
      rfl, rfl, rfl, by decide, by decide, ?_⟩
  intro i _ c _ o ho d hd hlt
  show (if o = 0 then Ex.cum3 o d else .nan) = .nan
  rw [if_neg (by omega)]

/-- The example with years that start in April. -/
def april : Tri ℚ :=
  { Ex.tri3 (some true) Ex.cum3 with
    odims := [24243, 24255, 24267]
    vd := 24278 }

theorem april_grid : Grid april 24243 3 3 1 where
  wf := ⟨rfl, rfl, rfl, rfl⟩
  finite := (grid3 (some true)).finite
  isVal := rfl
  index_pos := by decide
  columns_pos := by decide
  two_origins := by decide
  period := by decide
  recent := by decide
  odims := rfl
  ddims := rfl
  vd := rfl
  short := by decide
  early := by decide
  known := (grid3 (some true)).known

/-- **C21 (false), fiscal years.**  Years that start in April are read as calendar years, so the amounts
are found under other origins. -/
theorem _root_.CL.C21_fiscal_false : ∃ x y : Tri ℚ, Grid x 24243 3 3 1 ∧ x.isCum = some true ∧
    x.isPattern = false ∧ (toJson decimals x >>= readJson) = .ok y ∧
    x.amountAt ["Total"] "paid" 24243 24278 = 165 ∧ y.amountAt ["Total"] "paid" 24243 24278 = 0 ∧
    y.odims = [24240, 24252, 24264, 24276] := by
  obtain ⟨y, e, h⟩ := ok_of (x := toJson decimals april >>= readJson) (fun y =>
    y.amountAt ["Total"] "paid" 24243 24278 = 0 ∧ y.odims = [24240, 24252, 24264, 24276])
      (by decide +kernel)
  exact ⟨_, y, april_grid, rfl, rfl, e, by decide +kernel, h⟩

end C21

end Json
end CL
