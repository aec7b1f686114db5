import Verif.Model.Clark
import Verif.Spec.Standard
import Verif.Lemmas.Coherent
import Mathlib.Analysis.SpecialFunctions.Pow.Asymptotics

set_option linter.unusedSectionVars false

/-! # Lemmas on growth curves -/

namespace CL
namespace Clark

/-- The curves of the package. -/
def Known (growth : String) : Prop := growth = "loglogistic" ∨ growth = "weibull"

theorem loglogistic_recip {theta omega age : ℝ} (ha : age ≠ 0) :
    recip "loglogistic" theta omega age = .fin (1 + theta ^ omega * age ^ (-omega)) := by
  unfold recip
  rw [if_neg ha, if_pos rfl]

theorem exp_lt_one {theta omega age : ℝ} (ht : 0 < theta) (ha : 0 < age) :
    Real.exp (-((age / theta) ^ omega)) < 1 := by
  have : 0 < (age / theta) ^ omega := Real.rpow_pos_of_pos (div_pos ha ht) _
  exact Real.exp_lt_one_iff.2 (by linarith)

theorem weibull_recip {theta omega age : ℝ} (ht : 0 < theta) (ha : 0 < age) :
    recip "weibull" theta omega age = .fin (1 / (1 - Real.exp (-((age / theta) ^ omega)))) := by
  have h := exp_lt_one (omega := omega) ht ha
  unfold recip
  rw [if_neg ha.ne', if_neg (by decide), Num.one_def, Num.fin_div_fin_of_ne _ (by linarith)]

/-- The value of a curve. -/
noncomputable def value (growth : String) (theta omega age : ℝ) : ℝ :=
  if growth = "loglogistic" then age ^ omega / (age ^ omega + theta ^ omega)
  else 1 - Real.exp (-((age / theta) ^ omega))

theorem value_bounds {growth : String} {theta omega age : ℝ} (ht : 0 < theta) (ha : 0 < age) :
    0 < value growth theta omega age ∧ value growth theta omega age < 1 := by
  unfold value
  have h1 := Real.rpow_pos_of_pos ht omega
  have h2 := Real.rpow_pos_of_pos ha omega
  split
  · refine ⟨by positivity, ?_⟩
    rw [div_lt_one (by positivity)]
    linarith
  · have h := exp_lt_one (omega := omega) ht ha
    have := Real.exp_pos (-((age / theta) ^ omega))
    constructor <;> linarith

theorem value_lt {growth : String} {theta omega a b : ℝ} (ht : 0 < theta) (ho : 0 < omega)
    (ha : 0 < a) (hab : a < b) : value growth theta omega a < value growth theta omega b := by
  have hb : 0 < b := ha.trans hab
  unfold value
  have h1 := Real.rpow_pos_of_pos ht omega
  have h2 := Real.rpow_pos_of_pos ha omega
  have h3 := Real.rpow_pos_of_pos hb omega
  split
  · have h4 := Real.rpow_lt_rpow ha.le hab ho
    rw [div_lt_div_iff₀ (by positivity) (by positivity)]
    nlinarith
  · have h5 := Real.rpow_lt_rpow (div_pos ha ht).le (div_lt_div_of_pos_right hab ht) ho
    have := Real.exp_lt_exp.2 (neg_lt_neg h5)
    linarith

theorem recip_eq {growth : String} {theta omega age : ℝ} (hg : Known growth) (ht : 0 < theta)
    (ha : 0 < age) : recip growth theta omega age = .fin (1 / value growth theta omega age) := by
  rcases hg with rfl | rfl
  · rw [loglogistic_recip ha.ne']
    unfold value
    rw [if_pos rfl, Real.rpow_neg ha.le]
    have h1 := Real.rpow_pos_of_pos ht omega
    have h2 := Real.rpow_pos_of_pos ha omega
    congr 1
    field_simp
  · rw [weibull_recip ht ha]
    unfold value
    rw [if_neg (by decide)]

theorem curve_eq {growth : String} {theta omega age : ℝ} (hg : Known growth) (ht : 0 < theta)
    (ha : 0 < age) : curve growth theta omega age = .fin (value growth theta omega age) := by
  have h := (value_bounds (growth := growth) (omega := omega) ht ha).1
  unfold curve
  rw [recip_eq hg ht ha, Num.one_def, Num.fin_div_fin_of_ne _ (by positivity)]
  congr 1
  field_simp

theorem curve_zero (growth : String) (theta omega : ℝ) : curve growth theta omega 0 = .fin 0 := by
  unfold curve recip
  rw [if_pos rfl]
  rfl

theorem offset_eq (g : Grain) : offset g = g.months / 2 := by
  cases g <;> norm_num [offset, Grain.months]

theorem interval_eq (g : Grain) : interval g = g.months := by
  cases g <;> norm_num [interval, Grain.months]

theorem months_pos' (g : Grain) : (0 : ℝ) < g.months := by
  have := Tri.months_pos g
  exact_mod_cast this

/-- The ages of the latest diagonal on a regular grid. -/
theorem latestAges_eq {t : Tri ℝ} {a : Int} {n D q : Nat} (h : t.Grid a n D q) :
    latestAges t = .ok ((List.range n).map fun k =>
      ((D - q * (n - 1) + q * k : Nat) : ℝ) * t.dgrain.months - t.dgrain.months / 2) := by
  have h1 := h.two_ages
  have h2 := h.two_origins
  have h3 := h.recent
  have h4 := h.period
  obtain ⟨l, hl, -⟩ := h.latest
  obtain ⟨u, hu, -⟩ := bind_ok hl
  obtain ⟨rows, cols, f⟩ := Tri.C15_filter_partial h.wf h.ordered h.dated (by rw [h.lenD]; exact h1) hu
  have hc : cols = (List.range n).map fun k => D - 1 - q * (n - 1) + q * k := by
    refine Tri.pairwise_ext f.cols_inc ?_ ?_
    · rw [List.pairwise_map]
      refine List.Pairwise.imp ?_ List.pairwise_lt_range
      intro x y hxy
      have := Nat.mul_lt_mul_of_pos_left hxy (show 0 < q by omega)
      omega
    · intro d
      rw [f.mem_cols, h.lenD, h.lenO]
      simp only [List.mem_map, List.mem_range, beq_iff_eq]
      constructor
      · rintro ⟨hd, o, ho, e⟩
        rw [h.valuation_vd ho hd] at e
        refine ⟨n - 1 - o, by omega, ?_⟩
        have e1 : q * (n - 1 - o) + q * o = q * (n - 1) := by rw [← Nat.mul_add]; congr 1; omega
        omega
      · rintro ⟨k, hk, rfl⟩
        have e1 : q * (n - 1 - k) + q * k = q * (n - 1) := by rw [← Nat.mul_add]; congr 1; omega
        refine ⟨by omega, n - 1 - k, by omega, ?_⟩
        rw [h.valuation_vd (by omega) (by omega)]
        omega
  unfold latestAges
  rw [hu]
  simp only [bind, Except.bind]
  congr 1
  refine List.ext_getElem ?_ ?_
  · simp [f.developments.1, hc]
  · intro k hk1 hk2
    have hk : k < n := by simpa using hk2
    have hkc : k < cols.length := by rw [hc]; simpa using hk
    have e := f.developments.2 k hkc
    have ek : cols[k] = D - 1 - q * (n - 1) + q * k := by simp [hc]
    have e1 : q * (n - 1 - k) + q * k = q * (n - 1) := by rw [← Nat.mul_add]; congr 1; omega
    have hlt : D - 1 - q * (n - 1) + q * k < D := by omega
    rw [ek] at e
    have hku : k < u.ddims.length := by rw [f.developments.1]; exact hkc
    have e2 : u.ddims[k] = t.ddims.getD (D - 1 - q * (n - 1) + q * k) 0 := by
      rw [List.getD_eq_getElem?_getD, ← e, List.getElem?_eq_getElem hku]
      rfl
    simp only [List.getElem_map, List.getElem_range]
    rw [e2, h.getDv hlt, offset_eq]
    congr 1
    rw [show D - 1 - q * (n - 1) + q * k + 1 = D - q * (n - 1) + q * k by omega]
    push_cast
    ring

/-- Age of the `k`-th entry of the latest diagonal, less half a period. -/
noncomputable def ageAt (t : Tri ℝ) (n D q k : Nat) : ℝ :=
  ((D - q * (n - 1) + q * k : Nat) : ℝ) * t.dgrain.months - t.dgrain.months / 2

theorem ageAt_pos {t : Tri ℝ} {n D q : Nat} (h : q * (n - 1) < D) (k : Nat) : 0 < ageAt t n D q k := by
  unfold ageAt
  have h1 : (1 : ℝ) ≤ ((D - q * (n - 1) + q * k : Nat) : ℝ) := by
    have : 1 ≤ D - q * (n - 1) + q * k := by omega
    exact_mod_cast this
  have := months_pos' t.dgrain
  nlinarith

theorem ageAt_lt {t : Tri ℝ} {n D q : Nat} (hq : 1 ≤ q) {j k : Nat} (h : j < k) :
    ageAt t n D q j < ageAt t n D q k := by
  unfold ageAt
  have h1 : ((D - q * (n - 1) + q * j : Nat) : ℝ) < ((D - q * (n - 1) + q * k : Nat) : ℝ) := by
    have := Nat.mul_lt_mul_of_pos_left h (show 0 < q by omega)
    have : D - q * (n - 1) + q * j < D - q * (n - 1) + q * k := by omega
    exact_mod_cast this
  have := months_pos' t.dgrain
  nlinarith

theorem check_ok {growth : String} (hg : Known growth) {ages : List ℝ} (h : ∀ a ∈ ages, 0 ≤ a) :
    check growth ages = .ok () := by
  unfold check
  rw [if_neg, if_neg]
  · rintro ⟨a, ha, h1⟩
    exact absurd (h a ha) (not_le.2 h1)
  · rintro ⟨h1, h2⟩
    rcases hg with rfl | rfl
    · exact h1 rfl
    · exact h2 rfl

theorem ldf_eq {t : Tri ℝ} {a : Int} {n D q : Nat} (h : t.Standard a n D q) {growth : String}
    (hg : Known growth) (theta omega : Nat → Nat → ℝ) :
    ∃ u, ldf growth theta omega t = .ok u ∧ u.ddims = t.ddims.dropLast ∧
      u.odims = t.odims.take 1 ∧ u.kdims = t.kdims ∧ u.vdims = t.vdims ∧
      u.values.d0 = t.values.d0 ∧ u.values.d1 = t.values.d1 ∧ u.values.d2 = 1 ∧
      u.values.d3 = n - 1 ∧ ∀ i c k, k + 1 < n → u.values.get i c 0 k =
        recip growth (theta i c) (omega i c) (ageAt t n D q k) /
          recip growth (theta i c) (omega i c) (ageAt t n D q (k + 1)) := by
  obtain ⟨lr, hlr, hd⟩ := h.linkRatio
  unfold ldf
  rw [hlr, latestAges_eq h.toGrid]
  simp only [bind, Except.bind]
  rw [check_ok hg]
  · refine ⟨_, rfl, hd, rfl, rfl, rfl, rfl, rfl, rfl, by simp, ?_⟩
    intro i c k hk
    have e : ∀ k < n, ((List.range n).map fun k =>
        ((D - q * (n - 1) + q * k : Nat) : ℝ) * t.dgrain.months - t.dgrain.months / 2).getD k 0 =
          ageAt t n D q k := by
      intro k hk
      rw [List.getD_eq_getElem?_getD]
      simp [hk, ageAt]
    show recip growth (theta i c) (omega i c) (List.getD _ k 0) /
      recip growth (theta i c) (omega i c) (List.getD _ (k + 1) 0) = _
    rw [e k (by omega), e (k + 1) hk]
  · intro x hx
    obtain ⟨k, -, rfl⟩ := List.mem_map.1 hx
    exact (ageAt_pos (t := t) h.recent k).le

/-- End of the `d`-th development period, less half a period. -/
noncomputable def endAt (t : Tri ℝ) (d : Nat) : ℝ :=
  ((d + 1 : Nat) : ℝ) * t.dgrain.months - t.dgrain.months / 2

theorem endAt_pos (t : Tri ℝ) (d : Nat) : 0 < endAt t d := by
  unfold endAt
  have := months_pos' t.dgrain
  have : (0 : ℝ) ≤ d := Nat.cast_nonneg d
  push_cast
  nlinarith

/-- Curve at the start of the `d`-th development period. -/
noncomputable def startValue (growth : String) (t : Tri ℝ) (theta omega : ℝ) : Nat → ℝ
  | 0 => 0
  | d + 1 => value growth theta omega (endAt t d)

theorem curve_end {growth : String} (hg : Known growth) (t : Tri ℝ) {theta : ℝ} (ht : 0 < theta)
    (omega : ℝ) (d : Nat) :
    1 / recip growth theta omega (endAt t d) = .fin (startValue growth t theta omega (d + 1)) :=
  curve_eq hg ht (endAt_pos t d)

theorem curve_start {growth : String} (hg : Known growth) (t : Tri ℝ) {theta : ℝ} (ht : 0 < theta)
    (omega : ℝ) (d : Nat) :
    1 / recip growth theta omega (max (endAt t d - interval t.dgrain) 0) =
      .fin (startValue growth t theta omega d) := by
  have hm := months_pos' t.dgrain
  cases d with
  | zero =>
    rw [max_eq_right]
    · exact curve_zero _ _ _
    · unfold endAt
      rw [interval_eq]
      push_cast
      linarith
  | succ d =>
    have e : endAt t (d + 1) - interval t.dgrain = endAt t d := by
      unfold endAt
      rw [interval_eq]
      push_cast
      ring
    rw [e, max_eq_left (endAt_pos t d).le]
    exact curve_end hg t ht omega d

theorem fits_eq {t : Tri ℝ} {a : Int} {n D q : Nat} (h : t.Grid a n D q) {growth : String}
    (hg : Known growth) {theta omega : Nat → Nat → ℝ} (ht : ∀ i c, 0 < theta i c) :
    ∃ f, fits growth theta omega t = .ok f ∧ f.d0 = t.values.d0 ∧ f.d1 = t.values.d1 ∧
      f.d2 = n ∧ f.d3 = D ∧ ∀ i c o d, i < t.values.d0 → c < t.values.d1 → o < n → d < D →
        f.get i c o d =
          .fin (startValue growth t (theta i c) (omega i c) (d + 1) -
            startValue growth t (theta i c) (omega i c) d) *
          (.fin (1 / value growth (theta i c) (omega i c) (endAt t (D - 1 - q * o))) *
            (t.values.get i c o (D - 1 - q * o)).numToNan) * t.nanTri o d := by
  have h1 := h.two_ages
  have h2 := h.two_origins
  have h3 := h.recent
  obtain ⟨l, hl, hd⟩ := h.latest
  have l0 : l.values.d0 = t.values.d0 := by rw [hd.wf.1, hd.index, h.wf.1]
  have l1 : l.values.d1 = t.values.d1 := by rw [hd.wf.2.1, hd.columns, h.wf.2.1]
  have l2 : l.values.d2 = n := by rw [hd.wf.2.2.1, hd.origins.1, List.length_range]
  have l3 : l.values.d3 = 1 := by rw [hd.wf.2.2.2, hd.one]
  have hends : ∀ d < D, (t.ddims.map fun a : Int => (a : ℝ) - offset t.dgrain).getD d 0 = endAt t d := by
    intro d hd
    rw [h.ddims, offset_eq, List.getD_eq_getElem?_getD]
    simp [hd, endAt]
  have hends' : ∀ x ∈ (t.ddims.map fun a : Int => (a : ℝ) - offset t.dgrain), 0 ≤ x := by
    intro x hx
    rw [h.ddims] at hx
    simp only [List.map_map, List.mem_map, List.mem_range, Function.comp] at hx
    obtain ⟨d, -, rfl⟩ := hx
    have := (endAt_pos t d).le
    unfold endAt at this
    rw [offset_eq]
    exact_mod_cast this
  unfold fits
  rw [hl, latestAges_eq h]
  simp only [bind, Except.bind]
  rw [check_ok hg]
  swap
  · intro x hx
    rcases List.mem_append.1 hx with hx | hx
    · rcases List.mem_append.1 hx with hx | hx
      · obtain ⟨k, -, rfl⟩ := List.mem_map.1 hx
        exact (ageAt_pos (t := t) h.recent k).le
      · exact hends' x hx
    · obtain ⟨y, -, rfl⟩ := List.mem_map.1 hx
      exact le_max_right _ _
  simp only
  rw [Arr.zip_same]
  swap
  · exact ⟨l0.symm, l1.symm, by rw [l2]; simp, l3.symm⟩
  have b1 : Arr.bdim 1 n = some n := by
    unfold Arr.bdim
    rw [if_neg (by omega), if_pos rfl]
  have b2 : Arr.bdim D 1 = some D := by
    unfold Arr.bdim
    rw [if_neg (by omega), if_neg (by omega), if_pos rfl]
  have b3 : ∀ m, Arr.bdim m m = some m := by intro m; simp [Arr.bdim]
  have b4 : ∀ m, Arr.bdim m 1 = some m := by
    intro m
    unfold Arr.bdim
    split_ifs <;> simp_all
  simp only [Arr.zip, List.length_map, List.length_range, h.lenD, h.lenO, b1, b3, b4, Arr.bix_self]
  refine ⟨_, rfl, rfl, rfl, rfl, rfl, ?_⟩
  intro i c o d hi hc ho hd'
  have e1 : q * (n - 1 - o) + q * o = q * (n - 1) := by rw [← Nat.mul_add]; congr 1; omega
  have x1 : Arr.bix 1 D d = 0 := by unfold Arr.bix; rw [if_neg (by omega)]
  have x3 : ((List.range n).map fun k =>
      ((D - q * (n - 1) + q * k : Nat) : ℝ) * t.dgrain.months - t.dgrain.months / 2).reverse.getD o 0 =
        endAt t (D - 1 - q * o) := by
    rw [List.getD_eq_getElem?_getD, List.getElem?_reverse (by simpa using ho)]
    simp only [List.length_map, List.length_range, List.getElem?_map]
    rw [List.getElem?_range (by omega)]
    simp only [Option.map_some, Option.getD_some]
    rw [show D - q * (n - 1) + q * (n - 1 - o) = D - 1 - q * o + 1 by omega]
    rfl
  have x4 : ((t.ddims.map fun a : Int => (a : ℝ) - offset t.dgrain).map
      fun a => max (a - interval t.dgrain) 0).getD d 0 = max (endAt t d - interval t.dgrain) 0 := by
    rw [← hends d hd', List.getD_eq_getElem?_getD, List.getD_eq_getElem?_getD]
    simp [h.lenD, hd']
  have x5 : l.values.get i c o 0 = (t.values.get i c o (D - 1 - q * o)).numToNan := by
    rw [hd.cells i c o (D - 1 - q * o) hi hc (by simpa using ho) (by rw [h.lenD]; omega)]
    · simp
    · have : o * q < D := h.row_le ho
      rw [Nat.mul_comm] at this
      rw [List.getElem_range, h.valuation_vd ho (by omega)]
      omega
  dsimp only
  rw [x1, hends d hd', x3, x4, x5, curve_end hg t (ht i c), curve_start hg t (ht i c),
    recip_eq hg (ht i c) (endAt_pos t _), Num.fin_sub_fin]

end Clark
end CL
