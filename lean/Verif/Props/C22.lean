import Verif.Model.Trend
import Verif.Lemmas.Convert
import Verif.Spec.Examples
import Mathlib.Analysis.SpecialFunctions.Pow.Real

set_option linter.unusedSectionVars false

/-! # C22: trending is exponential, invertible and composable -/

namespace CL
namespace Tri

/-- The annual trend `r` over `m` months. -/
noncomputable def C22.factor (r : ℝ) (m : Int) : ℝ := (1 + r) ^ ((m : ℝ) / 12)

/-- `v` moved into the window between `s` and `e` (in either order). -/
def C22.clamped (s e v : Int) : Int :=
  if v < min s e then min s e else if max s e < v then max s e else v

/-- The month a cell is trended from: the last month of its origin period, or its valuation. -/
def C22.date (t : Tri ℝ) (ax : TrendAxis) (o d : Nat) : Int :=
  if ax = .valuation then t.valuation o d else t.odims.getD o 0 + t.ograin.months - 1

/-- The cell is observed, or the triangle has a single origin or a single development. -/
def C22.Shown (t : Tri ℝ) (o d : Nat) : Prop :=
  min t.values.d2 t.values.d3 = 1 ∨ t.valuation o d ≤ t.vd

/-- Cells that are not observed are missing. -/
def C22.Blank (t : Tri ℝ) : Prop :=
  ∀ i c o d, t.values.In i c o d → ¬ C22.Shown t o d → t.values.get i c o d = .nan

/-- `u` is `t` with other cells. -/
def C22.SameLabels (t u : Tri ℝ) : Prop :=
  u = { t with values := u.values } ∧ u.values.SameShape t.values

/-- The origins have dates: the triangle is not a pattern for all origins. -/
def C22.HasDates (t : Tri ℝ) : Prop := t.odims ≠ [] ∧ ¬ (t.isPattern = true ∧ t.odims.length = 1)

theorem C22.clamp_eq (s e v : Int) :
    max (min (if e > s then e else s) v) (if e > s then s else e) = C22.clamped s e v := by
  unfold C22.clamped
  split_ifs <;> omega

theorem C22.nanTri_shown {t : Tri ℝ} {o d : Nat} (h : C22.Shown t o d) : t.nanTri o d = 1 := by
  unfold nanTri
  rcases h with h | h
  · rw [if_pos h]
  · split_ifs
    · rfl
    · omega
    · rfl

theorem C22.nanTri_hidden {t : Tri ℝ} {o d : Nat} (h : ¬ C22.Shown t o d) : t.nanTri o d = .nan := by
  unfold C22.Shown at h
  rw [not_or] at h
  unfold nanTri
  rw [if_neg h.1, if_pos (by omega)]

theorem C22.trend_ok {t : Tri ℝ} (hd : C22.HasDates t) {ax : TrendAxis} (hax : ax ≠ .other)
    (start stop lag : Option Int) (fac : Int → ℝ) :
    t.trend fac ax start stop lag = .ok { t with values := { t.values with
      get := fun i c o d => t.values.get i c o d * (.fin (fac (t.trendMonths ax (start.getD t.vd)
        (stop.getD (t.odims.getD 0 0)) lag o d)) * t.nanTri o d) } } := by
  have h1 : t.allOrigins = false := by
    unfold allOrigins
    by_contra h
    simp only [Bool.not_eq_false, Bool.and_eq_true, beq_iff_eq] at h
    exact hd.2 h
  have h2 : t.odims ≠ [] := hd.1
  unfold trend
  simp [hax, h1, h2]

/-- Without `ultimate_lag` the months are those from the clamped date to the start. -/
theorem C22.months {t : Tri ℝ} {ax : TrendAxis} (hax : ax ≠ .other) (s e : Int) (o d : Nat) :
    t.trendMonths ax s e none o d = s - C22.clamped s e (C22.date t ax o d) := by
  unfold trendMonths trendDate C22.date
  simp only [C22.clamp_eq]
  cases ax
  · rfl
  · rfl
  · exact absurd rfl hax

/-- **C22**: trending multiplies each observed amount by `(1 + r) ^ (m / 12)`, `m` being the months
between the start and the date of the cell moved into the window; labels stay.  The window is the one
given, by default from the first month of the first origin to the valuation date. -/
theorem C22_trend (t : Tri ℝ) (hd : C22.HasDates t) {ax : TrendAxis} (hax : ax ≠ .other) (r : ℝ)
    (start stop : Option Int) :
    ∃ u, t.trend (C22.factor r) ax start stop none = .ok u ∧ C22.SameLabels t u ∧
      (∀ i c o d, t.values.In i c o d → C22.Shown t o d →
        u.values.get i c o d = t.values.get i c o d * .fin ((1 + r) ^
          (((start.getD t.vd - C22.clamped (start.getD t.vd) (stop.getD (t.odims.getD 0 0))
            (C22.date t ax o d) : Int) : ℝ) / 12))) ∧
      ∀ i c o d, t.values.In i c o d → ¬ C22.Shown t o d → u.values.get i c o d = .nan := by
  refine ⟨_, C22.trend_ok hd hax start stop none _, ⟨rfl, rfl, rfl, rfl, rfl⟩, ?_, ?_⟩
  · intro i c o d _ hs
    show t.values.get i c o d * (.fin _ * t.nanTri o d) = _
    rw [C22.nanTri_shown hs, C22.months hax, _root_.mul_one]
    rfl
  · intro i c o d _ hs
    show t.values.get i c o d * (.fin _ * t.nanTri o d) = _
    rw [C22.nanTri_hidden hs]
    simp

/-- With `ultimate_lag` the last column of a triangle with ultimates is trended over `lag` months more
than the column before, and nothing else changes. -/
theorem C22_ultimate_lag (t : Tri ℝ) (hd : C22.HasDates t) {ax : TrendAxis} (hax : ax ≠ .other) (r : ℝ)
    (s e lag : Int) (hu : ∃ o < t.odims.length, ∃ d < t.ddims.length, 12 * 2261 ≤ t.valuation o d)
    (h3 : 2 ≤ t.values.d3) :
    ∃ u, t.trend (C22.factor r) ax (some s) (some e) (some lag) = .ok u ∧ C22.SameLabels t u ∧
      ∀ i c o d, t.values.In i c o d → C22.Shown t o d →
        u.values.get i c o d = t.values.get i c o d * .fin (C22.factor r (if d + 1 = t.values.d3 then
          s - C22.clamped s e (C22.date t ax o (t.values.d3 - 2)) + lag
          else s - C22.clamped s e (C22.date t ax o d))) := by
  have hul : t.isUltimate = true := by
    obtain ⟨o, ho, d, hd, h⟩ := hu
    unfold isUltimate valuations
    rw [List.any_eq_true]
    refine ⟨t.valuation o d, ?_, by simpa using h⟩
    rw [List.mem_flatMap]
    exact ⟨d, List.mem_range.2 hd, List.mem_map.2 ⟨o, List.mem_range.2 ho, rfl⟩⟩
  refine ⟨_, C22.trend_ok hd hax _ _ _ _, ⟨rfl, rfl, rfl, rfl, rfl⟩, ?_⟩
  intro i c o d _ hs
  show t.values.get i c o d * (.fin _ * t.nanTri o d) = _
  rw [C22.nanTri_shown hs, _root_.mul_one]
  have hm : t.trendMonths ax ((some s).getD t.vd) ((some e).getD (t.odims.getD 0 0)) (some lag) o d =
      if d + 1 = t.values.d3 then s - C22.clamped s e (C22.date t ax o (t.values.d3 - 2)) + lag
          else s - C22.clamped s e (C22.date t ax o d) := by
    have h5 := C22.months (t := t) hax s e o d
    have h6 := C22.months (t := t) hax s e o (t.values.d3 - 2)
    unfold trendMonths at h5 h6 ⊢
    simp only [Option.getD_some] at h5 h6 ⊢
    by_cases hl : d + 1 = t.values.d3
    · rw [if_pos ⟨hul, by omega, hl⟩, if_pos hl, ← h6, show t.values.d3 - 2 = d - 1 by omega]
    · rw [if_neg (fun h => hl h.2.2), if_neg hl, h5]
  rw [hm]

/-- **C22**: a trend of zero changes nothing. -/
theorem C22_zero (t : Tri ℝ) (hd : C22.HasDates t) (hb : C22.Blank t) {ax : TrendAxis}
    (hax : ax ≠ .other) (start stop : Option Int) :
    ∃ u, t.trend (C22.factor 0) ax start stop none = .ok u ∧ C22.SameLabels t u ∧
      ∀ i c o d, t.values.In i c o d → u.values.get i c o d = t.values.get i c o d := by
  obtain ⟨u, h1, h2, h3, h4⟩ := C22_trend t hd hax 0 start stop
  refine ⟨u, h1, h2, ?_⟩
  intro i c o d hi
  by_cases hs : C22.Shown t o d
  · rw [h3 i c o d hi hs, add_zero, Real.one_rpow]
    exact _root_.mul_one _
  · rw [h4 i c o d hi hs, hb i c o d hi hs]

/-- **C22**: trending by `a` and then by `b` is trending once by `(1 + a) (1 + b) - 1`. -/
theorem C22_compose (t : Tri ℝ) (hd : C22.HasDates t) {ax : TrendAxis} (hax : ax ≠ .other)
    {a b : ℝ} (ha : -1 < a) (hb : -1 < b) (start stop : Option Int) :
    ∃ u v w, t.trend (C22.factor a) ax start stop none = .ok u ∧
      u.trend (C22.factor b) ax start stop none = .ok v ∧
      t.trend (C22.factor ((1 + a) * (1 + b) - 1)) ax start stop none = .ok w ∧
      C22.SameLabels w v ∧
      ∀ i c o d, t.values.In i c o d → v.values.get i c o d = w.values.get i c o d := by
  obtain ⟨u, h1, ⟨h2, h2'⟩, h3, h4⟩ := C22_trend t hd hax a start stop
  obtain ⟨w, k1, ⟨k2, k2'⟩, k3, k4⟩ := C22_trend t hd hax ((1 + a) * (1 + b) - 1) start stop
  have hdu : C22.HasDates u := by rw [h2]; exact hd
  obtain ⟨v, l1, ⟨l2, l2'⟩, l3, l4⟩ := C22_trend u hdu hax b start stop
  have hin : ∀ i c o d, t.values.In i c o d → u.values.In i c o d := by
    intro i c o d h
    obtain ⟨s0, s1, s2, s3⟩ := h2'
    unfold Arr.In at h ⊢
    rw [s0, s1, s2, s3]; exact h
  have hval : ∀ o d, u.valuation o d = t.valuation o d := by intro o d; rw [h2]; rfl
  have hdate : ∀ o d, C22.date u ax o d = C22.date t ax o d := by
    intro o d
    unfold C22.date
    rw [hval, h2]
  have hvd : u.vd = t.vd := by rw [h2]
  have hod : u.odims = t.odims := by rw [h2]
  have hshown : ∀ o d, C22.Shown u o d ↔ C22.Shown t o d := by
    intro o d
    unfold C22.Shown
    rw [hval, hvd, h2'.2.2.1, h2'.2.2.2]
  refine ⟨u, v, w, h1, l1, k1, ⟨?_, ?_⟩, ?_⟩
  · rw [l2, k2, h2]
  · obtain ⟨a0, a1, a2, a3⟩ := l2'
    obtain ⟨b0, b1, b2, b3⟩ := h2'
    obtain ⟨c0, c1, c2, c3⟩ := k2'
    exact ⟨by rw [a0, b0, c0], by rw [a1, b1, c1], by rw [a2, b2, c2], by rw [a3, b3, c3]⟩
  · intro i c o d hi
    by_cases hs : C22.Shown t o d
    · rw [l3 i c o d (hin i c o d hi) ((hshown o d).2 hs), h3 i c o d hi hs, k3 i c o d hi hs, hdate,
        hvd, hod, _root_.mul_assoc, Num.fin_mul_fin, show 1 + ((1 + a) * (1 + b) - 1) = (1 + a) * (1 + b) by ring,
        Real.mul_rpow (by linarith) (by linarith)]
    · rw [l4 i c o d (hin i c o d hi) (by rw [hshown]; exact hs), k4 i c o d hi hs]

/-- **C22**: trending by `r` and then by `1 / (1 + r) - 1` gives the triangle back. -/
theorem C22_inverse (t : Tri ℝ) (hd : C22.HasDates t) (hb : C22.Blank t) {ax : TrendAxis}
    (hax : ax ≠ .other) {r : ℝ} (hr : -1 < r) (start stop : Option Int) :
    ∃ u v, t.trend (C22.factor r) ax start stop none = .ok u ∧
      u.trend (C22.factor (1 / (1 + r) - 1)) ax start stop none = .ok v ∧ C22.SameLabels t v ∧
      ∀ i c o d, t.values.In i c o d → v.values.get i c o d = t.values.get i c o d := by
  have hp : 0 < 1 + r := by linarith
  obtain ⟨u, v, w, h1, h2, h3, ⟨h4, h4'⟩, h5⟩ := C22_compose t hd hax hr
    (b := 1 / (1 + r) - 1) (by have := one_div_pos.2 hp; linarith) start stop
  obtain ⟨w', k1, ⟨k2, k2'⟩, k3⟩ := C22_zero t hd hb hax start stop
  have e : (1 + r) * (1 + (1 / (1 + r) - 1)) - 1 = 0 := by field_simp; ring
  rw [e, k1] at h3
  injection h3 with h3
  subst h3
  refine ⟨u, v, h1, h2, ⟨?_, ?_⟩, ?_⟩
  · rw [h4, k2]
  · obtain ⟨a0, a1, a2, a3⟩ := h4'
    obtain ⟨c0, c1, c2, c3⟩ := k2'
    exact ⟨a0.trans c0, a1.trans c1, a2.trans c2, a3.trans c3⟩
  · intro i c o d hi
    rw [h5 i c o d hi, k3 i c o d hi]

/-- **C22**: an axis other than origin and valuation is rejected. -/
theorem C22_rejects {K : Type} [Field K] [LinearOrder K] [IsStrictOrderedRing K] (t : Tri K)
    (fac : Int → K) (start stop lag : Option Int) :
    t.trend fac .other start stop lag = .error .valueError := rfl

/-! ## Example: 10 per cent a year on a triangle of three origins -/

/-- Origins 2020, 2021, 2022 at the end of 2022, over the reals. -/
noncomputable def C22.tri : Tri ℝ where
  kdims := [["Total"]]
  keyLabels := ["Total"]
  vdims := ["paid"]
  odims := [24240, 24252, 24264]
  ddims := [12, 24, 36]
  isVal := false
  ograin := .Y
  dgrain := .Y
  vd := 24275
  isCum := some true
  isPattern := false
  isAdditive := none
  values := ⟨1, 1, 3, 3, fun _ _ o d => if o + d < 3 then .fin (100 + 50 * d) else .nan⟩

/-- The amount 150 of origin 2020 at age 24 is trended over two years along the origins and over one
year along the valuations; the amount of origin 2022 stays. -/
example : ∃ u v, C22.tri.trend (C22.factor 0.1) .origin none none none = .ok u ∧
    C22.tri.trend (C22.factor 0.1) .valuation none none none = .ok v ∧
    u.values.get 0 0 0 1 = .fin 181.5 ∧ v.values.get 0 0 0 1 = .fin 165 ∧
    u.values.get 0 0 2 0 = .fin 100 ∧ u.values.get 0 0 2 1 = .nan := by
  have hd : C22.HasDates C22.tri := ⟨by simp [C22.tri], by simp [C22.tri]⟩
  obtain ⟨u, h1, -, h2, h3⟩ := C22_trend C22.tri hd (ax := .origin) (by decide) 0.1 none none
  obtain ⟨v, k1, -, k2, k3⟩ := C22_trend C22.tri hd (ax := .valuation) (by decide) 0.1 none none
  refine ⟨u, v, h1, k1, ?_, ?_, ?_, ?_⟩
  · rw [h2 0 0 0 1 (by simp [Arr.In, C22.tri]) (Or.inr (by simp [C22.tri, valuation, valuationOf]))]
    simp [C22.tri, C22.date, C22.clamped, Grain.months]
    norm_num
  · rw [k2 0 0 0 1 (by simp [Arr.In, C22.tri]) (Or.inr (by simp [C22.tri, valuation, valuationOf]))]
    simp [C22.tri, C22.date, C22.clamped, Grain.months, valuation, valuationOf]
    norm_num
  · rw [h2 0 0 2 0 (by simp [Arr.In, C22.tri]) (Or.inr (by simp [C22.tri, valuation, valuationOf]))]
    simp [C22.tri, C22.date, C22.clamped, Grain.months]
  · exact h3 0 0 2 1 (by simp [Arr.In, C22.tri])
      (by simp [C22.Shown, C22.tri, valuation, valuationOf])

end Tri
end CL
