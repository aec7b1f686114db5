import Verif.Model.MunichTransform
import Verif.Props.C46

set_option linter.unusedSectionVars false

/-!
# C76: transforming a triangle with the Munich chain ladder

The ratios of paid to incurred, their deviations and the correlation are those of the fit; the age-to-age
factors are those of the new triangle.
-/

namespace CL
namespace Munich
open Reg

/-- A triangle `y` with a pattern `f` to transform after a fit on `x`: as many indices, the paired columns,
of which all known amounts are numbers other than zero. -/
structure NewData (x y f : Tri ℝ) (pairs : List (String × String)) (a : Int) (n E q : Nat) : Prop
    extends Tri.Standard y a n E q where
  pattern : Pattern y f E
  index : y.kdims.length = x.kdims.length
  names : ∀ p ∈ pairs, p.1 ∈ y.vdims ∧ p.2 ∈ y.vdims
  numbers : ∀ i < y.kdims.length, ∀ k < pairs.length, ∀ s, ∀ o < n, ∀ d, q * o + d < E →
    ∃ v, v ≠ 0 ∧ y.values.get i (col y pairs k s) o d = .fin v

/-- The full triangle of one side. -/
def Transformed.amount (t : Transformed) (i k : Nat) (side : Bool) (o d : Nat) : Num ℝ :=
  if side then (t.full i k o d).2 else (t.full i k o d).1

/-- The coefficients of one side after the transformation. -/
noncomputable def newCoef (x : Tri ℝ) (D : Nat) (r : Fit) (pairs : List (String × String)) (y f : Tri ℝ)
    (sigma : Arr ℝ) (m : Interp) (i k : Nat) (s : Bool) : Coef ℝ :=
  ⟨f.values.get i (col y pairs k s) 0, sigma.get i (col y pairs k s) 0,
    rho m D D (x.values.get i (col x pairs k s)) (x.values.get i (col x pairs k (!s))),
    ratio D (x.values.get i (col x pairs k s)) (x.values.get i (col x pairs k (!s))), (r.side i k s).lam⟩

theorem mem_names {pairs : List (String × String)} {l : List String}
    (h : ∀ p ∈ pairs, p.1 ∈ l ∧ p.2 ∈ l) : ∀ s ∈ pairs.flatMap fun p => [p.1, p.2], s ∈ l := by
  intro s hs
  obtain ⟨p, hp, hs⟩ := List.mem_flatMap.1 hs
  simp only [List.mem_cons, List.not_mem_nil, or_false] at hs
  rcases hs with rfl | rfl
  · exact (h p hp).1
  · exact (h p hp).2

/-- What `transform` computes. -/
theorem transform_spec {x y f g : Tri ℝ} {a b : Int} {D n E q : Nat} {pairs} (h : Square x a D pairs)
    (hf : Pattern x f D) {sigma : Arr ℝ} {m : Interp} {fill : Option (Arr ℝ)} {r : Fit}
    (hr : fit x f sigma m pairs fill = .ok r) (hy : Tri.Standard y b n E q) (hg : Pattern y g E)
    (hi : y.kdims.length = x.kdims.length) (hn : ∀ p ∈ pairs, p.1 ∈ y.vdims ∧ p.2 ∈ y.vdims)
    (hE : E ≤ D + 1) (only : x.vdims.length = 2 * pairs.length) (sigma' : Arr ℝ) (m' : Interp) :
    ∃ t, transform x r pairs y g sigma' m' = .ok t ∧
      (∀ i k o, t.full i k o = full (y.values.get i (col y pairs k false) o)
        (y.values.get i (col y pairs k true) o) (newCoef x D r pairs y g sigma' m' i k false)
        (newCoef x D r pairs y g sigma' m' i k true)) ∧
      t.ldf.values = ⟨g.values.d0, g.values.d1, n, E - 1, fun i v o =>
        ldf E (cdfValues y g.incrToCum.values pairs t.full i v o)⟩ ∧
      t.ldf = { g with
        values := t.ldf.values
        odims := y.odims
        ddims := y.ddims.dropLast
        isPattern := true
        isCum := some false } ∧
      ∀ i v o d, t.sigma.get i v o d = t.ldf.values.get i v o d * 0 + 1 := by
  obtain ⟨r', hr', -, -, -, -, -, -, -, -, -, -, -, -, v8, -⟩ := fit_spec h hf sigma m fill
  rw [hr] at hr'
  injection hr' with hr'
  subst hr'
  obtain ⟨lr, hlr, hdd⟩ := hy.linkRatio
  have x2 : x.values.d2 = D := by rw [h.wf.2.2.1, h.lenO]
  have x3 : x.values.d3 = D := by rw [h.wf.2.2.2, h.lenD]
  have y2 : y.values.d2 = n := by rw [hy.wf.2.2.1, hy.lenO]
  have y3 : y.values.d3 = E := by rw [hy.wf.2.2.2, hy.lenD]
  have f2 : g.values.d2 = 1 := by rw [hg.wf.2.2.1, hg.row]
  have f3 : g.values.d3 + 1 = E := by rw [hg.wf.2.2.2, hg.ages]
  have f0 : g.values.d0 = y.values.d0 := by rw [hg.wf.1, hg.index, hy.wf.1]
  have y0 : y.values.d0 = x.values.d0 := by rw [hy.wf.1, hi, h.wf.1]
  unfold transform
  dsimp only
  rw [if_neg (by rw [not_not]; exact ⟨y0, f0, hg.columns, f2, by omega⟩),
    if_neg (by rw [not_not]; exact mem_names hn), if_neg (by omega), hlr]
  simp only [bind, Except.bind]
  rw [if_neg (by rw [v8, hf.columns, only, names_length, not_not])]
  refine ⟨_, rfl, ?_, ?_, ?_, fun _ _ _ _ => rfl⟩
  · intro i k o
    simp only [x2, x3]
    rfl
  · simp only [y2, y3, show g.values.d3 = E - 1 by omega]
  · simp only [hdd]

/-- **C76** (same triangle): transforming the triangle of the fit gives the factors of the fit.  Not
covered: a triangle with other columns than those in pairs, for which `transform` raises
(`C76_columns_false`), and one with gaps (`C76_gaps_false`). -/
theorem C76_same_partial {x f : Tri ℝ} {a : Int} {D : Nat} {pairs} (h : Square x a D pairs)
    (hf : Pattern x f D) (only : x.vdims.length = 2 * pairs.length) (date : f.vd = ultVal) (sigma : Arr ℝ)
    (m : Interp) :
    ∃ r t, fit x f sigma m pairs none = .ok r ∧ transform x r pairs x f sigma m = .ok t ∧
      t.full = r.full ∧ t.ldf.values = r.ldf.values ∧ t.ldf.kdims = r.ldf.kdims ∧ t.ldf.vdims = r.ldf.vdims ∧
      t.ldf.odims = r.ldf.odims ∧ t.ldf.ddims = r.ldf.ddims ∧ t.ldf.isCum = r.ldf.isCum ∧
      t.ldf.isPattern = r.ldf.isPattern ∧ t.ldf.isAdditive = r.ldf.isAdditive ∧ t.ldf.vd = r.ldf.vd := by
  obtain ⟨r, hr, h1, -, -, -, h2, v1, v2, v3, v4, v5, v6, v7, v8, v9, v10⟩ := fit_spec h hf sigma m none
  obtain ⟨t, ht, t1, t2, t3, -⟩ := transform_spec h hf hr h.toStandard hf rfl h.names (by omega) only sigma m
  have hc : ∀ i k s, newCoef x D r pairs x f sigma m i k s = r.side i k s := by
    intro i k s
    obtain ⟨e1, e2, e3, e4⟩ := h1 i k s
    unfold newCoef
    rw [← e1, ← e2, ← e3, ← e4]
  have hfull : t.full = r.full := by
    funext i k o
    rw [t1, h2, hc, hc]
  have hv : t.ldf.values = r.ldf.values := by rw [t2, v1, hfull]
  refine ⟨r, t, hr, ht, hfull, hv, ?_⟩
  rw [t3, v2, v3, v4, v5, v6, v7, v8, v9]
  exact ⟨rfl, rfl, rfl, rfl, rfl, rfl, rfl, date⟩

/-- The coefficients at the ages of the fit are numbers. -/
theorem newCoef_finite {x y f g : Tri ℝ} {a b : Int} {D n E q : Nat} {pairs} (h : Square x a D pairs)
    (hf : Pattern x f D) {sigma : Arr ℝ} {m : Interp} {fill : Option (Arr ℝ)} {r : Fit}
    (hr : fit x f sigma m pairs fill = .ok r) (hy : NewData x y g pairs b n E q) (hE : E ≤ D)
    (sigma' : Arr ℝ) (m' : Interp) {i k : Nat} (hi : i < x.kdims.length) (hk : k < pairs.length) {d : Nat}
    (hd : d + 1 < E) (s : Bool)
    (hm : m' = .mack ∨ ¬ Proportional (Finset.range (D - d)) (fun o => x.values.get i (col x pairs k false) o d)
      (fun o => x.values.get i (col x pairs k true) o d))
    (hl : ∃ v, (r.side i k s).lam = .fin v)
    (hv : (∃ v, g.values.get i (col y pairs k s) 0 d = .fin v) ∧
      ∃ v, sigma'.get i (col y pairs k s) 0 d = .fin v) :
    (newCoef x D r pairs y g sigma' m' i k s).Finite d := by
  have hka := known_age h hi hk (d := d) (by omega) s
  refine ⟨hv.1, hv.2, ?_, ?_, hl⟩
  · refine (rho_spec m' (x := x.values.get i (col x pairs k s)) (y := x.values.get i (col x pairs k (!s))) hka
      (by rw [Finset.card_range]; omega)).1 ?_
    cases s with
    | false => exact hm
    | true =>
      refine hm.imp id fun hp => ?_
      rintro ⟨c, hc⟩
      apply hp
      refine ⟨1 / c, fun o ho => ?_⟩
      have hc := hc o ho
      obtain ⟨u, v, hu, hv, e, e'⟩ := (known_age h hi hk (d := d) (by omega) false).pos o ho
      simp only [Bool.not_true, Bool.not_false] at hc e' ⊢
      simp only [e, e', Num.amt_fin] at hc ⊢
      have : c ≠ 0 := by
        rintro rfl
        rw [zero_mul] at hc
        exact hu.ne' hc
      rw [hc]
      field_simp
  · exact ⟨_, hka.origSlope ⟨0, Finset.mem_range.2 (by omega)⟩⟩

/-- **C76** (new triangle): the full triangle has the known amounts of the new triangle; every later amount
is the amount before times the factor of the new triangle, adjusted by the correlation of the fit times the
deviation of the new triangle over that of the fit times the difference of the ratio of the other side
to that of the fit, which is the ratio of the totals of all origins known at that age.  Not covered: more
ages than in the fit (`C76_ages_false`), gaps in the new triangle, and numbers that are missing. -/
theorem C76_partial {x y f g : Tri ℝ} {a b : Int} {D n E q : Nat} {pairs} (h : Square x a D pairs)
    (hf : Pattern x f D) (sigma : Arr ℝ) (m : Interp) (hy : NewData x y g pairs b n E q) (hE : E ≤ D)
    (only : x.vdims.length = 2 * pairs.length) (sigma' : Arr ℝ) (m' : Interp) :
    ∃ r t, fit x f sigma m pairs none = .ok r ∧ transform x r pairs y g sigma' m' = .ok t ∧
      ∀ i < x.kdims.length, ∀ k < pairs.length,
      (∀ d, d + 1 < E → m' = .mack ∨ ¬ Proportional (Finset.range (D - d))
        (fun o => x.values.get i (col x pairs k false) o d) (fun o => x.values.get i (col x pairs k true) o d)) →
      (∀ s, ∃ v, (r.side i k s).lam = .fin v) →
      (∀ s d, d + 1 < E → (∃ v, g.values.get i (col y pairs k s) 0 d = .fin v) ∧
        ∃ v, sigma'.get i (col y pairs k s) 0 d = .fin v) →
      ∀ s, ∀ o < n,
        (∀ d, q * o + d < E → t.amount i k s o d = y.values.get i (col y pairs k s) o d) ∧
        ∀ d, d + 1 < E → E ≤ q * o + d + 1 → ∀ u v, u ≠ 0 → t.amount i k s o d = .fin u →
          t.amount i k (!s) o d = .fin v →
          ∃ w, w ≠ 0 ∧ rho m' D D (x.values.get i (col x pairs k s)) (x.values.get i (col x pairs k (!s))) d = .fin w ∧
            (m' = m → (r.side i k s).rho d = .fin w) ∧
            t.amount i k s o (d + 1) = .fin (((g.values.get i (col y pairs k s) 0 d).amt +
              (r.side i k s).lam.amt * (sigma'.get i (col y pairs k s) 0 d).amt / w *
              (v / u - (∑ o ∈ Finset.range (D - d), (x.values.get i (col x pairs k (!s)) o d).amt) /
                ∑ o ∈ Finset.range (D - d), (x.values.get i (col x pairs k s) o d).amt)) * u) := by
  obtain ⟨r, hr, h1, -⟩ := fit_spec h hf sigma m none
  obtain ⟨t, ht, t1, -⟩ := transform_spec h hf hr hy.toStandard hy.pattern hy.index hy.names (by omega) only
    sigma' m'
  refine ⟨r, t, hr, ht, fun i hi k hk hm hl hv s o ho => ?_⟩
  have hiy : i < y.kdims.length := by rw [hy.index]; exact hi
  have hfin : ∀ s d, d + 1 < E → (newCoef x D r pairs y g sigma' m' i k s).Finite d := fun s d hd =>
    newCoef_finite h hf hr hy hE sigma' m' hi hk hd s (hm d hd) (hl s) (hv s d hd)
  have hqo : q * o ≤ q * (n - 1) := Nat.mul_le_mul_left _ (by omega)
  have hrec := hy.recent
  constructor
  · intro d hd
    have := full_known (L := E - 1 - q * o)
      (fun j hj => hy.numbers i hiy k hk false o ho j (by omega))
      (fun j hj => hy.numbers i hiy k hk true o ho j (by omega)) (fun j hj => hfin false j (by omega))
      (fun j hj => hfin true j (by omega)) d (by omega)
    unfold Transformed.amount
    rw [t1, this]
    cases s <;> rfl
  · intro d hd hod u v hu e1 e2
    obtain ⟨⟨l, hl'⟩, ⟨sg, hs⟩, ⟨w, hw, hw'⟩, -, ⟨c, hc⟩⟩ := hfin s d hd
    have hq : (newCoef x D r pairs y g sigma' m' i k s).q d =
        .fin ((∑ o ∈ Finset.range (D - d), (x.values.get i (col x pairs k (!s)) o d).amt) /
          ∑ o ∈ Finset.range (D - d), (x.values.get i (col x pairs k s) o d).amt) :=
      (known_age h hi hk (d := d) (by omega) s).origSlope ⟨0, Finset.mem_range.2 (by omega)⟩
    have hun : ∀ s, y.values.get i (col y pairs k s) o (d + 1) = .nan := by
      intro s
      have hc := (column_col h.distinct_names hy.names t.full hk s).1
      exact hy.known i hiy _ hc o ho (d + 1) hd (by omega)
    have hproj : t.amount i k s o (d + 1) = (newCoef x D r pairs y g sigma' m' i k s).project d
        (t.amount i k s o d) (t.amount i k (!s) o d) := by
      unfold Transformed.amount
      rw [t1]
      cases s with
      | false => simp only [full, hun, keep_nan]; rfl
      | true => simp only [full, hun, keep_nan]; rfl
    refine ⟨w, hw, hw', ?_, ?_⟩
    · rintro rfl
      rw [(h1 i k s).2.2.1]
      exact hw'
    · rw [hproj, e1, e2]
      unfold Coef.project
      rw [hq, hw', hl', hs, hc]
      have a1 : (g.values.get i (col y pairs k s) 0 d).amt = l := by
        rw [show g.values.get i (col y pairs k s) 0 d = .fin l from hl', Num.amt_fin]
      have a2 : (sigma'.get i (col y pairs k s) 0 d).amt = sg := by
        rw [show sigma'.get i (col y pairs k s) 0 d = .fin sg from hs, Num.amt_fin]
      have a3 : (r.side i k s).lam.amt = c := by
        rw [show (r.side i k s).lam = .fin c from hc, Num.amt_fin]
      rw [a1, a2, a3, Num.fin_mul_fin, Num.fin_div_fin_of_ne _ hw, Num.fin_div_fin_of_ne _ hu]
      rfl

/-- **C76** (ultimate): an amount of the full triangle times the age-to-ultimate factor of its origin is the
last amount of the origin, from an age on after which no amount is missing or zero. -/
theorem C76_ultimate_partial {x y f g : Tri ℝ} {a b : Int} {D n E q : Nat} {pairs} (h : Square x a D pairs)
    (hf : Pattern x f D) (sigma : Arr ℝ) (m : Interp) (hy : NewData x y g pairs b n E q) (hE : E ≤ D + 1)
    (only : x.vdims.length = 2 * pairs.length) (sigma' : Arr ℝ) (m' : Interp)
    (hga : g.isAdditive = none) (hgv : g.isVal = false) (date : g.vd = ultVal)
    (late : y.vd + (E * y.dgrain.months : Nat) ≤ ultVal) :
    ∃ r t, fit x f sigma m pairs none = .ok r ∧ transform x r pairs y g sigma' m' = .ok t ∧
      ∀ i < x.kdims.length, ∀ k < pairs.length, ∀ s, ∀ o < n, ∀ e, e + 1 < E →
      (∀ j, e ≤ j → j < E → ∃ v, v ≠ 0 ∧ t.amount i k s o j = .fin v) →
      t.amount i k s o e * t.ldf.incrToCum.values.get i (col y pairs k s) o e = t.amount i k s o (E - 1) := by
  obtain ⟨r, hr, -⟩ := fit_spec h hf sigma m none
  obtain ⟨t, ht, t1, t2, t3, -⟩ := transform_spec h hf hr hy.toStandard hy.pattern hy.index hy.names hE only
    sigma' m'
  refine ⟨r, t, hr, ht, fun i hi k hk s o ho e he hj => ?_⟩
  have hcdf : t.ldf.incrToCum.values.get i (col y pairs k s) o e = ∏ j ∈ Finset.Ico e (E - 1),
      ((ldf E (cdf E (t.amount i k s o)) j).nanToNum).numToValue 1 := by
    have v2 : t.ldf.odims = y.odims := by rw [t3]
    have v3 : t.ldf.ddims = y.ddims.dropLast := by rw [t3]
    have v4 : t.ldf.isPattern = true := by rw [t3]
    have v5 : t.ldf.isCum = some false := by rw [t3]
    have v6 : t.ldf.vd = ultVal := by rw [t3]; exact date
    have v9 : t.ldf.isAdditive = none := by rw [t3]; exact hga
    have v10 : t.ldf.isVal = false := by rw [t3]; exact hgv
    have hinc : t.ldf.incrToCum = { t.ldf with values := t.ldf.cumProdVals, isCum := some true } := by
      unfold Tri.incrToCum
      rw [if_neg (by rw [v5]; decide)]
      simp only [v4, if_true, v9]
    rw [hinc]
    have hlast : t.ldf.ddims.getLast? ≠ some 9999 := by
      rw [v3]
      intro hl
      exact hy.not_ult (List.dropLast_subset _ (List.mem_of_getLast? hl))
    have hn : t.ldf.nanTri o e = 1 := by
      unfold Tri.nanTri
      split_ifs with h1 h2
      · rfl
      · exfalso
        unfold Tri.valuation Tri.valuationOf at h2
        rw [v10, if_neg (by decide), if_neg (fun hh => hlast hh.1), v6, v2, v3] at h2
        have hdl : y.ddims.dropLast.getD e 0 = y.ddims.getD e 0 := by
          rw [List.getD_eq_getElem?_getD, List.getD_eq_getElem?_getD, List.dropLast_eq_take,
            List.getElem?_take_of_lt (by rw [hy.lenD]; omega)]
        rw [hdl, hy.getO ho, hy.getDv (by omega)] at h2
        have h3 := hy.vd
        have hqo : o * q ≤ q * (n - 1) := by rw [mul_comm]; exact Nat.mul_le_mul_left _ (by omega)
        have hrec := hy.recent
        have h4 : o * q * y.dgrain.months + (e + 1) * y.dgrain.months ≤ (E + E) * y.dgrain.months := by
          rw [← Nat.add_mul]
          exact Nat.mul_le_mul_right _ (by omega)
        rw [Nat.add_mul E E] at h4
        have h5 := min_le_left (b + ((o * q * y.dgrain.months : Nat) : Int)) ultVal
        clear v6 t1 t2 t3
        generalize o * q * y.dgrain.months = A at *
        generalize (e + 1) * y.dgrain.months = B at *
        generalize E * y.dgrain.months = C at *
        generalize min (b + (A : Int)) ultVal = M at *
        omega
      · rfl
    have hc := (column_col h.distinct_names hy.names t.full hk s).2
    show (∏ j ∈ Finset.Ico e t.ldf.values.d3, _) * t.ldf.nanTri o e = _
    rw [hn, mul_one, t2]
    refine Finset.prod_congr rfl fun j _ => ?_
    simp only [cdfValues, hc]
    rw [hy.wf.2.2.2, hy.lenD]
    rfl
  rw [hcdf]
  exact last_amount he hj

/-- **C76 is false of triangles with other columns**: a fit that succeeds on a triangle with a column in no
pair cannot transform anything. -/
theorem C76_columns_false {x y f g : Tri ℝ} {a b : Int} {D n E q : Nat} {pairs} (h : Square x a D pairs)
    (hf : Pattern x f D) (sigma : Arr ℝ) (m : Interp) (more : 2 * pairs.length < x.vdims.length)
    (hy : NewData x y g pairs b n E q) (sigma' : Arr ℝ) (m' : Interp) :
    ∃ r, fit x f sigma m pairs none = .ok r ∧ transform x r pairs y g sigma' m' = .error .valueError := by
  obtain ⟨r, hr, -, -, -, -, -, -, -, -, -, -, -, -, v8, -⟩ := fit_spec h hf sigma m none
  refine ⟨r, hr, ?_⟩
  obtain ⟨lr, hlr, -⟩ := hy.linkRatio
  have y3 : y.values.d3 = E := by rw [hy.wf.2.2.2, hy.lenD]
  have f2 : g.values.d2 = 1 := by rw [hy.pattern.wf.2.2.1, hy.pattern.row]
  have f3 : g.values.d3 + 1 = E := by rw [hy.pattern.wf.2.2.2, hy.pattern.ages]
  have f0 : g.values.d0 = y.values.d0 := by rw [hy.pattern.wf.1, hy.pattern.index, hy.wf.1]
  have y0 : y.values.d0 = x.values.d0 := by rw [hy.wf.1, hy.index, h.wf.1]
  unfold transform
  dsimp only
  rw [if_neg (by rw [not_not]; exact ⟨y0, f0, hy.pattern.columns, f2, by omega⟩),
    if_neg (by rw [not_not]; exact mem_names hy.names)]
  have hne : r.ldf.vdims.length ≠ (pairs.flatMap fun p => [p.1, p.2]).length := by
    rw [v8, hf.columns, names_length]; omega
  rw [hlr]
  simp only [bind, Except.bind]
  rw [if_pos hne, ite_self]

/-- **C76 is false of later ages**: a triangle with two or more ages more than the fit cannot be
transformed. -/
theorem C76_ages_false {x y f g : Tri ℝ} {a b : Int} {D n E q : Nat} {pairs} (h : Square x a D pairs)
    (hf : Pattern x f D) (sigma : Arr ℝ) (m : Interp) (hy : NewData x y g pairs b n E q) (hE : D + 1 < E)
    (sigma' : Arr ℝ) (m' : Interp) :
    ∃ r, fit x f sigma m pairs none = .ok r ∧ transform x r pairs y g sigma' m' = .error .valueError := by
  obtain ⟨r, hr, -⟩ := fit_spec h hf sigma m none
  refine ⟨r, hr, ?_⟩
  have y3 : y.values.d3 = E := by rw [hy.wf.2.2.2, hy.lenD]
  have x3 : x.values.d3 = D := by rw [h.wf.2.2.2, h.lenD]
  have f2 : g.values.d2 = 1 := by rw [hy.pattern.wf.2.2.1, hy.pattern.row]
  have f3 : g.values.d3 + 1 = E := by rw [hy.pattern.wf.2.2.2, hy.pattern.ages]
  have f0 : g.values.d0 = y.values.d0 := by rw [hy.pattern.wf.1, hy.pattern.index, hy.wf.1]
  have y0 : y.values.d0 = x.values.d0 := by rw [hy.wf.1, hy.index, h.wf.1]
  unfold transform
  dsimp only
  rw [if_neg (by rw [not_not]; exact ⟨y0, f0, hy.pattern.columns, f2, by omega⟩),
    if_neg (by rw [not_not]; exact mem_names hy.names), if_pos (by omega)]

/-- A zero is kept or lost. -/
theorem keep_zero (z : Num ℝ) : keep (.fin 0) z = .fin 0 ∨ keep (.fin 0) z = .nan := by
  have h : keep (.fin 0) z = .fin 0 + .fin 0 * z := by
    unfold keep
    simp [Num.zero_def, Num.one_def]
  rw [h]
  cases z with
  | nan => right; rfl
  | ninf => right; rw [Num.fin_mul_ninf]; simp [Num.infMul]
  | pinf => right; rw [Num.fin_mul_pinf]; simp [Num.infMul]
  | fin v => left; rw [Num.fin_mul_fin, Num.fin_add_fin]; simp

open Classical in
/-- **C76 is false of `fillna`**: the fit fills zeros of the data, the transformation of the same triangle
does not.  Where a paid or incurred amount is zero, the full triangle of the fit has the amount filled in
(if the coefficients are numbers, as in `C46_known_partial`), that of the transformation zero or
nothing. -/
theorem C76_gaps_false {x y f : Tri ℝ} {a : Int} {D : Nat} {pairs} (h : Square y a D pairs)
    (hf : Pattern y f D) (hx : Tri.Standard x a D D 1) (b : Arr ℝ)
    (hxy : y = { x with values := y.values }) (h0 : y.values.d0 = x.values.d0) (h1 : y.values.d1 = x.values.d1)
    (h2 : y.values.d2 = x.values.d2) (h3 : y.values.d3 = x.values.d3)
    (hg : ∀ i c o d, y.values.get i c o d = if Gap x i c o d then b.get i c o d else x.values.get i c o d)
    (sigma : Arr ℝ) (m : Interp) (only : x.vdims.length = 2 * pairs.length) {i k o d : Nat} {s : Bool}
    (hi : i < x.kdims.length) (hk : k < pairs.length) (hod : o + d < D)
    (zero : x.values.get i (col x pairs k s) o d = .fin 0) :
    ∃ r t, fit x f sigma m pairs (some b) = .ok r ∧ transform y r pairs x f sigma m = .ok t ∧
      (t.amount i k s o d = .fin 0 ∨ t.amount i k s o d = .nan) ∧
      ((∀ d, d + 1 < D → m = .mack ∨ ¬ Proportional (Finset.range (D - d))
        (fun o => y.values.get i (col y pairs k false) o d) (fun o => y.values.get i (col y pairs k true) o d)) →
      (∀ s, ∃ v, (r.side i k s).lam = .fin v) →
      (∀ s d, d + 1 < D → (∃ v, f.values.get i (col y pairs k s) 0 d = .fin v) ∧
        ∃ v, sigma.get i (col y pairs k s) 0 d = .fin v) →
      r.amount i k s o d = b.get i (col x pairs k s) o d ∧ 0 < (b.get i (col x pairs k s) o d).amt) := by
  have hv : y.vdims = x.vdims := by rw [hxy]
  have hkd : y.kdims = x.kdims := by rw [hxy]
  have hcol : ∀ s, col y pairs k s = col x pairs k s := by intro s; unfold col; rw [hv]
  have hgap : Gap x i (col x pairs k s) o d := by
    refine ⟨.inr zero, ?_⟩
    rw [← not_lt, hx.valuation_gt (by omega) (by omega)]
    omega
  have hcl : col y pairs k s < y.vdims.length :=
    (column_col h.distinct_names h.names (fun _ _ _ _ => (.nan, .nan)) hk s).1
  have hfit := (C46_gaps (f := f) h b hxy h0 h1 h2 h3 hg sigma m ⟨i, by rw [hx.wf.1]; exact hi,
    col x pairs k s, by rw [hx.wf.2.1, ← hv, ← hcol]; exact hcl, o, by rw [hx.wf.2.2.1, hx.lenO]; omega, d,
    by rw [hx.wf.2.2.2, hx.lenD]; omega, hgap⟩).1
  obtain ⟨r, hr, hknown⟩ := C46_known_partial h hf sigma m
  have hfx : Pattern x f D := ⟨hf.wf, by rw [hf.index, hkd], by rw [hf.columns, hv], hf.row, hf.ages⟩
  obtain ⟨t, ht, t1, -⟩ := transform_spec h hf hr hx hfx (by rw [hkd]) (by rw [← hv]; exact h.names) (by omega)
    (by rw [hv]; exact only) sigma m
  refine ⟨r, t, by rw [hfit]; exact hr, ht, ?_, fun c1 c2 c3 => ?_⟩
  · unfold Transformed.amount
    rw [t1]
    cases d with
    | zero =>
      left
      cases s with
      | false => simp [full, zero]
      | true => simp [full, zero]
    | succ d =>
      cases s with
      | false => simp only [full, zero, Bool.false_eq_true, if_false]; exact keep_zero _
      | true => simp only [full, zero, if_true]; exact keep_zero _
  · have e := hknown i (by rw [hkd]; exact hi) k hk c1 c2 c3 s o d hod
    have e2 : y.values.get i (col y pairs k s) o d = b.get i (col x pairs k s) o d := by
      rw [hcol, hg, if_pos hgap]
    refine ⟨by rw [e, e2], ?_⟩
    obtain ⟨u, v, hu, -, eu, -⟩ := (known_age h (by rw [hkd]; exact hi) hk (d := d) (by omega) s).pos o
      (Finset.mem_range.2 (by omega))
    rw [← e2, eu]
    exact hu

/-! ## Examples -/

namespace C76

theorem standard (p q : Nat → Nat → ℝ) : (Ex.years p q).Standard 24240 3 3 1 where
  wf := ⟨rfl, rfl, rfl, rfl⟩
  finite := by
    intro i hi c hc o ho d hd
    show (if o + d < 3 then (.fin (if c = 0 then p o d else q o d) : Num ℝ) else .nan).NoInf
    split_ifs
    · exact Num.noInf_fin _
    · exact Num.noInf_fin _
    · exact Num.noInf_nan
  isVal := rfl
  index_pos := le_rfl
  columns_pos := by show 1 ≤ 2; omega
  two_origins := by decide
  period := le_rfl
  recent := by decide
  odims := rfl
  ddims := rfl
  vd := rfl
  short := by show 3 * 12 < 9999; omega
  early := by show (24275 : Int) ≤ 12 * 2261 + 11; omega
  known := by
    intro i hi c hc o ho d hd h
    show (if o + d < 3 then (.fin (if c = 0 then p o d else q o d) : Num ℝ) else .nan) = .nan
    rw [if_neg (by omega)]
  cumulative := by show (some true : Option Bool) ≠ some false; decide
  noPattern := rfl
  multiplicative := rfl

theorem pair_names {l : List String} (h : "paid" ∈ l ∧ "incurred" ∈ l) :
    ∀ p ∈ [("paid", "incurred")], p.1 ∈ l ∧ p.2 ∈ l := by
  intro p hp
  rw [List.mem_singleton] at hp
  subst hp
  exact h

/-- Other amounts to transform. -/
theorem newData (x : Tri ℝ) (hx : x.kdims.length = 1) {p q : Nat → Nat → ℝ} (hp : ∀ o d, 0 < p o d)
    (hq : ∀ o d, 0 < q o d) (f g : Nat → ℝ) :
    NewData x (Ex.years p q) (Ex.factors f g) [("paid", "incurred")] 24240 3 3 1 where
  toStandard := standard p q
  pattern := Ex.pattern p q f g
  index := hx.symm
  names := pair_names (by
    show "paid" ∈ ["paid", "incurred"] ∧ "incurred" ∈ ["paid", "incurred"]
    decide)
  numbers := by
    intro i _ k _ s o _ d hod
    refine ⟨_, ?_, by rw [Ex.cell, if_pos (by omega)]⟩
    split_ifs
    · exact (hp o d).ne'
    · exact (hq o d).ne'

/-- The triangle of the fit with a paid amount of zero. -/
noncomputable def zeroed : Tri ℝ := Ex.years (fun o d => if o = 0 ∧ d = 1 then 0 else Ex.paid o d) Ex.incurred

/-- Five ages of three origins. -/
noncomputable def old : Tri ℝ :=
  { Ex.years Ex.paid Ex.incurred with
    ddims := [12, 24, 36, 48, 60]
    vd := 24299
    values := ⟨1, 2, 3, 5, fun _ _ o d => if o + d < 5 then .fin (d + 1) else .nan⟩ }

/-- Factors of five ages. -/
noncomputable def older : Tri ℝ :=
  { Ex.factors Ex.f Ex.g with
    ddims := [12, 24, 36, 48]
    values := ⟨1, 2, 1, 4, fun _ _ _ _ => .fin 2⟩ }

theorem old_data : NewData (Ex.years Ex.paid Ex.incurred) old older [("paid", "incurred")] 24240 3 5 1 where
  wf := ⟨rfl, rfl, rfl, rfl⟩
  finite := by
    intro i hi c hc o ho d hd
    show (if o + d < 5 then (.fin ((d : ℝ) + 1) : Num ℝ) else .nan).NoInf
    split_ifs
    · exact Num.noInf_fin _
    · exact Num.noInf_nan
  isVal := rfl
  index_pos := le_rfl
  columns_pos := by show 1 ≤ 2; omega
  two_origins := by decide
  period := le_rfl
  recent := by decide
  odims := rfl
  ddims := rfl
  vd := rfl
  short := by show 5 * 12 < 9999; omega
  early := by show (24299 : Int) ≤ 12 * 2261 + 11; omega
  known := by
    intro i hi c hc o ho d hd h
    show (if o + d < 5 then (.fin ((d : ℝ) + 1) : Num ℝ) else .nan) = .nan
    rw [if_neg (by omega)]
  cumulative := by show (some true : Option Bool) ≠ some false; decide
  noPattern := rfl
  multiplicative := rfl
  pattern := ⟨⟨rfl, rfl, rfl, rfl⟩, rfl, rfl, rfl, rfl⟩
  index := rfl
  names := pair_names (by
    show "paid" ∈ ["paid", "incurred"] ∧ "incurred" ∈ ["paid", "incurred"]
    decide)
  numbers := by
    intro i _ k _ s o _ d hod
    exact ⟨(d : ℝ) + 1, by positivity, if_pos (by omega)⟩

end C76

/-- `C76_partial` and `C76_ultimate_partial`: the amounts of a new triangle in which incurred is twice paid,
its first projected amount, and the ultimate of its first origin. -/
example : ∃ r t, fit (Ex.years Ex.paid Ex.incurred) (Ex.factors Ex.f Ex.g) Ex.ones .logLinear
      [("paid", "incurred")] none = .ok r ∧
    transform (Ex.years Ex.paid Ex.incurred) r [("paid", "incurred")] (Ex.years Ex.paid fun o d => 2 * Ex.paid o d)
      (Ex.factors Ex.f Ex.g) Ex.ones .logLinear = .ok t ∧
    t.amount 0 0 false 0 1 = .fin 150 ∧ t.amount 0 0 true 0 1 = .fin 300 ∧
    (∃ w, w ≠ 0 ∧ t.amount 0 0 false 2 1 = .fin ((16 / 11 + (r.side 0 0 false).lam.amt * 1 / w *
      (2 - (Ex.incurred 0 0 + Ex.incurred 1 0 + Ex.incurred 2 0) /
        (Ex.paid 0 0 + Ex.paid 1 0 + Ex.paid 2 0))) * Ex.paid 2 0)) ∧
    t.amount 0 0 true 0 0 * t.ldf.incrToCum.values.get 0 1 0 0 = .fin (2 * Ex.paid 0 2) := by
  have hd : ∀ o d, 0 < 2 * Ex.paid o d := fun o d => by have := Ex.paid_pos o d; positivity
  have c0 : col (Ex.years Ex.paid Ex.incurred) [("paid", "incurred")] 0 false = 0 := by decide
  have c1 : col (Ex.years Ex.paid Ex.incurred) [("paid", "incurred")] 0 true = 1 := by decide
  have e0 : col (Ex.years Ex.paid fun o d => 2 * Ex.paid o d) [("paid", "incurred")] 0 false = 0 := by decide
  have e1 : col (Ex.years Ex.paid fun o d => 2 * Ex.paid o d) [("paid", "incurred")] 0 true = 1 := by decide
  have hy := C76.newData (Ex.years Ex.paid Ex.incurred) rfl Ex.paid_pos hd Ex.f Ex.g
  obtain ⟨r, t, hr, ht, h⟩ := C76_partial Ex.known (Ex.pattern _ _ Ex.f Ex.g) Ex.ones .logLinear hy le_rfl rfl
    Ex.ones .logLinear
  obtain ⟨r', t', hr', ht', h'⟩ := C76_ultimate_partial Ex.known (Ex.pattern _ _ Ex.f Ex.g) Ex.ones .logLinear hy
    (by omega) rfl Ex.ones .logLinear rfl rfl rfl (by show (24275 : Int) + 36 ≤ 12 * 2261 + 11; omega)
  rw [hr] at hr'
  injection hr' with hr'
  subst hr'
  rw [ht] at ht'
  injection ht' with ht'
  subst ht'
  obtain ⟨r', hr', hlam, -⟩ := Ex.fitted
  rw [hr] at hr'
  injection hr' with hr'
  subst hr'
  have hk : 0 < [("paid", "incurred")].length := by decide
  have key := h 0 Nat.zero_lt_one 0 hk (fun d hd => .inr (Ex.not_proportional false d hd)) hlam
    (fun s d _ => ⟨⟨_, rfl⟩, ⟨1, rfl⟩⟩)
  have kn : ∀ s o d, o + d < 3 → t.amount 0 0 s o d = .fin (if s then 2 * Ex.paid o d else Ex.paid o d) := by
    intro s o d hod
    rw [(key s o (by omega)).1 d (by omega), Ex.cell, if_pos hod]
    cases s
    · rw [e0]; rfl
    · rw [e1]; rfl
  refine ⟨r, t, hr, ht, ?_, ?_, ?_, ?_⟩
  · rw [kn false 0 1 (by omega)]; rfl
  · rw [kn true 0 1 (by omega)]
    show Num.fin (2 * (150 : ℝ)) = _
    norm_num
  · obtain ⟨w, hw, -, -, e⟩ := (key false 2 (by omega)).2 0 (by omega) (by omega) _ _ (Ex.paid_pos 2 0).ne'
      (kn false 2 0 (by omega)) (kn true 2 0 (by omega))
    refine ⟨w, hw, ?_⟩
    rw [e, if_pos rfl, mul_div_cancel_right₀ _ (Ex.paid_pos 2 0).ne']
    simp only [Bool.not_false, c0, c1, e0, Finset.sum_range_succ, Finset.range_zero, Finset.sum_empty, Ex.cell]
    simp [Ex.factors, Ex.ones, Ex.f]
  · have := h' 0 Nat.zero_lt_one 0 hk true 0 (by omega) 0 (by omega) (fun j _ hj =>
      ⟨_, (hd 0 j).ne', kn true 0 j (by omega)⟩)
    rw [e1] at this
    rw [this, kn true 0 (3 - 1) (by omega)]
    rfl

/-- `C76_same_partial`. -/
example : ∃ r t, fit (Ex.years Ex.paid Ex.incurred) (Ex.factors Ex.f Ex.g) Ex.ones .logLinear
      [("paid", "incurred")] none = .ok r ∧
    transform (Ex.years Ex.paid Ex.incurred) r [("paid", "incurred")] (Ex.years Ex.paid Ex.incurred)
      (Ex.factors Ex.f Ex.g) Ex.ones .logLinear = .ok t ∧ t.ldf.values = r.ldf.values := by
  obtain ⟨r, t, hr, ht, -, h, -⟩ := C76_same_partial Ex.known (Ex.pattern _ _ Ex.f Ex.g) rfl rfl Ex.ones .logLinear
  exact ⟨r, t, hr, ht, h⟩

/-- `C76_columns_false`: after a fit with a third column. -/
example : ∃ r, fit Ex.wide Ex.wider Ex.ones .mack [("paid", "incurred")] none = .ok r ∧
    transform Ex.wide r [("paid", "incurred")] (Ex.years Ex.paid Ex.incurred) (Ex.factors Ex.f Ex.g) Ex.ones .mack =
      .error .valueError :=
  C76_columns_false Ex.wide_square (f := Ex.wider) ⟨⟨rfl, rfl, rfl, rfl⟩, rfl, rfl, rfl, rfl⟩ _ _
    (by show 2 < 3; omega) (C76.newData _ rfl Ex.paid_pos Ex.incurred_pos _ _) _ _

/-- `C76_ages_false`: five ages after a fit of three. -/
example : ∃ r, fit (Ex.years Ex.paid Ex.incurred) (Ex.factors Ex.f Ex.g) Ex.ones .mack [("paid", "incurred")] none =
      .ok r ∧
    transform (Ex.years Ex.paid Ex.incurred) r [("paid", "incurred")] C76.old C76.older Ex.ones .mack =
      .error .valueError :=
  C76_ages_false Ex.known (Ex.pattern _ _ _ _) _ _ C76.old_data (by omega) _ _

/-- `C76_gaps_false`: the paid amount of zero is filled with 150 in the fit only. -/
example : ∃ r t, fit C76.zeroed (Ex.factors Ex.f Ex.g) Ex.ones .logLinear [("paid", "incurred")]
      (some (Ex.years Ex.paid Ex.incurred).values) = .ok r ∧
    transform (Ex.years Ex.paid Ex.incurred) r [("paid", "incurred")] C76.zeroed (Ex.factors Ex.f Ex.g) Ex.ones
      .logLinear = .ok t ∧ (t.amount 0 0 false 0 1 = .fin 0 ∨ t.amount 0 0 false 0 1 = .nan) ∧
    r.amount 0 0 false 0 1 = .fin 150 := by
  classical
  have c0 : col C76.zeroed [("paid", "incurred")] 0 false = 0 := by decide
  have hcells : ∀ i c o d, (Ex.years Ex.paid Ex.incurred).values.get i c o d = if Gap C76.zeroed i c o d then
      (Ex.years Ex.paid Ex.incurred).values.get i c o d else C76.zeroed.values.get i c o d := by
    intro i c o d
    split_ifs with hg
    · rfl
    · unfold C76.zeroed
      rw [Ex.cell, Ex.cell]
      by_cases hc : c = 0 ∧ o = 0 ∧ d = 1
      · exfalso
        apply hg
        obtain ⟨rfl, rfl, rfl⟩ := hc
        exact ⟨.inr (by unfold C76.zeroed; rw [Ex.cell]; simp), by
          show Tri.valuationOf false [24240, 24252, 24264] [12, 24, 36] 24275 0 1 ≤ 24275
          decide⟩
      · by_cases h0 : c = 0
        · rw [if_pos h0, if_pos h0, if_neg fun hh => hc ⟨h0, hh⟩]
        · rw [if_neg h0, if_neg h0]
  have hgaps := (C46_gaps (x := C76.zeroed) (f := Ex.factors Ex.f Ex.g) Ex.known
    (Ex.years Ex.paid Ex.incurred).values rfl rfl rfl rfl rfl hcells Ex.ones .logLinear ⟨0, Nat.zero_lt_one, 0,
      show 0 < 2 by omega, 0, show 0 < 3 by omega, 1, show 1 < 3 by omega,
      .inr (by unfold C76.zeroed; rw [Ex.cell]; simp), by
        show Tri.valuationOf false [24240, 24252, 24264] [12, 24, 36] 24275 0 1 ≤ 24275
        decide⟩).1
  obtain ⟨r, t, hr, ht, h1, h2⟩ := C76_gaps_false (x := C76.zeroed) (f := Ex.factors Ex.f Ex.g) Ex.known
    (Ex.pattern _ _ _ _) (C76.standard _ _) (Ex.years Ex.paid Ex.incurred).values rfl rfl rfl rfl rfl hcells Ex.ones
    .logLinear rfl (i := 0) (k := 0) (o := 0) (d := 1) (s := false) Nat.zero_lt_one (by decide) (by omega)
    (by rw [c0]; unfold C76.zeroed; rw [Ex.cell]; simp)
  obtain ⟨r', hr', hlam, -⟩ := Ex.fitted
  rw [← hgaps, hr] at hr'
  injection hr' with hr'
  subst hr'
  refine ⟨r, t, hr, ht, h1, ?_⟩
  rw [(h2 (fun d hd => .inr (Ex.not_proportional false d hd)) hlam (fun s d _ => ⟨⟨_, rfl⟩, ⟨1, rfl⟩⟩)).1, c0]
  rfl

end Munich
end CL
