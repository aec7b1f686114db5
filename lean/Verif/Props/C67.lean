import Verif.Model.Diagnostics
import Verif.Lemmas.Blocks
import Verif.Lemmas.Increments
import Verif.Lemmas.FullRun
import Verif.Spec.Examples

set_option linter.unusedSectionVars false

/-! # C67: the vectors of `model_diagnostics` -/

namespace CL
namespace Diagn
variable {K : Type} [Field K] [LinearOrder K] [IsStrictOrderedRing K]
variable {x t : Tri K} {a : Int} {n D q : Nat}
open Tri

/-- `l` has one number for each index, column and origin of `x`: the amount `A`, zero being missing. -/
structure Vector (x l : Tri K) (A : Nat → Nat → Nat → K) : Prop where
  wf : WF l
  index : l.kdims = x.kdims
  columns : l.vdims = x.vdims
  origins : l.odims = x.odims
  one : l.ddims.length = 1
  cells : ∀ i < x.kdims.length, ∀ c < x.vdims.length, ∀ o < x.odims.length,
    l.values.get i c o 0 = (Num.fin (A i c o)).numToNan

/-- The amount of a cell. -/
def amount (x : Tri K) (i c o d : Nat) : K := (x.values.get i c o d).amt

/-- A sum over the developments. -/
theorem sum_vector {z : Tri K} (wf : WF z) (ho : 2 ≤ z.odims.length) (hd : 2 ≤ z.ddims.length)
    (hf : ∀ i < z.kdims.length, ∀ c < z.vdims.length, ∀ o < z.odims.length, ∀ d < z.ddims.length,
      (z.values.get i c o d).NoInf) :
    ∃ l, z.sum .development = .tri l ∧ Vector z l fun i c o =>
      ∑ d ∈ Finset.range z.ddims.length, amount z i c o d := by
  obtain ⟨w0, w1, w2, w3⟩ := wf
  have hr : z.relabelAgg .development = { z with
      ddims := [z.vd]
      isVal := true } := by
    unfold relabelAgg
    simp only
    rw [if_pos (by omega)]
  refine ⟨z.sumKeep .development, ?_, ⟨?_, ?_, ?_, ?_, ?_, ?_⟩⟩
  · unfold Tri.sum toAgg
    rw [if_neg]
    rintro ⟨-, -, h, -⟩
    have : z.values.d2 = 1 := h
    omega
  · unfold sumKeep
    rw [hr]
    exact ⟨w0, w1, w2, rfl⟩
  · unfold sumKeep; rw [hr]
  · unfold sumKeep; rw [hr]
  · unfold sumKeep; rw [hr]
  · unfold sumKeep; rw [hr]; rfl
  · intro i hi c hc o ho
    show (∑ d ∈ Finset.range z.values.d3, (z.values.get i c o d).nan0).numToNan = _
    rw [w3, Num.sum_nan0 _ _ fun d hd => hf i hi c hc o ho d (Finset.mem_range.mp hd)]
    rfl

/-- The number of periods that end before the date. -/
theorem periods_before (x : Tri K) (a start : Int) (D : Nat) (hD : start ≤ a + ((D + 1) * x.dgrain.months : Nat) - 1) :
    ∃ m ≤ D, ∀ k : Nat, a + ((k + 1) * x.dgrain.months : Nat) - 1 < start ↔ k < m := by
  classical
  have hp := months_pos x.dgrain
  have ex : ∃ k : Nat, start ≤ a + ((k + 1) * x.dgrain.months : Nat) - 1 := ⟨D, hD⟩
  refine ⟨Nat.find ex, Nat.find_min' ex hD, fun k => ?_⟩
  constructor
  · intro h
    by_contra hk
    have h1 := Nat.find_spec ex
    have h2 : (Nat.find ex + 1) * x.dgrain.months ≤ (k + 1) * x.dgrain.months := Nat.mul_le_mul_right _ (by omega)
    omega
  · intro h
    have := Nat.find_min ex h
    omega

/-- **C67 (since a date)**: `(X - X[valuation < start]).sum('development')` adds, for each origin, the amounts of
the cells valued on or after the date.  Partial: the second origin has a cell before the date. -/
theorem C67_since_partial (h : Grid x a n D q) {start : Int} (h1 : x.valuation 1 0 < start) (h2 : start ≤ x.vd) :
    ∃ l, since x start = .ok (.tri l) ∧ Vector x l fun i c o =>
      ∑ d ∈ (Finset.range D).filter (fun d => start ≤ x.valuation o d), amount x i c o d := by
  have hn := h.two_origins
  have hD := h.two_ages
  have hq := h.period
  have hrec := h.recent
  have hDD := h.vd
  obtain ⟨m, hm, hb⟩ := periods_before x a start (D - 1) (by
    rw [show D - 1 + 1 = D by omega, ← hDD]; exact h2)
  have hv : ∀ {o d : Nat}, o < n → d < D → (x.valuation o d < start ↔ q * o + d < m) := by
    intro o d ho hd
    rw [h.valuation ho hd, hb]
  have hqm : q < m := by
    have := (hv (o := 1) (d := 0) (by omega) (by omega)).mp h1
    omega
  -- the block before the date
  have hko : ∀ o, q * o < m ↔ o < (m + q - 1) / q := by
    intro o
    have : o < (m + q - 1) / q ↔ (o + 1) * q ≤ m + q - 1 := by
      rw [← Nat.le_div_iff_mul_le (by omega)]; omega
    rw [this, Nat.add_mul, Nat.mul_comm o q]
    omega
  have hko2 : 2 ≤ min n ((m + q - 1) / q) := le_min hn ((hko 1).mp (by omega))
  obtain ⟨y, ey, wy, yk, yv, yl, yo, yd, yi, yp, yc, bo, lo, bd, ld, cells, -, vd⟩ :=
    getVal_block (t := x) h.wf h.ordered h.dated h.graded (by rw [h.lenD]; exact hD)
      (P := fun v => decide (v < start)) (Or.inl fun v w hvw hw => by
        simp only [decide_eq_true_eq] at hw ⊢; omega)
      (so := 0) (ko := min n ((m + q - 1) / q)) (sd := 0) (kd := m) (by omega)
      (by rw [h.lenO]; omega) (by rw [h.lenD]; omega)
      (by
        intro o ho
        rw [h.lenO] at ho
        rw [h.lenD]
        simp only [decide_eq_true_eq]
        constructor
        · rintro ⟨d, hd, e⟩
          have := (hv ho hd).mp e
          have := (hko o).mp (by omega)
          omega
        · rintro ⟨-, e⟩
          exact ⟨0, by omega, (hv ho (by omega)).mpr (by have := (hko o).mpr (by omega); omega)⟩)
      (by
        intro d hd
        rw [h.lenD] at hd
        rw [h.lenO]
        simp only [decide_eq_true_eq]
        constructor
        · rintro ⟨o, ho, e⟩
          have := (hv ho hd).mp e
          omega
        · rintro ⟨-, e⟩
          exact ⟨0, by omega, (hv (by omega) hd).mpr (by omega)⟩)
  have hages : x.ddims.Pairwise (· < ·) := by
    rw [h.ddims]
    rw [List.pairwise_map]
    refine List.pairwise_lt_range.imp fun {d e} hde => ?_
    have : (d + 1) * x.dgrain.months < (e + 1) * x.dgrain.months :=
      Nat.mul_lt_mul_of_pos_right (by omega) (months_pos x.dgrain)
    exact_mod_cast this
  have h9 : ∀ d ∈ x.ddims, d ≤ 9999 := by
    intro d hd
    rw [h.ddims, List.mem_map] at hd
    obtain ⟨k, hk, rfl⟩ := hd
    rw [List.mem_range] at hk
    have := h.short
    have : (k + 1) * x.dgrain.months ≤ D * x.dgrain.months := Nat.mul_le_mul_right _ hk
    omega
  obtain ⟨z, ez, zeq, wz, z0, z1, zc⟩ := sub_blocks (x := x) (y := y)
    ⟨yk.symm, yl.symm, yv.symm, yi.symm, yo.symm, yd.symm⟩ h.wf wy h.odims_sorted hages
    (LabelBlock.refl _) (LabelBlock.refl _) bo bd (by rw [h.lenO]; omega) (by rw [h.lenD]; omega)
    (by omega) (by omega) h9 (fun k hk => Or.inl ⟨by omega, by omega⟩)
    (fun k hk => Or.inl ⟨by omega, by omega⟩) (Or.inr (Or.inr (Or.inr (by rw [ld, h.lenD]; omega))))
  have hvd : max x.vd y.vd = x.vd := by
    obtain ⟨mm, -, -, e⟩ := vd
    rw [e]; omega
  have lab : z.kdims = x.kdims ∧ z.vdims = x.vdims ∧ z.odims = x.odims ∧ z.ddims = x.ddims ∧ z.vd = x.vd ∧
      z.isVal = x.isVal := by
    rw [zeq]; exact ⟨rfl, rfl, rfl, rfl, hvd, rfl⟩
  obtain ⟨zk, zv, zo, zd, zvd, zi⟩ := lab
  have cell : ∀ i < x.kdims.length, ∀ c < x.vdims.length, ∀ o < n, ∀ d < D,
      (z.values.get i c o d).NoInf ∧ amount z i c o d = if start ≤ x.valuation o d then amount x i c o d else 0 := by
    intro i hi c hc o ho d hd
    have hi' : i < x.values.d0 := by rw [h.wf.1]; exact hi
    have hc' : c < x.values.d1 := by rw [h.wf.2.1]; exact hc
    have fx : (x.values.get i c o d).NoInf := h.finite i hi' c hc' o (by rw [h.wf.2.2.1, h.lenO]; exact ho) d
      (by rw [h.wf.2.2.2, h.lenD]; exact hd)
    have ex : blockCell x 0 0 i c o d = x.values.get i c o d := by
      unfold blockCell
      rw [if_pos ⟨⟨by omega, by rw [h.lenO]; omega⟩, by omega, by rw [h.lenD]; omega⟩]
      rfl
    have ey : (blockCell y 0 0 i c o d).NoInf ∧ (blockCell y 0 0 i c o d).amt =
        if start ≤ x.valuation o d then 0 else (x.values.get i c o d).amt := by
      unfold blockCell
      rw [lo, ld]
      by_cases hin : (0 ≤ o ∧ o < 0 + min n ((m + q - 1) / q)) ∧ 0 ≤ d ∧ d < 0 + m
      · rw [if_pos hin, Nat.sub_zero, Nat.sub_zero, cells i c o d hi' hc' (by omega) (by omega)]
        rw [Nat.zero_add, Nat.zero_add]
        by_cases hlt : x.valuation o d < start
        · rw [if_pos (by simpa using hlt), if_neg (by omega)]
          exact ⟨Num.noInf_numToNan fx, by simp⟩
        · rw [if_neg (by simpa using hlt), if_pos (by omega)]
          exact ⟨trivial, rfl⟩
      · rw [if_neg hin, if_pos]
        · exact ⟨trivial, rfl⟩
        · by_contra hlt
          have h3 := (hv ho hd).mp (by omega)
          have h4 := (hko o).mp (by omega)
          exact hin ⟨⟨by omega, by omega⟩, by omega, by omega⟩
    have hz := zc i c o d (by rw [h.lenO]; exact ho) (by rw [h.lenD]; exact hd)
    rw [ex, Num.nanToNum_eq fx, Num.nanToNum_eq ey.1, ey.2, Num.fin_sub_fin] at hz
    have hzv : z.valuation o d = x.valuation o d := by
      unfold Tri.valuation
      rw [zi, zo, zd, zvd]
    have hdiff : (x.values.get i c o d).amt - (if start ≤ x.valuation o d then 0 else (x.values.get i c o d).amt) =
        if start ≤ x.valuation o d then (x.values.get i c o d).amt else 0 := by
      split_ifs
      · rw [sub_zero]
      · rw [sub_self]
    rw [hdiff] at hz
    unfold amount
    rcases nanTri_eq z o d with hm1 | ⟨hm1, hgt⟩
    · rw [hz, hm1, Num.one_def]
      refine ⟨Num.noInf_numToNan (by simp [Num.nanToNum]), by simp [Num.nanToNum]⟩
    · rw [hzv, zvd] at hgt
      have hx0 : x.values.get i c o d = .nan := h.known' i hi' c hc' o (by rw [h.wf.2.2.1, h.lenO]; exact ho) d
        (by rw [h.wf.2.2.2, h.lenD]; exact hd) hgt
      rw [hz, hm1, hx0]
      refine ⟨Num.noInf_numToNan (by simp [Num.nanToNum]), by simp [Num.nanToNum]⟩
  obtain ⟨l, el, hl⟩ := sum_vector wz (by rw [zo, h.lenO]; exact hn) (by rw [zd, h.lenD]; exact hD)
    (by
      intro i hi c hc o ho d hd
      rw [zk] at hi
      rw [zv] at hc
      rw [zo, h.lenO] at ho
      rw [zd, h.lenD] at hd
      exact (cell i hi c hc o ho d hd).1)
  refine ⟨l, ?_, hl.wf, hl.index.trans zk, hl.columns.trans zv, hl.origins.trans zo, hl.one, ?_⟩
  · simp only [since, ey, bind, Except.bind]
    rw [ez]
    simp only [el]
  · intro i hi c hc o ho
    rw [hl.cells i (by rw [zk]; exact hi) c (by rw [zv]; exact hc) o (by rw [zo]; exact ho), zd, h.lenD,
      Finset.sum_filter]
    congr 2
    refine Finset.sum_congr rfl fun d hd => ?_
    rw [h.lenO] at ho
    exact (cell i hi c hc o ho d (Finset.mem_range.mp hd)).2

/-! ## With `groupby` -/

/-- The sum of the increments from age position `p` on. -/
theorem increments_from {g x : Tri K} (hg : Grid g a n D q) (hc : g.isCum = some true) {i c o : Nat}
    (ho : o < n) {p : Nat} (hp : p ≤ D - q * o)
    (known : ∀ d < D, g.valuation o d ≤ g.vd → amount x i c o d = increment g i c o d)
    (unknown : ∀ d < D, ¬ g.valuation o d ≤ g.vd → amount x i c o d = 0) :
    ∑ d ∈ (Finset.range D).filter (fun d => p ≤ d), amount x i c o d =
      amount g i c o (D - 1 - q * o) - if p = 0 then 0 else amount g i c o (p - 1) := by
  have hrow := hg.row_le ho
  rw [Nat.mul_comm] at hrow
  have e1 : ∑ d ∈ (Finset.range D).filter (fun d => p ≤ d), amount x i c o d =
      ∑ d ∈ Finset.Ico p (D - q * o), increment g i c o d := by
    rw [← Finset.sum_subset (s₁ := Finset.Ico p (D - q * o)) (s₂ := (Finset.range D).filter (fun d => p ≤ d))]
    · refine Finset.sum_congr rfl fun d hd => ?_
      rw [Finset.mem_Ico] at hd
      exact known d (by omega) ((hg.le_iff ho (by omega)).mpr (by omega))
    · intro d hd
      rw [Finset.mem_Ico] at hd
      rw [Finset.mem_filter, Finset.mem_range]
      omega
    · intro d hd hn
      rw [Finset.mem_filter, Finset.mem_range] at hd
      rw [Finset.mem_Ico] at hn
      exact unknown d hd.1 fun hle => by
        have := (hg.le_iff ho hd.1).mp hle
        omega
  have e2 : ∀ k, ∑ j ∈ Finset.range k, increment g i c o j = if k = 0 then 0 else amount g i c o (k - 1) := by
    intro k
    cases k with
    | zero => simp
    | succ k => rw [sum_increment g hc, if_neg (by omega)]; rfl
  rw [e1, Finset.sum_Ico_eq_sub _ hp, e2, e2, if_neg (by omega), show D - q * o - 1 = D - 1 - q * o by omega]

/-- The increments of a cumulative triangle, by cell. -/
theorem base_grouped (t : Tri K) {g : Tri K} (hg : Grid g a n D q) (hc : g.isCum = some true)
    (noPattern : g.isPattern = false) (h3 : 3 ≤ D) :
    ∃ x, base t (some g) = .ok x ∧ Grid x a n D q ∧ SameLabels x g ∧
      (∀ i < g.kdims.length, ∀ c < g.vdims.length, ∀ o < n, ∀ d < D, g.valuation o d ≤ g.vd →
        amount x i c o d = increment g i c o d) ∧
      ∀ i < g.kdims.length, ∀ c < g.vdims.length, ∀ o < n, ∀ d < D, ¬ g.valuation o d ≤ g.vd →
        amount x i c o d = 0 := by
  obtain ⟨x, ex, hs, -, -, hx, -, hcell⟩ := hg.increments noPattern (Or.inr ⟨hc, h3⟩)
  refine ⟨x, ex, hx, hs, ?_, ?_⟩
  · intro i hi c hcc o ho d hd hle
    exact hcell i hi c hcc o ho d hd hle
  · intro i hi c hcc o ho d hd hgt
    unfold amount
    rw [hx.known i (by rw [hs.1]; exact hi) c (by rw [hs.2.2.1]; exact hcc) o ho d hd]
    · rfl
    · by_contra hn
      exact hgt ((hg.le_iff ho hd).mpr hn)

/-- What an origin has gained since the date `start`: the latest amount less the one at the last age valued
before the date, if there is one. -/
def Gained (g : Tri K) (D : Nat) (start : Int) (i c o : Nat) (y : K) : Prop :=
  ∀ d1 < D, g.valuation o d1 = g.vd →
    (start ≤ g.valuation o 0 → y = amount g i c o d1) ∧
    ∀ d0, d0 + 1 < D → g.valuation o d0 < start → start ≤ g.valuation o (d0 + 1) →
      y = amount g i c o d1 - amount g i c o d0

theorem vector_congr {x y l : Tri K} {A : Nat → Nat → Nat → K} (hs : SameLabels x y) (h : Vector x l A) :
    Vector y l A :=
  ⟨h.wf, h.index.trans hs.1, h.columns.trans hs.2.2.1, h.origins.trans hs.2.2.2.1, h.one, fun i hi c hc o ho =>
    h.cells i (by rw [hs.1]; exact hi) c (by rw [hs.2.2.1]; exact hc) o (by rw [hs.2.2.2.1]; exact ho)⟩

theorem same_valuation {x y : Tri K} (hs : SameLabels x y) (o d : Nat) : x.valuation o d = y.valuation o d := by
  unfold Tri.valuation
  rw [hs.2.2.2.1, hs.2.2.2.2.1, hs.2.2.2.2.2.1, hs.2.2.2.2.2.2.2.2.1]

theorem gained_since (t : Tri K) {g : Tri K} (hg : Grid g a n D q) (hc : g.isCum = some true)
    (noPattern : g.isPattern = false) (h3 : 3 ≤ D) {start : Int} (h1 : g.valuation 1 0 < start) (h2 : start ≤ g.vd) :
    ∃ x l A, base t (some g) = .ok x ∧ SameLabels x g ∧ since x start = .ok (.tri l) ∧ Vector g l A ∧
      ∀ i < g.kdims.length, ∀ c < g.vdims.length, ∀ o < n, Gained g D start i c o (A i c o) := by
  obtain ⟨x, ex, hx, hs, kn, un⟩ := base_grouped t hg hc noPattern h3
  have hvd : x.vd = g.vd := hs.2.2.2.2.2.2.2.2.1
  obtain ⟨l, el, hl⟩ := C67_since_partial hx (start := start) (by rw [same_valuation hs]; exact h1) (by rw [hvd]; exact h2)
  refine ⟨x, l, _, ex, hs, el, vector_congr hs hl, ?_⟩
  intro i hi c hcc o ho d1 hd1 e1
  have hrow := hg.row_le ho
  rw [Nat.mul_comm] at hrow
  have ed1 : d1 = D - 1 - q * o := by
    have := (hg.valuation_vd ho hd1).mp e1
    omega
  have key : ∀ p ≤ D - q * o, (∀ d < D, start ≤ g.valuation o d ↔ p ≤ d) →
      ∑ d ∈ (Finset.range D).filter (fun d => start ≤ x.valuation o d), amount x i c o d =
        amount g i c o (D - 1 - q * o) - if p = 0 then 0 else amount g i c o (p - 1) := by
    intro p hp hiff
    rw [← increments_from hg hc ho hp (kn i hi c hcc o ho) (un i hi c hcc o ho)]
    refine Finset.sum_congr (Finset.filter_congr fun d hd => ?_) fun _ _ => rfl
    rw [same_valuation hs]
    exact hiff d (Finset.mem_range.mp hd)
  have mono : ∀ d e, d ≤ e → e < D → g.valuation o d ≤ g.valuation o e := fun d e hde he =>
    (hg.valuation_le ho (by omega) ho he).mpr (by omega)
  refine ⟨fun hst => ?_, fun d0 hd0 hlt hge => ?_⟩
  · have := key 0 (by omega) fun d hd => ⟨fun _ => by omega, fun _ => le_trans hst (mono 0 d (by omega) hd)⟩
    rw [this, if_pos rfl, sub_zero, ed1]
  · have hle : d0 + 1 ≤ D - q * o := by
      by_contra hgt
      have := mono d1 d0 (by omega) (by omega)
      omega
    have := key (d0 + 1) hle fun d hd => ⟨fun hst => by
        by_contra hn
        have := mono d d0 (by omega) (by omega)
        omega, fun hp => le_trans hge (mono _ _ hp hd)⟩
    rw [this, if_neg (by omega), ed1, Nat.add_sub_cancel]

theorem starts (h : Grid x a n D q) {start : Int} (h1 : x.valuation 1 0 < start) : startsBefore x start = true := by
  have hm : x.valuation 1 0 ∈ x.valuations := mem_valuations.mpr ⟨1, 0, by rw [h.lenO]; exact h.two_origins,
    by rw [h.lenD]; have := h.two_ages; omega, rfl⟩
  unfold startsBefore
  cases e : x.valuations.min? with
  | none => rw [List.min?_eq_none_iff.mp e] at hm; cases hm
  | some v =>
    have := (List.min?_eq_some_iff.mp e).2 _ hm
    simp only [decide_eq_true_eq]
    omega

/-- **C67 (year, with `groupby`)**: the column `Year Incremental` is what each origin has gained since the
start of the year of the valuation date.  Partial: the second origin has a cell before this year, and at least
three ages. -/
theorem C67_year_partial (t : Tri K) {g : Tri K} (hg : Grid g a n D q) (hc : g.isCum = some true)
    (noPattern : g.isPattern = false) (h3 : 3 ≤ D) (h1 : g.valuation 1 0 < 12 * (g.vd / 12)) :
    ∃ x l A, base t (some g) = .ok x ∧ year x = .ok (.tri l) ∧ Vector g l A ∧
      ∀ i < g.kdims.length, ∀ c < g.vdims.length, ∀ o < n, Gained g D (12 * (g.vd / 12)) i c o (A i c o) := by
  obtain ⟨x, l, A, ex, hs, el, hl, hA⟩ := gained_since t hg hc noPattern h3 h1 (by omega)
  obtain ⟨x', ex', hx, -⟩ := base_grouped t hg hc noPattern h3
  have : x' = x := by rw [ex] at ex'; injection ex' with e; exact e.symm
  subst this
  have hst : periodStart .Y x'.vd = 12 * (g.vd / 12) := by
    show x'.vd - x'.vd % 12 = _
    rw [hs.2.2.2.2.2.2.2.2.1]
    omega
  refine ⟨x', l, A, ex, ?_, hl, hA⟩
  unfold year
  rw [hst, if_pos (starts hx (by rw [same_valuation hs]; exact h1)), el]

/-- **C67 (quarter, with `groupby`)**: likewise the column `Quarter Incremental` of monthly and quarterly
triangles. -/
theorem C67_quarter_partial (t : Tri K) {g : Tri K} (hg : Grid g a n D q) (hc : g.isCum = some true)
    (noPattern : g.isPattern = false) (h3 : 3 ≤ D) (hd : g.dgrain = .M ∨ g.dgrain = .Q)
    (h1 : g.valuation 1 0 < 3 * (g.vd / 3)) :
    ∃ x l A, base t (some g) = .ok x ∧ quarter x = .ok (.tri l) ∧ Vector g l A ∧
      ∀ i < g.kdims.length, ∀ c < g.vdims.length, ∀ o < n, Gained g D (3 * (g.vd / 3)) i c o (A i c o) := by
  obtain ⟨x, l, A, ex, hs, el, hl, hA⟩ := gained_since t hg hc noPattern h3 h1 (by omega)
  obtain ⟨x', ex', hx, -⟩ := base_grouped t hg hc noPattern h3
  have : x' = x := by rw [ex] at ex'; injection ex' with e; exact e.symm
  subst this
  have hst : periodStart .Q x'.vd = 3 * (g.vd / 3) := by
    show x'.vd - x'.vd % 3 = _
    rw [hs.2.2.2.2.2.2.2.2.1]
    omega
  refine ⟨x', l, A, ex, ?_, hl, hA⟩
  unfold quarter
  rw [hst, if_pos ⟨by rw [hs.2.2.2.2.2.2.2.1]; exact hd, starts hx (by rw [same_valuation hs]; exact h1)⟩, el]

/-- **C67 (latest, with `groupby`)**: the column `Latest` is the latest diagonal of the grouped triangle. -/
theorem C67_latest_partial (t : Tri K) {g : Tri K} (hg : Grid g a n D q) (hc : g.isCum = some true)
    (noPattern : g.isPattern = false) (h3 : 3 ≤ D) :
    ∃ x l A, base t (some g) = .ok x ∧ latest x = .tri l ∧ Vector g l A ∧
      ∀ i < g.kdims.length, ∀ c < g.vdims.length, ∀ o < n, ∀ d < D, g.valuation o d = g.vd →
        A i c o = amount g i c o d := by
  obtain ⟨x, ex, hx, hs, kn, un⟩ := base_grouped t hg hc noPattern h3
  obtain ⟨l, el, hl⟩ := sum_vector hx.wf (by rw [hx.lenO]; exact hx.two_origins) (by rw [hx.lenD]; exact hx.two_ages)
    (fun i hi c hc o ho d hd => hx.finite i (by rw [hx.wf.1]; exact hi) c (by rw [hx.wf.2.1]; exact hc) o
      (by rw [hx.wf.2.2.1]; exact ho) d (by rw [hx.wf.2.2.2]; exact hd))
  refine ⟨x, l, _, ex, el, vector_congr hs hl, ?_⟩
  intro i hi c hcc o ho d hd e
  have hrow := hg.row_le ho
  rw [Nat.mul_comm] at hrow
  have ed : d = D - 1 - q * o := by
    have := (hg.valuation_vd ho hd).mp e
    omega
  have := increments_from hg hc ho (p := 0) (by omega) (kn i hi c hcc o ho) (un i hi c hcc o ho)
  rw [if_pos rfl, sub_zero] at this
  rw [hx.lenD, ed, ← this, Finset.filter_true_of_mem fun _ _ => by omega]

/-! ## Without `groupby` -/

/-- **C67 (latest, without `groupby`)**: false.  The triangle stays cumulative and `Latest` adds the amounts of
all its known ages; for every origin with two known ages and positive amounts it is more than the latest amount. -/
theorem C67_latest_false (h : Grid t a n D q) (hc : t.isCum = some true)
    (pos : ∀ i < t.kdims.length, ∀ c < t.vdims.length, ∀ o < n, ∀ d < D, t.valuation o d ≤ t.vd → 0 < amount t i c o d) :
    ∃ x l A, base t none = .ok x ∧ latest x = .tri l ∧ Vector t l A ∧
      ∀ i < t.kdims.length, ∀ c < t.vdims.length, ∀ o < n, t.valuation o 1 ≤ t.vd → ∀ d < D, t.valuation o d = t.vd →
        amount t i c o d < A i c o := by
  have eb : base t none = .ok t := by
    unfold base incrToCum
    simp only [if_pos hc]
  obtain ⟨l, el, hl⟩ := sum_vector h.wf (by rw [h.lenO]; exact h.two_origins) (by rw [h.lenD]; exact h.two_ages)
    (fun i hi c hc o ho d hd => h.finite i (by rw [h.wf.1]; exact hi) c (by rw [h.wf.2.1]; exact hc) o
      (by rw [h.wf.2.2.1]; exact ho) d (by rw [h.wf.2.2.2]; exact hd))
  refine ⟨t, l, _, eb, el, hl, ?_⟩
  intro i hi c hcc o ho h1 d hd e
  have hD := h.two_ages
  have h1' := (h.le_iff ho (by omega)).mp h1
  have hd' := (h.valuation_vd ho hd).mp e
  have nonneg : ∀ j < D, 0 ≤ amount t i c o j := by
    intro j hj
    by_cases hle : t.valuation o j ≤ t.vd
    · exact (pos i hi c hcc o ho j hj hle).le
    · unfold amount
      rw [h.known i hi c hcc o ho j hj]
      · exact le_refl _
      · by_contra hn
        exact hle ((h.le_iff ho hj).mpr hn)
  rw [h.lenD]
  have p0 := pos i hi c hcc o ho 0 (by omega) ((h.le_iff ho (by omega)).mpr (by omega))
  calc amount t i c o d < amount t i c o d + amount t i c o 0 := by linarith
    _ = ∑ j ∈ {d, 0}, amount t i c o j := (Finset.sum_pair (by omega)).symm
    _ ≤ _ := Finset.sum_le_sum_of_subset_of_nonneg (fun j hj => by
        rw [Finset.mem_insert, Finset.mem_singleton] at hj
        rw [Finset.mem_range]
        omega) fun j hj _ => nonneg j (Finset.mem_range.mp hj)

/-- **C67 (year, without `groupby`)**: false.  `Year Incremental` of an annual cumulative triangle is the whole
latest amount of every origin, not what was added in the year. -/
theorem C67_year_false (h : Grid t a n D q) (hc : t.isCum = some true) (annual : t.dgrain = .Y)
    (h1 : t.valuation 1 0 < t.vd) :
    ∃ x l A, base t none = .ok x ∧ year x = .ok (.tri l) ∧ Vector t l A ∧
      ∀ i < t.kdims.length, ∀ c < t.vdims.length, ∀ o < n, ∀ d < D, t.valuation o d = t.vd →
        A i c o = amount t i c o d := by
  have eb : base t none = .ok t := by
    unfold base incrToCum
    simp only [if_pos hc]
  have hst : periodStart .Y t.vd = t.vd - t.vd % 12 := rfl
  have hn := h.two_origins
  have hD := h.two_ages
  have key : ∀ {o d}, o < n → d < D → (t.vd - t.vd % 12 ≤ t.valuation o d ↔ D ≤ q * o + d + 1) := by
    intro o d ho hd
    rw [h.valuation ho hd, h.vd, annual]
    show a + ((D * 12 : Nat) : Int) - 1 - _ ≤ a + (((q * o + d + 1) * 12 : Nat) : Int) - 1 ↔ _
    omega
  have h1' := (h.valuation_lt (o := 1) (d := 0) (by omega) (by omega)).mp h1
  have h10 : t.valuation 1 0 < t.vd - t.vd % 12 := by
    by_contra hn'
    have := (key (o := 1) (d := 0) (by omega) (by omega)).mp (by omega)
    omega
  obtain ⟨l, el, hl⟩ := C67_since_partial h h10 (by omega)
  refine ⟨t, l, _, eb, ?_, hl, ?_⟩
  · unfold year
    rw [hst, if_pos (starts h h10), el]
  · intro i hi c hcc o ho d hd e
    have hd' := (h.valuation_vd ho hd).mp e
    rw [Finset.sum_eq_single d]
    · intro j hj hne
      rw [Finset.mem_filter, Finset.mem_range] at hj
      have := (key ho hj.1).mp hj.2
      unfold amount
      rw [h.known i hi c hcc o ho j hj.1 (by omega)]
      rfl
    · intro hn'
      exact absurd (Finset.mem_filter.mpr ⟨Finset.mem_range.mpr hd, (key ho hd).mpr (by omega)⟩) hn'

/-! ## Examples -/

/-- `Latest`, with and without `groupby`, of 100 150 165 / 110 168 / 120. -/
example : (∃ x, base (Ex.tri3 (some true) Ex.cum3) (some (Ex.tri3 (some true) Ex.cum3)) = .ok x ∧
      ∃ l, latest x = .tri l ∧ (List.range 3).map (fun o => l.values.get 0 0 o 0) = [.fin 165, .fin 168, .fin 120]) ∧
    ∃ l, latest (Ex.tri3 (some true) Ex.cum3) = .tri l ∧
      (List.range 3).map (fun o => l.values.get 0 0 o 0) = [.fin 415, .fin 278, .fin 120] := by
  constructor
  · obtain ⟨x, ex, hx⟩ := ok_of (x := base (Ex.tri3 (some true) Ex.cum3) (some (Ex.tri3 (some true) Ex.cum3)))
      (fun x : Tri ℚ => (List.range 3).map (fun o => (x.sumKeep .development).values.get 0 0 o 0) =
        [.fin 165, .fin 168, .fin 120] ∧ ¬ (x.values.d2 = 1)) (by decide +kernel)
    exact ⟨x, ex, x.sumKeep .development, by unfold latest Tri.sum toAgg; rw [if_neg]; rintro ⟨-, -, e, -⟩; exact hx.2 e, hx.1⟩
  · exact ⟨_, rfl, by decide +kernel⟩

/-- The numbers of a vector. -/
def cells (n : Nat) : Agg ℚ → List (Num ℚ)
  | .tri l => (List.range n).map fun o => l.values.get 0 0 o 0
  | .scalar v => [v]

/-- `Year Incremental`: 15, 58 and 120 with `groupby`, the latest amounts without. -/
example : (∃ r, (base (Ex.tri3 (some true) Ex.cum3) (some (Ex.tri3 (some true) Ex.cum3)) >>= year) = .ok r ∧
      cells 3 r = [.fin 15, .fin 58, .fin 120]) ∧
    ∃ r, (base (Ex.tri3 (some true) Ex.cum3) none >>= year) = .ok r ∧ cells 3 r = [.fin 165, .fin 168, .fin 120] :=
  ⟨ok_of (fun r => cells 3 r = [.fin 15, .fin 58, .fin 120]) (by decide +kernel),
    ok_of (fun r => cells 3 r = [.fin 165, .fin 168, .fin 120]) (by decide +kernel)⟩

/-- **C67 (two origins)**: false without a cell of the second origin before the year.  The one earlier cell, 110,
is then taken as a number for all cells: the increments 58 and 120 of the two origins become -52 and 10. -/
theorem C67_two_origins_false :
    ∃ r, (base (Ex.tri2 (some true) fun o d => Ex.cum3 (o + 1) d)
      (some (Ex.tri2 (some true) fun o d => Ex.cum3 (o + 1) d)) >>= year) = .ok r ∧
      cells 2 r ≠ [.fin 58, .fin 120] :=
  ok_of (fun r => cells 2 r ≠ [.fin 58, .fin 120]) (by decide +kernel)

/-- Ultimates 200, 210, 220 of the three origins of a triangle. -/
def ult3 (t : Tri ℚ) : Tri ℚ := { t with
  ddims := [9999]
  vd := ultVal
  values := ⟨1, 1, 3, 1, fun _ _ o _ => .fin (200 + 10 * o)⟩ }

/-- Factors to ultimate 2, 5/4 and 10/9 for its three ages. -/
def cdf3 (t : Tri ℚ) : Tri ℚ := { Ex.pat3 (some true) (fun d => [.fin 2, .fin (5 / 4), .fin (10 / 9)].getD d .nan) with
  odims := t.odims.take 1
  ddims := t.ddims
  ograin := t.ograin
  dgrain := t.dgrain }

/-- The triangle with quarterly origins and ages, at the third quarter of 2020. -/
def quarterly3 : Tri ℚ := { Ex.tri3 (some true) Ex.cum3 with
  ddims := [3, 6, 9]
  odims := [24240, 24243, 24246]
  ograin := .Q
  dgrain := .Q
  vd := 24248 }

/-- The run-off of an annual triangle is the expected increment of the next year: nothing more for the oldest
origin, then 189 - 168 and 176 - 110. -/
example : ∃ r, runOff (Ex.tri3 (some true) Ex.cum3) (cdf3 (Ex.tri3 (some true) Ex.cum3))
      (ult3 (Ex.tri3 (some true) Ex.cum3)) = .ok r ∧ r.ddims = [24287] ∧
      (List.range 3).map (fun o => r.values.get 0 0 o 0) = [.nan, .fin 21, .fin 66] :=
  ok_of (fun r : Tri ℚ => r.ddims = [24287] ∧
    (List.range 3).map (fun o => r.values.get 0 0 o 0) = [.nan, .fin 21, .fin 66]) (by decide +kernel)

/-- **C67 (run-off)**: false for quarterly triangles.  `'2020Q1' > '2020-09-30 ...'` holds, so the first columns are
the expected increments of past quarters. -/
theorem C67_run_off_false : ∃ r, runOff quarterly3 (cdf3 quarterly3) (ult3 quarterly3) = .ok r ∧
    r.ddims.length = 4 ∧ ∀ d < 3, r.ddims.getD d 0 ≤ quarterly3.vd ∧ r.values.get 0 0 0 d ≠ .nan :=
  ok_of (fun r : Tri ℚ => r.ddims.length = 4 ∧ ∀ d < 3, r.ddims.getD d 0 ≤ quarterly3.vd ∧ r.values.get 0 0 0 d ≠ .nan)
    (by decide +kernel)

end Diagn
end CL
