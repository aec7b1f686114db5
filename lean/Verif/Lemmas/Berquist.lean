import Verif.Model.Berquist
import Verif.Lemmas.OnGrid
import Verif.Props.C15

set_option linter.unusedSectionVars false

/-! # The Berquist-Sherman adjustment step by step -/

namespace CL
namespace Berq
open Tri
variable {K : Type} [Field K] [LinearOrder K] [IsStrictOrderedRing K]

section
variable {x s : Tri K} {a : Int} {D : Nat} {v : Int} {f : Nat → Nat → Nat → Num K}

theorem mean_one {n j : Nat} (hj : j < n) {g : Nat → Num K} (h : ∀ o < n, o ≠ j → g o = .nan) :
    (Reg.nanmean n g).numToNan = (g j).numToNan := by
  unfold Reg.nanmean Reg.nansum Reg.count
  rw [Finset.sum_eq_single j, Finset.sum_eq_single j]
  · cases g j with
    | nan => simp [Num.nan0, Num.isNan, Num.fin_div_fin]
    | fin c => simp [Num.nan0, Num.isNan, Num.fin_div_fin]
    | ninf =>
      show ((if (1 : K) < 0 then Num.pinf else .ninf) : Num K).numToNan = _
      rw [if_neg (by norm_num)]
    | pinf =>
      show ((if (1 : K) < 0 then Num.ninf else .pinf) : Num K).numToNan = _
      rw [if_neg (by norm_num)]
  · intro o ho hne
    rw [h o (by simpa using ho) hne]; rfl
  · intro h'; exact absurd (Finset.mem_range.2 hj) h'
  · intro o ho hne
    rw [h o (by simpa using ho) hne]; rfl
  · intro h'; exact absurd (Finset.mem_range.2 hj) h'

/-- The mean over the origins of a matrix that is missing off the latest diagonal. -/
theorem diagonal_mean (hx : Grid x a D D 1) (hs : OnGrid x s D v f)
    (hc : ∀ i < x.kdims.length, ∀ o < D, ∀ d < D, o + d + 1 ≠ D → s.values.get i 0 o d = .nan) :
    ∃ r, (meanOrigin s).toAgg = .tri r ∧ Spread x r D v fun i _ d => (f i (D - 1 - d) d).numToNan := by
  have hD := hx.two_ages
  obtain ⟨e0, e1, e2, e3⟩ := hs.dims hx.wf
  have w2 : s.values.d2 = D := by rw [e2, hx.wf.2.2.1, hx.lenO]
  have w3 : s.values.d3 = D := by rw [e3, hx.wf.2.2.2, hx.lenD]
  have hr : s.relabelAgg .origin = { s with odims := s.odims.take 1 } := by
    show (if s.odims.length > 1 then _ else s) = _
    rw [if_pos (by rw [hs.odims, hx.lenO]; omega)]
  have hk : meanOrigin s = { s with
      odims := s.odims.take 1
      values := { s.values with
        d2 := 1
        get := fun i c _ d => (Reg.nanmean s.values.d2 fun o => s.values.get i c o d).numToNan } } := by
    unfold meanOrigin; rw [hr]
  refine ⟨meanOrigin s, ?_, ?_⟩
  · unfold toAgg
    rw [if_neg]
    rintro ⟨-, -, -, h⟩
    have h' : s.values.d3 = 1 := h
    rw [w3] at h'
    omega
  have ho : (meanOrigin s).odims.length = 1 := by
    rw [hk]
    show (s.odims.take 1).length = 1
    rw [List.length_take, hs.odims, hx.lenO]; omega
  rw [hk] at ho ⊢
  refine ⟨⟨hs.wf.1, hs.wf.2.1, ho.symm, hs.wf.2.2.2⟩, Or.inl hs.kdims, hs.keyLabels, hs.one, Or.inr ho,
    Or.inl ⟨hs.ddims, hs.isVal⟩, hs.ograin, Or.inl hs.dgrain, hs.vd, ?_⟩
  intro i hi o d hod
  show (Reg.nanmean s.values.d2 fun o => s.values.get (Arr.bix s.values.d0 x.values.d0 i) 0 o
    (Arr.bix s.values.d3 x.values.d3 d)).numToNan = _
  rw [e0, e3, Arr.bix_self, Arr.bix_self, w2, mean_one (j := D - 1 - d) (by omega)]
  · rw [hs.cell i hi _ _ (by omega)]
  · intro o' ho' hne
    exact hc i hi o' ho' d (by omega) (by omega)

end

/-- The four columns exist. -/
structure Names.In (n : Names) (x : Tri K) : Prop where
  paid : n.paid ∈ x.vdims
  incurred : n.incurred ∈ x.vdims
  reported : n.reported ∈ x.vdims
  closed : n.closed ∈ x.vdims

/-- The amount of a column. -/
def col (x : Tri K) (c : String) (i o d : Nat) : K := (x.values.get i (x.vdims.idxOf c) o d).amt

variable {x : Tri K} {a : Int} {D : Nat} {n : Names}

theorem col_noInf (hx : Grid x a D D 1) {c : String} (hc : c ∈ x.vdims) {i o d : Nat} (hi : i < x.kdims.length)
    (ho : o < D) (hd : d < D) : (x.values.get i (x.vdims.idxOf c) o d).NoInf :=
  hx.finite i (by rw [hx.wf.1]; exact hi) _ (by rw [hx.wf.2.1]; exact List.idxOf_lt_length_iff.2 hc) o
    (by rw [hx.wf.2.2.1, hx.lenO]; exact ho) d (by rw [hx.wf.2.2.2, hx.lenD]; exact hd)

theorem col_sub (hx : Grid x a D D 1) {c e : String} (hc : c ∈ x.vdims) (he : e ∈ x.vdims) {s t : Tri K}
    (hs : OnGrid x s D x.vd fun i o d => x.values.get i (x.vdims.idxOf c) o d)
    (ht : OnGrid x t D x.vd fun i o d => x.values.get i (x.vdims.idxOf e) o d) :
    ∃ r, s.sub t = .ok r ∧
      OnGrid x r D x.vd fun i o d => (Num.fin (col x c i o d - col x e i o d)).numToNan := by
  obtain ⟨r, h1, h2⟩ := hs.sub hx (ht.spread hx.wf) (by simp)
  rw [max_self] at h2
  refine ⟨r, h1, h2.congr fun i hi o d hod => ?_⟩
  rw [Num.nanToNum_eq (col_noInf hx hc hi (by omega) (by omega)),
    Num.nanToNum_eq (col_noInf hx he hi (by omega) (by omega)), Num.fin_sub_fin]
  rfl

theorem openCount_ok (hx : Grid x a D D 1) (hn : n.In x) : ∃ r, openCount n x = .ok r ∧
    OnGrid x r D x.vd fun i o d => (Num.fin (col x n.reported i o d - col x n.closed i o d)).numToNan := by
  obtain ⟨s, s1, s2, -⟩ := hx.getCol hn.reported
  obtain ⟨t, t1, t2, -⟩ := hx.getCol hn.closed
  obtain ⟨r, r1, r2⟩ := col_sub hx hn.reported hn.closed s2 t2
  refine ⟨r, ?_, r2⟩
  simp only [openCount, s1, t1, bind, Except.bind]
  exact r1

/-- Case reserve and open claims. -/
def reserve (n : Names) (x : Tri K) (i o d : Nat) : K := col x n.incurred i o d - col x n.paid i o d
def opened (n : Names) (x : Tri K) (i o d : Nat) : K := col x n.reported i o d - col x n.closed i o d

open Classical in
/-- The average reserve of an open claim, missing if there is none. -/
def average (n : Names) (x : Tri K) (i o d : Nat) : Num K :=
  if reserve n x i o d = 0 ∨ opened n x i o d = 0 then .nan
  else .fin (reserve n x i o d / opened n x i o d)

theorem avgCase_ok (hx : Grid x a D D 1) (hn : n.In x) : ∃ r, avgCase n x = .ok r ∧
    OnGrid x r D x.vd (average n x) := by
  obtain ⟨s, s1, s2, -⟩ := hx.getCol hn.incurred
  obtain ⟨t, t1, t2, -⟩ := hx.getCol hn.paid
  obtain ⟨r, r1, r2⟩ := col_sub hx hn.incurred hn.paid s2 t2
  obtain ⟨o, o1, o2⟩ := openCount_ok hx hn
  obtain ⟨q, q1, q2⟩ := r2.div hx (o2.spread hx.wf)
  rw [max_self] at q2
  refine ⟨q, ?_, q2.congr fun i hi o d hod => ?_⟩
  · simp only [avgCase, s1, t1, r1, o1, bind, Except.bind]
    exact q1
  · show (Num.fin (reserve n x i o d)).numToNan / (Num.fin (opened n x i o d)).numToNan = _
    unfold average
    by_cases h1 : reserve n x i o d = 0
    · simp [h1]
    · by_cases h2 : opened n x i o d = 0
      · simp [h2]
      · rw [if_neg (by simp [h1, h2]), Num.numToNan_fin_of_ne h1, Num.numToNan_fin_of_ne h2,
          Num.fin_div_fin_of_ne _ h2]

/-- Months from a cell to the latest diagonal. -/
def months (x : Tri K) (D o d : Nat) : Int := ((D - (o + d + 1)) * x.dgrain.months : Nat)

theorem trend_ok (hx : Grid x a D D 1) {s : Tri K} {f : Nat → Nat → Nat → Num K} (hs : OnGrid x s D x.vd f)
    (fac : Int → K) : ∃ r, s.trend fac .valuation none none none = .ok r ∧
      OnGrid x r D x.vd fun i o d => f i o d * .fin (fac (months x D o d)) := by
  have hD := hx.two_ages
  have ha : s.allOrigins = false := by
    unfold allOrigins
    rw [hs.odims, hx.lenO]
    have : (D == 1) = false := by simp; omega
    rw [this, Bool.and_false]
  unfold Tri.trend
  rw [if_neg (by decide), if_neg (by simp [ha]), if_neg, if_neg (by simp)]
  · refine ⟨_, rfl, hs.wf, hs.kdims, hs.keyLabels, hs.one, hs.odims, hs.ddims, hs.isVal, hs.ograin,
      hs.dgrain, hs.vd, ?_⟩
    intro i hi o d hod
    show s.values.get i 0 o d * (.fin (fac (s.trendMonths .valuation _ _ none o d)) * s.nanTri o d) = _
    rw [hs.cell i hi o d hod, hs.nanTri hx le_rfl hod, mul_one]
    congr 3
    have h0 := hx.origin_le (o := 0) (by omega)
    have hv := hx.valuation (o := o) (d := d) (by omega) (by omega)
    have hvd := hx.vd
    simp only [Option.getD_none]
    rw [hs.vd, hs.odims, hx.getO (by omega)]
    unfold trendMonths trendDate
    simp only
    rw [hs.valuation hx le_rfl (by omega) (by omega)]
    have hm := months_pos x.dgrain
    have e1 : x.valuation o d ≤ x.vd := by
      by_contra h
      have := (hx.valuation_gt (o := o) (d := d) (by omega) (by omega)).1 (by omega)
      omega
    have e2 : a ≤ x.valuation o d := by
      rw [hv]
      have : 1 * 1 ≤ (1 * o + d + 1) * x.dgrain.months := Nat.mul_le_mul (by omega) hm
      omega
    have e3 : x.vd - x.valuation o d = months x D o d := by
      rw [hv, hvd]
      unfold months
      have : D * x.dgrain.months = (D - (o + d + 1)) * x.dgrain.months + (1 * o + d + 1) * x.dgrain.months := by
        rw [← Nat.add_mul]; congr 1; omega
      rw [this]; push_cast; ring
    simp only [Nat.zero_mul, Nat.cast_zero, add_zero] at h0 ⊢
    rw [if_neg (by omega), if_neg (by omega), min_eq_right e1, max_eq_left e2, e3]
  · rw [hs.odims]
    rintro ⟨-, e⟩
    have := hx.lenO
    rw [e] at this
    simp at this
    omega

open Classical in
/-- Adjusted incurred amounts. -/
theorem adjIncurred_ok (hx : Grid x a D D 1) (hn : n.In x) (fac : Int → K) :
    ∃ r, adjIncurred fac n x = .ok r ∧ OnGrid x r D x.vd fun i o d =>
      (Num.fin ((if reserve n x i o d = 0 ∨ opened n x i o d = 0 ∨ reserve n x i (D - 1 - d) d = 0 ∨
          opened n x i (D - 1 - d) d = 0 then 0
        else fac (months x D o d) * (reserve n x i (D - 1 - d) d / opened n x i (D - 1 - d) d) *
          opened n x i o d) + col x n.paid i o d)).numToNan := by
  obtain ⟨c, c1, c2⟩ := avgCase_ok hx hn
  obtain ⟨t, t1, t2⟩ := trend_ok hx c2 fac
  obtain ⟨q, q1, q2⟩ := t2.div hx (c2.spread hx.wf)
  obtain ⟨l, l1, l2, -, l4⟩ := c2.diagonal hx le_rfl hx.early
  obtain ⟨m, m1, m2⟩ := l2.diagonal_sum hx (by
    intro i hi o ho d hd hne
    rw [l4 i hi o ho d hd, if_neg hne])
  rw [max_self] at q2
  obtain ⟨j, j1, j2⟩ := q2.mul hx m2
  rw [max_self] at j2
  obtain ⟨o, o1, o2⟩ := openCount_ok hx hn
  obtain ⟨k, k1, k2⟩ := j2.mul hx (o2.spread hx.wf)
  rw [max_self] at k2
  obtain ⟨p, p1, p2, -⟩ := hx.getCol hn.paid
  obtain ⟨r, r1, r2⟩ := k2.add hx (p2.spread hx.wf) (by simp)
  rw [max_self] at r2
  refine ⟨r, ?_, r2.congr fun i hi o d hod => ?_⟩
  · simp only [adjIncurred, adjAvgCase, c1, t1, q1, bind, Except.bind, o1, p1]
    rw [c2.vd, l1]
    simp only [m1, mulAgg, j1, k1]
    exact r1
  · have hdd : D - 1 - d + d + 1 = D := by omega
    rw [if_pos hdd, Num.nanToNum_eq (col_noInf hx hn.paid hi (by omega) (by omega))]
    show ((average n x i o d * Num.fin (fac (months x D o d)) / average n x i o d *
      ((average n x i (D - 1 - d) d).numToNan).numToNan * (Num.fin (opened n x i o d)).numToNan).nanToNum +
      Num.fin (col x n.paid i o d)).numToNan = _
    congr 1
    rw [Num.numToNan_numToNan]
    unfold average
    by_cases h1 : reserve n x i o d = 0
    · simp [h1]
    by_cases h2 : opened n x i o d = 0
    · simp [h2]
    by_cases h3 : reserve n x i (D - 1 - d) d = 0
    · simp [h3]
    by_cases h4 : opened n x i (D - 1 - d) d = 0
    · simp [h4]
    simp only [h1, h2, h3, h4, or_self, if_false]
    have hq := div_ne_zero h1 h2
    have hq' := div_ne_zero h3 h4
    rw [Num.fin_mul_fin, Num.fin_div_fin_of_ne _ hq, Num.numToNan_fin_of_ne hq', Num.numToNan_fin_of_ne h2]
    simp only [Num.fin_mul_fin, Num.nanToNum_fin, Num.fin_add_fin]
    congr 3
    field_simp

/-- Ultimate claim counts, one for each index and origin: numbers other than zero. -/
structure Ultimates (x ult : Tri K) (D : Nat) (U : Nat → Nat → K) : Prop where
  spread : ∃ w ≤ ultVal, Spread x ult D w fun i o _ => .fin (U i o)
  nonzero : ∀ i < x.kdims.length, ∀ o < D, U i o ≠ 0

theorem _root_.CL.Tri.OnGrid.withVd {s : Tri K} {v w : Int} {f : Nat → Nat → Nat → Num K} (hs : OnGrid x s D v f) :
    OnGrid x { s with vd := w } D w f :=
  ⟨hs.wf, hs.kdims, hs.keyLabels, hs.one, hs.odims, hs.ddims, hs.isVal, hs.ograin,
    hs.dgrain, rfl, hs.cell⟩

/-- Adjusted closed counts: the latest disposal rate of the age times the ultimate count. -/
theorem adjClosed_ok (hx : Grid x a D D 1) (hn : n.In x) {ult : Tri K} {U : Nat → Nat → K}
    (hu : Ultimates x ult D U) : ∃ r, adjClosed n x ult = .ok r ∧ OnGrid x r D x.vd fun i o d =>
      (Num.fin (col x n.closed i (D - 1 - d) d / U i (D - 1 - d) * U i o)).numToNan := by
  obtain ⟨w, hw, hsp⟩ := hu.spread
  have hv : x.vd ≤ max x.vd w := le_max_left _ _
  have hv' : max x.vd w ≤ ultVal := max_le hx.early hw
  obtain ⟨c, c1, c2, -⟩ := hx.getCol hn.closed
  obtain ⟨r, r1, r2⟩ := c2.div hx hsp
  obtain ⟨z, z1, z2⟩ := r2.mulScalar 0
  obtain ⟨e, e1, e2⟩ := z2.addArr hx hv (b := Arr.scalar 1)
    ⟨Or.inr rfl, Or.inr rfl, Or.inr rfl, Or.inr rfl⟩
  obtain ⟨l, l1, l2, -, l4⟩ := r2.diagonal hx hv hv'
  obtain ⟨m, m1, m2⟩ := diagonal_mean hx l2 (by
    intro i hi o ho d hd hne
    rw [l4 i hi o ho d hd, if_neg hne])
  obtain ⟨j, j1, j2⟩ := e2.mul hx m2
  obtain ⟨k, k1, k2⟩ := j2.mul hx hsp
  refine ⟨{ k with vd := x.vd }, ?_, (k2.withVd (w := x.vd)).congr fun i hi o d hod => ?_⟩
  · simp only [adjClosed, disposal, c1, r1, z1, e1, l1, m1, mulAgg, j1, k1, bind, Except.bind]
  · have hdd : D - 1 - d + d + 1 = D := by omega
    have hu1 := hu.nonzero i hi o (by omega)
    have hu2 := hu.nonzero i hi (D - 1 - d) (by omega)
    have hc := col_noInf hx hn.closed hi (o := o) (d := d) (by omega) (by omega)
    have hc' := col_noInf hx hn.closed hi (o := D - 1 - d) (d := d) (by omega) (by omega)
    have eb : bcell (Arr.scalar (1 : Num K)) z.values i 0 o d = .fin 1 := rfl
    have e1 : (((x.values.get i (x.vdims.idxOf n.closed) o d / .fin (U i o) * 0).nanToNum +
        (Num.fin (1 : K)).nanToNum).numToNan : Num K) = .fin 1 := by
      rcases Num.noInf_cases hc with h | ⟨b, h⟩
      · rw [h]; simp [Num.numToNan_fin]
      · rw [h, Num.fin_div_fin_of_ne _ hu1]; simp [Num.numToNan_fin, Num.zero_def]
    rw [eb, e1, if_pos hdd]
    show Num.fin 1 * ((x.values.get i (x.vdims.idxOf n.closed) (D - 1 - d) d /
      .fin (U i (D - 1 - d))).numToNan).numToNan * .fin (U i o) = _
    unfold col
    rw [Num.numToNan_numToNan]
    rcases Num.noInf_cases hc' with h | ⟨b, h⟩
    · rw [h]; simp
    · rw [h, Num.fin_div_fin_of_ne _ hu2, Num.amt_fin]
      by_cases hb : b = 0
      · simp [hb]
      · rw [Num.numToNan_fin_of_ne (div_ne_zero hb hu2), Num.numToNan_fin_of_ne
          (mul_ne_zero (div_ne_zero hb hu2) hu1)]
        simp

theorem lookup_le (hx : Grid x a D D 1) (hn : n.closed ∈ x.vdims) {adj c : Arr K} (ha2 : adj.d2 = D) (ha3 : adj.d3 = D)
    (hc3 : c.d3 = D)
    (hc : ∀ i < x.kdims.length, ∀ o < D, ∀ d < D, c.get i 0 o d = x.values.get i (x.vdims.idxOf n.closed) o d)
    {i o d : Nat} (hi : i < x.kdims.length) (ho : o < D) : lookup adj c i o d < D - 1 := by
  have hD := hx.two_ages
  unfold lookup
  simp only [ha2, ha3, min_self]
  split_ifs with h
  · omega
  · have hl : ((List.range c.d3).filter fun e => (c.get i 0 o e).ltb (adj.get i 0 o d)).length ≤ 1 := by
      rw [← List.toFinset_card_of_nodup (List.nodup_range.filter _), ← Finset.card_singleton 0]
      apply Finset.card_le_card
      intro e he
      rw [List.mem_toFinset, List.mem_filter, List.mem_range, hc3] at he
      rw [Finset.mem_singleton]
      by_contra hne
      have := hx.known i hi (x.vdims.idxOf n.closed) (List.idxOf_lt_length_iff.2 hn) o ho e he.1 (by omega)
      rw [hc i hi o ho e he.1, this] at he
      simp [Num.ltb] at he
    unfold lookup0
    omega

/-- The payments of the exponentials. -/
theorem modelPaid_ok (log exp : Num K → Num K) (hx : Grid x a D D 1) (hn : n.In x) {adj : Tri K}
    {g : Nat → Nat → Nat → Num K} (hadj : OnGrid x adj D x.vd g) :
    ∃ r y c, modelPaid log exp n x adj = .ok r ∧ x.getCols [n.paid] = .ok y ∧ x.getCols [n.closed] = .ok c ∧
      OnGrid x r D x.vd fun i o d =>
        ((g i o d * 0).nanToNum +
          (exp (g i o d * (slopes log c.values y.values).get i 0 o (lookup adj.values c.values i o d)) *
            (levels log exp c.values y.values).get i 0 o (lookup adj.values c.values i o d)).nanToNum).numToNan := by
  obtain ⟨y, y1, y2, y3⟩ := hx.getCol hn.paid
  obtain ⟨c, c1, c2, c3⟩ := hx.getCol hn.closed
  obtain ⟨b0, b1, b2, b3⟩ := c2.dims hx.wf
  obtain ⟨a0, a1, a2, a3⟩ := hadj.dims hx.wf
  have w0 := hx.wf.1
  have w2 : x.values.d2 = D := by rw [hx.wf.2.2.1, hx.lenO]
  have w3 : x.values.d3 = D := by rw [hx.wf.2.2.2, hx.lenD]
  have hpick : ∀ m : Arr K, m.d0 = c.values.d0 → m.d3 = c.values.d3 - 1 →
      pickAt adj (lookup adj.values c.values) m = .ok { m with
        d3 := adj.values.d3
        get := fun i c' o d => m.get i c' o (lookup adj.values c.values i o d) * adj.nanTri o d } := by
    intro m h0 h3
    unfold pickAt
    rw [if_pos]
    simp only [List.all_eq_true, List.mem_range, decide_eq_true_eq]
    intro i hi o ho d hd
    rw [h3, b3, w3]
    exact lookup_le hx hn.closed (by rw [a2, w2]) (by rw [a3, w3]) (by rw [b3, w3]) c3
      (by rw [← w0, ← b0, ← h0]; exact hi) (by rw [a2, w2] at ho; exact ho)
  obtain ⟨z, z1, z2⟩ := hadj.mulScalar 0
  obtain ⟨f0, f1, f2, f3⟩ := z2.dims hx.wf
  set B := slopes log c.values y.values with hB
  set A := levels log exp c.values y.values with hA
  have eB := hpick B rfl rfl
  have eA := hpick A rfl rfl
  have zip1 := Arr.zip_fits (fun p q : Num K => p * q) (a := adj.values) (b := { B with
        d3 := adj.values.d3
        get := fun i c' o d => B.get i c' o (lookup adj.values c.values i o d) * adj.nanTri o d })
    ⟨Or.inl (by show c.values.d0 = _; rw [b0, a0]), Or.inl (by show c.values.d1 = _; rw [b1, a1]),
      Or.inl (by show c.values.d2 = _; rw [b2, a2]), Or.inl rfl⟩
  have gB1 : B.d0 = adj.values.d0 := by show c.values.d0 = _; rw [b0, a0]
  have gB2 : B.d1 = adj.values.d1 := by show c.values.d1 = _; rw [b1, a1]
  have gB3 : B.d2 = adj.values.d2 := by show c.values.d2 = _; rw [b2, a2]
  have gA1 : A.d0 = adj.values.d0 := by show c.values.d0 = _; rw [b0, a0]
  have gA2 : A.d1 = adj.values.d1 := by show c.values.d1 = _; rw [b1, a1]
  have gA3 : A.d2 = adj.values.d2 := by show c.values.d2 = _; rw [b2, a2]
  simp only [gB1, gB2, gB3, Arr.bix_self] at zip1
  have zip2 := fun G : Nat → Nat → Nat → Nat → Num K =>
    Arr.zip_fits (fun p q : Num K => p * q) (a := { adj.values with get := G }) (b := { A with
        d3 := adj.values.d3
        get := fun i c' o d => A.get i c' o (lookup adj.values c.values i o d) * adj.nanTri o d })
    ⟨Or.inl gA1, Or.inl gA2, Or.inl gA3, Or.inl rfl⟩
  obtain ⟨r, r1, r2⟩ := z2.addArr hx le_rfl (b := { adj.values with
      get := fun i c' o d => exp (adj.values.get i c' o d *
          (B.get i c' o (lookup adj.values c.values i o d) * adj.nanTri o d)) *
        (A.get i c' o (lookup adj.values c.values i o d) * adj.nanTri o d) })
    ⟨Or.inl (by rw [f0]; exact a0), Or.inl (by rw [f1]; exact a1), Or.inl (by rw [f2]; exact a2),
      Or.inl (by rw [f3]; exact a3)⟩
  refine ⟨r, y, c, ?_, y1, c1, r2.congr fun i hi o d hod => ?_⟩
  · simp only [modelPaid, y1, c1, bind, Except.bind]
    rw [← hA, ← hB, eA, eB, z1]
    simp only [gB1, gB2, gB3]
    rw [zip1]
    simp only [Arr.map]
    rw [zip2]
    simp only [gA1, gA2, gA3, Arr.bix_self]
    exact r1
  · congr 3
    unfold bcell
    simp only
    rw [f0, f1, f2, f3, a0, a1, a2, a3, Arr.bix_self, Arr.bix_self, Arr.bix_self, Arr.bix_self,
      hadj.cell i hi o d hod, hadj.nanTri hx le_rfl hod, mul_one, mul_one]

theorem steps_pairwise (m : Nat) (f : Nat → Int) (hf : ∀ k, f k < f (k + 1)) :
    ((List.range m).map f).Pairwise (· < ·) := by
  rw [List.pairwise_map]
  exact List.pairwise_lt_range.imp fun {p q} h => by
    have : ∀ k, f p < f (p + 1 + k) := by
      intro k
      induction k with
      | zero => exact hf p
      | succ k ih => exact lt_trans ih (hf _)
    have := this (q - p - 1)
    rwa [show p + 1 + (q - p - 1) = q by omega] at this

/-- Labels of a short axis inside a long one. -/
theorem steps_union {m k : Nat} (hk : k ≤ m) (f : Nat → Int) (hf : ∀ k, f k < f (k + 1)) :
    unionSorted ((List.range m).map f) ((List.range k).map f) = (List.range m).map f := by
  refine unionSorted_eq (steps_pairwise m f hf) fun y => ?_
  simp only [List.mem_map, List.mem_range]
  constructor
  · exact Or.inl
  · rintro (h | ⟨p, hp, e⟩)
    · exact h
    · exact ⟨p, by omega, e⟩

theorem steps_inj {f : Nat → Int} (hf : ∀ k, f k < f (k + 1)) {p q : Nat} : f p = f q ↔ p = q := by
  have hm : StrictMono f := strictMono_nat_of_lt_succ hf
  exact hm.injective.eq_iff

theorem steps_mem {k : Nat} {f : Nat → Int} (hf : ∀ k, f k < f (k + 1)) {p : Nat} :
    f p ∈ (List.range k).map f ↔ p < k := by
  simp only [List.mem_map, List.mem_range, steps_inj hf, exists_eq_right]

theorem steps_idx {k : Nat} {f : Nat → Int} (hf : ∀ k, f k < f (k + 1)) {p : Nat} (hp : p < k) :
    ((List.range k).map f).idxOf (f p) = p := by
  have h := List.Nodup.idxOf_getElem (xs := (List.range k).map f) (nodup_of_lt (steps_pairwise k f hf)) p
    (by simpa using hp)
  simpa using h

theorem steps_gap {k m : Nat} {f : Nat → Int} (hf : ∀ k, f k < f (k + 1)) :
    NoGap ((List.range k).map f) ((List.range m).map f) := by
  have hm : StrictMono f := strictMono_nat_of_lt_succ hf
  intro y hy p hp q hq h1 h2
  simp only [List.mem_map, List.mem_range] at hy hp hq ⊢
  obtain ⟨i, hi, rfl⟩ := hy
  obtain ⟨q, hq, rfl⟩ := hq
  exact ⟨i, lt_trans (hm.lt_iff_lt.1 h2) hq, rfl⟩

theorem validate_rename {s t : Tri K} (ws : WF s) (wt : WF t) (hs : s.vdims.length = 1) (ht : t.vdims.length = 1) :
    validate s t = validate s { t with vdims := s.vdims } := by
  by_cases h : s.vdims = t.vdims
  · rw [h]
  · have e1 : prepColumns ({ s with isPattern := s.isPattern && t.isPattern, vd := max s.vd t.vd } : Tri K)
        { t with isPattern := s.isPattern && t.isPattern } =
        .ok ({ s with isPattern := s.isPattern && t.isPattern, vd := max s.vd t.vd },
          { t with isPattern := s.isPattern && t.isPattern, vdims := s.vdims }) := by
      unfold prepColumns
      simp [hs, ht, h]
    have e2 : prepColumns ({ s with isPattern := s.isPattern && t.isPattern, vd := max s.vd t.vd } : Tri K)
        { t with isPattern := s.isPattern && t.isPattern, vdims := s.vdims } =
        .ok ({ s with isPattern := s.isPattern && t.isPattern, vd := max s.vd t.vd },
          { t with isPattern := s.isPattern && t.isPattern, vdims := s.vdims }) := by
      unfold prepColumns
      simp [hs, ws.2.1, wt.2.1, ht]
    unfold validate
    simp only [e1, e2]

theorem keep_diagonal {p : Num K} (h : p.NoInf) :
    ((p.numToNan.nanToNum + (Num.nan : Num K).nanToNum) * (1 : Num K).nanToNum).numToNan = p.numToNan := by
  have e : (1 : Num K).nanToNum = 1 := rfl
  rw [e, mul_one]
  rcases Num.noInf_cases h with rfl | ⟨b, rfl⟩
  · simp
  · by_cases hb : b = 0
    · simp [hb]
    · simp [Num.numToNan_fin_of_ne hb]

theorem keep_rest {p : Num K} (h : p.NoInf) :
    (((Num.nan : Num K).nanToNum + p.numToNan.nanToNum) * (1 : Num K).nanToNum).numToNan = p.numToNan := by
  rw [add_comm]; exact keep_diagonal h

/-- Adjusted payments: the latest diagonal is the one of the data. -/
theorem adjPaid_ok (log exp : Num K → Num K) (hx : Grid x a D D 1) (hD : 3 ≤ D) (hn : n.In x) {adj m : Tri K}
    (hm : modelPaid log exp n x adj = .ok m) {g : Nat → Nat → Nat → Num K} (hg : OnGrid x m D x.vd g)
    (hfin : ∀ i < x.kdims.length, ∀ o d, o + d < D → (g i o d).NoInf) :
    ∃ r, adjPaid log exp n x adj = .ok r ∧ OnGrid x r D x.vd fun i o d =>
      if o + d + 1 = D then (x.values.get i (x.vdims.idxOf n.paid) o d).numToNan else (g i o d).numToNan := by
  obtain ⟨y, y1, y2, y3⟩ := hx.getCol hn.paid
  obtain ⟨l, l1, l2, -, l4⟩ := y2.diagonal hx le_rfl hx.early
  have hlt : ∀ o < D, ∀ d < D, decide (x.valuation o d < x.vd) = true ↔ o + d + 1 < D := by
    intro o ho d hd
    rw [decide_eq_true_eq, hx.valuation_lt ho hd]; omega
  obtain ⟨r, r1, r2, r3, r4, r5⟩ := hg.getVal hx le_rfl hx.early (P := fun v => decide (v < x.vd)) (m := D - 1)
    (by omega) (by omega)
    (fun o ho => ⟨fun ⟨d, hd, hk⟩ => by have := (hlt o ho d hd).1 hk; omega,
      fun h => ⟨0, by omega, (hlt o ho 0 (by omega)).2 (by omega)⟩⟩)
    (fun d hd => ⟨fun ⟨o, ho, hk⟩ => by have := (hlt o ho d hd).1 hk; omega,
      fun h => ⟨0, by omega, (hlt 0 (by omega) d hd).2 (by omega)⟩⟩)
  set fo : Nat → Int := fun o => a + (o * 1 * x.dgrain.months : Nat) with hfo
  set fd : Nat → Int := fun d => (((d + 1) * x.dgrain.months : Nat) : Int) with hfd
  have hmon := months_pos x.dgrain
  have ffo : ∀ k, fo k < fo (k + 1) := by
    intro k
    have : k * 1 * x.dgrain.months < (k + 1) * 1 * x.dgrain.months := Nat.mul_lt_mul_of_pos_right (by omega) hmon
    simp only [hfo]; omega
  have ffd : ∀ k, fd k < fd (k + 1) := by
    intro k
    have : (k + 1) * x.dgrain.months < (k + 1 + 1) * x.dgrain.months := Nat.mul_lt_mul_of_pos_right (by omega) hmon
    simp only [hfd]; omega
  have xo : x.odims = (List.range D).map fo := hx.odims
  have xd : x.ddims = (List.range D).map fd := hx.ddims
  have ro : r.odims = (List.range (D - 1)).map fo := by
    rw [At.eq_map r2.origins (by rw [hg.odims, hx.lenO]; omega), hg.odims]
    apply List.map_congr_left
    intro o ho
    rw [List.mem_range] at ho
    exact hx.getO (by omega)
  have rd : r.ddims = (List.range (D - 1)).map fd := by
    rw [At.eq_map r2.developments (by rw [hg.ddims, hx.lenD]; omega), hg.ddims]
    apply List.map_congr_left
    intro d hd
    rw [List.mem_range] at hd
    exact hx.getDv (by omega)
  have hrvd : r.vd ≤ x.vd := by
    obtain ⟨_, -, -, e⟩ := r2.vd
    rw [e, hg.vd]; exact min_le_right _ _
  have hr1 : r.vdims.length = 1 := by rw [r2.columns, hg.one]
  have lo : l.odims = (List.range D).map fo := l2.odims.trans xo
  have ld : l.ddims = (List.range D).map fd := l2.ddims.trans xd
  have small : ∀ d ∈ (List.range D).map fd, d ≤ 9999 := by
    intro d hd
    rw [List.mem_map] at hd
    obtain ⟨k, hk, rfl⟩ := hd
    rw [List.mem_range] at hk
    have : (k + 1) * x.dgrain.months ≤ D * x.dgrain.months := Nat.mul_le_mul_right _ hk
    have := hx.short
    simp only [hfd]; omega
  set r' : Tri K := { r with vdims := l.vdims } with hr'
  have wr' : WF r' := by
    refine ⟨r2.wf.1, ?_, r2.wf.2.2.1, r2.wf.2.2.2⟩
    show r.values.d1 = l.vdims.length
    rw [r2.wf.2.1, hr1, l2.one]
  have hl : Labelled l := ⟨by rw [lo]; exact steps_pairwise _ _ ffo, by rw [ld]; exact steps_pairwise _ _ ffd,
    by rw [lo]; simp; omega, by rw [ld]; simp; omega, fun _ => by rw [ld]; exact small⟩
  have hlr : Labelled r' := ⟨by show r.odims.Pairwise _; rw [ro]; exact steps_pairwise _ _ ffo,
    by show r.ddims.Pairwise _; rw [rd]; exact steps_pairwise _ _ ffd,
    by show 2 ≤ r.odims.length; rw [ro]; simp; omega, by show 2 ≤ r.ddims.length; rw [rd]; simp; omega,
    fun _ d hd => by
      have hd' : d ∈ r.ddims := hd
      rw [rd] at hd'
      refine small d ?_
      rw [List.mem_map] at hd' ⊢
      obtain ⟨k, hk, e⟩ := hd'
      exact ⟨k, by rw [List.mem_range] at hk ⊢; omega, e⟩⟩
  have hsame : SameButDates l r' := ⟨by rw [l2.kdims]; exact (r2.index.trans hg.kdims).symm, l2.keyLabels.trans r5.symm, rfl,
    by rw [l2.isVal]; exact (r2.isVal.trans hg.isVal).symm, l2.ograin.trans r3.symm, l2.dgrain.trans r4.symm⟩
  have ro' : r'.odims = (List.range (D - 1)).map fo := ro
  have rd' : r'.ddims = (List.range (D - 1)).map fd := rd
  obtain ⟨xa, ya, hval, ⟨s0, s1, s2, s3⟩, hshape, hxa, hya⟩ := validate_union hsame l2.wf wr' hl hlr
    (by rw [lo, ro']; exact steps_gap ffo) (by rw [lo, ro']; exact steps_gap ffo)
    (by rw [ld, rd']; exact steps_gap ffd) (by rw [ld, rd']; exact steps_gap ffd)
    (not_broadcastable l2.wf wr' hl hlr hsame.isVal (Or.inl (Or.inl (by rw [lo, ro']; simp; omega))))
  have uo : unionSorted l.odims r'.odims = x.odims := by
    rw [lo, ro', xo]; exact steps_union (by omega) _ ffo
  have ud : unionSorted l.ddims r'.ddims = x.ddims := by
    rw [ld, rd', xd]; exact steps_union (by omega) _ ffd
  rw [uo, ud] at hval hxa hya
  rw [uo] at s2
  rw [ud] at s3
  have hvd : max l.vd r'.vd = x.vd := by
    show max l.vd r.vd = x.vd
    rw [l2.vd]; exact max_eq_left hrvd
  rw [hvd] at hval
  obtain ⟨T, hT⟩ : ∃ T : Tri K, T = { l with
      isPattern := l.isPattern && r'.isPattern
      vd := x.vd
      odims := x.odims
      ddims := x.ddims
      values := { xa with
        get := fun i c o d => (xa.get i c o d).nanToNum + (ya.get i c o d).nanToNum } } := ⟨_, rfl⟩
  have hadd : l.add r = .ok T.cleanup := by
    rw [hT]
    simp only [Tri.add, validate_rename l2.wf r2.wf l2.one hr1, bind, Except.bind]
    rw [hval]
    simp only
    exact addArr_same hshape
  have hrun : adjPaid log exp n x adj = l.add r := by
    simp only [adjPaid, y1, hm, bind, Except.bind]
    rw [y2.vd, l1]
    simp only
    rw [hg.vd, r1]
  refine ⟨_, hrun.trans hadd, ⟨?_, ?_, ?_, ?_, ?_, ?_, ?_, ?_, ?_, ?_, ?_⟩⟩
  · subst hT; exact ⟨s0.trans l2.wf.1, s1.trans l2.wf.2.1, s2, s3⟩
  · subst hT; exact l2.kdims
  · subst hT; exact l2.keyLabels
  · subst hT; exact l2.one
  · subst hT; rfl
  · subst hT; rfl
  · subst hT; exact l2.isVal
  · subst hT; exact l2.ograin
  · subst hT; exact l2.dgrain
  · subst hT; rfl
  · intro i hi o d hod
    have go : x.odims.getD o 0 = fo o := hx.getO (by omega)
    have gd : x.ddims.getD d 0 = fd d := hx.getDv (by omega)
    have ex := hxa i 0 o d (by rw [hx.lenO]; omega) (by rw [hx.lenD]; omega)
    have ey := hya i 0 o d (by rw [hx.lenO]; omega) (by rw [hx.lenD]; omega)
    rw [go, gd, lo, ld, if_pos ⟨(steps_mem ffo).2 (by omega), (steps_mem ffd).2 (by omega)⟩,
      steps_idx ffo (by omega), steps_idx ffd (by omega), l4 i hi o (by omega) d (by omega)] at ex
    rw [go, gd, ro', rd'] at ey
    simp only [steps_mem ffo, steps_mem ffd] at ey
    have hnan : ∀ t : Tri K, t.odims = x.odims → t.ddims = x.ddims → t.isVal = x.isVal → t.vd = x.vd →
        t.nanTri o d = 1 := by
      intro t h1 h2 h3 h4
      unfold Tri.nanTri
      split_ifs with h5 h6
      · rfl
      · unfold Tri.valuation at h6
        rw [h1, h2, h3, h4] at h6
        have := (hx.valuation_gt (o := o) (d := d) (by omega) (by omega)).1 h6
        omega
      · rfl
    have hTc : T.values.get i 0 o d = (xa.get i 0 o d).nanToNum + (ya.get i 0 o d).nanToNum := by rw [hT]
    show (T.values.get i 0 o d * (T.nanTri o d).nanToNum).numToNan = _
    rw [hnan T (by rw [hT]) (by rw [hT]) (by rw [hT]; exact l2.isVal) (by rw [hT]), hTc, ex, ey]
    by_cases hdiag : o + d + 1 = D
    · rw [if_pos hdiag, if_pos hdiag]
      have : (if o < D - 1 ∧ d < D - 1 then r'.values.get i 0 (List.idxOf (fo o) ((List.range (D - 1)).map fo))
          (List.idxOf (fd d) ((List.range (D - 1)).map fd)) else Num.nan) = .nan := by
        split_ifs with hh
        · rw [steps_idx ffo hh.1, steps_idx ffd hh.2]
          have hc := r2.cells i 0 o d (by rw [hg.wf.1, hg.kdims]; exact hi) (by rw [hg.wf.2.1, hg.one]; omega)
            (by simpa using hh.1) (by simpa using hh.2)
          simp only [List.getElem_range] at hc
          show r.values.get i 0 o d = _
          rw [hc, hg.valuation hx le_rfl (by omega) (by omega), if_neg]
          rw [hlt o (by omega) d (by omega)]; omega
        · rfl
      rw [this]
      exact keep_diagonal (col_noInf hx hn.paid hi (by omega) (by omega))
    · have hh : o < D - 1 ∧ d < D - 1 := by omega
      rw [if_neg hdiag, if_neg hdiag, if_pos hh, steps_idx ffo hh.1, steps_idx ffd hh.2]
      have hc := r2.cells i 0 o d (by rw [hg.wf.1, hg.kdims]; exact hi) (by rw [hg.wf.2.1, hg.one]; omega)
        (by simpa using hh.1) (by simpa using hh.2)
      simp only [List.getElem_range] at hc
      have : r'.values.get i 0 o d = (g i o d).numToNan := by
        show r.values.get i 0 o d = _
        rw [hc, hg.valuation hx le_rfl (by omega) (by omega), if_pos, hg.cell i hi o d hod]
        rw [hlt o (by omega) d (by omega)]; omega
      rw [this]
      exact keep_rest (hfin i hi o d hod)

/-- The triangle with a column replaced. -/
def put (t : Tri K) (j : Nat) (v : Arr K) : Tri K :=
  { t with values := { t.values with
    get := fun i c o d => if c = j then v.get i 0 o d else t.values.get i c o d } }

theorem setCol_ok {x t s : Tri K} {f : Nat → Nat → Nat → Num K} {v : Int} (wx : WF x)
    (hs : OnGrid x s D v f) (h0 : t.values.d0 = x.values.d0) (h2 : t.values.d2 = x.values.d2)
    (h3 : t.values.d3 = x.values.d3) (hv : t.vdims = x.vdims) {key : String} (hk : key ∈ x.vdims) :
    setCol t key s = .ok (put t (x.vdims.idxOf key) s.values) := by
  obtain ⟨e0, e1, e2, e3⟩ := hs.dims wx
  unfold setCol Mem.assignCol
  rw [if_pos (by rw [hv]; simpa using hk), if_pos ⟨Or.inl (by rw [e0, h0]), e1, Or.inl (by rw [e2, h2]),
    Or.inl (by rw [e3, h3])⟩]
  simp only [bind, Except.bind, e0, e2, e3, h0, h2, h3, Arr.bix_self, hv]
  unfold put
  simp only [h0, h2, h3, hv]

/-- The three columns that are replaced have different names. -/
structure Names.Distinct (n : Names) : Prop where
  pi : n.paid ≠ n.incurred
  pc : n.paid ≠ n.closed
  ic : n.incurred ≠ n.closed

/-- The amounts of the four columns after the adjustment, `E` standing for the fitted exponentials. -/
structure Adjusted (x u : Tri K) (D : Nat) (n : Names) (fac : Int → K) (U : Nat → Nat → K)
    (E : Nat → Nat → Nat → K) : Prop where
  wf : WF u
  kdims : u.kdims = x.kdims
  vdims : u.vdims = x.vdims
  odims : u.odims = x.odims
  ddims : u.ddims = x.ddims
  vd : u.vd = x.vd
  keeps : Keeps x u
  closed : ∀ i < x.kdims.length, ∀ o d, o + d < D →
    u.values.get i (x.vdims.idxOf n.closed) o d =
      (Num.fin (col x n.closed i (D - 1 - d) d / U i (D - 1 - d) * U i o)).numToNan
  incurred : ∀ i < x.kdims.length, ∀ o d, o + d < D → reserve n x i o d ≠ 0 → opened n x i o d ≠ 0 →
    reserve n x i (D - 1 - d) d ≠ 0 → opened n x i (D - 1 - d) d ≠ 0 →
    u.values.get i (x.vdims.idxOf n.incurred) o d =
      (Num.fin (fac (months x D o d) * (reserve n x i (D - 1 - d) d / opened n x i (D - 1 - d) d) *
        opened n x i o d + col x n.paid i o d)).numToNan
  nothing : ∀ i < x.kdims.length, ∀ o d, o + d < D → (reserve n x i o d = 0 ∨ opened n x i o d = 0 ∨
      reserve n x i (D - 1 - d) d = 0 ∨ opened n x i (D - 1 - d) d = 0) →
    u.values.get i (x.vdims.idxOf n.incurred) o d = (x.values.get i (x.vdims.idxOf n.paid) o d).numToNan
  latest : ∀ i < x.kdims.length, ∀ o d, o + d + 1 = D →
    u.values.get i (x.vdims.idxOf n.paid) o d = (x.values.get i (x.vdims.idxOf n.paid) o d).numToNan
  before : ∀ i < x.kdims.length, ∀ o d, o + d + 1 < D →
    u.values.get i (x.vdims.idxOf n.paid) o d = (Num.fin (E i o d)).numToNan
  others : ∀ i < x.kdims.length, ∀ c < x.vdims.length, c ≠ x.vdims.idxOf n.paid →
    c ≠ x.vdims.idxOf n.incurred → c ≠ x.vdims.idxOf n.closed → ∀ o d, o + d < D →
    u.values.get i c o d = (x.values.get i c o d).numToNan
  future : ∀ i < x.kdims.length, ∀ c < x.vdims.length, ∀ o < D, ∀ d < D, D ≤ o + d →
    u.values.get i c o d = .nan

/-- The amounts of the four columns after the adjustment, `P` standing for the payments. -/
structure Replaced (x u : Tri K) (D : Nat) (n : Names) (fac : Int → K) (U : Nat → Nat → K)
    (P : Nat → Nat → Nat → Num K) : Prop where
  wf : WF u
  kdims : u.kdims = x.kdims
  vdims : u.vdims = x.vdims
  odims : u.odims = x.odims
  ddims : u.ddims = x.ddims
  vd : u.vd = x.vd
  keeps : Keeps x u
  closed : ∀ i < x.kdims.length, ∀ o d, o + d < D →
    u.values.get i (x.vdims.idxOf n.closed) o d =
      (Num.fin (col x n.closed i (D - 1 - d) d / U i (D - 1 - d) * U i o)).numToNan
  incurred : ∀ i < x.kdims.length, ∀ o d, o + d < D → reserve n x i o d ≠ 0 → opened n x i o d ≠ 0 →
    reserve n x i (D - 1 - d) d ≠ 0 → opened n x i (D - 1 - d) d ≠ 0 →
    u.values.get i (x.vdims.idxOf n.incurred) o d =
      (Num.fin (fac (months x D o d) * (reserve n x i (D - 1 - d) d / opened n x i (D - 1 - d) d) *
        opened n x i o d + col x n.paid i o d)).numToNan
  nothing : ∀ i < x.kdims.length, ∀ o d, o + d < D → (reserve n x i o d = 0 ∨ opened n x i o d = 0 ∨
      reserve n x i (D - 1 - d) d = 0 ∨ opened n x i (D - 1 - d) d = 0) →
    u.values.get i (x.vdims.idxOf n.incurred) o d = (x.values.get i (x.vdims.idxOf n.paid) o d).numToNan
  paid : ∀ i < x.kdims.length, ∀ o d, o + d < D →
    u.values.get i (x.vdims.idxOf n.paid) o d = (P i o d).numToNan
  others : ∀ i < x.kdims.length, ∀ c < x.vdims.length, c ≠ x.vdims.idxOf n.paid →
    c ≠ x.vdims.idxOf n.incurred → c ≠ x.vdims.idxOf n.closed → ∀ o d, o + d < D →
    u.values.get i c o d = (x.values.get i c o d).numToNan
  future : ∀ i < x.kdims.length, ∀ c < x.vdims.length, ∀ o < D, ∀ d < D, D ≤ o + d →
    u.values.get i c o d = .nan

/-- The fitted exponential at the adjusted count. -/
def curve (log exp : Num K → Num K) (c y adj : Arr K) (g : K) (i o d : Nat) : K :=
  (exp ((Num.fin g).numToNan * (slopes log c y).get i 0 o (lookup adj c i o d)) *
    (levels log exp c y).get i 0 o (lookup adj c i o d)).nanToNum.amt

theorem fit_of_paid (log exp : Num K → Num K) (fac : Int → K) {est : Tri K → Except Err (Tri K)}
    (hx : Grid x a D D 1) (hn : n.In x) (hd : n.Distinct) {ult rep adj p : Tri K} {U : Nat → Nat → K}
    {P : Nat → Nat → Nat → Num K}
    (hrep : x.getCols [n.reported] = .ok rep) (hest : est rep = .ok ult)
    (a1 : adjClosed n x ult = .ok adj) (a2 : OnGrid x adj D x.vd fun i o d =>
      (Num.fin (col x n.closed i (D - 1 - d) d / U i (D - 1 - d) * U i o)).numToNan)
    (p1 : adjPaid log exp n x adj = .ok p) (p2 : OnGrid x p D x.vd P) :
    ∃ u, fit log exp fac est n x = .ok u ∧ Replaced x u D n fac U P := by
  have hD := hx.two_ages
  obtain ⟨inc, i1, i2⟩ := adjIncurred_ok hx hn fac
  have s1 := setCol_ok hx.wf p2 rfl rfl rfl rfl hn.paid
  have s2 := setCol_ok (t := put x (x.vdims.idxOf n.paid) p.values) hx.wf i2 rfl rfl rfl rfl hn.incurred
  have s3 := setCol_ok (t := put (put x (x.vdims.idxOf n.paid) p.values) (x.vdims.idxOf n.incurred) inc.values)
    hx.wf a2 rfl rfl rfl rfl hn.closed
  obtain ⟨t, ht⟩ : ∃ t, t = put (put (put x (x.vdims.idxOf n.paid) p.values) (x.vdims.idxOf n.incurred)
    inc.values) (x.vdims.idxOf n.closed) adj.values := ⟨_, rfl⟩
  rw [← ht] at s3
  have wt : WF t := by rw [ht]; exact hx.wf
  have ot : Ordered t := by rw [ht]; exact hx.ordered
  have dt : Dated t := by rw [ht]; exact hx.dated
  have gt : Graded t := by rw [ht]; exact hx.graded
  have vt : ∀ o d, t.valuation o d = x.valuation o d := by intro o d; rw [ht]; rfl
  have tod : t.odims = x.odims := by rw [ht]; rfl
  have td : t.ddims = x.ddims := by rw [ht]; rfl
  have tk : t.kdims = x.kdims := by rw [ht]; rfl
  have tv : t.vdims = x.vdims := by rw [ht]; rfl
  have ti : t.isVal = x.isVal := by rw [ht]; rfl
  have tvd : t.vd = x.vd := by rw [ht]; rfl
  have hle : ∀ o < D, ∀ d < D, decide (x.valuation o d ≤ x.vd) = true ↔ o + d < D := by
    intro o ho d hd'
    have := hx.valuation_gt ho hd'
    rw [decide_eq_true_eq, ← not_lt, this]; omega
  obtain ⟨u, u1⟩ := C15_succeeds wt ot dt gt (by rw [td, hx.lenD]; omega) (P := fun v => decide (v ≤ x.vd))
    (Or.inl fun p q h1 h2 => by simp only [decide_eq_true_eq] at *; omega) (o := 0) (d := 0)
    (by rw [tod, hx.lenO]; omega) (by rw [td, hx.lenD]; omega)
    (by rw [vt, hle 0 (by omega) 0 (by omega)]; omega)
  obtain ⟨rows, cols, hs⟩ := C15_filter_partial wt ot dt (by rw [td, hx.lenD]; omega) u1
  have hrows : rows = List.range D := by
    refine List.Pairwise.eq_of_mem_iff hs.rows_inc List.pairwise_lt_range fun o => ?_
    rw [hs.mem_rows, List.mem_range, tod, td, hx.lenO, hx.lenD]
    constructor
    · exact fun hh => hh.1
    · exact fun ho => ⟨ho, 0, by omega, by rw [vt, hle o ho 0 (by omega)]; omega⟩
  have hcols : cols = List.range D := by
    refine List.Pairwise.eq_of_mem_iff hs.cols_inc List.pairwise_lt_range fun d => ?_
    rw [hs.mem_cols, List.mem_range, tod, td, hx.lenO, hx.lenD]
    constructor
    · exact fun hh => hh.1
    · exact fun hd' => ⟨hd', 0, by omega, by rw [vt, hle 0 (by omega) d hd']; omega⟩
  subst hrows hcols
  have hcell : ∀ i < x.kdims.length, ∀ c < x.vdims.length, ∀ o < D, ∀ d < D,
      u.values.get i c o d = if o + d < D then (t.values.get i c o d).numToNan else .nan := by
    intro i hi c hc o ho d hd'
    have h := hs.cells i c o d (by rw [wt.1, tk]; exact hi) (by rw [wt.2.1, tv]; exact hc)
      (by simpa using ho) (by simpa using hd')
    simp only [List.getElem_range] at h
    rw [h, vt]
    simp only [hle o ho d hd']
  have kc := List.idxOf_lt_length_iff.2 hn.closed
  have ki := List.idxOf_lt_length_iff.2 hn.incurred
  have kp := List.idxOf_lt_length_iff.2 hn.paid
  have nic : x.vdims.idxOf n.incurred ≠ x.vdims.idxOf n.closed := fun e =>
    hd.ic ((List.idxOf_inj hn.incurred).1 e)
  have npc : x.vdims.idxOf n.paid ≠ x.vdims.idxOf n.closed := fun e =>
    hd.pc ((List.idxOf_inj hn.paid).1 e)
  have npi : x.vdims.idxOf n.paid ≠ x.vdims.idxOf n.incurred := fun e =>
    hd.pi ((List.idxOf_inj hn.paid).1 e)
  have tget : ∀ i c o d, t.values.get i c o d = if c = x.vdims.idxOf n.closed then adj.values.get i 0 o d
      else if c = x.vdims.idxOf n.incurred then inc.values.get i 0 o d
      else if c = x.vdims.idxOf n.paid then p.values.get i 0 o d else x.values.get i c o d := by
    intro i c o d; rw [ht]; rfl
  refine ⟨u, ?_, ?_⟩
  · unfold fit
    rw [if_pos (by simp [hn.paid, hn.incurred, hn.reported, hn.closed])]
    simp only [i1, hrep, hest, a1, p1, s1, s2, s3, bind, Except.bind]
    exact u1
  refine ⟨hs.wf, hs.index.trans tk, hs.columns.trans tv, ?_, ?_, ?_, ?_, ?_, ?_, ?_, ?_, ?_, ?_⟩
  · rw [At.eq_map hs.origins (by rw [tod, hx.lenO]), tod, ← hx.lenO]
    exact map_getD_range _ _
  · rw [At.eq_map hs.developments (by rw [td, hx.lenD]), td, ← hx.lenD]
    exact map_getD_range _ _
  · obtain ⟨m, -, hm2, e⟩ := hs.vd
    have h1 := hm2 0 (D - 1) (by rw [tod, hx.lenO]; omega) (by rw [td, hx.lenD]; omega)
      (by rw [vt, hle 0 (by omega) _ (by omega)]; omega)
    rw [vt, ← hx.vd_eq] at h1
    rw [e, tvd]
    exact min_eq_right h1
  · have hk := getVal_keepsAll (by rw [wt.2.2.2, td, hx.lenD]; omega) u1
    rw [ht] at hk
    exact ⟨hk.keyLabels, hk.isVal, hk.ograin, hk.dgrain, hk.isCum, hk.isPattern, hk.isAdditive⟩
  · intro i hi o d hod
    rw [hcell i hi _ kc o (by omega) d (by omega), if_pos hod, tget, if_pos rfl, a2.cell i hi o d hod,
      Num.numToNan_numToNan]
  · intro i hi o d hod h1 h2 h3 h4
    rw [hcell i hi _ ki o (by omega) d (by omega), if_pos hod, tget, if_neg nic, if_pos rfl,
      i2.cell i hi o d hod, Num.numToNan_numToNan, if_neg (by simp [h1, h2, h3, h4])]
  · intro i hi o d hod h
    rw [hcell i hi _ ki o (by omega) d (by omega), if_pos hod, tget, if_neg nic, if_pos rfl,
      i2.cell i hi o d hod, Num.numToNan_numToNan, if_pos h, zero_add]
    exact Num.numToNan_fin_amt (col_noInf hx hn.paid hi (by omega) (by omega))
  · intro i hi o d hod
    rw [hcell i hi _ kp o (by omega) d (by omega), if_pos hod, tget, if_neg npc, if_neg npi, if_pos rfl,
      p2.cell i hi o d hod]
  · intro i hi c hc h1 h2 h3 o d hod
    rw [hcell i hi c hc o (by omega) d (by omega), if_pos hod, tget, if_neg h3, if_neg h2, if_neg h1]
  · intro i hi c hc o ho d hd' hod
    rw [hcell i hi c hc o ho d hd', if_neg (by omega)]

theorem fit_ok (log exp : Num K → Num K) (fac : Int → K) {est : Tri K → Except Err (Tri K)}
    (hx : Grid x a D D 1) (hD : 3 ≤ D) (hn : n.In x) (hd : n.Distinct) {ult rep : Tri K} {U : Nat → Nat → K}
    (hrep : x.getCols [n.reported] = .ok rep) (hest : est rep = .ok ult) (hu : Ultimates x ult D U) :
    ∃ u adj y c, fit log exp fac est n x = .ok u ∧ x.getCols [n.paid] = .ok y ∧ x.getCols [n.closed] = .ok c ∧
      adjClosed n x ult = .ok adj ∧
      Adjusted x u D n fac U fun i o d => curve log exp c.values y.values adj.values
        (col x n.closed i (D - 1 - d) d / U i (D - 1 - d) * U i o) i o d := by
  obtain ⟨adj, a1, a2⟩ := adjClosed_ok hx hn hu
  obtain ⟨m, y, c, m1, y1, c1, m2⟩ := modelPaid_ok log exp hx hn a2
  have m3 := m2.congr (g := fun i o d => (Num.fin (curve log exp c.values y.values adj.values
      (col x n.closed i (D - 1 - d) d / U i (D - 1 - d) * U i o) i o d)).numToNan) (by
    intro i hi o d hod
    have h0 : ((Num.fin (col x n.closed i (D - 1 - d) d / U i (D - 1 - d) * U i o)).numToNan * 0).nanToNum =
        (.fin 0 : Num K) := by
      by_cases h : col x n.closed i (D - 1 - d) d / U i (D - 1 - d) * U i o = 0
      · rw [h]; simp
      · rw [Num.numToNan_fin_of_ne h]; simp [Num.zero_def]
    rw [h0]
    unfold curve
    obtain ⟨b, hb⟩ := Num.nanToNum_isFin (exp ((Num.fin (col x n.closed i (D - 1 - d) d / U i (D - 1 - d) *
      U i o)).numToNan * (slopes log c.values y.values).get i 0 o (lookup adj.values c.values i o d)) *
      (levels log exp c.values y.values).get i 0 o (lookup adj.values c.values i o d))
    rw [hb]
    simp)
  obtain ⟨p, p1, p2⟩ := adjPaid_ok log exp hx hD hn m1 m3 (by
    intro i hi o d hod
    exact Num.noInf_numToNan (Num.noInf_fin _))
  obtain ⟨u, u1, u2⟩ := fit_of_paid log exp fac hx hn hd hrep hest a1 a2 p1 p2
  refine ⟨u, adj, y, c, u1, y1, c1, a1, u2.wf, u2.kdims, u2.vdims, u2.odims, u2.ddims, u2.vd, u2.keeps,
    u2.closed, u2.incurred, u2.nothing, ?_, ?_, u2.others, u2.future⟩
  · intro i hi o d hod
    rw [u2.paid i hi o d (by omega), if_pos hod, Num.numToNan_numToNan]
  · intro i hi o d hod
    rw [u2.paid i hi o d (by omega), if_neg (by omega), Num.numToNan_numToNan, Num.numToNan_numToNan]

end Berq
end CL
