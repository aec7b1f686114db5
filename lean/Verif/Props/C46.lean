import Verif.Lemmas.Munich

set_option linter.unusedSectionVars false

/-!
# C46: the Munich chain ladder

The full triangle keeps the known amounts, its factors to ultimate lead to its last column, the
correlation coefficients are those of the residuals, and what goes wrong with missing numbers.
-/

namespace CL
namespace Munich
open Reg

/-- A triangle with as many origins as ages in which every known amount is a number other than zero,
and of which the paired columns come first and are positive. -/
structure Square (x : Tri ℝ) (a : Int) (D : Nat) (pairs : List (String × String)) : Prop
    extends Tri.Standard x a D D 1 where
  three : 3 ≤ D
  nonzero : ∀ i < x.kdims.length, ∀ c < x.vdims.length, ∀ o d, o + d < D →
    ∃ v, v ≠ 0 ∧ x.values.get i c o d = .fin v
  some_pair : pairs ≠ []
  distinct_names : (pairs.flatMap fun p => [p.1, p.2]).Nodup
  names : ∀ p ∈ pairs, p.1 ∈ x.vdims ∧ p.2 ∈ x.vdims
  leading : ∀ p ∈ pairs, x.vdims.idxOf p.1 < 2 * pairs.length ∧ x.vdims.idxOf p.2 < 2 * pairs.length
  positive : ∀ i < x.kdims.length, ∀ p ∈ pairs, ∀ s, s = p.1 ∨ s = p.2 → ∀ o d, o + d < D →
    0 < (x.values.get i (x.vdims.idxOf s) o d).amt

/-- The pattern of `Development()` for `x`: one row, one column for each age but the last. -/
structure Pattern (x f : Tri ℝ) (D : Nat) : Prop where
  wf : Tri.WF f
  index : f.kdims = x.kdims
  columns : f.vdims = x.vdims
  row : f.odims.length = 1
  ages : f.ddims.length + 1 = D

/-- The column of paid (`side = false`) or incurred (`side = true`) amounts of pair `k`. -/
def col (x : Tri ℝ) (pairs : List (String × String)) (k : Nat) (side : Bool) : Nat :=
  x.vdims.idxOf (if side then (pairs.getD k ("", "")).2 else (pairs.getD k ("", "")).1)

/-- The coefficients of one side. -/
def Fit.side (r : Fit) (i k : Nat) (side : Bool) : Coef ℝ := if side then (r.coef i k).2 else (r.coef i k).1

/-- The full triangle of one side. -/
def Fit.amount (r : Fit) (i k : Nat) (side : Bool) (o d : Nat) : Num ℝ :=
  if side then (r.full i k o d).2 else (r.full i k o d).1

theorem prepare_ok {x : Tri ℝ} {a : Int} {D : Nat} {pairs} (h : Square x a D pairs)
    (fill : Option (Arr ℝ)) : prepare x fill = .ok x := by
  unfold prepare
  rw [if_neg]
  rintro ⟨i, hi, c, hc, o, ho, d, hd, hm⟩
  rw [h.wf.1] at hi
  rw [h.wf.2.1] at hc
  rw [h.wf.2.2.1, h.lenO] at ho
  rw [h.wf.2.2.2, h.lenD] at hd
  unfold missing at hm
  rcases Nat.lt_or_ge (o + d) D with hod | hod
  · obtain ⟨v, hv, e⟩ := h.nonzero i hi c hc o d hod
    rcases Tri.nanTri_eq x o d with h1 | ⟨-, h1⟩
    · rw [h1, e, Num.one_def] at hm
      simp [Num.eqb, Num.zero_def, hv] at hm
    · have := (h.toStandard.valuation_gt ho hd).1 h1
      omega
  · have hn : x.nanTri o d = .nan := by
      have h3 := h.three
      unfold Tri.nanTri
      rw [if_neg (by rw [h.wf.2.2.1, h.wf.2.2.2, h.lenO, h.lenD]; omega), if_pos]
      rw [gt_iff_lt, h.toStandard.valuation_gt ho hd]
      omega
    rw [hn] at hm
    simp [Num.eqb] at hm

theorem nans_ok {x : Tri ℝ} {a : Int} {D : Nat} {pairs} (h : Square x a D pairs) : ∃ g, nans x = .ok g ∧
    ∀ o < D, ∀ d < D, g o d = if o + d + 1 < D then 1 else .nan := by
  have hD := h.two_ages
  obtain ⟨l, hl, -⟩ := h.toStandard.latest
  cases hg : x.getVal (· == x.vd) with
  | error e =>
    unfold Tri.latestDiagonal at hl
    rw [hg] at hl; cases hl
  | ok v =>
    obtain ⟨rows, cols, hs⟩ := Tri.C15_filter_partial h.wf h.toStandard.ordered h.toStandard.dated
      (by rw [h.lenD]; exact hD) hg
    have hkey : ∀ o < D, ∀ d < D, (x.valuation o d == x.vd) = true ↔ o + d + 1 = D := by
      intro o ho d hd
      rw [beq_iff_eq, h.toStandard.valuation_vd ho hd]; omega
    have hrows : rows = List.range D := by
      refine List.Pairwise.eq_of_mem_iff hs.rows_inc List.pairwise_lt_range fun o => ?_
      rw [hs.mem_rows, List.mem_range, h.lenO, h.lenD]
      constructor
      · exact fun hh => hh.1
      · exact fun ho => ⟨ho, D - 1 - o, by omega, (hkey o ho _ (by omega)).2 (by omega)⟩
    have hcols : cols = List.range D := by
      refine List.Pairwise.eq_of_mem_iff hs.cols_inc List.pairwise_lt_range fun d => ?_
      rw [hs.mem_cols, List.mem_range, h.lenO, h.lenD]
      constructor
      · exact fun hh => hh.1
      · exact fun hd => ⟨hd, D - 1 - d, by omega, (hkey _ (by omega) d hd).2 (by omega)⟩
    subst hrows hcols
    have ho : v.odims = x.odims := by
      rw [Tri.At.eq_map hs.origins (by rw [h.lenO]), ← h.lenO]
      exact Tri.map_getD_range _ _
    have hd : v.ddims = x.ddims := by
      rw [Tri.At.eq_map hs.developments (by rw [h.lenD]), ← h.lenD]
      exact Tri.map_getD_range _ _
    obtain ⟨k1, k2, k3, -⟩ := Tri.getVal_keeps hg
    have hfit : Tri.FitsIn v x := Tri.SameAxes.fitsIn
      ⟨hs.index.symm, k1.symm, hs.columns.symm, ho.symm, hd.symm, hs.isVal.symm, k2.symm, k3.symm⟩ h.wf hs.wf
    unfold nans
    rw [hg]
    simp only [bind, Except.bind, Tri.sub_fits hfit]
    refine ⟨_, rfl, fun o ho' d hd' => ?_⟩
    have d0 : 0 < x.values.d0 := by rw [h.wf.1]; exact h.index_pos
    have d1 : 0 < x.values.d1 := by rw [h.wf.2.1]; exact h.columns_pos
    have hb : Tri.bcell v.values x.values 0 0 o d = v.values.get 0 0 o d := by
      unfold Tri.bcell
      have l2 : v.values.d2 = x.values.d2 := by rw [hs.wf.2.2.1, ho, h.wf.2.2.1]
      have l3 : v.values.d3 = x.values.d3 := by rw [hs.wf.2.2.2, hd, h.wf.2.2.2]
      rw [l2, l3]
      simp [Arr.bix]
    have hcell := hs.cells 0 0 o d d0 d1 (by simpa using ho') (by simpa using hd')
    simp only [List.getElem_range] at hcell
    have hvd : max x.vd v.vd = x.vd := by
      obtain ⟨m, -, -, e⟩ := hs.vd
      rw [e]
      exact max_eq_left (min_le_right _ _)
    have hnt : ∀ o d, (Tri.zipped (fun a b => a.nanToNum - b.nanToNum) x v).nanTri o d = x.nanTri o d := by
      intro o d
      show (if min x.values.d2 x.values.d3 = 1 then (1 : Num ℝ) else
        if Tri.valuationOf x.isVal x.odims x.ddims (max x.vd v.vd) o d > max x.vd v.vd then .nan else 1) = _
      rw [hvd]
      rfl
    show (((x.values.get 0 0 o d).nanToNum - (Tri.bcell v.values x.values 0 0 o d).nanToNum) *
      ((Tri.zipped (fun a b => a.nanToNum - b.nanToNum) x v).nanTri o d).nanToNum).numToNan * 0 + 1 = _
    rw [hb, hcell, hnt]
    have hw : (x.nanTri o d).nanToNum = .fin 1 ∨ (x.nanTri o d).nanToNum = .fin 0 := by
      rcases Tri.nanTri_eq x o d with h1 | ⟨h1, -⟩
      · left; rw [h1, Num.one_def]; rfl
      · right; rw [h1]; rfl
    have hz : ((.fin 0 : Num ℝ) * (x.nanTri o d).nanToNum).numToNan = .nan := by
      rcases hw with e | e <;> rw [e] <;> simp
    rcases Nat.lt_or_ge (o + d) D with hod | hod
    · obtain ⟨u, hu, e⟩ := h.nonzero 0 h.index_pos 0 h.columns_pos o d hod
      rw [e, Num.numToNan_fin_of_ne hu]
      by_cases hdiag : o + d + 1 = D
      · rw [if_pos ((hkey o ho' d hd').2 hdiag), if_neg (by omega)]
        simp only [Num.nanToNum_fin, Num.fin_sub_fin, sub_self, hz, Num.nan_mul, Num.nan_add]
      · rw [if_neg (by rw [hkey o ho' d hd']; exact hdiag), if_pos (by omega)]
        have h1 : x.nanTri o d = 1 := by
          rcases Tri.nanTri_eq x o d with h1 | ⟨-, h1⟩
          · exact h1
          · have := (h.toStandard.valuation_gt ho' hd').1 h1
            omega
        rw [h1, Num.one_def]
        simp [Num.numToNan_fin_of_ne hu, Num.zero_def]
    · rw [h.known 0 h.index_pos 0 h.columns_pos o ho' d hd' (by omega),
        if_neg (show ¬ o + d + 1 < D by omega)]
      simp only [Num.numToNan_nan, ite_self, Num.nanToNum_nan, Num.fin_sub_fin, sub_self, hz, Num.nan_mul, Num.nan_add]

theorem names_length (pairs : List (String × String)) :
    (pairs.flatMap fun p => [p.1, p.2]).length = 2 * pairs.length := by
  induction pairs with
  | nil => rfl
  | cons p l ih => rw [List.flatMap_cons, List.length_append, ih, List.length_cons]; simp; omega

/-- What `fit` computes. -/
theorem fit_spec {x f : Tri ℝ} {a : Int} {D : Nat} {pairs} (h : Square x a D pairs) (hf : Pattern x f D)
    (sigma : Arr ℝ) (m : Interp) (fill : Option (Arr ℝ)) :
    ∃ r, fit x f sigma m pairs fill = .ok r ∧
      (∀ i k s, (r.side i k s).ldf = f.values.get i (col x pairs k s) 0 ∧
        (r.side i k s).sigma = sigma.get i (col x pairs k s) 0 ∧
        (r.side i k s).rho = rho m D D (x.values.get i (col x pairs k s)) (x.values.get i (col x pairs k (!s))) ∧
        (r.side i k s).q = ratio D (x.values.get i (col x pairs k s)) (x.values.get i (col x pairs k (!s)))) ∧
      (∀ i k s, (r.side i k s).lam = lambda (D - 1) (D - 1) (r.residual i k).2
        (if s then (r.residual i k).2 else (r.residual i k).1)
        (if s then (r.qResid i k).2 else (r.qResid i k).1)) ∧
      (∀ i k s, ∃ z : Nat → Nat → Num ℝ, (∀ o < D, ∀ d < D, z o d = if o + d + 1 < D then 1 else .nan) ∧
        (if s then (r.qResid i k).2 else (r.qResid i k).1) =
          ratioResid (x.values.get i (col x pairs k s)) (x.values.get i (col x pairs k (!s)))
            (if s then (r.side i k true).q else fun d => 1 / (r.side i k true).q d) (r.side i k s).rho z) ∧
      (∀ i k s, ∃ l : Nat → Nat → Num ℝ, (i < x.kdims.length → col x pairs k s < x.vdims.length →
          ∀ o, o + 1 < D → ∀ d, d + 1 < D → l o d = if o + d + 1 < D then
            .fin ((x.values.get i (col x pairs k s) o (d + 1)).amt / (x.values.get i (col x pairs k s) o d).amt)
            else .nan) ∧
        (if s then (r.residual i k).2 else (r.residual i k).1) =
          resid l (r.side i k s).ldf (r.side i k s).sigma (x.values.get i (col x pairs k s))) ∧
      (∀ i k o, r.full i k o = full (x.values.get i (col x pairs k false) o)
        (x.values.get i (col x pairs k true) o) (r.side i k false) (r.side i k true)) ∧
      r.ldf.values = ⟨f.values.d0, f.values.d1, D, D - 1, fun i v o =>
        ldf D (cdfValues x f.incrToCum.values pairs r.full i v o)⟩ ∧
      r.ldf.odims = x.odims ∧ r.ldf.ddims = x.ddims.dropLast ∧ r.ldf.isPattern = true ∧
      r.ldf.isCum = some false ∧ r.ldf.vd = ultVal ∧ r.ldf.kdims = f.kdims ∧ r.ldf.vdims = f.vdims ∧
      r.ldf.isAdditive = f.isAdditive ∧ r.ldf.isVal = f.isVal := by
  have hD := h.three
  have nz : Tri.NoZeros x := by
    intro i hi c hc o ho d hd e
    rw [h.wf.1] at hi
    rw [h.wf.2.1] at hc
    rw [h.wf.2.2.1, h.lenO] at ho
    rw [h.wf.2.2.2, h.lenD] at hd
    rcases Nat.lt_or_ge (o + d) D with hod | hod
    · obtain ⟨v, hv, e'⟩ := h.nonzero i hi c hc o d hod
      rw [e] at e'
      injection e' with e'
      exact hv e'.symm
    · rw [h.known i hi c hc o ho d hd (by omega)] at e
      cases e
  have hlr2 : Tri.linkRows D D 1 = D - 1 := by
    unfold Tri.linkRows
    rw [if_neg (by omega)]
  obtain ⟨lr, hlr, hg, g1, g2, -, -, hgl⟩ := h.toStandard.linkGrid (by omega) nz (by rw [hlr2]; omega)
  obtain ⟨lr', hlr', hdd⟩ := h.toStandard.linkRatio
  rw [hlr] at hlr'
  injection hlr' with hlr'
  subst hlr'
  rw [hlr2] at hg hgl
  obtain ⟨g, hn, hgv⟩ := nans_ok h
  have l2 : lr.values.d2 + 1 = x.values.d2 := by
    rw [hg.wf.2.2.1, hg.lenO, h.wf.2.2.1, h.lenO]; omega
  have l3 : lr.values.d3 + 1 = x.values.d3 := by
    rw [hg.wf.2.2.2, hg.lenD, h.wf.2.2.2, h.lenD]; omega
  have f2 : f.values.d2 = 1 := by rw [hf.wf.2.2.1, hf.row]
  have f3 : f.values.d3 + 1 = x.values.d3 := by rw [hf.wf.2.2.2, hf.ages, h.wf.2.2.2, h.lenD]
  have f0 : f.values.d0 = x.values.d0 := by rw [hf.wf.1, hf.index, h.wf.1]
  have hnames : ∀ s ∈ pairs.flatMap fun p => [p.1, p.2], s ∈ x.vdims := by
    intro s hs
    obtain ⟨p, hp, hs⟩ := List.mem_flatMap.1 hs
    simp only [List.mem_cons, List.not_mem_nil, or_false] at hs
    rcases hs with rfl | rfl
    · exact (h.names p hp).1
    · exact (h.names p hp).2
  unfold fit
  dsimp only
  rw [if_neg h.some_pair, prepare_ok h]
  simp only [bind, Except.bind]
  rw [if_neg (by
    rw [not_or, not_not, not_not]
    exact ⟨h.distinct_names, f0, hf.columns, f2, f3⟩), if_neg (by rw [not_not]; exact hnames), hlr]
  dsimp only
  rw [if_neg (by omega), if_neg (by omega), hn]
  dsimp only
  rw [if_neg (by
    rw [not_not]
    intro s hs
    rw [names_length]
    obtain ⟨p, hp, hs⟩ := List.mem_flatMap.1 hs
    simp only [List.mem_cons, List.not_mem_nil, or_false] at hs
    rcases hs with rfl | rfl
    · exact (h.leading p hp).1
    · exact (h.leading p hp).2)]
  refine ⟨_, rfl, ?_, ?_, ?_, ?_, ?_, ?_, rfl, hdd, rfl, rfl, rfl, rfl, rfl, rfl, rfl⟩
  · intro i k s
    have e2 : x.values.d2 = D := by rw [h.wf.2.2.1, h.lenO]
    have e3 : x.values.d3 = D := by rw [h.wf.2.2.2, h.lenD]
    cases s <;> simp only [Fit.side, col, e2, e3, Bool.not_false, Bool.not_true, if_true, if_false,
      Bool.false_eq_true, and_self]
  · intro i k s
    have e2 : x.values.d2 = D := by rw [h.wf.2.2.1, h.lenO]
    have e3 : x.values.d3 = D := by rw [h.wf.2.2.2, h.lenD]
    cases s <;> simp only [Fit.side, e2, e3, if_true, if_false, Bool.false_eq_true]
  · intro i k s
    refine ⟨g, hgv, ?_⟩
    cases s <;> rfl
  · intro i k s
    refine ⟨lr.values.get i (col x pairs k s), ?_, by cases s <;> rfl⟩
    intro hi hc o ho d hd
    split_ifs with hod
    · obtain ⟨u, hu, e⟩ := h.nonzero i hi _ hc o d (by omega)
      obtain ⟨v, hv, e'⟩ := h.nonzero i hi _ hc o (d + 1) (by omega)
      rw [hgl i hi _ hc o (by omega) d (by omega), Tri.ratio, if_pos (by
        rw [e, e', Num.amt_fin, Num.amt_fin]; exact ⟨hu, hv⟩)]
    · exact hg.known i (by rw [g1]; exact hi) _ (by rw [g2]; exact hc) o (by omega) d (by omega) (by omega)
  · intro i k o
    rfl
  · have e2 : x.values.d2 = D := by rw [h.wf.2.2.1, h.lenO]
    have e3 : x.values.d3 = D := by rw [h.wf.2.2.2, h.lenD]
    have e4 : f.values.d3 = D - 1 := by omega
    simp only [e2, e3, e4]

/-- The known amounts of a pair at age `d`. -/
theorem known_age {x : Tri ℝ} {a : Int} {D : Nat} {pairs} (h : Square x a D pairs) {i k d : Nat}
    (hi : i < x.kdims.length) (hk : k < pairs.length) (hd : d < D) (s : Bool) :
    Known D (Finset.range (D - d)) (fun o => x.values.get i (col x pairs k s) o d)
      (fun o => x.values.get i (col x pairs k (!s)) o d) := by
  have hp : pairs.getD k ("", "") = pairs[k] := by simp [List.getD_eq_getElem?_getD, hk]
  have hc : ∀ s, col x pairs k s < x.vdims.length ∧ ∀ o, o + d < D →
      ∃ v, 0 < v ∧ x.values.get i (col x pairs k s) o d = .fin v := by
    intro s
    have hm := List.getElem_mem hk
    have hn := h.names _ hm
    have hcol : col x pairs k s = x.vdims.idxOf (if s then pairs[k].2 else pairs[k].1) := by
      unfold col; rw [hp]
    have hlt : col x pairs k s < x.vdims.length := by
      rw [hcol, List.idxOf_lt_length_iff]
      cases s
      · exact hn.1
      · exact hn.2
    refine ⟨hlt, fun o ho => ?_⟩
    obtain ⟨v, hv, e⟩ := h.nonzero i hi _ hlt o d ho
    have := h.positive i hi _ hm (if s then pairs[k].2 else pairs[k].1) (by cases s <;> simp) o d ho
    rw [← hcol, e] at this
    exact ⟨v, this, e⟩
  refine ⟨?_, ?_, ?_⟩
  · intro o ho
    rw [Finset.mem_range] at ho ⊢
    omega
  · intro o ho
    rw [Finset.mem_range] at ho
    obtain ⟨u, hu, e⟩ := (hc s).2 o (by omega)
    obtain ⟨v, hv, e'⟩ := (hc !s).2 o (by omega)
    exact ⟨u, v, hu, hv, e, e'⟩
  · intro o ho hos
    rw [Finset.mem_range] at hos
    exact ⟨h.known i hi _ (hc s).1 o ho d hd (by omega), h.known i hi _ (hc !s).1 o ho d hd (by omega)⟩

/-- The paid to incurred ratio of the fit is the ratio of the totals of all origins known at that age, and
the ratio of the other side is its reciprocal. -/
theorem C46_ratio {x f : Tri ℝ} {a : Int} {D : Nat} {pairs} (h : Square x a D pairs) (hf : Pattern x f D)
    (sigma : Arr ℝ) (m : Interp) :
    ∃ r, fit x f sigma m pairs none = .ok r ∧ ∀ i < x.kdims.length, ∀ k < pairs.length, ∀ d < D,
      ∀ s, (r.side i k s).q d =
        .fin ((∑ o ∈ Finset.range (D - d), (x.values.get i (col x pairs k (!s)) o d).amt) /
          ∑ o ∈ Finset.range (D - d), (x.values.get i (col x pairs k s) o d).amt) ∧
        (r.side i k s).q d * (r.side i k (!s)).q d = 1 := by
  obtain ⟨r, hr, h1, -⟩ := fit_spec h hf sigma m none
  refine ⟨r, hr, fun i hi k hk d hd => ?_⟩
  have hne : (Finset.range (D - d)).Nonempty := ⟨0, Finset.mem_range.2 (by omega)⟩
  have hq : ∀ s, (r.side i k s).q d =
        .fin ((∑ o ∈ Finset.range (D - d), (x.values.get i (col x pairs k (!s)) o d).amt) /
          ∑ o ∈ Finset.range (D - d), (x.values.get i (col x pairs k s) o d).amt) := by
    intro s
    rw [(h1 i k s).2.2.2]
    exact (known_age h hi hk hd s).origSlope hne
  intro s
  refine ⟨hq s, ?_⟩
  have p1 := ((known_age h hi hk hd s).origDen hne).2
  have p2 := ((known_age h hi hk hd (!s)).origDen hne).2
  rw [hq s, hq (!s), Bool.not_not, Num.fin_mul_fin, Num.one_def]
  congr 1
  rw [div_mul_div_comm, mul_comm, div_self (mul_ne_zero p1.ne' p2.ne')]

/-- The coefficients up to age `L` are numbers, if the correlation, the factors and sigmas are, and the
ratios of paid to incurred differ between origins. -/
theorem finite_coef {x f : Tri ℝ} {a : Int} {D : Nat} {pairs} (h : Square x a D pairs)
    {sigma : Arr ℝ} {m : Interp} {r : Fit}
    (h1 : ∀ i k s, (r.side i k s).ldf = f.values.get i (col x pairs k s) 0 ∧
        (r.side i k s).sigma = sigma.get i (col x pairs k s) 0 ∧
        (r.side i k s).rho = rho m D D (x.values.get i (col x pairs k s)) (x.values.get i (col x pairs k (!s))) ∧
        (r.side i k s).q = ratio D (x.values.get i (col x pairs k s)) (x.values.get i (col x pairs k (!s))))
    {i k : Nat} (hi : i < x.kdims.length) (hk : k < pairs.length) (s : Bool) {d : Nat} (hd : d + 1 < D)
    (hm : m = .mack ∨ ¬ Proportional (Finset.range (D - d)) (fun o => x.values.get i (col x pairs k s) o d)
      (fun o => x.values.get i (col x pairs k (!s)) o d))
    (hl : ∃ v, (r.side i k s).lam = .fin v)
    (hv : (∃ v, f.values.get i (col x pairs k s) 0 d = .fin v) ∧
      ∃ v, sigma.get i (col x pairs k s) 0 d = .fin v) : (r.side i k s).Finite d := by
  obtain ⟨e1, e2, e3, e4⟩ := h1 i k s
  have hka := known_age h hi hk (d := d) (by omega) s
  refine ⟨by rw [e1]; exact hv.1, by rw [e2]; exact hv.2, ?_, ?_, hl⟩
  · rw [e3]
    exact (rho_spec m (x := x.values.get i (col x pairs k s)) (y := x.values.get i (col x pairs k (!s))) hka
      (by rw [Finset.card_range]; omega)).1 hm
  · rw [e4]
    exact ⟨_, hka.origSlope ⟨0, Finset.mem_range.2 (by omega)⟩⟩

/-- The column of a pair has the amounts of its side. -/
theorem column_col {x : Tri ℝ} {pairs : List (String × String)}
    (distinct : (pairs.flatMap fun p => [p.1, p.2]).Nodup)
    (names : ∀ p ∈ pairs, p.1 ∈ x.vdims ∧ p.2 ∈ x.vdims) (F : Nat → Nat → Nat → Nat → Num ℝ × Num ℝ) {k : Nat}
    (hk : k < pairs.length) (s : Bool) :
    col x pairs k s < x.vdims.length ∧ column pairs F (x.vdims.getD (col x pairs k s) "") =
      some fun i o d => if s then (F i k o d).2 else (F i k o d).1 := by
  have hp : pairs.getD k ("", "") = pairs[k] := by simp [List.getD_eq_getElem?_getD, hk]
  have hm := List.getElem_mem hk
  have hn := names _ hm
  have hcol : col x pairs k s = x.vdims.idxOf (if s then pairs[k].2 else pairs[k].1) := by
    unfold col; rw [hp]
  have hmem : (if s then pairs[k].2 else pairs[k].1) ∈ x.vdims := by
    cases s
    · exact hn.1
    · exact hn.2
  have hlt : col x pairs k s < x.vdims.length := by rw [hcol, List.idxOf_lt_length_iff]; exact hmem
  have hname : x.vdims.getD (col x pairs k s) "" = if s then pairs[k].2 else pairs[k].1 := by
    rw [hcol] at hlt ⊢
    rw [List.getD_eq_getElem?_getD, List.getElem?_eq_getElem hlt, Option.getD_some, List.getElem_idxOf]
  refine ⟨hlt, ?_⟩
  have hnd := distinct
  rw [List.nodup_flatMap] at hnd
  obtain ⟨hnd1, hnd2⟩ := hnd
  have hne : ∀ p ∈ pairs, p.1 ≠ p.2 := by
    intro p hp e
    have := hnd1 p hp
    simp [e] at this
  have hdis : ∀ j l (hj : j < pairs.length) (hl : l < pairs.length), j ≠ l →
      pairs[j].1 ≠ pairs[l].1 ∧ pairs[j].1 ≠ pairs[l].2 ∧ pairs[j].2 ≠ pairs[l].1 ∧ pairs[j].2 ≠ pairs[l].2 := by
    have key : ∀ j l (hj : j < pairs.length) (hl : l < pairs.length), j < l →
      pairs[j].1 ≠ pairs[l].1 ∧ pairs[j].1 ≠ pairs[l].2 ∧ pairs[j].2 ≠ pairs[l].1 ∧ pairs[j].2 ≠ pairs[l].2 := by
      intro j l hj hl hjl
      have := List.pairwise_iff_getElem.1 hnd2 j l hj hl hjl
      simp only [Function.onFun, List.disjoint_cons_left, List.mem_cons, List.not_mem_nil, or_false,
        not_or] at this
      exact ⟨this.1.1, this.1.2, this.2.1.1, this.2.1.2⟩
    intro j l hj hl hjl
    rcases Nat.lt_or_gt_of_ne hjl with h1 | h1
    · exact key j l hj hl h1
    · obtain ⟨a, b, c, d⟩ := key l j hl hj h1
      exact ⟨a.symm, c.symm, b.symm, d.symm⟩
  unfold column
  rw [hname]
  cases s with
  | false =>
    have e : (pairs.findIdx? fun p => p.1 = pairs[k].1) = some k := by
      rw [List.findIdx?_eq_some_iff_getElem]
      refine ⟨hk, by simp, fun j hj => ?_⟩
      simpa using (hdis j k (by omega) hk (by omega)).1
    simp only [Bool.false_eq_true, if_false, e]
  | true =>
    have e0 : (pairs.findIdx? fun p => p.1 = pairs[k].2) = none := by
      rw [List.findIdx?_eq_none_iff]
      intro p hp
      obtain ⟨j, hj, rfl⟩ := List.getElem_of_mem hp
      rw [decide_eq_false_iff_not]
      by_cases hjk : j = k
      · subst hjk; exact hne _ hm
      · exact (hdis j k hj hk hjk).2.1
    have e : (pairs.findIdx? fun p => p.2 = pairs[k].2) = some k := by
      rw [List.findIdx?_eq_some_iff_getElem]
      refine ⟨hk, by simp, fun j hj => ?_⟩
      simpa using (hdis j k (by omega) hk (by omega)).2.2.2
    simp only [if_true, e0, e]

theorem column_eq {x : Tri ℝ} {a : Int} {D : Nat} {pairs} (h : Square x a D pairs) {r : Fit} {k : Nat}
    (hk : k < pairs.length) (s : Bool) :
    col x pairs k s < x.vdims.length ∧
      column pairs r.full (x.vdims.getD (col x pairs k s) "") = some fun i o d => r.amount i k s o d :=
  column_col h.distinct_names h.names r.full hk s

theorem sum_flat {M : Type} [AddCommMonoid M] (g : Nat → Nat → M) (n m : Nat) :
    ∑ f ∈ Finset.range (n * m), g (f / m) (f % m) = ∑ o ∈ Finset.range n, ∑ d ∈ Finset.range m, g o d := by
  induction n with
  | zero => simp
  | succ n ih =>
    rw [Nat.succ_mul, Finset.sum_range_add, ih, Finset.sum_range_succ]
    congr 1
    refine Finset.sum_congr rfl fun d hd => ?_
    rw [Finset.mem_range] at hd
    have hm : 0 < m := by omega
    rw [mul_comm n m, Nat.mul_add_div hm, Nat.div_eq_of_lt hd, add_zero, Nat.mul_add_mod, Nat.mod_eq_of_lt hd]

/-- The square table of `m` rows and columns. -/
def Table (m : Nat) : Finset (Nat × Nat) := Finset.range m ×ˢ Finset.range m

/-- A sum over the cells of a table that count. -/
theorem nansum_flat {m : Nat} {F : Nat → Nat → Num ℝ} {G : Nat × Nat → ℝ} {W : Finset (Nat × Nat)}
    (hW : W ⊆ Table m) (h1 : ∀ c ∈ W, F c.1 c.2 = .fin (G c))
    (h2 : ∀ c ∈ Table m, c ∉ W → F c.1 c.2 = .nan) :
    nansum (m * m) (fun f => F (f / m) (f % m)) = .fin (∑ c ∈ W, G c) := by
  unfold nansum
  rw [sum_flat fun o d => (F o d).nan0, ← Finset.sum_product', ← Num.sum_fin]
  symm
  show _ = ∑ c ∈ Table m, (F c.1 c.2).nan0
  rw [← Finset.sum_subset hW (f := fun c => (F c.1 c.2).nan0)]
  · exact Finset.sum_congr rfl fun c hc => by rw [h1 c hc]; rfl
  · intro c hc hn
    rw [h2 c hc hn]; rfl

/-- The residual of a ratio between ages of one side: `f` and `sigma` for the age. -/
noncomputable def ageResid (x : Nat → Nat → Num ℝ) (f sigma : Nat → Num ℝ) (c : Nat × Nat) : ℝ :=
  ((x c.1 (c.2 + 1)).amt / (x c.1 c.2).amt - (f c.2).amt) / (sigma c.2).amt * Real.sqrt (x c.1 c.2).amt

/-- The residual of the ratio of the other side to this side. -/
noncomputable def sideResid (x y : Nat → Nat → Num ℝ) (q rho : Nat → Num ℝ) (c : Nat × Nat) : ℝ :=
  ((y c.1 c.2).amt / (x c.1 c.2).amt - (q c.2).amt) / (rho c.2).amt * Real.sqrt (x c.1 c.2).amt

/-- **C46** (correlation): the correlation coefficient is the slope of the regression through the origin
of the residuals of the ratios between ages on those of the paid to incurred ratios, over the cells
before the latest diagonal at which the residual of incurred is not zero; when the products of the
residuals add up to zero it is missing. -/
theorem C46_lambda_partial {x f : Tri ℝ} {a : Int} {D : Nat} {pairs} (h : Square x a D pairs)
    (hf : Pattern x f D) (sigma : Arr ℝ) (m : Interp) :
    ∃ r, fit x f sigma m pairs none = .ok r ∧ ∀ i < x.kdims.length, ∀ k < pairs.length,
      (∀ s d, d + 1 < D → m = .mack ∨ ¬ Proportional (Finset.range (D - d))
        (fun o => x.values.get i (col x pairs k s) o d) (fun o => x.values.get i (col x pairs k (!s)) o d)) →
      (∀ s d, d + 1 < D → (∃ v, f.values.get i (col x pairs k s) 0 d = .fin v) ∧
        ∃ v, v ≠ 0 ∧ sigma.get i (col x pairs k s) 0 d = .fin v) →
      ∀ W, W = (Table (D - 1)).filter (fun c => c.1 + c.2 + 1 < D ∧
        ageResid (x.values.get i (col x pairs k true)) (f.values.get i (col x pairs k true) 0)
          (sigma.get i (col x pairs k true) 0) c ≠ 0) →
      ∀ s u v, u = ageResid (x.values.get i (col x pairs k s)) (f.values.get i (col x pairs k s) 0)
          (sigma.get i (col x pairs k s) 0) →
        v = sideResid (x.values.get i (col x pairs k s)) (x.values.get i (col x pairs k (!s)))
          (r.side i k s).q (r.side i k s).rho →
        (∑ c ∈ W, u c * v c ≠ 0 →
          (r.side i k s).lam = .fin ((∑ c ∈ W, u c * v c) / ∑ c ∈ W, v c ^ 2)) ∧
        (∑ c ∈ W, u c * v c = 0 → (r.side i k s).lam = .nan) := by
  have hD := h.three
  obtain ⟨r, hr, h1, hl, hz, hlr, h2, -⟩ := fit_spec h hf sigma m none
  obtain ⟨r', hr', hq⟩ := C46_ratio h hf sigma m
  rw [hr] at hr'
  injection hr' with hr'
  subst hr'
  refine ⟨r, hr, fun i hi k hk hm hv W hW s u v hu hv' => ?_⟩
  -- the residuals at the cells of the table
  have hres : ∀ s : Bool, ∀ c ∈ Table (D - 1), (if s then (r.residual i k).2 else (r.residual i k).1) c.1 c.2 =
      if c.1 + c.2 + 1 < D then .fin (ageResid (x.values.get i (col x pairs k s))
        (f.values.get i (col x pairs k s) 0) (sigma.get i (col x pairs k s) 0) c) else .nan := by
    intro s c hc
    simp only [Table, Finset.mem_product, Finset.mem_range] at hc
    obtain ⟨l, e, e'⟩ := hlr i k s
    rw [e']
    unfold resid
    rw [e hi (column_eq h (r := r) hk s).1 c.1 (by omega) c.2 (by omega)]
    split_ifs with hod
    · obtain ⟨⟨f0, ef⟩, ⟨s0, hs0, es⟩⟩ := hv s c.2 (by omega)
      obtain ⟨b, -, hb, -, eb, -⟩ := (known_age h hi hk (d := c.2) (by omega) s).pos c.1
        (Finset.mem_range.2 (by omega))
      rw [(h1 i k s).1, (h1 i k s).2.1, ef, es, eb, Num.fin_sub_fin, Num.fin_div_fin_of_ne _ hs0,
        sqrt_fin hb.le, Num.fin_mul_fin]
      simp only [ageResid, eb, ef, es, Num.amt_fin]
    · rw [Num.nan_sub, Num.nan_div, Num.nan_mul]
  have hside : ∀ s : Bool, ∀ c ∈ Table (D - 1), (if s then (r.qResid i k).2 else (r.qResid i k).1) c.1 c.2 =
      if c.1 + c.2 + 1 < D then .fin (sideResid (x.values.get i (col x pairs k s))
        (x.values.get i (col x pairs k (!s))) (r.side i k s).q (r.side i k s).rho c) else .nan := by
    intro s c hc
    simp only [Table, Finset.mem_product, Finset.mem_range] at hc
    obtain ⟨z, e, e'⟩ := hz i k s
    rw [e']
    unfold ratioResid
    rw [e c.1 (by omega) c.2 (by omega)]
    by_cases hod : c.1 + c.2 + 1 < D
    · rw [if_pos hod, if_pos hod]
      obtain ⟨b, b', hb, hb', eb, eb'⟩ := (known_age h hi hk (d := c.2) (by omega) s).pos c.1
        (Finset.mem_range.2 (by omega))
      obtain ⟨ρ, hρ, eρ⟩ : ∃ v, v ≠ 0 ∧ (r.side i k s).rho c.2 = .fin v := by
        rw [(h1 i k s).2.2.1]
        exact (rho_spec m (x := x.values.get i (col x pairs k s)) (y := x.values.get i (col x pairs k (!s)))
          (known_age h hi hk (d := c.2) (by omega) s) (by rw [Finset.card_range]; omega)).1
          (hm s c.2 (by omega))
      have hqs : (if s then (r.side i k true).q else fun d => 1 / (r.side i k true).q d) c.2 =
          .fin ((r.side i k s).q c.2).amt := by
        obtain ⟨q1, q2⟩ := hq i hi k hk c.2 (by omega) true
        obtain ⟨q3, -⟩ := hq i hi k hk c.2 (by omega) false
        cases s with
        | true => simp only [if_true]; rw [q1, Num.amt_fin]
        | false =>
          simp only [Bool.false_eq_true, if_false, Bool.not_true] at q2 ⊢
          rw [q1, q3, Num.fin_mul_fin, Num.one_def] at q2
          injection q2 with q2
          have : (∑ o ∈ Finset.range (D - c.2), (x.values.get i (col x pairs k (!true)) o c.2).amt) /
              ∑ o ∈ Finset.range (D - c.2), (x.values.get i (col x pairs k true) o c.2).amt ≠ 0 :=
            left_ne_zero_of_mul_eq_one q2
          rw [q1, q3, Num.one_def, Num.fin_div_fin_of_ne _ this, Num.amt_fin]
          congr 1
          rw [div_eq_iff this, mul_comm]
          exact q2.symm
      rw [hqs, eρ, eb, eb', Num.fin_div_fin_of_ne _ hb.ne', Num.fin_sub_fin, Num.fin_div_fin_of_ne _ hρ,
        sqrt_fin hb.le, Num.fin_mul_fin, mul_one]
      simp only [sideResid, eb, eb', eρ, Num.amt_fin]
    · rw [if_neg hod, if_neg hod, Num.mul_nan]
  have hw : ∀ c ∈ Table (D - 1), weight ((r.residual i k).2 c.1 c.2) = if c ∈ W then 1 else .nan := by
    intro c hc
    have := hres true c hc
    simp only [if_true] at this
    rw [this]
    have hmem : c ∈ W ↔ c ∈ Table (D - 1) ∧ c.1 + c.2 + 1 < D ∧ ageResid (x.values.get i (col x pairs k true))
        (f.values.get i (col x pairs k true) 0) (sigma.get i (col x pairs k true) 0) c ≠ 0 := by
      rw [hW, Finset.mem_filter]
    by_cases hod : c.1 + c.2 + 1 < D
    · rw [if_pos hod]
      by_cases h0 : ageResid (x.values.get i (col x pairs k true)) (f.values.get i (col x pairs k true) 0)
          (sigma.get i (col x pairs k true) 0) c = 0
      · rw [if_neg (fun hh => (hmem.1 hh).2.2 h0), h0]
        simp [weight, Num.eqb, Num.zero_def]
      · rw [if_pos (hmem.2 ⟨hc, hod, h0⟩)]
        simp [weight, Num.eqb, Num.zero_def, h0, Num.one_def]
    · rw [if_neg hod, if_neg (fun hh => hod (hmem.1 hh).2.1)]
      simp [weight]
  have hsub : W ⊆ Table (D - 1) := by rw [hW]; exact Finset.filter_subset _ _
  have hWod : ∀ c ∈ W, c.1 + c.2 + 1 < D := fun c hc => by rw [hW, Finset.mem_filter] at hc; exact hc.2.1
  have hnum : nansum ((D - 1) * (D - 1)) (fun j => weight ((r.residual i k).2 (j / (D - 1)) (j % (D - 1))) *
      (if s then (r.qResid i k).2 else (r.qResid i k).1) (j / (D - 1)) (j % (D - 1)) *
      (if s then (r.residual i k).2 else (r.residual i k).1) (j / (D - 1)) (j % (D - 1))) =
      .fin (∑ c ∈ W, u c * v c) := by
    refine nansum_flat (F := fun o d => weight ((r.residual i k).2 o d) *
      (if s then (r.qResid i k).2 else (r.qResid i k).1) o d *
      (if s then (r.residual i k).2 else (r.residual i k).1) o d) hsub ?_ ?_
    · intro c hc
      beta_reduce
      rw [hw c (hsub hc), hres s c (hsub hc), hside s c (hsub hc), if_pos hc, if_pos (hWod c hc),
        if_pos (hWod c hc), Num.one_def, Num.fin_mul_fin, Num.fin_mul_fin, one_mul, mul_comm, hu, hv']
    · intro c hc hn
      beta_reduce
      rw [hw c hc, if_neg hn, Num.nan_mul, Num.nan_mul]
  have hden : nansum ((D - 1) * (D - 1)) (fun j =>
      ((if s then (r.residual i k).2 else (r.residual i k).1) (j / (D - 1)) (j % (D - 1)) * 0 + 1) *
      weight ((r.residual i k).2 (j / (D - 1)) (j % (D - 1))) *
      (if s then (r.qResid i k).2 else (r.qResid i k).1) (j / (D - 1)) (j % (D - 1)) *
      (if s then (r.qResid i k).2 else (r.qResid i k).1) (j / (D - 1)) (j % (D - 1))) =
      .fin (∑ c ∈ W, v c ^ 2) := by
    refine nansum_flat (F := fun o d => ((if s then (r.residual i k).2 else (r.residual i k).1) o d * 0 + 1) *
      weight ((r.residual i k).2 o d) * (if s then (r.qResid i k).2 else (r.qResid i k).1) o d *
      (if s then (r.qResid i k).2 else (r.qResid i k).1) o d) hsub ?_ ?_
    · intro c hc
      beta_reduce
      rw [hw c (hsub hc), hres s c (hsub hc), hside s c (hsub hc), if_pos hc, if_pos (hWod c hc),
        if_pos (hWod c hc), Num.one_def, Num.zero_def, Num.fin_mul_fin, Num.fin_add_fin, Num.fin_mul_fin,
        Num.fin_mul_fin, Num.fin_mul_fin, hv']
      congr 1
      ring
    · intro c hc hn
      beta_reduce
      rw [hw c hc, if_neg hn, Num.mul_nan, Num.nan_mul, Num.nan_mul]
  have hlam : (r.side i k s).lam = (Num.fin (∑ c ∈ W, u c * v c)).numToNan /
      (Num.fin (∑ c ∈ W, v c ^ 2)).numToNan := by
    rw [hl]
    unfold lambda Reg.origSlope Reg.origDen
    rw [hnum, hden]
  constructor
  · intro hne
    have hpos : ∑ c ∈ W, v c ^ 2 ≠ 0 := by
      intro h0
      rw [Finset.sum_eq_zero_iff_of_nonneg fun c _ => sq_nonneg _] at h0
      exact hne (Finset.sum_eq_zero fun c hc => by rw [pow_eq_zero_iff (by decide) |>.1 (h0 c hc), mul_zero])
    rw [hlam, Num.numToNan_fin_of_ne hne, Num.numToNan_fin_of_ne hpos, Num.fin_div_fin_of_ne _ hpos]
  · intro h0
    rw [hlam, h0, Num.numToNan_fin_zero, Num.nan_div]

/-- **C46** (known data): the full triangle has the known amounts of paid and incurred, if the correlation
coefficients, the factors and the sigmas are numbers and no age has the same ratio of paid to incurred in
all origins (with Mack's interpolation that may be).  Not covered: other shapes, for which the fit
raises (`C46_shape_false`), and numbers that are missing (`C46_known_false`). -/
theorem C46_known_partial {x f : Tri ℝ} {a : Int} {D : Nat} {pairs} (h : Square x a D pairs)
    (hf : Pattern x f D) (sigma : Arr ℝ) (m : Interp) :
    ∃ r, fit x f sigma m pairs none = .ok r ∧ ∀ i < x.kdims.length, ∀ k < pairs.length,
      (∀ d, d + 1 < D → m = .mack ∨ ¬ Proportional (Finset.range (D - d))
        (fun o => x.values.get i (col x pairs k false) o d) (fun o => x.values.get i (col x pairs k true) o d)) →
      (∀ s, ∃ v, (r.side i k s).lam = .fin v) →
      (∀ s d, d + 1 < D → (∃ v, f.values.get i (col x pairs k s) 0 d = .fin v) ∧
        ∃ v, sigma.get i (col x pairs k s) 0 d = .fin v) →
      ∀ s o d, o + d < D → r.amount i k s o d = x.values.get i (col x pairs k s) o d := by
  obtain ⟨r, hr, h1, -, -, -, h2, -⟩ := fit_spec h hf sigma m none
  refine ⟨r, hr, fun i hi k hk hm hl hv s o d hod => ?_⟩
  have hfin : ∀ s d, d + 1 < D → (r.side i k s).Finite d := by
    intro s d hd
    refine finite_coef h h1 hi hk s hd ?_ (hl s) (hv s d hd)
    cases s with
    | false => exact hm d hd
    | true =>
      refine (hm d hd).imp id fun hp => ?_
      rintro ⟨c, hc⟩
      apply hp
      refine ⟨1 / c, fun o ho => ?_⟩
      have ho' := Finset.mem_range.1 ho
      have hc := hc o ho
      obtain ⟨u, v, hu, hv, e, e'⟩ := (known_age h hi hk (d := d) (by omega) false).pos o ho
      simp only [Bool.not_true, Bool.not_false] at hc e' ⊢
      simp only [e, e', Num.amt_fin] at hc ⊢
      have : c ≠ 0 := by
        rintro rfl
        rw [zero_mul] at hc
        exact hu.ne' hc
      rw [hc]
      field_simp
  have hP : ∀ s, ∀ j ≤ D - 1 - o, ∃ v, v ≠ 0 ∧ x.values.get i (col x pairs k s) o j = .fin v := by
    intro s j hj
    obtain ⟨u, v, hu, hv, e, e'⟩ := (known_age h hi hk (d := j) (by omega) s).pos o
      (Finset.mem_range.2 (by omega))
    exact ⟨u, hu.ne', e⟩
  have := full_known (hP false) (hP true) (fun j hj => hfin false j (by omega))
    (fun j hj => hfin true j (by omega)) d (by omega)
  unfold Fit.amount
  rw [h2, this]
  cases s <;> rfl

/-- **C46 is false of the known data**: when at some age all origins have the same ratio of paid to
incurred, the full triangle has nothing at the next age, whatever is known there. -/
theorem C46_known_false {x f : Tri ℝ} {a : Int} {D : Nat} {pairs} (h : Square x a D pairs)
    (hf : Pattern x f D) (sigma : Arr ℝ) :
    ∃ r, fit x f sigma .logLinear pairs none = .ok r ∧ ∀ i < x.kdims.length, ∀ k < pairs.length,
      ∀ s d, d + 1 < D → Proportional (Finset.range (D - d))
        (fun o => x.values.get i (col x pairs k s) o d) (fun o => x.values.get i (col x pairs k (!s)) o d) →
      ∀ o, o + d + 1 < D → r.amount i k s o (d + 1) = .nan ∧
        0 < (x.values.get i (col x pairs k s) o (d + 1)).amt := by
  obtain ⟨r, hr, h1, -, -, -, h2, -⟩ := fit_spec h hf sigma .logLinear none
  refine ⟨r, hr, fun i hi k hk s d hd hp o hod => ⟨?_, ?_⟩⟩
  · have := (rho_spec .logLinear (D := D) (x := x.values.get i (col x pairs k s))
      (y := x.values.get i (col x pairs k (!s))) (known_age h hi hk (d := d) (by omega) s)
      (by rw [Finset.card_range]; omega)).2 rfl hp
    rw [← (h1 i k s).2.2.1] at this
    unfold Fit.amount
    rw [h2]
    cases s with
    | false => exact full_nan (Or.inl this)
    | true => exact full_nan' (Or.inl this)
  · obtain ⟨u, v, hu, hv, e, e'⟩ := (known_age h hi hk (d := d + 1) (by omega) s).pos o
      (Finset.mem_range.2 (by omega))
    rw [e]
    exact hu

/-- Everything after a missing amount of both sides is missing. -/
theorem full_rest {P I : Nat → Num ℝ} {p i : Coef ℝ} {d : Nat} (h : full P I p i d = (.nan, .nan)) :
    ∀ e, d ≤ e → full P I p i e = (.nan, .nan) := by
  intro e he
  induction e, he using Nat.le_induction with
  | base => exact h
  | succ e he ih => simp [full, ih, Coef.project, keep_missing]

/-- The age-to-ultimate factor from the fitted `ldf_`. -/
theorem cdf_eq {x f : Tri ℝ} {a : Int} {D : Nat} {pairs} (h : Square x a D pairs) (hf : Pattern x f D)
    (hfa : f.isAdditive = none) (hfv : f.isVal = false) (late : x.vd + (D * x.dgrain.months : Nat) ≤ ultVal)
    {sigma : Arr ℝ} {m : Interp} {fill : Option (Arr ℝ)} {r : Fit} (hr : fit x f sigma m pairs fill = .ok r)
    {i k : Nat} (hk : k < pairs.length) (s : Bool) {o e : Nat} (ho : o < D) (he : e + 1 < D) :
    r.ldf.incrToCum.values.get i (col x pairs k s) o e = ∏ j ∈ Finset.Ico e (D - 1),
      ((ldf D (cdf D (r.amount i k s o)) j).nanToNum).numToValue 1 := by
  have hD := h.three
  obtain ⟨r', hr', -, -, -, -, -, v1, v2, v3, v4, v5, v6, v7, v8, v9, v10⟩ := fit_spec h hf sigma m fill
  rw [hr] at hr'
  injection hr' with hr'
  subst hr'
  have hinc : r.ldf.incrToCum = { r.ldf with values := r.ldf.cumProdVals, isCum := some true } := by
    unfold Tri.incrToCum
    rw [if_neg (by rw [v5]; decide)]
    simp only [v4, if_true, v9, hfa]
  rw [hinc]
  have hlast : r.ldf.ddims.getLast? ≠ some 9999 := by
    rw [v3]
    intro hl
    exact h.not_ult (List.dropLast_subset _ (List.mem_of_getLast? hl))
  have hn : r.ldf.nanTri o e = 1 := by
    unfold Tri.nanTri
    split_ifs with h1 h2
    · rfl
    · exfalso
      unfold Tri.valuation Tri.valuationOf at h2
      rw [v10, hfv, if_neg (by decide), if_neg (fun hh => hlast hh.1), v6, v2, v3] at h2
      have hdl : x.ddims.dropLast.getD e 0 = x.ddims.getD e 0 := by
        rw [List.getD_eq_getElem?_getD, List.getD_eq_getElem?_getD, List.dropLast_eq_take,
          List.getElem?_take_of_lt (by rw [h.lenD]; omega)]
      rw [hdl, h.getO ho, h.getDv (by omega)] at h2
      have h3 := h.vd
      have h4 : o * 1 * x.dgrain.months + (e + 1) * x.dgrain.months ≤ (D + D) * x.dgrain.months := by
        rw [← Nat.add_mul]
        exact Nat.mul_le_mul_right _ (by omega)
      rw [Nat.add_mul D D] at h4
      have h5 := min_le_left (a + ((o * 1 * x.dgrain.months : Nat) : Int)) ultVal
      clear v6
      generalize o * 1 * x.dgrain.months = A at *
      generalize (e + 1) * x.dgrain.months = B at *
      generalize D * x.dgrain.months = C at *
      generalize min (a + (A : Int)) ultVal = M at *
      omega
    · rfl
  have hc := (column_eq h (r := r) hk s).2
  show (∏ j ∈ Finset.Ico e r.ldf.values.d3, _) * r.ldf.nanTri o e = _
  rw [hn, mul_one, v1]
  refine Finset.prod_congr rfl fun j _ => ?_
  simp only [cdfValues, hc]
  rw [h.wf.2.2.2, h.lenD]

theorem prod_ratio {f : Nat → ℝ} {L : Nat} (m : Nat) (hm : L ≤ m) (h0 : ∀ j, L ≤ j → j ≤ m → f j ≠ 0) :
    ∏ j ∈ Finset.Ico L m, f (j + 1) / f j = f m / f L := by
  induction m, hm using Nat.le_induction with
  | base => rw [Finset.Ico_self, Finset.prod_empty, div_self (h0 L le_rfl le_rfl)]
  | succ m hm ih =>
    rw [Finset.prod_Ico_succ_top hm, ih fun j h1 h2 => h0 j h1 (by omega), mul_comm,
      div_mul_div_cancel₀ (h0 m hm (by omega))]

/-- A product of the factors of `_set_ldf` leads to the last amount. -/
theorem last_amount {D : Nat} {F : Nat → Num ℝ} {e : Nat} (he : e + 1 < D)
    (hj : ∀ j, e ≤ j → j < D → ∃ v, v ≠ 0 ∧ F j = .fin v) :
    F e * ∏ j ∈ Finset.Ico e (D - 1), ((ldf D (cdf D F) j).nanToNum).numToValue 1 = F (D - 1) := by
  set g : Nat → ℝ := fun j => (F j).amt with hg
  have hg' : ∀ j, e ≤ j → j < D → F j = .fin (g j) ∧ g j ≠ 0 := by
    intro j h1 h2
    obtain ⟨v, hv, e'⟩ := hj j h1 h2
    rw [hg]
    simp only [e', Num.amt_fin]
    exact ⟨trivial, hv⟩
  have hfac : ∀ j ∈ Finset.Ico e (D - 1), ((ldf D (cdf D F) j).nanToNum).numToValue 1 =
      .fin (g (j + 1) / g j) := by
    intro j hj'
    rw [Finset.mem_Ico] at hj'
    obtain ⟨e1, n1⟩ := hg' j (by omega) (by omega)
    obtain ⟨e2, n2⟩ := hg' (j + 1) (by omega) (by omega)
    obtain ⟨e3, n3⟩ := hg' (D - 1) (by omega) (by omega)
    have : ldf D (cdf D F) j = .fin (g (j + 1) / g j) := by
      unfold ldf cdf
      rw [e1, e3, Num.fin_div_fin_of_ne _ n1]
      split_ifs with h1
      · rw [e2, Num.fin_div_fin_of_ne _ n2, Num.fin_div_fin_of_ne _ (div_ne_zero n3 n2)]
        congr 1
        field_simp
      · have : j + 1 = D - 1 := by omega
        rw [this, Num.one_def, Num.fin_div_fin_of_ne _ one_ne_zero, div_one]
    rw [this, Num.nanToNum_fin]
    unfold Num.numToValue
    simp only
    rw [if_neg (div_ne_zero n2 n1)]
  rw [Finset.prod_congr rfl hfac, Num.prod_fin, prod_ratio (D - 1) (by omega)
    (fun j h1 h2 => (hg' j h1 (by omega)).2), (hg' e le_rfl (by omega)).1,
    (hg' (D - 1) (by omega) (by omega)).1, Num.fin_mul_fin, mul_div_cancel₀ _ (hg' e le_rfl (by omega)).2]

/-- **C46** (consistency): an amount of the full triangle times its age-to-ultimate factor is the last
amount of the origin, from an age on after which no amount is missing or zero; `cdf_` is computed from
the fitted `ldf_`.  The age can be that of the latest diagonal.  Not covered: missing and zero amounts,
see `C46_ultimate_false`. -/
theorem C46_ultimate_partial {x f : Tri ℝ} {a : Int} {D : Nat} {pairs} (h : Square x a D pairs)
    (hf : Pattern x f D) (hfa : f.isAdditive = none) (hfv : f.isVal = false)
    (late : x.vd + (D * x.dgrain.months : Nat) ≤ ultVal) (sigma : Arr ℝ) (m : Interp) :
    ∃ r, fit x f sigma m pairs none = .ok r ∧ ∀ i < x.kdims.length, ∀ k < pairs.length, ∀ s, ∀ o < D, ∀ e,
      e + 1 < D → (∀ j, e ≤ j → j < D → ∃ v, v ≠ 0 ∧ r.amount i k s o j = .fin v) →
      r.amount i k s o e * r.ldf.incrToCum.values.get i (col x pairs k s) o e = r.amount i k s o (D - 1) := by
  obtain ⟨r, hr, -⟩ := fit_spec h hf sigma m none
  refine ⟨r, hr, fun i hi k hk s o ho e he hj => ?_⟩
  rw [cdf_eq h hf hfa hfv late hr hk s ho he]
  exact last_amount he hj

/-- **C46 is false of the consistency**: when at some age all origins have the same ratio of paid to
incurred, the last column of the full triangle is missing and all age-to-ultimate factors are 1, so that
the ultimate of every origin is its latest amount. -/
theorem C46_ultimate_false {x f : Tri ℝ} {a : Int} {D : Nat} {pairs} (h : Square x a D pairs)
    (hf : Pattern x f D) (hfa : f.isAdditive = none) (hfv : f.isVal = false)
    (late : x.vd + (D * x.dgrain.months : Nat) ≤ ultVal) (sigma : Arr ℝ) :
    ∃ r, fit x f sigma .logLinear pairs none = .ok r ∧ ∀ i < x.kdims.length, ∀ k < pairs.length, ∀ d,
      d + 1 < D → (∀ s, Proportional (Finset.range (D - d)) (fun o => x.values.get i (col x pairs k s) o d)
        (fun o => x.values.get i (col x pairs k (!s)) o d)) →
      ∀ s, ∀ o < D, r.amount i k s o (D - 1) = .nan ∧
        ∀ e, e + 1 < D → r.ldf.incrToCum.values.get i (col x pairs k s) o e = .fin 1 := by
  obtain ⟨r, hr, h1, -, -, -, h2, -⟩ := fit_spec h hf sigma .logLinear none
  refine ⟨r, hr, fun i hi k hk d hd hp s o ho => ?_⟩
  have hrho : ∀ s, (r.side i k s).rho d = .nan := by
    intro s
    rw [(h1 i k s).2.2.1]
    exact (rho_spec .logLinear (D := D) (x := x.values.get i (col x pairs k s))
      (y := x.values.get i (col x pairs k (!s))) (known_age h hi hk (d := d) (by omega) s)
      (by rw [Finset.card_range]; omega)).2 rfl (hp s)
  have hnan : r.amount i k s o (D - 1) = .nan := by
    have := full_rest (P := x.values.get i (col x pairs k false) o) (I := x.values.get i (col x pairs k true) o)
      (p := r.side i k false) (i := r.side i k true) (d := d + 1)
      (Prod.ext (full_nan (Or.inl (hrho false))) (full_nan' (Or.inl (hrho true)))) (D - 1) (by omega)
    unfold Fit.amount
    rw [h2, this]
    cases s <;> rfl
  refine ⟨hnan, fun e he => ?_⟩
  rw [cdf_eq h hf hfa hfv late hr hk s ho he]
  have : ∀ j ∈ Finset.Ico e (D - 1), ((ldf D (cdf D (r.amount i k s o)) j).nanToNum).numToValue 1 =
      .fin (1 : ℝ) := by
    intro j _
    unfold ldf cdf
    rw [hnan]
    simp [Num.numToValue, Num.one_def]
  rw [Finset.prod_congr rfl this, Num.prod_fin, Finset.prod_const_one]

/-- **C46** (no correlation): with correlation coefficients 0 the projection of every origin is the chain
ladder: the latest amount times the factors.  This is about the recursion; the fit never finds the
coefficient 0 (`C46_zero_false`). -/
theorem C46_zero_partial {P I : Nat → Num ℝ} {p i : Coef ℝ} {L : Nat} (D : Nat)
    (hP : ∀ j ≤ L, ∃ v, v ≠ 0 ∧ P j = .fin v) (hI : ∀ j ≤ L, ∃ v, v ≠ 0 ∧ I j = .fin v)
    (hP' : ∀ j, L < j → P j = .nan) (hI' : ∀ j, L < j → I j = .nan)
    (hp : ∀ j < D, p.Finite j ∧ p.ldf j ≠ .fin 0) (hi : ∀ j < D, i.Finite j ∧ i.ldf j ≠ .fin 0) (hL : L ≤ D)
    (p0 : p.lam = .fin 0) (i0 : i.lam = .fin 0) :
    ∀ j, L ≤ j → j ≤ D → full P I p i j =
      (.fin ((P L).amt * ∏ k ∈ Finset.Ico L j, (p.ldf k).amt),
        .fin ((I L).amt * ∏ k ∈ Finset.Ico L j, (i.ldf k).amt)) ∧
      (P L).amt * ∏ k ∈ Finset.Ico L j, (p.ldf k).amt ≠ 0 ∧
      (I L).amt * ∏ k ∈ Finset.Ico L j, (i.ldf k).amt ≠ 0 := by
  intro j hj
  obtain ⟨u, hu, eu⟩ := hP L le_rfl
  obtain ⟨v, hv, ev⟩ := hI L le_rfl
  induction j, hj using Nat.le_induction with
  | base =>
    intro _
    rw [full_known hP hI (fun j hj => (hp j (by omega)).1) (fun j hj => (hi j (by omega)).1) L le_rfl, eu, ev]
    simp [hu, hv]
  | succ j hj ih =>
    intro hjD
    obtain ⟨e, n1, n2⟩ := ih (by omega)
    obtain ⟨f1, g1⟩ := hp j (by omega)
    obtain ⟨f2, g2⟩ := hi j (by omega)
    obtain ⟨l1, e1⟩ := f1.ldf
    obtain ⟨l2, e2⟩ := f2.ldf
    have z1 : l1 ≠ 0 := fun h => g1 (by rw [e1, h])
    have z2 : l2 ≠ 0 := fun h => g2 (by rw [e2, h])
    rw [Finset.prod_Ico_succ_top hj, Finset.prod_Ico_succ_top hj, ← mul_assoc, ← mul_assoc]
    refine ⟨?_, mul_ne_zero n1 (by rw [e1]; exact z1), mul_ne_zero n2 (by rw [e2]; exact z2)⟩
    simp only [full, hP' (j + 1) (by omega), hI' (j + 1) (by omega), keep_nan, e]
    rw [project_zero f1 p0 n1, project_zero f2 i0 n2, e1, e2]
    simp only [Num.fin_mul_fin, Num.amt_fin]
    rw [mul_comm l1, mul_comm l2]

/-- **C46 is false of uncorrelated triangles**: when the products of the residuals add up to zero, the
correlation coefficient is not 0 but missing, and so is every amount after the first age. -/
theorem C46_zero_false {x f : Tri ℝ} {a : Int} {D : Nat} {pairs} (h : Square x a D pairs)
    (hf : Pattern x f D) (sigma : Arr ℝ) (m : Interp) :
    ∃ r, fit x f sigma m pairs none = .ok r ∧ ∀ i < x.kdims.length, ∀ k < pairs.length,
      (∀ s d, d + 1 < D → m = .mack ∨ ¬ Proportional (Finset.range (D - d))
        (fun o => x.values.get i (col x pairs k s) o d) (fun o => x.values.get i (col x pairs k (!s)) o d)) →
      (∀ s d, d + 1 < D → (∃ v, f.values.get i (col x pairs k s) 0 d = .fin v) ∧
        ∃ v, v ≠ 0 ∧ sigma.get i (col x pairs k s) 0 d = .fin v) →
      ∀ s, ∑ c ∈ (Table (D - 1)).filter (fun c => c.1 + c.2 + 1 < D ∧
          ageResid (x.values.get i (col x pairs k true)) (f.values.get i (col x pairs k true) 0)
            (sigma.get i (col x pairs k true) 0) c ≠ 0),
          ageResid (x.values.get i (col x pairs k s)) (f.values.get i (col x pairs k s) 0)
            (sigma.get i (col x pairs k s) 0) c *
          sideResid (x.values.get i (col x pairs k s)) (x.values.get i (col x pairs k (!s)))
            (r.side i k s).q (r.side i k s).rho c = 0 →
      (r.side i k s).lam = .nan ∧ ∀ o d, r.amount i k s o (d + 1) = .nan := by
  obtain ⟨r, hr, -, -, -, -, h2, -⟩ := fit_spec h hf sigma m none
  obtain ⟨r', hr', h3⟩ := C46_lambda_partial h hf sigma m
  rw [hr] at hr'
  injection hr' with hr'
  subst hr'
  refine ⟨r, hr, fun i hi k hk hm hv s hz => ?_⟩
  have hl := (h3 i hi k hk hm hv _ rfl s _ _ rfl rfl).2 hz
  refine ⟨hl, fun o d => ?_⟩
  unfold Fit.amount
  rw [h2]
  cases s with
  | false => exact full_nan (Or.inr hl)
  | true => exact full_nan' (Or.inr hl)

/-- **C46 is false of other shapes**: the fit raises when the last origin has more than one age. -/
theorem C46_shape_false {x f : Tri ℝ} {a : Int} {n D q : Nat} (h : Tri.Standard x a n D q) (hf : Pattern x f D)
    (h3 : 3 ≤ n) (hq : q * (n - 1) + 1 < D)
    (nz : ∀ i < x.kdims.length, ∀ c < x.vdims.length, ∀ o < n, ∀ d, q * o + d < D →
      ∃ v, v ≠ 0 ∧ x.values.get i c o d = .fin v) (sigma : Arr ℝ) (m : Interp)
    {pairs : List (String × String)} (some_pair : pairs ≠ [])
    (distinct : (pairs.flatMap fun p => [p.1, p.2]).Nodup)
    (names : ∀ p ∈ pairs, p.1 ∈ x.vdims ∧ p.2 ∈ x.vdims) :
    fit x f sigma m pairs none = .error .valueError := by
  have hD := h.two_ages
  have nz' : Tri.NoZeros x := by
    intro i hi c hc o ho d hd e
    rw [h.wf.1] at hi
    rw [h.wf.2.1] at hc
    rw [h.wf.2.2.1, h.lenO] at ho
    rw [h.wf.2.2.2, h.lenD] at hd
    rcases Nat.lt_or_ge (q * o + d) D with hod | hod
    · obtain ⟨v, hv, e'⟩ := nz i hi c hc o ho d hod
      rw [e] at e'
      injection e' with e'
      exact hv e'.symm
    · rw [h.known i hi c hc o ho d hd (by omega)] at e
      cases e
  have hlr2 : Tri.linkRows n D q = n := by
    unfold Tri.linkRows
    rw [if_pos hq]
  have hq1 : 1 < q * (n - 1) := lt_of_lt_of_le (by omega : 1 < 1 * (n - 1)) (Nat.mul_le_mul_right _ h.period)
  obtain ⟨lr, hlr, hg, -⟩ := h.linkGrid hq1 nz' (by rw [hlr2]; omega)
  rw [hlr2] at hg
  have f2 : f.values.d2 = 1 := by rw [hf.wf.2.2.1, hf.row]
  have f3 : f.values.d3 + 1 = x.values.d3 := by rw [hf.wf.2.2.2, hf.ages, h.wf.2.2.2, h.lenD]
  have f0 : f.values.d0 = x.values.d0 := by rw [hf.wf.1, hf.index, h.wf.1]
  have hnames : ∀ s ∈ pairs.flatMap fun p => [p.1, p.2], s ∈ x.vdims := by
    intro s hs
    obtain ⟨p, hp, hs⟩ := List.mem_flatMap.1 hs
    simp only [List.mem_cons, List.not_mem_nil, or_false] at hs
    rcases hs with rfl | rfl
    · exact (names p hp).1
    · exact (names p hp).2
  unfold fit
  dsimp only
  rw [if_neg some_pair]
  by_cases hp : prepare x none = .ok x
  · rw [hp]
    simp only [bind, Except.bind]
    rw [if_neg (by
      rw [not_or, not_not, not_not]
      exact ⟨distinct, f0, hf.columns, f2, f3⟩), if_neg (by rw [not_not]; exact hnames), hlr]
    dsimp only
    rw [if_pos]
    left
    rw [hg.wf.2.2.1, hg.lenO, h.wf.2.2.1, h.lenO]
    omega
  · unfold prepare at hp ⊢
    split_ifs at hp ⊢ with h1
    · rfl
    · exact absurd rfl hp

/-! ## Examples -/

namespace Ex

/-- Three years of paid and incurred amounts. -/
noncomputable def years (p q : Nat → Nat → ℝ) : Tri ℝ where
  kdims := [["All"]]
  keyLabels := ["Total"]
  vdims := ["paid", "incurred"]
  odims := [24240, 24252, 24264]
  ddims := [12, 24, 36]
  isVal := false
  ograin := .Y
  dgrain := .Y
  vd := 24275
  isCum := some true
  isPattern := false
  isAdditive := none
  values := ⟨1, 2, 3, 3, fun _ c o d => if o + d < 3 then .fin (if c = 0 then p o d else q o d) else .nan⟩

theorem square {p q : Nat → Nat → ℝ} (hp : ∀ o d, 0 < p o d) (hq : ∀ o d, 0 < q o d) :
    Square (years p q) 24240 3 [("paid", "incurred")] where
  wf := ⟨rfl, rfl, rfl, rfl⟩
  finite := by
    intro i hi c hc o ho d hd
    show (if o + d < 3 then (.fin (if c = 0 then p o d else q o d) : Num ℝ) else .nan).NoInf
    split_ifs
    · exact Num.noInf_fin _
    · exact Num.noInf_fin _
    · exact Num.noInf_nan
  isVal := rfl
  index_pos := le_rfl
  columns_pos := by show 1 ≤ 2; omega
  two_origins := by decide
  period := le_rfl
  recent := by decide
  odims := rfl
  ddims := rfl
  vd := rfl
  short := by show 3 * 12 < 9999; omega
  early := by show (24275 : Int) ≤ 12 * 2261 + 11; omega
  known := by
    intro i hi c hc o ho d hd h
    show (if o + d < 3 then (.fin (if c = 0 then p o d else q o d) : Num ℝ) else .nan) = .nan
    rw [if_neg (by omega)]
  cumulative := by show (some true : Option Bool) ≠ some false; decide
  noPattern := rfl
  multiplicative := rfl
  three := le_rfl
  nonzero := by
    intro i hi c hc o d h
    refine ⟨_, ?_, if_pos h⟩
    split_ifs
    · exact (hp o d).ne'
    · exact (hq o d).ne'
  some_pair := by simp
  distinct_names := by decide
  names := by
    intro x hx
    rw [List.mem_singleton] at hx
    subst hx
    show "paid" ∈ ["paid", "incurred"] ∧ "incurred" ∈ ["paid", "incurred"]
    decide
  leading := by
    intro x hx
    rw [List.mem_singleton] at hx
    subst hx
    show ["paid", "incurred"].idxOf "paid" < 2 ∧ ["paid", "incurred"].idxOf "incurred" < 2
    decide
  positive := by
    intro i hi x hx s hs o d h
    show 0 < (if o + d < 3 then (.fin _ : Num ℝ) else .nan).amt
    rw [if_pos h, Num.amt_fin]
    split_ifs
    · exact hp o d
    · exact hq o d

/-- Factors of the two columns. -/
noncomputable def factors (f g : Nat → ℝ) : Tri ℝ where
  kdims := [["All"]]
  keyLabels := ["Total"]
  vdims := ["paid", "incurred"]
  odims := [24240]
  ddims := [12, 24]
  isVal := false
  ograin := .Y
  dgrain := .Y
  vd := ultVal
  isCum := some false
  isPattern := true
  isAdditive := none
  values := ⟨1, 2, 1, 2, fun _ c _ d => .fin (if c = 0 then f d else g d)⟩

theorem pattern (p q : Nat → Nat → ℝ) (f g : Nat → ℝ) : Pattern (years p q) (factors f g) 3 :=
  ⟨⟨rfl, rfl, rfl, rfl⟩, rfl, rfl, rfl, rfl⟩

/-- Sigmas that are all 1. -/
noncomputable def ones : Arr ℝ := ⟨1, 2, 1, 2, fun _ _ _ _ => .fin 1⟩

/-- Paid amounts. -/
noncomputable def paid (o d : Nat) : ℝ := match o, d with
  | 0, 0 => 100 | 0, 1 => 150 | 0, _ => 170 | 1, 0 => 110 | 1, _ => 160 | _, _ => 120

/-- Incurred amounts. -/
noncomputable def incurred (o d : Nat) : ℝ := match o, d with
  | 0, 0 => 200 | 0, 1 => 220 | 0, _ => 200 | 1, 0 => 200 | 1, _ => 240 | _, _ => 200

theorem paid_pos (o d : Nat) : 0 < paid o d := by unfold paid; split <;> norm_num
theorem incurred_pos (o d : Nat) : 0 < incurred o d := by unfold incurred; split <;> norm_num

theorem known : Square (years paid incurred) 24240 3 [("paid", "incurred")] :=
  square paid_pos incurred_pos

/-- Twice the paid amounts. -/
theorem double : Square (years paid fun o d => 2 * paid o d) 24240 3 [("paid", "incurred")] :=
  square paid_pos fun o d => by have := paid_pos o d; positivity

/-- The factors of the example: those of incurred are the ratios between ages but at the first cell. -/
noncomputable def f : Nat → ℝ := fun d => if d = 0 then 16 / 11 else 17 / 15
noncomputable def g : Nat → ℝ := fun d => if d = 0 then 6 / 5 else 10 / 11

theorem cell (p q : Nat → Nat → ℝ) (i c o d : Nat) : (years p q).values.get i c o d =
    if o + d < 3 then .fin (if c = 0 then p o d else q o d) else .nan := rfl

theorem not_proportional (s : Bool) (d : Nat) (hd : d + 1 < 3) : ¬ Proportional (Finset.range (3 - d))
    (fun o => (years paid incurred).values.get 0 (col (years paid incurred) [("paid", "incurred")] 0 s) o d)
    (fun o => (years paid incurred).values.get 0 (col (years paid incurred) [("paid", "incurred")] 0 (!s)) o d) := by
  have c0 : col (years paid incurred) [("paid", "incurred")] 0 false = 0 := by decide
  have c1 : col (years paid incurred) [("paid", "incurred")] 0 true = 1 := by decide
  rintro ⟨c, hc⟩
  have h0 := hc 0 (Finset.mem_range.2 (by omega))
  have h1 := hc 1 (Finset.mem_range.2 (by omega))
  have : d = 0 ∨ d = 1 := by omega
  rcases this with rfl | rfl <;> cases s <;>
    simp only [Bool.not_true, Bool.not_false, c0, c1, cell, Num.amt_fin, paid, incurred] at h0 h1 <;>
    norm_num at h0 h1 <;> linarith

end Ex

/-- `C46_lambda_partial`, `C46_known_partial` and `C46_ultimate_partial` for a triangle: the coefficients
are numbers, the known amounts are kept, and they develop to the last one. -/
theorem Ex.fitted : ∃ r, fit (Ex.years Ex.paid Ex.incurred) (Ex.factors Ex.f Ex.g) Ex.ones .logLinear [("paid", "incurred")]
      none = .ok r ∧ (∀ s, ∃ v, (r.side 0 0 s).lam = .fin v) ∧ r.amount 0 0 false 0 1 = .fin 150 ∧
    r.amount 0 0 true 1 1 = .fin 240 ∧
    r.amount 0 0 true 0 0 * r.ldf.incrToCum.values.get 0 1 0 0 = .fin 200 := by
  have c0 : col (Ex.years Ex.paid Ex.incurred) [("paid", "incurred")] 0 false = 0 := by decide
  have c1 : col (Ex.years Ex.paid Ex.incurred) [("paid", "incurred")] 0 true = 1 := by decide
  obtain ⟨r, hr, h1⟩ := C46_lambda_partial Ex.known (Ex.pattern _ _ Ex.f Ex.g) Ex.ones .logLinear
  obtain ⟨r', hr', h2⟩ := C46_known_partial Ex.known (Ex.pattern _ _ Ex.f Ex.g) Ex.ones .logLinear
  rw [hr] at hr'
  injection hr' with hr'
  subst hr'
  obtain ⟨r', hr', h3⟩ := C46_ultimate_partial Ex.known (Ex.pattern _ _ Ex.f Ex.g) rfl rfl
    (by show (24275 : Int) + 36 ≤ 12 * 2261 + 11; omega) Ex.ones .logLinear
  rw [hr] at hr'
  injection hr' with hr'
  subst hr'
  obtain ⟨r', hr', h4, -⟩ := fit_spec Ex.known (Ex.pattern _ _ Ex.f Ex.g) Ex.ones .logLinear none
  rw [hr] at hr'
  injection hr' with hr'
  subst hr'
  obtain ⟨r', hr', h5⟩ := C46_ratio Ex.known (Ex.pattern _ _ Ex.f Ex.g) Ex.ones .logLinear
  rw [hr] at hr'
  injection hr' with hr'
  subst hr'
  have hk : 0 < [("paid", "incurred")].length := by decide
  have hv : ∀ s d, d + 1 < 3 → (∃ v, (Ex.factors Ex.f Ex.g).values.get 0
      (col (Ex.years Ex.paid Ex.incurred) [("paid", "incurred")] 0 s) 0 d = .fin v) ∧
      ∃ v, v ≠ 0 ∧ Ex.ones.get 0 (col (Ex.years Ex.paid Ex.incurred) [("paid", "incurred")] 0 s) 0 d = .fin v :=
    fun s d _ => ⟨⟨_, rfl⟩, ⟨1, one_ne_zero, rfl⟩⟩
  have hW : (Table (3 - 1)).filter (fun c => c.1 + c.2 + 1 < 3 ∧
      ageResid ((Ex.years Ex.paid Ex.incurred).values.get 0 1)
        ((Ex.factors Ex.f Ex.g).values.get 0 1 0) (Ex.ones.get 0 1 0) c ≠ 0) = {(0, 0)} := by
    ext ⟨o, d⟩
    simp only [Table, Finset.mem_filter, Finset.mem_product, Finset.mem_range, Finset.mem_singleton, Prod.mk.injEq]
    constructor
    · rintro ⟨⟨ho, hd⟩, hod, hne⟩
      have : (o = 0 ∧ d = 0) ∨ (o = 0 ∧ d = 1) ∨ (o = 1 ∧ d = 0) := by omega
      rcases this with h | ⟨rfl, rfl⟩ | ⟨rfl, rfl⟩
      · exact h
      · exfalso; apply hne
        simp [ageResid, Ex.cell, Ex.factors, Ex.g, Ex.incurred]
        left; norm_num
      · exfalso; apply hne
        simp [ageResid, Ex.cell, Ex.factors, Ex.g, Ex.incurred]
        left; norm_num
    · rintro ⟨rfl, rfl⟩
      refine ⟨⟨by omega, by omega⟩, by omega, ?_⟩
      simp [ageResid, Ex.cell, Ex.factors, Ex.ones, Ex.g, Ex.incurred]
      norm_num
  have hlam : ∀ s, ∃ v, (r.side 0 0 s).lam = .fin v := by
    intro s
    have := (h1 0 Nat.zero_lt_one 0 hk (fun s d hd => .inr (Ex.not_proportional s d hd)) hv _ rfl s _ _ rfl rfl).1
    rw [c1, hW] at this
    refine ⟨_, this ?_⟩
    rw [Finset.sum_singleton]
    obtain ⟨ρ, hρ, eρ⟩ : ∃ v, v ≠ 0 ∧ (r.side 0 0 s).rho 0 = .fin v := by
      rw [(h4 0 0 s).2.2.1]
      exact (rho_spec .logLinear (known_age Ex.known Nat.zero_lt_one hk (d := 0) (by omega) s)
        (by rw [Finset.card_range]; omega)).1 (.inr (Ex.not_proportional s 0 (by omega)))
    have hq := (h5 0 Nat.zero_lt_one 0 hk 0 (by omega) s).1
    simp only [ageResid, sideResid, eρ, hq]
    cases s <;> simp only [Bool.not_true, Bool.not_false, c0, c1]  <;>
      simp [Ex.cell, Ex.factors, Ex.ones, Ex.f, Ex.g, Ex.incurred, Ex.paid, Finset.sum_range_succ, hρ] <;>
      norm_num
  have hkn := h2 0 Nat.zero_lt_one 0 hk (fun d hd => .inr (Ex.not_proportional false d hd)) hlam
    (fun s d hd => ⟨(hv s d hd).1, 1, rfl⟩)
  refine ⟨r, hr, hlam, ?_, ?_, ?_⟩
  · rw [hkn false 0 1 (by omega), c0]; rfl
  · rw [hkn true 1 1 (by omega), c1]; rfl
  · have := h3 0 Nat.zero_lt_one 0 hk true 0 (by omega) 0 (by omega) (fun j _ hj => by
      rw [hkn true 0 j (by omega), c1]
      exact ⟨_, (Ex.incurred_pos 0 j).ne', if_pos (by omega)⟩)
    rw [c1, hkn true 0 (3 - 1) (by omega), c1] at this
    rw [this]; rfl

/-- `C46_known_false` and `C46_ultimate_false` when incurred is twice paid: the amounts known after two
years are not in the full triangle, and all factors to ultimate are 1. -/
example : ∃ r, fit (Ex.years Ex.paid fun o d => 2 * Ex.paid o d) (Ex.factors Ex.f Ex.g) Ex.ones .logLinear
      [("paid", "incurred")] none = .ok r ∧ r.amount 0 0 false 0 1 = .nan ∧
    (Ex.years Ex.paid fun o d => 2 * Ex.paid o d).values.get 0 0 0 1 = .fin 150 ∧
    r.ldf.incrToCum.values.get 0 0 2 0 = .fin 1 := by
  have c0 : col (Ex.years Ex.paid fun o d => 2 * Ex.paid o d) [("paid", "incurred")] 0 false = 0 := by decide
  have c1 : col (Ex.years Ex.paid fun o d => 2 * Ex.paid o d) [("paid", "incurred")] 0 true = 1 := by decide
  obtain ⟨r, hr, h1⟩ := C46_known_false Ex.double (Ex.pattern _ _ Ex.f Ex.g) Ex.ones
  obtain ⟨r', hr', h2⟩ := C46_ultimate_false Ex.double (Ex.pattern _ _ Ex.f Ex.g) rfl rfl
    (by show (24275 : Int) + 36 ≤ 12 * 2261 + 11; omega) Ex.ones
  rw [hr] at hr'
  injection hr' with hr'
  subst hr'
  have hk : 0 < [("paid", "incurred")].length := by decide
  have hp : ∀ s, Proportional (Finset.range (3 - 0))
      (fun o => (Ex.years Ex.paid fun o d => 2 * Ex.paid o d).values.get 0
        (col (Ex.years Ex.paid fun o d => 2 * Ex.paid o d) [("paid", "incurred")] 0 s) o 0)
      (fun o => (Ex.years Ex.paid fun o d => 2 * Ex.paid o d).values.get 0
        (col (Ex.years Ex.paid fun o d => 2 * Ex.paid o d) [("paid", "incurred")] 0 (!s)) o 0) := by
    intro s
    refine ⟨if s then 1 / 2 else 2, fun o ho => ?_⟩
    rw [Finset.mem_range] at ho
    have : o + 0 < 3 := by omega
    cases s <;> simp only [Bool.not_true, Bool.not_false, c0, c1, Ex.cell, if_pos this] <;> simp
  refine ⟨r, hr, (h1 0 Nat.zero_lt_one 0 hk false 0 (by omega) (hp false) 0 (by omega)).1, rfl, ?_⟩
  have := (h2 0 Nat.zero_lt_one 0 hk 0 (by omega) hp false 2 (by omega)).2 0 (by omega)
  rwa [c0] at this

namespace Ex

/-- Incurred amounts with the same ratios between ages in all origins. -/
noncomputable def steady (_ d : Nat) : ℝ := if d = 0 then 200 else 220

theorem steady_pos (o d : Nat) : 0 < steady o d := by unfold steady; split_ifs <;> norm_num

/-- Four ages of three origins. -/
noncomputable def long : Tri ℝ :=
  { years paid incurred with
    ddims := [12, 24, 36, 48]
    vd := 24287
    values := ⟨1, 2, 3, 4, fun _ _ o d => if o + d < 4 then .fin (d + 1) else .nan⟩ }

theorem long_standard : long.Standard 24240 3 4 1 where
  wf := ⟨rfl, rfl, rfl, rfl⟩
  finite := by
    intro i hi c hc o ho d hd
    show (if o + d < 4 then (.fin ((d : ℝ) + 1) : Num ℝ) else .nan).NoInf
    split_ifs
    · exact Num.noInf_fin _
    · exact Num.noInf_nan
  isVal := rfl
  index_pos := le_rfl
  columns_pos := by show 1 ≤ 2; omega
  two_origins := by decide
  period := le_rfl
  recent := by decide
  odims := rfl
  ddims := rfl
  vd := rfl
  short := by show 4 * 12 < 9999; omega
  early := by show (24287 : Int) ≤ 12 * 2261 + 11; omega
  known := by
    intro i hi c hc o ho d hd h
    show (if o + d < 4 then (.fin ((d : ℝ) + 1) : Num ℝ) else .nan) = .nan
    rw [if_neg (by omega)]
  cumulative := by show (some true : Option Bool) ≠ some false; decide
  noPattern := rfl
  multiplicative := rfl

/-- Factors of four ages. -/
noncomputable def longer : Tri ℝ :=
  { factors f g with
    ddims := [12, 24, 36]
    values := ⟨1, 2, 1, 3, fun _ _ _ _ => .fin 2⟩ }

theorem longer_pattern : Pattern long longer 4 := ⟨⟨rfl, rfl, rfl, rfl⟩, rfl, rfl, rfl, rfl⟩

end Ex

/-- `C46_zero_false` for incurred amounts whose ratios between ages do not vary. -/
example : ∃ r, fit (Ex.years Ex.paid Ex.steady) (Ex.factors Ex.f fun d => if d = 0 then 11 / 10 else 1) Ex.ones .mack
      [("paid", "incurred")] none = .ok r ∧ (r.side 0 0 false).lam = .nan ∧ r.amount 0 0 false 0 1 = .nan := by
  obtain ⟨r, hr, h⟩ := C46_zero_false (Ex.square Ex.paid_pos Ex.steady_pos)
    (Ex.pattern _ _ Ex.f fun d => if d = 0 then 11 / 10 else 1) Ex.ones .mack
  have c1 : col (Ex.years Ex.paid Ex.steady) [("paid", "incurred")] 0 true = 1 := by decide
  have := h 0 Nat.zero_lt_one 0 (by decide) (fun _ _ _ => .inl rfl)
    (fun s d _ => ⟨⟨_, rfl⟩, ⟨1, one_ne_zero, rfl⟩⟩) false (by
      rw [c1]
      refine Finset.sum_eq_zero fun c hc => ?_
      rw [Finset.mem_filter] at hc
      obtain ⟨-, hod, hne⟩ := hc
      refine absurd ?_ hne
      unfold ageResid
      have e : (Ex.years Ex.paid Ex.steady).values.get 0 1 c.1 c.2 = .fin (Ex.steady c.1 c.2) := if_pos (by omega)
      have e' : (Ex.years Ex.paid Ex.steady).values.get 0 1 c.1 (c.2 + 1) = .fin (Ex.steady c.1 (c.2 + 1)) :=
        if_pos (by omega)
      rw [e, e', Num.amt_fin, Num.amt_fin]
      by_cases hd : c.2 = 0
      · simp [Ex.factors, Ex.steady, hd]; left; norm_num
      · simp [Ex.factors, Ex.steady, hd])
  exact ⟨r, hr, this.1, this.2 0 0⟩

/-- `C46_zero_partial`: an origin with one known age. -/
example : full (K := ℝ) (fun j => if j = 0 then .fin 100 else .nan) (fun j => if j = 0 then .fin 200 else .nan)
    ⟨fun _ => .fin 2, fun _ => .fin 1, fun _ => .fin 1, fun _ => .fin 2, .fin 0⟩
    ⟨fun _ => .fin 3, fun _ => .fin 1, fun _ => .fin 1, fun _ => .fin (1 / 2), .fin 0⟩ 2 = (.fin 400, .fin 1800) := by
  have := (C46_zero_partial (L := 0) (P := fun j => if j = 0 then .fin 100 else .nan)
    (I := fun j => if j = 0 then .fin 200 else .nan)
    (p := ⟨fun _ => .fin 2, fun _ => .fin 1, fun _ => .fin 1, fun _ => .fin 2, .fin 0⟩)
    (i := ⟨fun _ => .fin 3, fun _ => .fin 1, fun _ => .fin 1, fun _ => .fin (1 / 2), .fin 0⟩) 2
    (fun j hj => ⟨100, by norm_num, if_pos (by omega)⟩) (fun j hj => ⟨200, by norm_num, if_pos (by omega)⟩)
    (fun j hj => if_neg (by omega)) (fun j hj => if_neg (by omega))
    (fun j _ => ⟨⟨⟨_, rfl⟩, ⟨_, rfl⟩, ⟨1, one_ne_zero, rfl⟩, ⟨_, rfl⟩, ⟨_, rfl⟩⟩, by simp⟩)
    (fun j _ => ⟨⟨⟨_, rfl⟩, ⟨_, rfl⟩, ⟨1, one_ne_zero, rfl⟩, ⟨_, rfl⟩, ⟨_, rfl⟩⟩, by simp⟩)
    (by omega) rfl rfl 2 (by omega) le_rfl).1
  rw [this]
  simp
  norm_num

/-- `C46_shape_false` for three origins of four ages. -/
example : fit Ex.long Ex.longer Ex.ones .logLinear [("paid", "incurred")] none = .error .valueError :=
  C46_shape_false Ex.long_standard Ex.longer_pattern le_rfl (by omega)
    (fun i hi c hc o ho d hd => ⟨(d : ℝ) + 1, by positivity, if_pos (by omega)⟩) _ _
    (List.cons_ne_nil _ _) (by decide) (fun p hp => by
      rw [List.mem_singleton] at hp
      subst hp
      show "paid" ∈ ["paid", "incurred"] ∧ "incurred" ∈ ["paid", "incurred"]
      decide)

/-- A gap: a missing or zero amount at a date that has passed. -/
def Gap (x : Tri ℝ) (i c o d : Nat) : Prop :=
  (x.values.get i c o d = .nan ∨ x.values.get i c o d = .fin 0) ∧ x.valuation o d ≤ x.vd

theorem maxFloat_pos : (0 : ℝ) < Num.maxFloat := by
  unfold Num.maxFloat
  have : (2 : ℝ) ^ 971 < 2 ^ 1024 := pow_lt_pow_right₀ (by norm_num) (by norm_num)
  exact sub_pos.2 this

theorem missing_iff {x : Tri ℝ} (hm : min x.values.d2 x.values.d3 ≠ 1) (i c o d : Nat) :
    missing x i c o d = true ↔ Gap x i c o d := by
  unfold missing Gap Tri.nanTri
  rw [if_neg hm]
  have hp := maxFloat_pos
  by_cases hv : x.valuation o d > x.vd
  · rw [if_pos hv]
    constructor
    · intro h
      rw [Num.mul_nan] at h
      simp [Num.eqb] at h
    · rintro ⟨-, h⟩
      omega
  · rw [if_neg hv, mul_one]
    cases x.values.get i c o d with
    | nan => simp [Num.nanToNum, Num.eqb]; omega
    | pinf => simp [Num.nanToNum, Num.eqb, hp.ne']
    | ninf => simp [Num.nanToNum, Num.eqb, hp.ne']
    | fin v =>
      simp only [Num.nanToNum, Num.eqb, Num.zero_def, decide_eq_true_eq, Num.fin.injEq, reduceCtorEq, false_or]
      constructor
      · intro h; exact ⟨h, by omega⟩
      · intro h; exact h.1

open Classical in
/-- **C46** (`fillna=True`): the estimator is that of the triangle in which every gap has the amount of the
given array, and without `fillna` a gap raises. -/
theorem C46_gaps {x y f : Tri ℝ} {a : Int} {D : Nat} {pairs} (h : Square y a D pairs) (b : Arr ℝ)
    (hxy : y = { x with values := y.values }) (h0 : y.values.d0 = x.values.d0) (h1 : y.values.d1 = x.values.d1)
    (h2 : y.values.d2 = x.values.d2) (h3 : y.values.d3 = x.values.d3)
    (hg : ∀ i c o d, y.values.get i c o d = if Gap x i c o d then b.get i c o d else x.values.get i c o d)
    (sigma : Arr ℝ) (m : Interp)
    (hgap : ∃ i < x.values.d0, ∃ c < x.values.d1, ∃ o < x.values.d2, ∃ d < x.values.d3, Gap x i c o d) :
    fit x f sigma m pairs (some b) = fit y f sigma m pairs none ∧
      fit x f sigma m pairs none = .error .valueError := by
  have hm : min x.values.d2 x.values.d3 ≠ 1 := by
    have := h.three
    rw [← h2, ← h3, h.wf.2.2.1, h.lenO, h.wf.2.2.2, h.lenD, min_self]
    omega
  have hex : ∃ i < x.values.d0, ∃ c < x.values.d1, ∃ o < x.values.d2, ∃ d < x.values.d3,
      missing x i c o d = true := by
    obtain ⟨i, hi, c, hc, o, ho, d, hd, hh⟩ := hgap
    exact ⟨i, hi, c, hc, o, ho, d, hd, (missing_iff hm i c o d).2 hh⟩
  have hy : prepare x (some b) = prepare y none := by
    rw [prepare_ok h]
    unfold prepare
    have key : ∀ i c o d, y.values.get i c o d =
        if missing x i c o d then b.get i c o d else x.values.get i c o d := by
      intro i c o d
      rw [hg]
      by_cases hgap : Gap x i c o d
      · rw [if_pos hgap, if_pos ((missing_iff hm i c o d).2 hgap)]
      · rw [if_neg hgap, if_neg fun hh => hgap ((missing_iff hm i c o d).1 hh)]
    rw [if_pos hex]
    simp only
    conv_rhs => rw [hxy]
    · have : (y.values : Arr ℝ) = { x.values with
          get := fun i c o d => if missing x i c o d then b.get i c o d else x.values.get i c o d } := by
        cases hv : y.values with
        | mk e0 e1 e2 e3 g =>
          rw [hv] at h0 h1 h2 h3 key
          simp only at h0 h1 h2 h3 key
          subst h0 h1 h2 h3
          congr 1
          funext i c o d
          exact key i c o d
      rw [← this]
  refine ⟨?_, ?_⟩
  · unfold fit
    dsimp only
    rw [hy]
  · unfold fit
    dsimp only
    rw [if_neg h.some_pair]
    have : prepare x none = .error .valueError := by
      unfold prepare
      rw [if_pos hex]
    rw [this]
    rfl

/-- **C46**: a pair with an unknown column raises. -/
theorem C46_unknown {x f : Tri ℝ} {a : Int} {D : Nat} {pairs pairs'} (h : Square x a D pairs)
    (hf : Pattern x f D) (sigma : Arr ℝ) (m : Interp) (fill : Option (Arr ℝ))
    (hn : (pairs'.flatMap fun p => [p.1, p.2]).Nodup) (p : String × String) (hp : p ∈ pairs')
    (hu : p.1 ∉ x.vdims ∨ p.2 ∉ x.vdims) : fit x f sigma m pairs' fill = .error .valueError := by
  have f2 : f.values.d2 = 1 := by rw [hf.wf.2.2.1, hf.row]
  have f3 : f.values.d3 + 1 = x.values.d3 := by rw [hf.wf.2.2.2, hf.ages, h.wf.2.2.2, h.lenD]
  have f0 : f.values.d0 = x.values.d0 := by rw [hf.wf.1, hf.index, h.wf.1]
  unfold fit
  dsimp only
  rw [if_neg (by rintro rfl; cases hp), prepare_ok h]
  simp only [bind, Except.bind]
  rw [if_neg (by
    rw [not_or, not_not, not_not]
    exact ⟨hn, f0, hf.columns, f2, f3⟩), if_pos]
  intro hall
  rcases hu with hu | hu
  · exact hu (hall _ (List.mem_flatMap.2 ⟨p, hp, by simp⟩))
  · exact hu (hall _ (List.mem_flatMap.2 ⟨p, hp, by simp⟩))

/-- **C46 is false of the other columns**: when a paired column comes after a column in no pair, the fit
raises a `KeyError`. -/
theorem C46_columns_false {x f : Tri ℝ} {a : Int} {D : Nat} {pairs pairs'} (h : Square x a D pairs)
    (hf : Pattern x f D) (sigma : Arr ℝ) (m : Interp) (fill : Option (Arr ℝ))
    (hn : (pairs'.flatMap fun p => [p.1, p.2]).Nodup) (hk : ∀ p ∈ pairs', p.1 ∈ x.vdims ∧ p.2 ∈ x.vdims)
    (p : String × String) (hp : p ∈ pairs') (c : Nat) (hc : c < 2 * pairs'.length)
    (hu : ∀ q ∈ pairs', x.vdims.idxOf q.1 ≠ c ∧ x.vdims.idxOf q.2 ≠ c) :
    fit x f sigma m pairs' fill = .error .keyError := by
  have hD := h.three
  have nz : Tri.NoZeros x := by
    intro i hi c hc o ho d hd e
    rw [h.wf.1] at hi
    rw [h.wf.2.1] at hc
    rw [h.wf.2.2.1, h.lenO] at ho
    rw [h.wf.2.2.2, h.lenD] at hd
    rcases Nat.lt_or_ge (o + d) D with hod | hod
    · obtain ⟨v, hv, e'⟩ := h.nonzero i hi c hc o d hod
      rw [e] at e'
      injection e' with e'
      exact hv e'.symm
    · rw [h.known i hi c hc o ho d hd (by omega)] at e
      cases e
  have hlr2 : Tri.linkRows D D 1 = D - 1 := by
    unfold Tri.linkRows
    rw [if_neg (by omega)]
  obtain ⟨lr, hlr, hg, -⟩ := h.toStandard.linkGrid (by omega) nz (by rw [hlr2]; omega)
  rw [hlr2] at hg
  obtain ⟨g, hnans, -⟩ := nans_ok h
  have l2 : lr.values.d2 + 1 = x.values.d2 := by
    rw [hg.wf.2.2.1, hg.lenO, h.wf.2.2.1, h.lenO]; omega
  have l3 : lr.values.d3 + 1 = x.values.d3 := by
    rw [hg.wf.2.2.2, hg.lenD, h.wf.2.2.2, h.lenD]; omega
  have f2 : f.values.d2 = 1 := by rw [hf.wf.2.2.1, hf.row]
  have f3 : f.values.d3 + 1 = x.values.d3 := by rw [hf.wf.2.2.2, hf.ages, h.wf.2.2.2, h.lenD]
  have f0 : f.values.d0 = x.values.d0 := by rw [hf.wf.1, hf.index, h.wf.1]
  have hmem : ∀ s ∈ pairs'.flatMap fun p => [p.1, p.2], s ∈ x.vdims ∧ x.vdims.idxOf s ≠ c := by
    intro s hs
    obtain ⟨p, hp, hs⟩ := List.mem_flatMap.1 hs
    simp only [List.mem_cons, List.not_mem_nil, or_false] at hs
    rcases hs with rfl | rfl
    · exact ⟨(hk p hp).1, (hu p hp).1⟩
    · exact ⟨(hk p hp).2, (hu p hp).2⟩
  unfold fit
  dsimp only
  rw [if_neg (by rintro rfl; cases hp), prepare_ok h]
  simp only [bind, Except.bind]
  rw [if_neg (by
    rw [not_or, not_not, not_not]
    exact ⟨hn, f0, hf.columns, f2, f3⟩), if_neg (by rw [not_not]; exact fun s hs => (hmem s hs).1), hlr]
  dsimp only
  rw [if_neg (by omega), if_neg (by omega), hnans]
  dsimp only
  rw [if_pos]
  intro hall
  set l := pairs'.flatMap fun p => [p.1, p.2] with hl
  have hlen : l.length = 2 * pairs'.length := names_length pairs'
  have hinj : Set.InjOn (fun s => x.vdims.idxOf s) (↑l.toFinset : Set String) := by
    intro s hs t ht e
    exact (List.idxOf_inj (hmem s (by simpa using hs)).1).1 e
  have hcard := Finset.card_image_of_injOn hinj
  rw [List.toFinset_card_of_nodup hn] at hcard
  have hsub : l.toFinset.image (fun s => x.vdims.idxOf s) ⊆ (Finset.range l.length).erase c := by
    intro j hj
    obtain ⟨s, hs, rfl⟩ := Finset.mem_image.1 hj
    rw [List.mem_toFinset] at hs
    exact Finset.mem_erase.2 ⟨(hmem s hs).2, Finset.mem_range.2 (hall s hs)⟩
  have := Finset.card_le_card hsub
  rw [hcard, Finset.card_erase_of_mem (Finset.mem_range.2 (by omega)), Finset.card_range] at this
  omega

/-- **C46**: a column in no pair keeps its age-to-age factors, for every origin, if they are numbers other
than zero. -/
theorem C46_others_partial {x f : Tri ℝ} {a : Int} {D : Nat} {pairs} (h : Square x a D pairs)
    (hf : Pattern x f D) (hfa : f.isAdditive = none) (hfp : f.isPattern = true) (hfc : f.isCum = some false)
    (sigma : Arr ℝ) (m : Interp) :
    ∃ r, fit x f sigma m pairs none = .ok r ∧ ∀ c < x.vdims.length,
      (∀ p ∈ pairs, x.vdims.getD c "" ≠ p.1 ∧ x.vdims.getD c "" ≠ p.2) → ∀ i,
      (∀ d, d + 1 < D → ∃ v, v ≠ 0 ∧ f.values.get i c 0 d = .fin v) →
      ∀ o d, d + 1 < D → r.ldf.values.get i c o d = f.values.get i c 0 d := by
  obtain ⟨r, hr, -, -, -, -, -, v1, -⟩ := fit_spec h hf sigma m none
  refine ⟨r, hr, fun c _ hc i hv o d hd => ?_⟩
  have hD := h.three
  have f2 : f.values.d2 = 1 := by rw [hf.wf.2.2.1, hf.row]
  have f3 : f.values.d3 = D - 1 := by rw [hf.wf.2.2.2]; have := hf.ages; omega
  have hcol : column pairs r.full (x.vdims.getD c "") = none := by
    unfold column
    have e1 : (pairs.findIdx? fun p => decide (p.1 = x.vdims.getD c "")) = none := by
      rw [List.findIdx?_eq_none_iff]
      intro p hp
      simpa using fun e => (hc p hp).1 e.symm
    have e2 : (pairs.findIdx? fun p => decide (p.2 = x.vdims.getD c "")) = none := by
      rw [List.findIdx?_eq_none_iff]
      intro p hp
      simpa using fun e => (hc p hp).2 e.symm
    rw [e1, e2]
  choose! g hg hg' using hv
  have hcdf : ∀ d, d + 1 < D → f.incrToCum.values.get i c 0 d = .fin (∏ j ∈ Finset.Ico d (D - 1), g j) := by
    intro d hd
    have hn : f.nanTri 0 d = 1 := by
      unfold Tri.nanTri
      rw [f2, if_pos (by rw [f3]; omega)]
    have hinc : f.incrToCum = { f with values := f.cumProdVals, isCum := some true } := by
      unfold Tri.incrToCum
      rw [if_neg (by rw [hfc]; decide)]
      simp only [hfp, if_true, hfa]
    rw [hinc]
    show (∏ j ∈ Finset.Ico d f.values.d3, ((f.values.get i c 0 j).nanToNum).numToValue 1) * f.nanTri 0 d = _
    rw [hn, mul_one, f3, ← Num.prod_fin]
    refine Finset.prod_congr rfl fun j hj => ?_
    have hj := Finset.mem_Ico.1 hj
    rw [hg' j (by omega)]
    simp [Num.nanToNum, Num.numToValue, hg j (by omega)]
  rw [v1]
  simp only [cdfValues, hcol]
  unfold ldf
  have hne : ∀ d, d + 1 < D → ∏ j ∈ Finset.Ico d (D - 1), g j ≠ 0 := fun d hd =>
    Finset.prod_ne_zero_iff.2 fun j hj => hg j (by have := Finset.mem_Ico.1 hj; omega)
  beta_reduce
  rw [hcdf d hd, hg' d hd]
  split_ifs with hlast
  · rw [hcdf (d + 1) (by omega), Num.fin_div_fin_of_ne _ (hne (d + 1) (by omega)),
      Finset.prod_eq_prod_Ico_succ_bot (by omega), mul_div_cancel_right₀ _ (hne (d + 1) (by omega))]
  · have : d + 1 = D - 1 := by omega
    rw [Num.one_def, Num.fin_div_fin_of_ne _ one_ne_zero, div_one,
      Finset.prod_eq_prod_Ico_succ_bot (by omega), this, Finset.Ico_self, Finset.prod_empty, mul_one]

namespace Ex

/-- Years with a third column. -/
noncomputable def wide : Tri ℝ :=
  { years paid incurred with
    vdims := ["paid", "incurred", "count"]
    values := ⟨1, 3, 3, 3, fun _ c o d =>
      if o + d < 3 then .fin (if c = 0 then paid o d else if c = 1 then incurred o d else 7) else .nan⟩ }

theorem wide_square : Square wide 24240 3 [("paid", "incurred")] where
  wf := ⟨rfl, rfl, rfl, rfl⟩
  finite := by
    intro i hi c hc o ho d hd
    show (if o + d < 3 then (.fin _ : Num ℝ) else .nan).NoInf
    split
    · exact Num.noInf_fin _
    · exact Num.noInf_nan
  isVal := rfl
  index_pos := le_rfl
  columns_pos := by show 1 ≤ 3; omega
  two_origins := by decide
  period := le_rfl
  recent := by decide
  odims := rfl
  ddims := rfl
  vd := rfl
  short := by show 3 * 12 < 9999; omega
  early := by show (24275 : Int) ≤ 12 * 2261 + 11; omega
  known := by
    intro i hi c hc o ho d hd h
    show (if o + d < 3 then (.fin _ : Num ℝ) else .nan) = .nan
    rw [if_neg (by omega)]
  cumulative := by show (some true : Option Bool) ≠ some false; decide
  noPattern := rfl
  multiplicative := rfl
  three := le_rfl
  nonzero := by
    intro i hi c hc o d h
    refine ⟨_, ?_, if_pos h⟩
    split_ifs
    · exact (paid_pos o d).ne'
    · exact (incurred_pos o d).ne'
    · norm_num
  some_pair := by simp
  distinct_names := by decide
  names := by
    intro x hx
    rw [List.mem_singleton] at hx
    subst hx
    show "paid" ∈ ["paid", "incurred", "count"] ∧ "incurred" ∈ ["paid", "incurred", "count"]
    decide
  leading := by
    intro x hx
    rw [List.mem_singleton] at hx
    subst hx
    show ["paid", "incurred", "count"].idxOf "paid" < 2 ∧ ["paid", "incurred", "count"].idxOf "incurred" < 2
    decide
  positive := by
    intro i hi x hx s hs o d h
    show 0 < (if o + d < 3 then (.fin _ : Num ℝ) else .nan).amt
    rw [if_pos h, Num.amt_fin]
    split_ifs
    · exact paid_pos o d
    · exact incurred_pos o d
    · norm_num

/-- Factors of three columns. -/
noncomputable def wider : Tri ℝ :=
  { factors f g with
    vdims := ["paid", "incurred", "count"]
    values := ⟨1, 3, 1, 2, fun _ _ _ _ => .fin 2⟩ }

end Ex

/-- `C46_others_partial`: the factors of a third column. -/
example : ∃ r, fit Ex.wide Ex.wider Ex.ones .mack [("paid", "incurred")] none = .ok r ∧
    r.ldf.values.get 0 2 1 0 = .fin 2 := by
  obtain ⟨r, hr, h⟩ := C46_others_partial Ex.wide_square (f := Ex.wider) ⟨⟨rfl, rfl, rfl, rfl⟩, rfl, rfl, rfl, rfl⟩
    rfl rfl rfl Ex.ones .mack
  refine ⟨r, hr, h 2 (by decide) ?_ 0 (fun d _ => ⟨2, two_ne_zero, rfl⟩) 1 0 (by omega)⟩
  intro p hp
  rw [List.mem_singleton] at hp
  subst hp
  show "count" ≠ "paid" ∧ "count" ≠ "incurred"
  decide

/-- `C46_unknown`. -/
example : fit Ex.wide Ex.wider Ex.ones .mack [("paid", "reported")] none = .error .valueError :=
  C46_unknown Ex.wide_square (f := Ex.wider) ⟨⟨rfl, rfl, rfl, rfl⟩, rfl, rfl, rfl, rfl⟩ _ _ _ (by decide)
    ("paid", "reported") (by simp) (.inr (by
      show "reported" ∉ ["paid", "incurred", "count"]
      decide))

/-- `C46_columns_false`: the pair of the second and the third column. -/
example : fit Ex.wide Ex.wider Ex.ones .mack [("incurred", "count")] none = .error .keyError :=
  C46_columns_false Ex.wide_square (f := Ex.wider) ⟨⟨rfl, rfl, rfl, rfl⟩, rfl, rfl, rfl, rfl⟩ _ _ _ (by decide)
    (by
      intro p hp
      rw [List.mem_singleton] at hp
      subst hp
      show "incurred" ∈ ["paid", "incurred", "count"] ∧ "count" ∈ ["paid", "incurred", "count"]
      decide) ("incurred", "count") (by simp) 0 (by simp) (by
      intro p hp
      rw [List.mem_singleton] at hp
      subst hp
      show ["paid", "incurred", "count"].idxOf "incurred" ≠ 0 ∧ ["paid", "incurred", "count"].idxOf "count" ≠ 0
      decide)

namespace Ex

/-- `wide` without the paid amount of the first origin at 24 months. -/
noncomputable def holed : Tri ℝ :=
  { wide with
    values := { wide.values with
      get := fun i c o d => if c = 0 ∧ o = 0 ∧ d = 1 then .nan else wide.values.get i c o d } }

theorem holed_gap (i : Nat) : Gap holed i 0 0 1 :=
  ⟨.inl (by
    show (if (0 : Nat) = 0 ∧ (0 : Nat) = 0 ∧ (1 : Nat) = 1 then (.nan : Num ℝ) else wide.values.get i 0 0 1) = _
    rw [if_pos ⟨rfl, rfl, rfl⟩]), by
    show Tri.valuationOf false [24240, 24252, 24264] [12, 24, 36] 24275 0 1 ≤ 24275
    decide⟩

end Ex

/-- `C46_gaps`. -/
example : fit Ex.holed Ex.wider Ex.ones .mack [("paid", "incurred")] (some Ex.wide.values) =
      fit Ex.wide Ex.wider Ex.ones .mack [("paid", "incurred")] none ∧
    fit Ex.holed Ex.wider Ex.ones .mack [("paid", "incurred")] none = .error .valueError := by
  refine C46_gaps (x := Ex.holed) (y := Ex.wide) Ex.wide_square Ex.wide.values rfl rfl rfl rfl rfl ?_ _ _
    ⟨0, Nat.zero_lt_one, 0, show 0 < 3 by omega, 0, show 0 < 3 by omega, 1, show 1 < 3 by omega, Ex.holed_gap 0⟩
  intro i c o d
  split_ifs with h
  · rfl
  · show _ = if c = 0 ∧ o = 0 ∧ d = 1 then .nan else Ex.wide.values.get i c o d
    split_ifs with h'
    · obtain ⟨rfl, rfl, rfl⟩ := h'
      exact absurd (Ex.holed_gap i) h
    · rfl

end Munich
end CL
