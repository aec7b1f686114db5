import Verif.Props.C15
import Verif.Lemmas.Convert

set_option linter.unusedSectionVars false

/-! # C06: link ratios -/

namespace CL
namespace Tri
variable {K : Type} [Field K] [LinearOrder K] [IsStrictOrderedRing K]

/-- The link ratio from a cell `x` to the next cell `y` of the origin. -/
def ratio (x y : Num K) : Num K :=
  if x.amt ≠ 0 ∧ y.amt ≠ 0 then .fin (y.amt / x.amt) else .nan

/-- No cell holds the number zero (the library stores zeros as missing). -/
def NoZeros (t : Tri K) : Prop :=
  ∀ i < t.values.d0, ∀ c < t.values.d1, ∀ o < t.values.d2, ∀ d < t.values.d3,
    t.values.get i c o d ≠ .fin 0

/-- Valuations increase along the development axis. -/
def DevStrict (t : Tri K) : Prop :=
  ∀ o < t.odims.length, ∀ d, d + 1 < t.ddims.length → t.valuation o d < t.valuation o (d + 1)

theorem ratio_cell {x y : Num K} (hx : x.NoInf) (hy : y.NoInf) (h0 : x ≠ .fin 0) :
    (((1 / x : Num K).numToNan) * y).numToNan = ratio x y := by
  rcases Num.noInf_cases hx with rfl | ⟨a, rfl⟩
  · simp [ratio]
  · have ha : a ≠ 0 := fun h => h0 (by rw [h])
    rcases Num.noInf_cases hy with rfl | ⟨b, rfl⟩
    · simp [ratio]
    · rw [Num.one_def, Num.fin_div_fin_of_ne _ ha, Num.numToNan_fin_of_ne (by
        rw [one_div]; exact inv_ne_zero ha), Num.fin_mul_fin]
      unfold ratio
      by_cases hb : b = 0
      · simp [hb]
      · rw [if_pos ⟨ha, hb⟩, Num.numToNan_fin_of_ne (by
          rw [one_div]; exact mul_ne_zero (inv_ne_zero ha) hb)]
        congr 1
        simp only [Num.amt_fin]
        field_simp

/-- `u` holds the link ratios of `t`: `rows`, `cols` are positions of origins and current ages. -/
structure LinkOf (t u : Tri K) (rows cols : List Nat) : Prop where
  rows_inc : rows.Pairwise (· < ·)
  cols_inc : cols.Pairwise (· < ·)
  row_lt : ∀ o ∈ rows, o < t.odims.length
  col_lt : ∀ d ∈ cols, d + 1 < t.ddims.length
  /-- every available link ratio is included -/
  all : ∀ i < t.values.d0, ∀ c < t.values.d1, ∀ o < t.odims.length, ∀ d, d + 1 < t.ddims.length →
    (t.values.get i c o d).amt ≠ 0 → (t.values.get i c o (d + 1)).amt ≠ 0 → o ∈ rows ∧ d ∈ cols
  wf : WF u
  index : u.kdims = t.kdims
  columns : u.vdims = t.vdims
  origins : At t.odims u.odims rows
  developments : At t.ddims u.ddims cols
  pattern : u.isPattern = true ∧ u.isCum = some false
  cells : ∀ i c o d, i < t.values.d0 → c < t.values.d1 → (ho : o < rows.length) →
    (hd : d < cols.length) → u.values.get i c o d =
      ratio (t.values.get i c rows[o] cols[d]) (t.values.get i c rows[o] (cols[d] + 1))

theorem pick_upto {t : Tri K} (wf : WF t) (ord : Ordered t) (dated : Dated t)
    (hd : 2 ≤ t.ddims.length) :
    ∃ v, t.ilocD (.upto (-1)) = .ok (t.picked (List.range t.values.d0) (List.range t.values.d1)
        (List.range t.values.d2) (List.range (t.values.d3 - 1)) v) ∧
      (t.isVal = false → ∀ o ∈ t.odims, o ≤ v) ∧ v ≤ t.vd ∧
      (v = t.vd ∨ ∀ o < t.odims.length, ∀ d < t.ddims.length - 1, t.valuation o d ≤ v) := by
  obtain ⟨w0, w1, w2, w3⟩ := wf
  have e := t.ilocD_upto_neg 1 (by omega) (by omega)
  have hne : List.range (t.values.d3 - 1) ≠ [] := by
    apply List.ne_nil_of_mem (a := 0); rw [List.mem_range]; omega
  have hpd : List.range (t.values.d3 - 1) = (List.range (t.values.d3 - 1)).map (· + 0) := by simp
  obtain ⟨v, h1, h2, h3, h4⟩ := pick_contig ord dated (List.range t.values.d0)
    (List.range t.values.d1) (List.range t.values.d2) (t.values.d3 - 1) 0
    (by intro p hp; rw [← w2]; simpa using hp) (by omega) (by omega)
  rw [← hpd] at h1
  rw [h1] at e
  have hv := h1.symm.trans (pick_eq t (List.range t.values.d0) (List.range t.values.d1)
    (List.range t.values.d2) _ (Or.inr hne))
  injection hv with hv
  have hv' : v = Option.elim _ _ _ := congrArg Tri.vd hv
  refine ⟨v, e, ?_, h2, ?_⟩
  · intro hb o ho
    obtain ⟨j, hj, rfl⟩ := List.getElem_of_mem ho
    have := h3 hb j (by rw [List.mem_range, w2]; exact hj)
    rwa [List.getD_eq_getElem _ _ hj] at this
  · have hvals : ∀ o < t.odims.length, ∀ d < t.ddims.length - 1,
        (t.picked (List.range t.values.d0) (List.range t.values.d1) (List.range t.values.d2)
          (List.range (t.values.d3 - 1)) t.vd).valuation o d = t.valuation o d := by
      intro o ho d hd'
      rw [valuation_picked ord List.pairwise_lt_range
        (by intro p hp; rw [List.mem_range] at hp; omega)
        (by intro p hp; rw [List.mem_range] at hp; omega)
        (fun hb p hp => (ord hb).1 _ (by
          rw [List.mem_range] at hp
          rw [List.getD_eq_getElem _ _ (by omega)]; exact List.getElem_mem _))
        (by simp; omega) (by simp; omega), getD_range _ _ (by omega), getD_range _ _ (by omega)]
    cases hm : (t.picked (List.range t.values.d0) (List.range t.values.d1) (List.range t.values.d2)
          (List.range (t.values.d3 - 1)) t.vd).valuations.max? with
    | none =>
      rw [hm] at hv'
      exact Or.inl hv'
    | some m =>
      rw [hm] at hv'
      simp only [Option.elim] at hv'
      by_cases hc : t.vd ≤ m
      · left; omega
      · right
        intro o ho d hd'
        have := (List.max?_eq_some_iff.1 hm).2 (t.valuation o d) (by
          rw [mem_valuations]
          refine ⟨o, d, ?_, ?_, hvals o ho d hd'⟩
          · simp [picked]; omega
          · simp [picked]; omega)
        omega

theorem nanTri_ne {t : Tri K} {o d : Nat} (h : t.nanTri o d ≠ 1) :
    min t.values.d2 t.values.d3 ≠ 1 ∧ t.valuation o d > t.vd := by
  unfold nanTri at h
  split_ifs at h with h1 h2
  · exact absurd rfl h
  · exact ⟨h1, h2⟩
  · exact absurd rfl h

/-- The triangle of quotients before the valuation filter. -/
def quot (t : Tri K) (v : Int) : Tri K :=
  { t.picked (List.range t.values.d0) (List.range t.values.d1) (List.range t.values.d2)
      (List.range (t.values.d3 - 1)) v with
    values := {
      d0 := t.values.d0
      d1 := t.values.d1
      d2 := t.values.d2
      d3 := t.values.d3 - 1
      get := fun i c o d =>
        (1 / t.values.get ((List.range t.values.d0).getD i 0) ((List.range t.values.d1).getD c 0)
          ((List.range t.values.d2).getD o 0) ((List.range (t.values.d3 - 1)).getD d 0)).numToNan *
        t.values.get ((List.range t.values.d0).getD i 0) ((List.range t.values.d1).getD c 0)
          ((List.range t.values.d2).getD o 0)
          (((List.range (t.values.d3 - 1)).map (· + 1)).getD d 0) } }

theorem linkRatio_eq {t : Tri K} (wf : WF t) (ord : Ordered t) (dated : Dated t)
    (hp : t.isPattern = false) (hd : 2 ≤ t.ddims.length) :
    ∃ v, (t.isVal = false → ∀ o ∈ t.odims, o ≤ v) ∧ v ≤ t.vd ∧
      (v = t.vd ∨ ∀ o < t.odims.length, ∀ d < t.ddims.length - 1, t.valuation o d ≤ v) ∧
      t.linkRatio = (do
        let obj ← if (quot t v).isFull then pure (quot t v) else (quot t v).getVal (fun w => w < v)
        .ok { obj with
          isPattern := true
          isCum := some false
          values := obj.values.map Num.numToNan }) := by
  obtain ⟨v, e, h1, h2, h3⟩ := pick_upto wf ord dated hd
  refine ⟨v, h1, h2, h3, ?_⟩
  obtain ⟨w0, w1, w2, w3⟩ := wf
  obtain ⟨v', h1', -⟩ := pick_contig ord dated (List.range t.values.d0)
    (List.range t.values.d1) (List.range t.values.d2) (t.values.d3 - 1) 1
    (by intro p hp; rw [← w2]; simpa using hp) (by omega) (by omega)
  have e2 := t.ilocD_from 1
  rw [h1'] at e2
  unfold linkRatio
  rw [if_neg (by simp [hp]), e]
  have e2' : t.ilocD (Key.from 1) = _ := e2
  rw [e2']
  simp only [bind, Except.bind]
  have hz : (rdiv 1 (t.picked (List.range t.values.d0) (List.range t.values.d1)
      (List.range t.values.d2) (List.range (t.values.d3 - 1)) v)).mulArr
      (t.picked (List.range t.values.d0) (List.range t.values.d1) (List.range t.values.d2)
        ((List.range (t.values.d3 - 1)).map (· + 1)) v').values = .ok (quot t v) := by
    unfold mulArr zipArr
    rw [Arr.zip_same _ (by
      refine ⟨?_, ?_, ?_, ?_⟩ <;> simp [rdiv, picked, Arr.take, Arr.map])]
    simp only [bind, Except.bind, rdiv, picked, Arr.take, Arr.map, quot, List.length_range]
  rw [hz]
  rfl

theorem quot_valuation {t : Tri K} (wf : WF t) (ord : Ordered t) {v : Int}
    (h1 : t.isVal = false → ∀ o ∈ t.odims, o ≤ v) {o d : Nat}
    (ho : o < t.odims.length) (hd : d + 1 < t.ddims.length) :
    (quot t v).valuation o d = t.valuation o d := by
  obtain ⟨w0, w1, w2, w3⟩ := wf
  have : (quot t v).valuation o d = (t.picked (List.range t.values.d0) (List.range t.values.d1)
    (List.range t.values.d2) (List.range (t.values.d3 - 1)) v).valuation o d := rfl
  rw [this, valuation_picked ord List.pairwise_lt_range
    (by intro p hp; rw [List.mem_range] at hp; omega)
    (by intro p hp; rw [List.mem_range] at hp; omega)
    (fun hb p hp => h1 hb _ (by
      rw [List.mem_range] at hp
      rw [List.getD_eq_getElem _ _ (by omega)]; exact List.getElem_mem _))
    (by simp; omega) (by simp; omega), getD_range _ _ (by omega), getD_range _ _ (by omega)]

theorem quot_odims {t : Tri K} (wf : WF t) (v : Int) : (quot t v).odims = t.odims := by
  show (List.range t.values.d2).map (t.odims.getD · 0) = _
  rw [wf.2.2.1]; exact map_getD_range _ _

theorem quot_ddims {t : Tri K} (wf : WF t) (v : Int) (hd : 1 ≤ t.ddims.length) :
    (quot t v).ddims = t.ddims.dropLast := by
  show (List.range (t.values.d3 - 1)).map (t.ddims.getD · 0) = _
  rw [wf.2.2.2]
  apply List.ext_getElem
  · simp
  · intro i h1 h2
    have h1' : i < t.ddims.length - 1 := by simpa using h1
    simp [List.getElem_dropLast, List.getD_eq_getElem?_getD, show i < t.ddims.length by omega]

theorem quot_wf {t : Tri K} (wf : WF t) (v : Int) (hd : 1 ≤ t.ddims.length) :
    WF (quot t v) := by
  refine ⟨?_, ?_, ?_, ?_⟩
  · show t.values.d0 = ((List.range t.values.d0).map _).length
    simp
  · show t.values.d1 = ((List.range t.values.d1).map _).length
    simp
  · show t.values.d2 = ((List.range t.values.d2).map _).length
    simp
  · show t.values.d3 - 1 = ((List.range (t.values.d3 - 1)).map _).length
    simp

theorem quot_ordered {t : Tri K} (wf : WF t) (ord : Ordered t) {v : Int}
    (hd : 1 ≤ t.ddims.length) (h1 : t.isVal = false → ∀ o ∈ t.odims, o ≤ v) :
    Ordered (quot t v) := by
  intro hb
  have hb' : t.isVal = false := hb
  rw [quot_odims wf, quot_ddims wf v hd]
  refine ⟨h1 hb', ?_, ?_⟩
  · intro d hd'; exact (ord hb').2.1 d (List.dropLast_subset _ hd')
  · intro h9; exact (ord hb').2.2 (List.dropLast_subset _ h9)

theorem quot_cell {t : Tri K} (fin : Finite t) (nz : NoZeros t) (wf : WF t) (v : Int)
    {i c o d : Nat} (hi : i < t.values.d0) (hc : c < t.values.d1) (ho : o < t.odims.length)
    (hd : d + 1 < t.ddims.length) :
    ((quot t v).values.get i c o d).numToNan =
      ratio (t.values.get i c o d) (t.values.get i c o (d + 1)) := by
  obtain ⟨w0, w1, w2, w3⟩ := wf
  show ((1 / t.values.get _ _ _ _ : Num K).numToNan * t.values.get _ _ _ _).numToNan = _
  rw [getD_range _ _ hi, getD_range _ _ hc, getD_range _ _ (by omega), getD_range _ _ (by omega),
    getD_range_add _ _ _ (by omega)]
  exact ratio_cell (fin i hi c hc o (by omega) d (by omega))
    (fin i hi c hc o (by omega) (d + 1) (by omega)) (nz i hi c hc o (by omega) d (by omega))

/-- **C06** (partial: cells holding the number zero are excluded, see `C06_zero_false`).
Whenever `link_ratio` returns, it holds exactly the available link ratios. -/
theorem C06_link_ratio_partial {t u : Tri K} (wf : WF t) (ord : Ordered t) (dated : Dated t)
    (strict : DevStrict t) (fin : Finite t) (known : Known t) (nz : NoZeros t)
    (hp : t.isPattern = false) (hd : 2 ≤ t.ddims.length) (h : t.linkRatio = .ok u) :
    ∃ rows cols, LinkOf t u rows cols := by
  obtain ⟨v, h1, h2, h3, e⟩ := linkRatio_eq wf ord dated hp hd
  rw [e] at h
  have hq0 : (quot t v).values.d0 = t.values.d0 := rfl
  have hq1 : (quot t v).values.d1 = t.values.d1 := rfl
  have hqk : (quot t v).kdims = t.kdims := by
    show (List.range t.values.d0).map (t.kdims.getD · []) = _
    rw [wf.1]; exact map_getD_range _ _
  have hqv : (quot t v).vdims = t.vdims := by
    show (List.range t.values.d1).map (t.vdims.getD · "") = _
    rw [wf.2.1]; exact map_getD_range _ _
  have hqo := quot_odims wf v
  have hqd := quot_ddims wf v (by omega)
  have hqdl : (quot t v).ddims.length = t.ddims.length - 1 := by rw [hqd]; simp
  have hqw := quot_wf wf v (by omega)
  by_cases hf : (quot t v).isFull = true
  · rw [if_pos hf] at h
    simp only [bind, Except.bind, pure, Except.pure] at h
    injection h with h
    subst h
    refine ⟨List.range t.odims.length, List.range (t.ddims.length - 1), List.pairwise_lt_range,
      List.pairwise_lt_range, ?_, ?_, ?_, ?_, hqk, hqv, ?_, ?_, ⟨rfl, rfl⟩, ?_⟩
    · intro o ho; exact List.mem_range.1 ho
    · intro d hd'; have := List.mem_range.1 hd'; omega
    · intro i hi c hc o ho d hd' _ _
      exact ⟨List.mem_range.2 ho, List.mem_range.2 (by omega)⟩
    · exact hqw
    · show At t.odims (quot t v).odims _
      rw [hqo]
      refine ⟨by simp, ?_⟩
      intro j hj; simp
    · show At t.ddims (quot t v).ddims _
      rw [hqd]
      refine ⟨by simp, ?_⟩
      intro j hj
      have hj' : j < t.ddims.length - 1 := by simpa using hj
      simp [List.getElem?_dropLast, hj']
    · intro i c o d hi hc ho hd'
      have ho' : o < t.odims.length := by simpa using ho
      have hd'' : d < t.ddims.length - 1 := by simpa using hd'
      simp only [List.getElem_range]
      exact quot_cell fin nz wf v hi hc ho' (by omega)
  · rw [if_neg hf] at h
    -- some quotient cell lies after the valuation date, so it is the original one
    have hnf : ∃ o d, o < t.odims.length ∧ d + 1 < t.ddims.length ∧
        min (quot t v).values.d2 (quot t v).values.d3 ≠ 1 ∧ t.valuation o d > v := by
      by_contra hcon
      apply hf
      unfold isFull
      simp only [List.all_eq_true, List.mem_range, beq_iff_eq]
      intro o ho d hd'
      by_contra hne
      obtain ⟨g1, g2⟩ := nanTri_ne hne
      have ho' : o < t.odims.length := by rw [← wf.2.2.1]; exact ho
      have hd'' : d + 1 < t.ddims.length := by
        have : d < t.values.d3 - 1 := hd'
        have := wf.2.2.2
        omega
      rw [quot_valuation wf ord h1 ho' hd''] at g2
      exact hcon ⟨o, d, ho', hd'', g1, g2⟩
    obtain ⟨o1, d1, ho1, hd1, hmin, hv1⟩ := hnf
    have hvt : v = t.vd := by
      rcases h3 with h3 | h3
      · exact h3
      · have := h3 o1 ho1 d1 (by omega); omega
    cases hg : (quot t v).getVal (fun w => w < v) with
    | error => rw [hg] at h; cases h
    | ok w =>
      rw [hg] at h
      simp only [bind, Except.bind] at h
      injection h with h
      subst h
      have hd3' : (quot t v).values.d3 = t.ddims.length - 1 := by
        show t.values.d3 - 1 = _; rw [wf.2.2.2]
      have hd2' : (quot t v).values.d2 = t.odims.length := wf.2.2.1
      obtain ⟨rows, cols, hs⟩ := C15_filter_partial hqw (quot_ordered wf ord (by omega) h1)
        (fun hb => le_trans h2 (dated hb)) (by omega) hg
      have hmr : ∀ o ∈ rows, o < t.odims.length := fun o ho => by
        rw [← hqo]; exact ((hs.mem_rows o).1 ho).1
      have hmc : ∀ d ∈ cols, d + 1 < t.ddims.length := fun d hd' => by
        have := ((hs.mem_cols d).1 hd').1
        omega
      refine ⟨rows, cols, hs.rows_inc, hs.cols_inc, hmr, hmc, ?_, ?_, ?_, ?_, ?_, ?_, ⟨rfl, rfl⟩, ?_⟩
      · intro i hi c hc o ho d hd' hx hy
        have hkn : t.valuation o (d + 1) ≤ t.vd := by
          by_contra hcon
          rw [known i hi c hc o (by rw [wf.2.2.1]; exact ho) (d + 1) (by rw [wf.2.2.2]; exact hd')
            (by omega)] at hy
          exact hy rfl
        have hlt := strict o ho d hd'
        have hk : (decide ((quot t v).valuation o d < v)) = true := by
          rw [quot_valuation wf ord h1 ho hd']
          simp; omega
        exact ⟨(hs.mem_rows o).2 ⟨by rw [hqo]; exact ho, d, by omega, hk⟩,
          (hs.mem_cols d).2 ⟨by omega, o, by rw [hqo]; exact ho, hk⟩⟩
      · exact hs.wf
      · exact hs.index.trans hqk
      · exact hs.columns.trans hqv
      · have := hs.origins; rwa [hqo] at this
      · refine ⟨hs.developments.1, ?_⟩
        intro j hj
        refine (hs.developments.2 j hj).trans ?_
        rw [hqd, List.getElem?_dropLast]
        have := hmc _ (List.getElem_mem hj)
        rw [if_pos (by omega)]
      · intro i c o d hi hc ho hd'
        have hro := hmr _ (List.getElem_mem ho)
        have hcd := hmc _ (List.getElem_mem hd')
        show (w.values.get i c o d).numToNan = _
        rw [hs.cells i c o d hi hc ho hd']
        split_ifs with hk
        · rw [Num.numToNan_numToNan]
          exact quot_cell fin nz wf v hi hc hro hcd
        · rw [Num.numToNan_nan]
          -- the next cell lies after the valuation date
          have hge : t.vd ≤ t.valuation rows[o] cols[d] := by
            rw [quot_valuation wf ord h1 hro hcd] at hk
            simp at hk; omega
          have hlt := strict _ hro _ hcd
          rw [known i hi c hc _ (by rw [wf.2.2.1]; exact hro) (cols[d] + 1)
            (by rw [wf.2.2.2]; exact hcd) (by omega)]
          simp [ratio]

/-- When every age but the last has an origin valued before the valuation date, there is a column of
link ratios for each of them. -/
theorem C06_ages {t u : Tri K} (wf : WF t) (ord : Ordered t) (dated : Dated t)
    (hp : t.isPattern = false) (hd : 2 ≤ t.ddims.length)
    (hall : ∀ d, d + 1 < t.ddims.length → ∃ o < t.odims.length, t.valuation o d < t.vd)
    (h : t.linkRatio = .ok u) : u.ddims = t.ddims.dropLast := by
  obtain ⟨v, h1, h2, h3, e⟩ := linkRatio_eq wf ord dated hp hd
  rw [e] at h
  have hqo := quot_odims wf v
  have hqd := quot_ddims wf v (by omega)
  have hqdl : (quot t v).ddims.length = t.ddims.length - 1 := by rw [hqd]; simp
  have hqw := quot_wf wf v (by omega)
  by_cases hf : (quot t v).isFull = true
  · rw [if_pos hf] at h
    simp only [bind, Except.bind, pure, Except.pure] at h
    injection h with h
    subst h
    exact hqd
  · rw [if_neg hf] at h
    have hnf : ∃ o d, o < t.odims.length ∧ d + 1 < t.ddims.length ∧
        min (quot t v).values.d2 (quot t v).values.d3 ≠ 1 ∧ t.valuation o d > v := by
      by_contra hcon
      apply hf
      unfold isFull
      simp only [List.all_eq_true, List.mem_range, beq_iff_eq]
      intro o ho d hd'
      by_contra hne
      obtain ⟨g1, g2⟩ := nanTri_ne hne
      have ho' : o < t.odims.length := by rw [← wf.2.2.1]; exact ho
      have hd'' : d + 1 < t.ddims.length := by
        have : d < t.values.d3 - 1 := hd'
        have := wf.2.2.2
        omega
      rw [quot_valuation wf ord h1 ho' hd''] at g2
      exact hcon ⟨o, d, ho', hd'', g1, g2⟩
    obtain ⟨o1, d1, ho1, hd1, hmin, hv1⟩ := hnf
    have hvt : v = t.vd := by
      rcases h3 with h3 | h3
      · exact h3
      · have := h3 o1 ho1 d1 (by omega); omega
    cases hg : (quot t v).getVal (fun w => w < v) with
    | error => rw [hg] at h; cases h
    | ok w =>
      rw [hg] at h
      simp only [bind, Except.bind] at h
      injection h with h
      subst h
      have hd3' : (quot t v).values.d3 = t.ddims.length - 1 := by
        show t.values.d3 - 1 = _; rw [wf.2.2.2]
      have hd2' : (quot t v).values.d2 = t.odims.length := wf.2.2.1
      obtain ⟨rows, cols, hs⟩ := C15_filter_partial hqw (quot_ordered wf ord (by omega) h1)
        (fun hb => le_trans h2 (dated hb)) (by omega) hg
      have hcols : cols = List.range (t.ddims.length - 1) := by
        refine List.Pairwise.eq_of_mem_iff hs.cols_inc List.pairwise_lt_range ?_
        intro d
        rw [hs.mem_cols, List.mem_range, hqdl]
        constructor
        · exact fun h => h.1
        · intro hlt
          obtain ⟨o, ho, hv⟩ := hall d (by omega)
          refine ⟨hlt, o, by rw [hqo]; exact ho, ?_⟩
          rw [quot_valuation wf ord h1 ho (by omega)]
          simp only [decide_eq_true_eq]
          omega
      show w.ddims = _
      have a := hs.developments
      rw [hcols, hqd] at a
      apply List.ext_getElem?
      intro j
      by_cases hj : j < (List.range (t.ddims.length - 1)).length
      · rw [a.2 j hj, List.getElem_range]
      · rw [List.getElem?_eq_none (by rw [a.1]; omega), List.getElem?_eq_none (by simpa using hj)]

/-- Where a link ratio is present, multiplying it by the current amount gives the next amount. -/
theorem C06_next_amount {t u : Tri K} {rows cols : List Nat} (h : LinkOf t u rows cols)
    {i c o d : Nat} (hi : i < t.values.d0) (hc : c < t.values.d1) (ho : o < rows.length)
    (hd : d < cols.length) {r : K} (hr : u.values.get i c o d = .fin r) :
    (t.values.get i c rows[o] cols[d]).amt * r = (t.values.get i c rows[o] (cols[d] + 1)).amt := by
  rw [h.cells i c o d hi hc ho hd] at hr
  unfold ratio at hr
  split_ifs at hr with hx
  injection hr with hr
  rw [← hr]
  field_simp [hx.1]

/-- `link_ratio` of a triangle with ascending axes succeeds as soon as one cell that is not in the
last development is valued before the valuation date. -/
theorem C06_succeeds {t : Tri K} (wf : WF t) (ord : Ordered t) (dated : Dated t) (g : Graded t)
    (hp : t.isPattern = false) (hd : 2 ≤ t.ddims.length) {o d : Nat} (ho : o < t.odims.length)
    (hd' : d + 1 < t.ddims.length) (hv : t.valuation o d < t.vd) : ∃ u, t.linkRatio = .ok u := by
  obtain ⟨v, h1, h2, h3, e⟩ := linkRatio_eq wf ord dated hp hd
  rw [e]
  have hqo := quot_odims wf v
  have hqd := quot_ddims wf v (by omega)
  have hqdl : (quot t v).ddims.length = t.ddims.length - 1 := by rw [hqd]; simp
  have hqw := quot_wf wf v (by omega)
  by_cases hf : (quot t v).isFull = true
  · rw [if_pos hf]
    exact ⟨_, rfl⟩
  · rw [if_neg hf]
    have hnf : ∃ o d, o < t.odims.length ∧ d + 1 < t.ddims.length ∧
        min (quot t v).values.d2 (quot t v).values.d3 ≠ 1 ∧ t.valuation o d > v := by
      by_contra hcon
      apply hf
      unfold isFull
      simp only [List.all_eq_true, List.mem_range, beq_iff_eq]
      intro o ho d hd'
      by_contra hne
      obtain ⟨g1, g2⟩ := nanTri_ne hne
      have ho' : o < t.odims.length := by rw [← wf.2.2.1]; exact ho
      have hd'' : d + 1 < t.ddims.length := by
        have : d < t.values.d3 - 1 := hd'
        have := wf.2.2.2
        omega
      rw [quot_valuation wf ord h1 ho' hd''] at g2
      exact hcon ⟨o, d, ho', hd'', g1, g2⟩
    obtain ⟨o1, d1, ho1, hd1, hmin, hv1⟩ := hnf
    have hvt : v = t.vd := by
      rcases h3 with h3 | h3
      · exact h3
      · have := h3 o1 ho1 d1 (by omega); omega
    have hl2 : 2 ≤ (quot t v).ddims.length := by
      have h4 : (quot t v).values.d3 = t.ddims.length - 1 := by
        show t.values.d3 - 1 = _; rw [wf.2.2.2]
      have h5 : (quot t v).values.d2 = t.odims.length := wf.2.2.1
      rw [h4, h5] at hmin
      omega
    obtain ⟨w, hw⟩ := C15_succeeds hqw (quot_ordered wf ord (by omega) h1)
      (fun hb => le_trans h2 (dated hb))
      (by
        intro a a' b b' q1 q2 q3 q4
        rw [hqo] at q2
        rw [quot_valuation wf ord h1 (by omega) (by omega),
          quot_valuation wf ord h1 (by omega) (by omega)]
        exact g a a' b b' q1 q2 q3 (by omega)) hl2 (P := fun w => w < v)
      (Or.inl fun x y hxy hy => by simp at hy ⊢; omega) (o := o) (d := d)
      (by rw [hqo]; exact ho) (by omega)
      (by rw [quot_valuation wf ord h1 ho hd']; simp; omega)
    rw [hw]
    exact ⟨_, rfl⟩

/-- Link ratios of the 3 x 3 example; the first one is 150/100. -/
example : ∃ u rows cols, (Ex.tri3 (some true) Ex.cum3).linkRatio = .ok u ∧
    LinkOf (Ex.tri3 (some true) Ex.cum3) u rows cols := by
  have pr := Ex.proper_tri3 (some true)
  obtain ⟨u, hu⟩ := C06_succeeds pr.wf pr.ordered pr.dated
    (by
      have : ∀ o' < 3, ∀ o ≤ o', ∀ d' < 3, ∀ d ≤ d', (Ex.tri3 (some true) Ex.cum3).valuation o d ≤
          (Ex.tri3 (some true) Ex.cum3).valuation o' d' := by decide
      intro o o' d d' h1 h2 h3 h4
      exact this o' h2 o h1 d' h4 d h3) rfl (by decide) (o := 0) (d := 0) (by decide) (by decide)
      (by decide)
  obtain ⟨rows, cols, h⟩ := C06_link_ratio_partial pr.wf pr.ordered pr.dated
    (by
      have : ∀ o < 3, ∀ d < 2, (Ex.tri3 (some true) Ex.cum3).valuation o d <
          (Ex.tri3 (some true) Ex.cum3).valuation o (d + 1) := by decide
      intro o ho d hd
      exact this o ho d (by have : d + 1 < 3 := hd; omega)) pr.finite pr.known (by unfold NoZeros; decide) rfl (by decide) hu
  exact ⟨u, rows, cols, hu, h⟩

/-- Cumulative amounts with a stored zero. -/
def zero3 : Nat → Nat → Num ℚ
  | 0, 0 => .fin 0
  | o, d => Ex.cum3 o d

/-- **C06 is false when a current amount is stored as the number zero** (as `tri * 0` style
operations do): the link ratio is infinite instead of missing. -/
theorem C06_zero_false :
    ∃ (t u : Tri ℚ), Proper t ∧ t.isPattern = false ∧ t.linkRatio = .ok u ∧
      t.values.get 0 0 0 0 = .fin 0 ∧ u.values.get 0 0 0 0 = .pinf := by
  refine ⟨Ex.tri3 (some true) zero3, _, ?_, rfl, rfl, rfl, by decide +kernel⟩
  refine Ex.proper_of ?_ ?_ ?_ ?_ ?_ ?_ ?_
  · exact ⟨rfl, rfl, rfl, rfl⟩
  all_goals decide

end Tri
end CL
