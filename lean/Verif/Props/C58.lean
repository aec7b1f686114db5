import Verif.Props.C34

set_option linter.unusedSectionVars false

/-! # C58: the full triangle of the chain ladder method develops the latest amounts -/

namespace CL
namespace Tri
variable {K : Type} [Field K] [LinearOrder K] [IsStrictOrderedRing K]
variable {t f u : Tri K} {a : Int} {n D q F : Nat} {U : Nat → Nat → Nat → K}

theorem emerged_chain {i c o d : Nat}
    (hU : U i c o = t.latest D q i c o * f.growth i c (D - 1 - q * o) F)
    (h0 : f.growth i c (D - 1 - q * o) F ≠ 0) (h1 : f.growth i c (D - 1 - q * o) F ≠ 1) :
    emerged t f U D q F i c o d = t.latest D q i c o * f.growth i c (D - 1 - q * o) d := by
  unfold emerged share
  by_cases hl : t.latest D q i c o = 0
  · have : U i c o = 0 := by rw [hU, hl, zero_mul]
    rw [if_pos (Or.inl this), hl, zero_mul, add_zero]
  · have : U i c o ≠ 0 := by rw [hU]; exact mul_ne_zero hl h0
    rw [if_neg (by rintro (hh | hh); exacts [this hh, h1 hh]), hU]
    have := sub_ne_zero.2 h1
    field_simp
    ring

/-- Every future cell of the full triangle of the chain ladder method is the latest amount of its origin
times the factors up to the age of the cell, if the age-to-ultimate factor of the origin is not one.
Missing: a factor of one (false, see `C58_factor_one_false`), and two origins of which only one has a
cell before the valuation date (false, see `C58_two_origins_false`). -/
theorem C58_partial (h : Standard t a n D q) (hc : t.isCum = some true)
    (hf : GridPattern t f a n D q F) (h2 : 2 ≤ linkRows n D q) :
    ∃ u z, t.chainladder f none = .ok u ∧ fullTriangle t f u true = .ok z ∧
      ∀ i < t.kdims.length, ∀ c < t.vdims.length, ∀ o < n, ∀ d < F + 1, D < q * o + d + 1 →
        f.toUlt i c (D - 1 - q * o) ≠ 1 →
        z.values.get i c o d = (Num.fin ((t.values.get i c o (D - 1 - q * o)).amt *
          ∏ j ∈ Finset.Ico (D - 1 - q * o) d, f.ageFactor i c j)).numToNan := by
  obtain ⟨l, hl, hd⟩ := h.latest
  obtain ⟨u, rows, hu, hr, hul⟩ := C33_ultimate_partial h.cumTri hf.toPatternFor hl
  have hrr : rows = List.range n := by
    refine List.Pairwise.eq_of_mem_iff hr.rows_inc hd.rows_inc ?_
    intro o
    rw [hr.mem_rows, hd.mem_rows]
  subst hrr
  obtain ⟨z, hz, -, -, -, -, -, -, -, -, -, -, -, -, zcell⟩ := full_spec h hc hf h2 (hul.ultAmounts h)
  refine ⟨u, z, hu, hz, ?_⟩
  intro i hi c hc o ho d hd hk h1
  rw [zcell i hi c hc o ho d hd, if_neg (by omega), numToNan_inj]
  exact emerged_chain (by rw [hf.growth_eq]; rfl) (hf.growth_ne hi hc le_rfl)
    (by rw [hf.growth_eq]; exact h1)

/-- With the 3 x 3 example: 120, 120 * 3/2, 120 * 3/2 * 11/10. -/
example : ∃ u z, (Ex.tri3 (some true) Ex.cum3).chainladder C34.pat none = .ok u ∧
    fullTriangle (Ex.tri3 (some true) Ex.cum3) C34.pat u true = .ok z ∧
    z.values.get 0 0 2 1 = .fin 180 ∧ z.values.get 0 0 2 2 = .fin 198 := by
  obtain ⟨u, z, h1, h2, h3⟩ := C58_partial C34.standard rfl C34.gridPattern (by decide)
  have ne : C34.pat.toUlt 0 0 (3 - 1 - 1 * 2) ≠ 1 := by decide +kernel
  refine ⟨u, z, h1, h2, ?_, ?_⟩
  · rw [h3 0 (by decide) 0 (by decide) 2 (by decide) 1 (by decide) (by decide) ne]
    decide +kernel
  · rw [h3 0 (by decide) 0 (by decide) 2 (by decide) 2 (by decide) (by decide) ne]
    decide +kernel

namespace C58

/-- Factors 3/2, 2/3 and no tail. -/
def pat : Tri ℚ :=
  { C34.pat with values := ⟨1, 1, 1, 3, fun _ _ _ d => .fin ([3 / 2, 2 / 3, 1].getD d 1)⟩ }

theorem gridPattern : GridPattern (Ex.tri3 (some true) Ex.cum3) pat 24240 3 3 1 3 where
  wf := ⟨rfl, rfl, rfl, rfl⟩
  pattern := rfl
  incremental := by decide
  multiplicative := rfl
  ages := rfl
  ograin := rfl
  dgrain := rfl
  keyLabels := rfl
  index := Or.inl rfl
  columns := Or.inl rfl
  origin := rfl
  starts := rfl
  factors := by
    intro i hi c hc j hj
    have hj : j < 3 := hj
    refine ⟨[3 / 2, 2 / 3, 1].getD j 1, ?_, rfl⟩
    interval_cases j <;> norm_num
  grid := by decide
  covers := le_rfl
  short := by decide
  early := by decide
  date := le_rfl

/-- Amounts 100, 170 and 110. -/
def two : Tri ℚ := Ex.tri2 (some true) fun o d => if o = 1 ∧ d = 1 then .nan else .fin (100 + 10 * o + 70 * d)

theorem two_standard : Standard two 24252 2 2 1 where
  wf := ⟨rfl, rfl, rfl, rfl⟩
  finite := by
    intro i hi c hc o ho d hd
    show (if o = 1 ∧ d = 1 then Num.nan else Num.fin _ : Num ℚ).NoInf
    split_ifs <;> simp
  isVal := rfl
  index_pos := by decide
  columns_pos := by decide
  two_origins := le_rfl
  period := le_rfl
  recent := by decide
  odims := by decide
  ddims := by decide
  vd := by decide
  short := by decide
  early := by decide
  known := by
    intro i hi c hc o ho d hd h
    interval_cases o <;> interval_cases d <;> first | rfl | omega
  cumulative := by decide
  noPattern := rfl
  multiplicative := rfl

/-- Factors 3/2, 11/10 for ages 12, 24; the last one is the tail. -/
def pat2 : Tri ℚ :=
  { C34.pat with
    odims := [24252]
    ddims := [12, 24]
    values := ⟨1, 1, 1, 2, fun _ _ _ d => .fin ([3 / 2, 11 / 10].getD d 1)⟩ }

theorem gridPattern2 : GridPattern two pat2 24252 2 2 1 2 where
  wf := ⟨rfl, rfl, rfl, rfl⟩
  pattern := rfl
  incremental := by decide
  multiplicative := rfl
  ages := rfl
  ograin := rfl
  dgrain := rfl
  keyLabels := rfl
  index := Or.inl rfl
  columns := Or.inl rfl
  origin := rfl
  starts := rfl
  factors := by
    intro i hi c hc j hj
    have hj : j < 2 := hj
    refine ⟨[3 / 2, 11 / 10].getD j 1, ?_, rfl⟩
    interval_cases j <;> norm_num
  grid := by decide
  covers := le_rfl
  short := by decide
  early := by decide
  date := le_rfl

end C58

/-- Factors 3/2 and 2/3: the latest amount 120 develops to 180 at age 24, but the full triangle holds
120. -/
theorem C58_factor_one_false : ∃ (t f u z : Tri ℚ), Standard t 24240 3 3 1 ∧ t.isCum = some true ∧
    GridPattern t f 24240 3 3 1 3 ∧ t.chainladder f none = .ok u ∧ fullTriangle t f u true = .ok z ∧
    z.values.get 0 0 2 1 = .fin 120 ∧
    (t.values.get 0 0 2 0).amt * ∏ j ∈ Finset.Ico 0 1, f.ageFactor 0 0 j = 180 := by
  obtain ⟨z, h1, h2⟩ := ok_of (x := (Ex.tri3 (some true) Ex.cum3).chainladder C58.pat none >>= fun u =>
      fullTriangle (Ex.tri3 (some true) Ex.cum3) C58.pat u true)
    (fun z => z.values.get 0 0 2 1 = .fin 120) (by decide +kernel)
  obtain ⟨u, h3, h4⟩ := bind_ok h1
  exact ⟨_, _, u, z, C34.standard, rfl, C58.gridPattern, h3, h4, h2, by decide +kernel⟩

/-- Two origins, of which only the older one has a cell before the valuation date: the known part is a
single cell and is added to every cell of the rest.  The latest amount 110 develops to 165 at age 24,
but the full triangle holds another amount. -/
theorem C58_two_origins_false : ∃ (t f u z : Tri ℚ), Standard t 24252 2 2 1 ∧ t.isCum = some true ∧
    GridPattern t f 24252 2 2 1 2 ∧ t.chainladder f none = .ok u ∧ fullTriangle t f u true = .ok z ∧
    z.values.get 0 0 1 1 ≠ .fin 165 ∧ f.toUlt 0 0 0 ≠ 1 ∧
    (t.values.get 0 0 1 0).amt * ∏ j ∈ Finset.Ico 0 1, f.ageFactor 0 0 j = 165 := by
  obtain ⟨z, h1, h2⟩ := ok_of (x := C58.two.chainladder C58.pat2 none >>= fun u =>
      fullTriangle C58.two C58.pat2 u true)
    (fun z => z.values.get 0 0 1 1 ≠ .fin 165) (by decide +kernel)
  obtain ⟨u, h3, h4⟩ := bind_ok h1
  exact ⟨_, _, u, z, C58.two_standard, rfl, C58.gridPattern2, h3, h4, h2, by decide +kernel,
    by decide +kernel⟩

end Tri
end CL
