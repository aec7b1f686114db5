import Verif.Props.C01

set_option linter.unusedSectionVars false

/-! # C02: `incr_to_cum` is the running total -/

namespace CL
namespace Tri
variable {K : Type} [Field K] [LinearOrder K] [IsStrictOrderedRing K]

/-- **C02 (partial: at least two origins and two developments; for a single origin see
`C02_single_origin_false`).**  Each cell at or before the valuation date holds the running total of
the origin (missing when it is zero), each later cell is missing, and shape, labels and valuation
date are unchanged. -/
theorem C02_running_total_partial {t : Tri K} (hf : Finite t) (hc : t.isCum = some false)
    (hp : t.isPattern = false) (h2 : 2 ≤ t.values.d2) (h3 : 2 ≤ t.values.d3) :
    SameLabels (incrToCum t) t ∧ Arr.SameShape (incrToCum t).values t.values ∧
    (incrToCum t).isCum = some true ∧
    ∀ i < t.values.d0, ∀ c < t.values.d1, ∀ o < t.values.d2, ∀ d < t.values.d3,
      (t.valuation o d ≤ t.vd → (incrToCum t).values.get i c o d =
        (Num.fin (∑ j ∈ Finset.range (d + 1), (t.values.get i c o j).amt)).numToNan) ∧
      (t.valuation o d > t.vd → (incrToCum t).values.get i c o d = .nan) := by
  obtain ⟨er, hr⟩ := incrToCum_cells hf (by simp [hc]) hp
  rw [er]
  refine ⟨⟨rfl, rfl, rfl, rfl, rfl, rfl, rfl, rfl, rfl, rfl⟩, ⟨rfl, rfl, rfl, rfl⟩, rfl, ?_⟩
  intro i hi c hcc o ho d hd
  show (_ → t.cumSumVals.get i c o d = _) ∧ (_ → t.cumSumVals.get i c o d = _)
  rw [hr i hi c hcc o ho d hd]
  have h1 : ¬ min t.values.d2 t.values.d3 = 1 := by omega
  constructor <;> intro hv
  · have : t.nanTri o d = 1 := by unfold nanTri; rw [if_neg h1, if_neg (by omega)]
    rw [this, Num.one_def, Num.fin_mul_fin, mul_one]
  · have : t.nanTri o d = .nan := by unfold nanTri; rw [if_neg h1, if_pos hv]
    rw [this]; simp

/-- The running total of every triangle without the shape restriction, up to the valuation date. -/
theorem C02_observed {t : Tri K} (hf : Finite t) (hc : t.isCum = some false)
    (hp : t.isPattern = false) :
    ∀ i < t.values.d0, ∀ c < t.values.d1, ∀ o < t.values.d2, ∀ d < t.values.d3,
      t.valuation o d ≤ t.vd → (incrToCum t).values.get i c o d =
        (Num.fin (∑ j ∈ Finset.range (d + 1), (t.values.get i c o j).amt)).numToNan := by
  obtain ⟨er, hr⟩ := incrToCum_cells hf (by simp [hc]) hp
  rw [er]
  intro i hi c hcc o ho d hd hv
  show t.cumSumVals.get i c o d = _
  rw [hr i hi c hcc o ho d hd]
  rcases nanTri_eq t o d with h | ⟨-, h⟩
  · rw [h, Num.one_def, Num.fin_mul_fin, mul_one]
  · omega

/-- On a triangle already cumulative nothing changes. -/
theorem C02_idempotent (t : Tri K) (hc : t.isCum = some true) : incrToCum t = t := by
  simp [incrToCum, hc]

/-- Calling it twice is calling it once. -/
theorem C02_twice (t : Tri K) (h : t.isCum = some false) :
    incrToCum (incrToCum t) = incrToCum t := by
  apply C02_idempotent
  unfold incrToCum
  split_ifs <;> simp_all

example : (incrToCum (Ex.tri3 (some false) Ex.cum3)).values.get 0 0 1 1 = .fin 278 := by
  have h := (C02_running_total_partial (Ex.proper_tri3 (some false)).finite rfl rfl (by decide)
    (by decide)).2.2.2 0 (by decide) 0 (by decide) 1 (by decide) 1 (by decide)
  rw [h.1 (by decide)]
  decide +kernel

/-- **C02 is false for a single origin**: with one origin of which one age is observed, every later
cell is filled with the running total although it lies after the valuation date. -/
theorem C02_single_origin_false :
    ∃ t : Tri ℚ, Proper t ∧ t.isCum = some false ∧ t.isPattern = false ∧
      t.valuation 0 2 > t.vd ∧ (incrToCum t).values.get 0 0 0 2 = .fin 120 := by
  refine ⟨Ex.tri1 (some false) fun _ d => if d = 0 then .fin 120 else .nan, ?_, rfl, rfl, by decide,
    by decide +kernel⟩
  exact Ex.proper_of (by decide) (by decide) (by decide) (by decide) (by decide) (by decide)
    (by decide)

end Tri
end CL
