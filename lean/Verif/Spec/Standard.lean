import Verif.Spec.Methods
import Verif.Props.C06
import Verif.Props.C15

set_option linter.unusedSectionVars false

/-! # Triangles as they come from data -/

namespace CL
namespace Tri
variable {K : Type} [Field K] [LinearOrder K] [IsStrictOrderedRing K]

/-- A triangle with `n` origins of `q` development periods each, the first one starting in month `a`,
and `D` ages.  The first origin has reached the last age; nothing is recorded after that date. -/
structure Grid (t : Tri K) (a : Int) (n D q : Nat) : Prop where
  wf : WF t
  finite : Finite t
  isVal : t.isVal = false
  index_pos : 1 ≤ t.kdims.length
  columns_pos : 1 ≤ t.vdims.length
  two_origins : 2 ≤ n
  period : 1 ≤ q
  recent : q * (n - 1) < D
  odims : t.odims = (List.range n).map fun o : Nat => a + (o * q * t.dgrain.months : Nat)
  ddims : t.ddims = (List.range D).map fun d : Nat => (((d + 1) * t.dgrain.months : Nat) : Int)
  vd : t.vd = a + (D * t.dgrain.months : Nat) - 1
  short : D * t.dgrain.months < 9999
  early : t.vd ≤ ultVal
  known : ∀ i < t.kdims.length, ∀ c < t.vdims.length, ∀ o < n, ∀ d < D, D < q * o + d + 1 →
    t.values.get i c o d = .nan

/-- A cumulative triangle of amounts on a regular grid. -/
structure Standard (t : Tri K) (a : Int) (n D q : Nat) : Prop extends Grid t a n D q where
  cumulative : t.isCum ≠ some false
  noPattern : t.isPattern = false
  multiplicative : t.isAdditive = none

theorem months_pos (g : Grain) : 1 ≤ g.months := by cases g <;> decide

namespace Grid
variable {t : Tri K} {a : Int} {n D q : Nat}

theorem lenO (h : Grid t a n D q) : t.odims.length = n := by rw [h.odims]; simp
theorem lenD (h : Grid t a n D q) : t.ddims.length = D := by rw [h.ddims]; simp

theorem two_ages (h : Grid t a n D q) : 2 ≤ D := by
  have h1 := h.recent
  have h2 := h.two_origins
  have h3 := h.period
  have : 1 * 1 ≤ q * (n - 1) := Nat.mul_le_mul h3 (by omega)
  omega

theorem getO (h : Grid t a n D q) {o : Nat} (ho : o < n) :
    t.odims.getD o 0 = a + (o * q * t.dgrain.months : Nat) := by
  rw [h.odims, List.getD_eq_getElem?_getD]
  simp [ho]

theorem getDv (h : Grid t a n D q) {d : Nat} (hd : d < D) :
    t.ddims.getD d 0 = (((d + 1) * t.dgrain.months : Nat) : Int) := by
  rw [h.ddims, List.getD_eq_getElem?_getD]
  simp [hd]

theorem row_le (h : Grid t a n D q) {o : Nat} (ho : o < n) : o * q < D := by
  have h1 := h.recent
  have : o * q ≤ (n - 1) * q := Nat.mul_le_mul_right _ (by omega)
  rw [Nat.mul_comm q] at h1
  omega

theorem origin_le (h : Grid t a n D q) {o : Nat} (ho : o < n) :
    a + (o * q * t.dgrain.months : Nat) ≤ t.vd := by
  rw [h.vd]
  have h1 := h.row_le ho
  have h2 := months_pos t.dgrain
  have : (o * q + 1) * t.dgrain.months ≤ D * t.dgrain.months := Nat.mul_le_mul_right _ h1
  rw [Nat.add_mul] at this
  omega

theorem not_ult (h : Grid t a n D q) : 9999 ∉ t.ddims := by
  rw [h.ddims]
  simp only [List.mem_map, List.mem_range, not_exists, not_and]
  intro d hd e
  have : (d + 1) * t.dgrain.months ≤ D * t.dgrain.months := Nat.mul_le_mul_right _ hd
  have := h.short
  omega

/-- Valuation of a cell: `q * o + d + 1` periods after the start of the first origin. -/
theorem valuation (h : Grid t a n D q) {o d : Nat} (ho : o < n) (hd : d < D) :
    t.valuation o d = a + ((q * o + d + 1) * t.dgrain.months : Nat) - 1 := by
  unfold Tri.valuation valuationOf
  rw [h.isVal]
  simp only [Bool.false_eq_true, if_false]
  rw [if_neg]
  · rw [h.getO ho, h.getDv hd, min_eq_left (h.origin_le ho)]
    push_cast
    ring
  · rintro ⟨e, -⟩
    exact h.not_ult (List.mem_of_getLast? e)

theorem valuation_le (h : Grid t a n D q) {o d o' d' : Nat} (ho : o < n) (hd : d < D)
    (ho' : o' < n) (hd' : d' < D) :
    t.valuation o d ≤ t.valuation o' d' ↔ q * o + d ≤ q * o' + d' := by
  rw [h.valuation ho hd, h.valuation ho' hd']
  have h2 := months_pos t.dgrain
  constructor
  · intro h3
    have h4 : (q * o + d + 1) * t.dgrain.months ≤ (q * o' + d' + 1) * t.dgrain.months := by omega
    have := Nat.le_of_mul_le_mul_right h4 h2
    omega
  · intro h3
    have : (q * o + d + 1) * t.dgrain.months ≤ (q * o' + d' + 1) * t.dgrain.months :=
      Nat.mul_le_mul_right _ (by omega)
    omega

theorem vd_eq (h : Grid t a n D q) : t.vd = t.valuation 0 (D - 1) := by
  have := h.two_ages
  have h2 := h.two_origins
  rw [h.valuation (by omega) (by omega), h.vd]
  congr 3
  rw [show q * 0 + (D - 1) + 1 = D by omega]

theorem valuation_lt (h : Grid t a n D q) {o d : Nat} (ho : o < n) (hd : d < D) :
    t.valuation o d < t.vd ↔ q * o + d + 1 < D := by
  have := h.two_ages
  have h2 := h.two_origins
  rw [h.vd_eq, ← not_le, h.valuation_le (by omega) (by omega) ho hd]
  omega

theorem valuation_gt (h : Grid t a n D q) {o d : Nat} (ho : o < n) (hd : d < D) :
    t.vd < t.valuation o d ↔ D < q * o + d + 1 := by
  have := h.two_ages
  have h2 := h.two_origins
  rw [h.vd_eq, ← not_le, h.valuation_le ho hd (by omega) (by omega)]
  omega

theorem valuation_vd (h : Grid t a n D q) {o d : Nat} (ho : o < n) (hd : d < D) :
    t.valuation o d = t.vd ↔ q * o + d + 1 = D := by
  have h1 := h.valuation_lt ho hd
  have h2 := h.valuation_gt ho hd
  constructor
  · intro e
    rw [e] at h1 h2
    have h1 : ¬ q * o + d + 1 < D := fun h => lt_irrefl _ (h1.2 h)
    have h2 : ¬ D < q * o + d + 1 := fun h => lt_irrefl _ (h2.2 h)
    omega
  · intro e
    apply le_antisymm
    · by_contra hc
      have := h2.1 (by omega)
      omega
    · by_contra hc
      have := h1.1 (by omega)
      omega

theorem ordered (h : Grid t a n D q) : Ordered t := by
  intro _
  refine ⟨?_, ?_, ?_⟩
  · intro o ho
    rw [h.odims] at ho
    simp only [List.mem_map, List.mem_range] at ho
    obtain ⟨k, hk, rfl⟩ := ho
    exact h.origin_le hk
  · intro d hd
    rw [h.ddims] at hd
    simp only [List.mem_map, List.mem_range] at hd
    obtain ⟨k, hk, rfl⟩ := hd
    have h2 := months_pos t.dgrain
    have : 1 * 1 ≤ (k + 1) * t.dgrain.months := Nat.mul_le_mul (by omega) h2
    omega
  · exact fun hh => h.not_ult (List.mem_of_mem_dropLast hh)

theorem dated (h : Grid t a n D q) : Dated t := fun _ => h.early

theorem distinct (h : Grid t a n D q) : DistinctValuations t := by
  intro o ho d hd e he hv
  rw [h.lenO] at ho
  rw [h.lenD] at hd he
  have h1 := (h.valuation_le ho hd ho he).1 (le_of_eq hv)
  have h2 := (h.valuation_le ho he ho hd).1 (le_of_eq hv.symm)
  omega

theorem graded (h : Grid t a n D q) : Graded t := by
  intro o o' d d' h1 h2 h3 h4
  rw [h.lenO] at h2
  rw [h.lenD] at h4
  rw [h.valuation_le (by omega) (by omega) h2 h4]
  have := Nat.mul_le_mul_left q h1
  omega

theorem known' (h : Grid t a n D q) : Known t := by
  intro i hi c hc o ho d hd hv
  rw [h.wf.1] at hi
  rw [h.wf.2.1] at hc
  rw [h.wf.2.2.1, h.lenO] at ho
  rw [h.wf.2.2.2, h.lenD] at hd
  exact h.known i hi c hc o ho d hd ((h.valuation_gt ho hd).1 hv)

theorem regular (h : Grid t a n D q) : Regular t := ⟨h.wf, h.ordered, h.finite, h.known'⟩

theorem nodup (h : Grid t a n D q) : t.ddims.Nodup := by
  rw [h.ddims]
  refine List.Nodup.map_on ?_ List.nodup_range
  intro x _ y _ e
  have h2 := months_pos t.dgrain
  have e' : (x + 1) * t.dgrain.months = (y + 1) * t.dgrain.months := by exact_mod_cast e
  have := Nat.eq_of_mul_eq_mul_right h2 e'
  omega

theorem proper (h : Grid t a n D q) : Proper t where
  wf := h.wf
  ordered := h.ordered
  dated := h.dated
  nodup := h.nodup
  sorted := by
    intro o ho d hd e he
    exact h.graded o o e d le_rfl ho he hd
  finite := h.finite
  known := h.known'

/-- The latest diagonal keeps every origin; origin `o` is at age `D - 1 - q * o`. -/
theorem latest (h : Grid t a n D q) : ∃ l, t.latestDiagonal = .ok (.tri l) ∧
    DiagonalOf t l (List.range n) := by
  have h1 := h.two_ages
  have h2 := h.two_origins
  obtain ⟨l, hl, hd⟩ := C05_regular h.wf h.ordered h.dated h.distinct (by rw [h.lenD]; exact h1)
    (by rw [h.lenO]; omega) (D := D - 1) h.period (by rw [h.lenD]; omega)
    (by rw [h.lenO]; have := h.recent; omega) (by
      intro o ho
      rw [h.lenO] at ho
      have h3 := h.row_le ho
      rw [Nat.mul_comm] at h3
      rw [h.valuation_vd ho (by omega)]
      omega)
  rw [h.lenO] at hd
  refine ⟨l, ?_, hd⟩
  rw [hl]
  unfold toAgg
  rw [if_neg]
  rintro ⟨-, -, h3, -⟩
  rw [hd.wf.2.2.1, hd.origins.1, List.length_range] at h3
  omega

end Grid

namespace Standard
variable {t : Tri K} {a : Int} {n D q : Nat}

theorem cumTri (h : Standard t a n D q) : CumTri t where
  wf := h.wf
  ordered := h.ordered
  dated := h.dated
  distinct := h.distinct
  finite := h.finite
  ages := h.isVal
  cumulative := h.cumulative
  noPattern := h.noPattern
  index_pos := h.index_pos
  columns_pos := h.columns_pos
  origins_pos := by rw [h.lenO]; have := h.two_origins; omega
  ages_two := by rw [h.lenD]; exact h.two_ages

/-- Link ratios exist, one column for each age but the last. -/
theorem linkRatio (h : Standard t a n D q) : ∃ u, t.linkRatio = .ok u ∧ u.ddims = t.ddims.dropLast := by
  have h1 := h.two_ages
  have h2 := h.two_origins
  have hv : ∀ d, d + 1 < D → t.valuation 0 d < t.vd := by
    intro d hd
    rw [h.valuation_lt (by omega) (by omega)]
    omega
  obtain ⟨u, hu⟩ := C06_succeeds h.wf h.ordered h.dated h.graded h.noPattern (by rw [h.lenD]; exact h1)
    (o := 0) (d := 0) (by rw [h.lenO]; omega) (by rw [h.lenD]; omega) (hv 0 (by omega))
  refine ⟨u, hu, C06_ages h.wf h.ordered h.dated h.noPattern (by rw [h.lenD]; exact h1) ?_ hu⟩
  intro d hd
  rw [h.lenD] at hd
  exact ⟨0, by rw [h.lenO]; omega, hv d hd⟩

end Standard
end Tri
end CL
