import Verif.Lemmas.Periods
import Verif.Spec.Periods
import Verif.Spec.Examples

set_option linter.unusedSectionVars false

/-! # C32 on a regular grid -/

namespace CL
namespace Dev
open Tri
variable {K : Type} [Field K] [LinearOrder K] [IsStrictOrderedRing K]
variable {t : Tri K} {a : Int} {n D q : Nat}

theorem mem_linked {o d : Nat} : o ∈ linked n D q d ↔ o < n ∧ q * o + d + 1 < D := by simp [linked]

theorem kept_iff (hq : 1 ≤ q) (hD : D ≤ q * n) {k : Int} {o d : Nat} (ho : o ∈ linked n D q d) :
    Kept n D q k o d ↔ o ∈ latestOf n D q k d := by
  unfold latestOf Kept
  rw [Finset.mem_filter]
  simp only [ho, true_and]
  rw [mem_linked] at ho
  by_cases hk : k < 1
  · simp [hk]
  · obtain ⟨k', rfl⟩ : ∃ k' : Nat, k = k' := ⟨k.toNat, by omega⟩
    have e : (linked n D q d).filter (o < ·) = Finset.Ioc o ((D - 2 - d) / q) := by
      ext o'
      rw [Finset.mem_filter, mem_linked, Finset.mem_Ioc]
      rw [Nat.le_div_iff_mul_le (by omega), Nat.mul_comm o' q]
      constructor
      · rintro ⟨⟨h1, h2⟩, h3⟩
        exact ⟨h3, by omega⟩
      · rintro ⟨h1, h2⟩
        refine ⟨⟨?_, by omega⟩, h1⟩
        by_contra hc
        have : q * n ≤ q * o' := Nat.mul_le_mul_left _ (by omega)
        omega
    rw [e, Nat.card_Ioc]
    have h2 : (D : Int) ≤ q * (o + k') + d + 1 ↔ (D - 2 - d) / q < o + k' := by
      rw [Nat.div_lt_iff_lt_mul (by omega)]
      have : (q : Int) * (o + k') + d + 1 = (((o + k') * q + d + 1 : Nat) : Int) := by push_cast; ring
      rw [this]
      omega
    rw [h2]
    omega

/-- **C32** on a regular grid that reaches the current origin: without exclusions, the link ratios of an age
with weight 1 are the `n_periods` latest; the others have weight 0. -/
theorem C32_latest (h : Grid t a n D q) (hq : valOffset t.dgrain t.ograin = some q) {p : Params K} (hp : p.NoDrop)
    (hD : (∀ d < D - 1, p.nPeriods d < 1) ∨ D ≤ q * n)
    (nz : ∀ i < t.kdims.length, ∀ c < t.vdims.length, ∀ o < n, ∀ d < D, q * o + d < D → (t.values.get i c o d).amt ≠ 0) :
    ∃ w, weights t p = .ok w ∧
      ∀ i < t.kdims.length, ∀ c < t.vdims.length, ∀ d < D - 1, ∀ o ∈ linked n D q d, w.get i c o d =
        if o ∈ latestOf n D q (p.nPeriods d) d then 1 else 0 := by
  have hn := h.two_origins
  obtain ⟨w, hw, hc⟩ := weights_periods h hq hp (fun d hd => by
    unfold Covered
    rcases hD with hD | hD
    · exact Or.inl (hD d hd)
    · by_cases hk : p.nPeriods d < 1
      · exact Or.inl hk
      · right; right
        have h1 : (q : Int) * n ≤ q * (n - 1 + p.nPeriods d) := mul_le_mul_of_nonneg_left (by omega) (by omega)
        have h2 : (D : Int) ≤ q * n := by exact_mod_cast hD
        omega) nz
  refine ⟨w, hw, fun i hi c hcc d hd o ho => ?_⟩
  have ho' := mem_linked.1 ho
  rw [hc i hi c hcc o ho'.1 d hd, if_pos (by omega)]
  rcases hD with hD | hD
  · rw [if_pos (c := Kept n D q _ o d) (Or.inl (hD d hd)), if_pos]
    unfold latestOf
    rw [Finset.mem_filter]
    exact ⟨ho, Or.inl (hD d hd)⟩
  · simp only [kept_iff h.period hD ho]

theorem noZeros_of (h : Grid t a n D q)
    (nz : ∀ i < t.kdims.length, ∀ c < t.vdims.length, ∀ o < n, ∀ d < D, q * o + d < D → (t.values.get i c o d).amt ≠ 0) :
    NoZeros t := by
  have x0 := h.wf.1
  have x1 := h.wf.2.1
  have x2 : t.values.d2 = n := by rw [h.wf.2.2.1, h.lenO]
  have x3 : t.values.d3 = D := by rw [h.wf.2.2.2, h.lenD]
  intro i hi c hc o ho d hd e
  by_cases hlt : q * o + d < D
  · exact nz i (by omega) c (by omega) o (by omega) d (by omega) hlt (by rw [e]; rfl)
  · rw [h.known i (by omega) c (by omega) o (by omega) d (by omega) (by omega)] at e
    cases e

theorem covered_of {k : Int} (hD : D ≤ q * n) : Covered n D q k := by
  unfold Covered
  by_cases hk : k < 1
  · exact Or.inl hk
  · right; right
    have h1 : (q : Int) * n ≤ q * (n - 1 + k) := mul_le_mul_of_nonneg_left (by omega) (by omega)
    have h2 : (D : Int) ≤ q * n := by exact_mod_cast hD
    omega

/-- **C32** on a regular grid that reaches the current origin: `fit` gives for every age the average over the
`n_periods` latest link ratios. -/
theorem C32_grid (h : Standard t a n D q) (hn : 3 ≤ n) (hq : valOffset t.dgrain t.ograin = some q)
    (hq' : valOffsetFunc t.dgrain t.ograin = some q) (hD : D ≤ q * n) {p : Params K} (hp : p.NoDrop)
    (nz : ∀ i < t.kdims.length, ∀ c < t.vdims.length, ∀ o < n, ∀ d < D, q * o + d < D → (t.values.get i c o d).amt ≠ 0) :
    ∃ u, fit t p = .ok u ∧ ∀ i < t.kdims.length, ∀ c < t.vdims.length, ∀ d < D - 1, u.values.get i c 0 d =
      (Num.fin (average t i c d (latestOf n D q (p.nPeriods d) d) (p.average d))).numToNan := by
  have hg := h.toGrid
  have x0 := hg.wf.1
  have x1 := hg.wf.2.1
  have x2 : t.values.d2 = n := by rw [hg.wf.2.2.1, hg.lenO]
  have x3 : t.values.d3 = D := by rw [hg.wf.2.2.2, hg.lenD]
  obtain ⟨lr, v, hlr, hv⟩ := nPeriodsFunc_ok h hn (ns := p.nPeriods) (noZeros_of hg nz) (fun _ _ => covered_of hD) (Or.inr hq')
  obtain ⟨w, hw, hc⟩ := C32_latest hg hq hp (Or.inr hD) nz
  refine ⟨_, by
    simp only [fit, hlr, hv, hw, paramTri, hp.1, hp.2.1, Option.map_none, optWeight, bind, Except.bind]; rfl, fun i hi c hcc d hd => ?_⟩
  show (ldfArr t p w).get i c 0 d = _
  rw [C28_average hg.finite p w (by omega) (by omega) (by omega) (fun o _ => weights_zeroOne (by omega) hw i c o d)]
  congr 3
  unfold included
  ext o
  have hl : o ∈ latestOf n D q (p.nPeriods d) d → o ∈ linked n D q d := fun h => (Finset.mem_filter.1 h).1
  rw [Finset.mem_filter, Finset.mem_range, x2]
  constructor
  · rintro ⟨ho, h1, h2, h3⟩
    have hk : o ∈ linked n D q d := by
      rw [mem_linked]
      refine ⟨ho, ?_⟩
      by_contra hcon
      apply h2
      unfold amount
      rw [hg.known i hi c hcc o ho (d + 1) (by omega) (by omega)]
      rfl
    have h3 : (w.get i c o d).amt ≠ 0 := h3
    rw [hc i hi c hcc d hd o hk] at h3
    by_contra hcon
    rw [if_neg hcon] at h3
    exact h3 rfl
  · intro ho
    have hk := mem_linked.1 (hl ho)
    refine ⟨hk.1, nz i hi c hcc o hk.1 d (by omega) (by omega), nz i hi c hcc o hk.1 (d + 1) (by omega) (by omega), ?_⟩
    show (w.get i c o d).amt ≠ 0
    rw [hc i hi c hcc d hd o (hl ho), if_pos ho]
    exact one_ne_zero

namespace C32Grid

/-- Four origins and ages. -/
def tri : Tri ℚ :=
  { kdims := [["Total"]]
    keyLabels := ["Total"]
    vdims := ["paid"]
    odims := [24000, 24012, 24024, 24036]
    ddims := [12, 24, 36, 48]
    isVal := false
    ograin := .Y
    dgrain := .Y
    vd := 24047
    isCum := some true
    isPattern := false
    isAdditive := none
    values := ⟨1, 1, 4, 4, fun _ _ o d => if o + d < 4 then .fin (100 + 10 * o + 50 * d) else .nan⟩ }

theorem standard : Standard tri 24000 4 4 1 where
  wf := ⟨rfl, rfl, rfl, rfl⟩
  finite := by
    intro i _ c _ o _ d _
    show (if o + d < 4 then (Num.fin _ : Num ℚ) else .nan).NoInf
    split
    · exact Num.noInf_fin _
    · exact Num.noInf_nan
  isVal := rfl
  index_pos := by decide
  columns_pos := by decide
  two_origins := by decide
  period := by decide
  recent := by decide
  odims := by decide
  ddims := by decide
  vd := by decide
  short := by decide
  early := by decide
  known := by
    intro i _ c _ o ho d hd hlt
    show (if o + d < 4 then _ else .nan) = Num.nan
    rw [if_neg (by omega)]
  cumulative := by decide
  noPattern := rfl
  multiplicative := rfl

/-- Two of the three ratios of the first age are averaged: 160/110 and 170/120. -/
example : ∃ u, fit tri { nPeriods := fun _ => 2, average := fun _ => .simple } = .ok u ∧
    u.values.get 0 0 0 0 = .fin ((160 / 110 + 170 / 120) / 2) := by
  obtain ⟨u, hu, hc⟩ := C32_grid standard (by decide) rfl rfl (by decide)
    (p := { nPeriods := fun _ => 2, average := fun _ => .simple }) ⟨rfl, rfl, rfl, rfl, rfl, rfl⟩ (by decide +kernel)
  refine ⟨u, hu, ?_⟩
  rw [hc 0 (by decide) 0 (by decide) 0 (by decide)]
  decide +kernel

end C32Grid

end Dev
end CL
