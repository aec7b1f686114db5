import Verif.Lemmas.Additive
import Verif.Lemmas.LinkGrid
import Verif.Lemmas.Weights

set_option linter.unusedSectionVars false

/-! # `n_periods` on a regular grid -/

namespace CL
namespace Tri
variable {K : Type} [Field K] [LinearOrder K] [IsStrictOrderedRing K]
variable {t : Tri K} {a : Int} {n D q : Nat}

theorem Grid.cut (h : Grid t a n D q) (j : Nat) {o d : Nat} (ho : o < n) (hd : d < D) :
    t.vd - j * t.dgrain.months ≤ t.valuation o d ↔ D ≤ q * o + d + 1 + j := by
  rw [h.valuation ho hd, h.vd]
  have h2 := months_pos t.dgrain
  constructor
  · intro h3
    have : ((D : Nat) : Int) * t.dgrain.months ≤ ((q * o + d + 1 + j : Nat) : Int) * t.dgrain.months := by
      push_cast at h3 ⊢
      linarith
    have := le_of_mul_le_mul_right this (by omega)
    exact_mod_cast this
  · intro h3
    have : D * t.dgrain.months ≤ (q * o + d + 1 + j) * t.dgrain.months := Nat.mul_le_mul_right _ h3
    have : ((D * t.dgrain.months : Nat) : Int) ≤ ((q * o + d + 1 + j) * t.dgrain.months : Nat) := by
      exact_mod_cast this
    push_cast at this ⊢
    linarith

theorem Grid.nanTri_eq (h : Grid t a n D q) {o d : Nat} (ho : o < n) (hd : d < D) :
    t.nanTri o d = if q * o + d < D then 1 else .nan := by
  have hn := h.two_origins
  have hD := h.two_ages
  have x2 : t.values.d2 = n := by rw [h.wf.2.2.1, h.lenO]
  have x3 : t.values.d3 = D := by rw [h.wf.2.2.2, h.lenD]
  unfold Tri.nanTri
  rw [x2, x3, if_neg (c := min n D = 1) (by omega)]
  have hv := h.valuation_gt ho hd
  by_cases hk : q * o + d < D
  · rw [if_pos hk, if_neg]
    intro h'
    have := hv.1 h'
    omega
  · rw [if_neg hk, if_pos]
    exact hv.2 (by omega)

/-- The weights of the `j + 1` latest diagonals. -/
theorem Grid.recent_ok (h : Grid t a n D q) {j : Nat} (hj : j < D) (hcov : D ≤ q * (n - 1) + 1 + j) :
    ∃ w, Dev.recent t (-(j : Int) - 1) = .ok w ∧ Arr.SameShape w t.values ∧
      ∀ i < t.kdims.length, ∀ c < t.vdims.length, ∀ o < n, ∀ d < D, w.get i c o d =
        (if D ≤ q * o + d + 1 + j ∧ (t.values.get i c o d).amt ≠ 0 then 1 else 0) *
          (if q * o + d < D then 1 else .nan) := by
  have hn := h.two_origins
  have hD := h.two_ages
  have x0 := h.wf.1
  have x1 := h.wf.2.1
  have x2 : t.values.d2 = n := by rw [h.wf.2.2.1, h.lenO]
  have x3 : t.values.d3 = D := by rw [h.wf.2.2.2, h.lenD]
  have hpy := Dev.pyGet_known h.diagonals (j := j) ⟨0, by rw [h.lenO]; omega, 0, by rw [h.lenD]; omega, by
    rw [h.valuation (by omega) (by omega), h.vd]
    have : (q * 0 + 0 + 1 + j) * t.dgrain.months ≤ D * t.dgrain.months := Nat.mul_le_mul_right _ (by omega)
    have : (((q * 0 + 0 + 1 + j) * t.dgrain.months : Nat) : Int) ≤ (D * t.dgrain.months : Nat) := by
      exact_mod_cast this
    push_cast at this ⊢
    linarith⟩
  obtain ⟨w, hw, hs, hg⟩ := Dev.recent_eq h.wf h.finite (by omega) (by omega) hpy
    (fun o ho => ⟨D - 1, by omega, (h.cut j (by omega) (by omega)).2 (by omega)⟩)
    (fun d hd => ⟨n - 1, by omega, (h.cut j (by omega) (by omega)).2 (by omega)⟩)
  refine ⟨w, hw, hs, fun i hi c hc o ho d hd => ?_⟩
  rw [hg i (by omega) c (by omega) o (by omega) d (by omega), h.nanTri_eq ho hd]
  congr 1
  simp only [h.cut j ho hd]

end Tri

namespace Dev
open Tri
variable {K : Type} [Field K] [LinearOrder K] [IsStrictOrderedRing K]
variable {t : Tri K} {a : Int} {n D q : Nat}

/-- The latest diagonals reach every age. -/
def Covered (n D q : Nat) (k : Int) : Prop := k < 1 ∨ (n : Int) ≤ k ∨ (D : Int) ≤ q * (n - 1 + k) + 1

/-- `n_periods = k` keeps the link ratio of origin `o` at age `d`. -/
def Kept (n D q : Nat) (k : Int) (o d : Nat) : Prop := k < 1 ∨ (n : Int) - 1 ≤ k ∨ (D : Int) ≤ q * (o + k) + d + 1

instance (n D q : Nat) (k : Int) (o d : Nat) : Decidable (Kept n D q k o d) := by unfold Kept; infer_instance

theorem nPeriodsInt_ok (h : Grid t a n D q) (hq : valOffset t.dgrain t.ograin = some q) {k : Int} (hk : Covered n D q k)
    (nz : ∀ i < t.kdims.length, ∀ c < t.vdims.length, ∀ o < n, ∀ d < D, q * o + d < D → (t.values.get i c o d).amt ≠ 0) :
    ∃ w, nPeriodsInt t k = .ok w ∧ Arr.SameShape w t.values ∧
      ∀ i < t.kdims.length, ∀ c < t.vdims.length, ∀ o < n, ∀ d < D, w.get i c o d =
        if q * o + d < D then (if Kept n D q k o d then 1 else 0) else .nan := by
  have hn := h.two_origins
  have x0 := h.wf.1
  have x1 := h.wf.2.1
  have x2 : t.values.d2 = n := by rw [h.wf.2.2.1, h.lenO]
  have x3 : t.values.d3 = D := by rw [h.wf.2.2.2, h.lenD]
  unfold nPeriodsInt
  rw [x2]
  by_cases hc : k < 1 ∨ k ≥ (n : Int) - 1
  · rw [if_pos hc]
    refine ⟨_, rfl, ⟨rfl, rfl, rfl, rfl⟩, fun i hi c hcc o ho d hd => ?_⟩
    show t.values.get i c o d * 0 + 1 = _
    rw [if_pos (c := Kept n D q k o d) (by unfold Kept; omega)]
    split_ifs with hlt
    · rcases Num.noInf_cases (h.finite i (by omega) c (by omega) o (by omega) d (by omega)) with e | ⟨x, e⟩
      · exact absurd (by rw [e]; rfl) (nz i hi c hcc o ho d hd hlt)
      · rw [e]; simp [Num.zero_def, Num.one_def]
    · rw [h.known i hi c hcc o ho d hd (by omega)]; simp
  · rw [if_neg hc, hq]
    push Not at hc
    obtain ⟨k', rfl⟩ : ∃ k' : Nat, k = k' := ⟨k.toNat, by omega⟩
    have hk' : k' + 1 < n := by omega
    have e1 : q * k' < D := lt_of_le_of_lt (Nat.mul_le_mul_left _ (by omega)) h.recent
    have e2 : D ≤ q * (n - 1) + 1 + q * k' := by
      unfold Covered at hk
      have hk : (D : Int) ≤ q * (n - 1 + k') + 1 := by omega
      have : (D : Int) ≤ ((q * (n - 1) + 1 + q * k' : Nat) : Int) := by
        push_cast [Nat.cast_sub (show 1 ≤ n by omega)]
        linarith
      exact_mod_cast this
    obtain ⟨w, hw, hs, hcell⟩ := h.recent_ok e1 e2
    have ez : -(k' : Int) * (q : Nat) - 1 = -((q * k' : Nat) : Int) - 1 := by push_cast; ring
    simp only [ez]
    refine ⟨w, hw, hs, fun i hi c hcc o ho d hd => ?_⟩
    rw [hcell i hi c hcc o ho d hd]
    by_cases hlt : q * o + d < D
    · rw [if_pos hlt, if_pos hlt, mul_one]
      have : Kept n D q k' o d ↔ D ≤ q * o + d + 1 + q * k' := by
        unfold Kept
        have e3 : (q : Int) * (o + k') + d + 1 = ((q * o + d + 1 + q * k' : Nat) : Int) := by push_cast; ring
        rw [e3]
        omega
      simp only [this, nz i hi c hcc o ho d hd hlt, ne_eq, not_false_eq_true, and_true]
    · rw [if_neg hlt, if_neg hlt]
      simp

theorem nPeriodsWeight_ok (h : Grid t a n D q) (hq : valOffset t.dgrain t.ograin = some q) {ns : Nat → Int}
    (hk : ∀ d < D - 1, Covered n D q (ns d))
    (nz : ∀ i < t.kdims.length, ∀ c < t.vdims.length, ∀ o < n, ∀ d < D, q * o + d < D → (t.values.get i c o d).amt ≠ 0) :
    ∃ w, nPeriodsWeight t (D - 1) ns = .ok w ∧
      ∀ i < t.kdims.length, ∀ c < t.vdims.length, ∀ o < n, ∀ d < D - 1, bget w i c o d =
        if q * o + d < D then (if Kept n D q (ns d) o d then 1 else 0) else .nan := by
  have hD := h.two_ages
  have x0 := h.wf.1
  have x1 := h.wf.2.1
  have x2 : t.values.d2 = n := by rw [h.wf.2.2.1, h.lenO]
  have x3 : t.values.d3 = D := by rw [h.wf.2.2.2, h.lenD]
  have : Nonempty (Arr K) := ⟨t.values⟩
  choose! g hg1 hg2 hg3 using fun d (hd : d < D - 1) => nPeriodsInt_ok h hq (hk d hd) nz
  refine ⟨columns ((List.range (D - 1)).map g), ?_, fun i hi c hc o ho d hd => ?_⟩
  · unfold nPeriodsWeight
    rw [mapM_range (g := g) (fun d hd => hg1 d (by simpa using hd))]
    rfl
  · obtain ⟨e0, e1, e2, e3⟩ := columns_dims g (D - 1) (by omega)
    obtain ⟨s0, s1, s2, s3⟩ := hg2 0 (by omega)
    rw [bget_of_lt _ (by omega) (by omega) (by omega) (by omega), columns_map _ _ hd, hg3 d hd i hi c hc o ho d (by omega)]

/-- The weights of `Development` without exclusions. -/
theorem weights_periods (h : Grid t a n D q) (hq : valOffset t.dgrain t.ograin = some q) {p : Params K} (hp : p.NoDrop)
    (hk : ∀ d < D - 1, Covered n D q (p.nPeriods d))
    (nz : ∀ i < t.kdims.length, ∀ c < t.vdims.length, ∀ o < n, ∀ d < D, q * o + d < D → (t.values.get i c o d).amt ≠ 0) :
    ∃ w, weights t p = .ok w ∧
      ∀ i < t.kdims.length, ∀ c < t.vdims.length, ∀ o < n, ∀ d < D - 1, w.get i c o d =
        if q * o + d < D then (if Kept n D q (p.nPeriods d) o d then 1 else 0) else .nan := by
  have x3 : t.values.d3 = D := by rw [h.wf.2.2.2, h.lenD]
  obtain ⟨w, hw, hc⟩ := nPeriodsWeight_ok h hq hk nz
  obtain ⟨h1, h2, h3, h4, h5, h6⟩ := hp
  unfold weights dropAdjustment
  rw [x3, hw]
  simp only [h1, h2, h3, h4, h5, h6, Option.map_none, optWeight, Option.isSome_none, bind,
    Except.bind, Bool.or_self]
  refine ⟨_, rfl, ?_⟩
  intro i hi c hcc o ho d hd
  simp only [Bool.false_eq_true, if_false]
  rw [hc i hi c hcc o ho d hd, h.nanTri_eq ho (by omega)]
  show _ * (_ * 1 * 1) = _
  split_ifs <;> simp [Num.zero_def, Num.one_def]

/-- `nPeriodsWeightFunc` of the link ratios does not raise. -/
theorem nPeriodsFunc_ok (h : Standard t a n D q) (hn : 3 ≤ n) {ns : Nat → Int}
    (nz : NoZeros t) (hk : ∀ d < D - 1, Covered n D q (ns d))
    (hq : (∀ d < D - 1, ns d < 1) ∨ valOffsetFunc t.dgrain t.ograin = some q) :
    ∃ lr w, t.linkRatio = .ok lr ∧ nPeriodsWeightFunc lr ns = .ok w := by
  have hrec := h.recent
  have hper := h.period
  have hqn : q * 2 ≤ q * (n - 1) := Nat.mul_le_mul_left _ (by omega)
  have hrow : 2 ≤ linkRows n D q := by unfold linkRows; split_ifs <;> omega
  obtain ⟨lr, hlr, hg, -, -, hog, hdg, -⟩ := h.linkGrid (by omega) nz hrow
  have x2 : lr.values.d2 = linkRows n D q := by rw [hg.wf.2.2.1, hg.lenO]
  have x3 : lr.values.d3 = D - 1 := by rw [hg.wf.2.2.2, hg.lenD]
  have key : ∀ d < D - 1, ∃ w, nPeriodsFuncInt lr (ns d) = .ok w := by
    intro d hd
    unfold nPeriodsFuncInt
    rw [x2]
    by_cases hc : ns d < 1 ∨ ns d ≥ (linkRows n D q : Int)
    · rw [if_pos hc]; exact ⟨_, rfl⟩
    · rw [if_neg hc]
      push Not at hc
      have hv : valOffsetFunc t.dgrain t.ograin = some q := by
        rcases hq with hq | hq
        · have := hq d hd; omega
        · exact hq
      rw [hdg, hog, hv]
      obtain ⟨k, hkk⟩ : ∃ k : Nat, ns d = k := ⟨(ns d).toNat, by omega⟩
      have hk1 : 1 ≤ k := by omega
      have hk2 : k < linkRows n D q := by omega
      have e0 : 1 ≤ q * k := Nat.mul_pos hper hk1
      have ez : -ns d * ((q : Nat) : Int) = -((q * k - 1 : Nat) : Int) - 1 := by
        rw [hkk]; push_cast [Nat.cast_sub e0]; ring
      simp only [ez]
      have e1 : q * k < D := lt_of_le_of_lt
        (Nat.mul_le_mul_left _ (by unfold linkRows at hk2; split_ifs at hk2 <;> omega)) hrec
      have hcov : (D : Int) ≤ q * (n - 1 + k) + 1 := by
        rcases hk d hd with h1 | h1 | h1
        · omega
        · unfold linkRows at hk2; split_ifs at hk2 <;> omega
        · rw [hkk] at h1; exact h1
      have hcov : D ≤ q * (n - 1) + q * k + 1 := by
        have : (D : Int) ≤ ((q * (n - 1) + q * k + 1 : Nat) : Int) := by
          push_cast [Nat.cast_sub (show 1 ≤ n by omega)]
          linarith
        exact_mod_cast this
      obtain ⟨w, hw, -⟩ := hg.recent_ok (j := q * k - 1) (by omega) (by
        unfold linkRows
        split_ifs with hl
        · omega
        · have e3 : q * (n - 1) = q * (n - 1 - 1) + q := by
            conv_lhs => rw [show n - 1 = (n - 1 - 1) + 1 by omega]
            ring
          have e4 : q ≤ q * k := Nat.le_mul_of_pos_right _ hk1
          omega)
      exact ⟨w, hw⟩
  have : Nonempty (Arr K) := ⟨t.values⟩
  choose! g hg' using key
  refine ⟨lr, columns ((List.range (D - 1)).map g), hlr, ?_⟩
  unfold nPeriodsWeightFunc
  rw [x3, mapM_range (g := g) (fun d hd => hg' d (by simpa using hd))]
  rfl

end Dev
end CL
