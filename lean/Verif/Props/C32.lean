import Verif.Props.C31
import Verif.Lemmas.Union

set_option linter.unusedSectionVars false

/-! # C32: `n_periods` -/

namespace CL
namespace Dev
variable {K : Type} [Field K] [LinearOrder K] [IsStrictOrderedRing K]
open Tri

/-- The known valuations are the valuation date and dates before it in steps of the development
grain, without gaps. -/
structure Diagonals (t : Tri K) : Prop where
  step : ∀ o < t.odims.length, ∀ d < t.ddims.length, t.valuation o d ≤ t.vd →
    ∃ j : Nat, t.valuation o d = t.vd - j * t.dgrain.months
  gapless : ∀ o < t.odims.length, ∀ d < t.ddims.length, ∀ j : Nat,
    t.valuation o d ≤ t.vd - j * t.dgrain.months →
      ∃ o' < t.odims.length, ∃ d' < t.ddims.length, t.valuation o' d' = t.vd - j * t.dgrain.months

theorem mem_knownValuations {t : Tri K} {v : Int} : v ∈ knownValuations t ↔
    (∃ o < t.odims.length, ∃ d < t.ddims.length, t.valuation o d = v) ∧ v ≤ t.vd := by
  unfold knownValuations
  rw [List.mem_insertionSort, List.mem_dedup, List.mem_filter, mem_valuations]
  simp

theorem knownValuations_eq {t : Tri K} {l : List Int} (h : l.Pairwise (· < ·))
    (hm : ∀ v, v ∈ l ↔ (∃ o < t.odims.length, ∃ d < t.ddims.length, t.valuation o d = v) ∧ v ≤ t.vd) :
    knownValuations t = l := by
  have e : knownValuations t = unionSorted (t.valuations.filter fun v => decide (v ≤ t.vd)) [] := by
    simp [knownValuations, unionSorted]
  rw [e]
  apply unionSorted_eq h
  intro x
  rw [hm, ← mem_knownValuations, e, unionSorted_mem]

/-- The cutoff: the known valuation `j` steps before the valuation date. -/
theorem pyGet_known {t : Tri K} (h : Diagonals t) {j : Nat}
    (hex : ∃ o < t.odims.length, ∃ d < t.ddims.length,
      t.valuation o d ≤ t.vd - j * t.dgrain.months) :
    pyGet (knownValuations t) (-(j : Int) - 1) = .ok (t.vd - j * t.dgrain.months) := by
  have hg : 0 < t.dgrain.months := by cases t.dgrain <;> decide
  set g : Int := (t.dgrain.months : Int) with hgdef
  have hg' : 0 < g := by simpa [hgdef] using hg
  set c := t.vd - j * g with hc
  have hgap := h.gapless
  have hstep := h.step
  simp only [← hgdef] at hgap hstep
  obtain ⟨o0, ho0, d0, hd0, h0⟩ := hex
  let B := (List.range (j + 1)).map fun k : Nat => t.vd - ((j - k : Nat) : Int) * g
  have e : knownValuations t = (knownValuations t).filter (fun v => decide (v < c)) ++ B := by
    apply knownValuations_eq
    · rw [List.pairwise_append]
      refine ⟨?_, ?_, ?_⟩
      · have : (knownValuations t).Pairwise (· < ·) := by
          have e : knownValuations t =
              unionSorted (t.valuations.filter fun v => decide (v ≤ t.vd)) [] := by
            simp [knownValuations, unionSorted]
          rw [e]; exact unionSorted_sorted _ _
        exact this.filter _
      · rw [List.pairwise_map]
        refine List.Pairwise.imp_of_mem ?_ List.pairwise_lt_range
        intro a b ha hb hab
        have hb : b < j + 1 := by simpa using hb
        have h1 : ((j - b : Nat) : Int) * g < ((j - a : Nat) : Int) * g :=
          mul_lt_mul_of_pos_right (by omega) hg'
        omega
      · intro a ha b hb
        obtain ⟨k, hk, rfl⟩ := List.mem_map.1 hb
        have hk : k < j + 1 := by simpa using hk
        have ha : a < c := by simpa using (List.mem_filter.1 ha).2
        have h1 : ((j - k : Nat) : Int) * g ≤ (j : Int) * g :=
          mul_le_mul_of_nonneg_right (by omega) hg'.le
        omega
    · intro v
      rw [List.mem_append, List.mem_filter, mem_knownValuations, List.mem_map]
      constructor
      · rintro (⟨h1, -⟩ | ⟨k, hk, rfl⟩)
        · exact h1
        · have hk : k < j + 1 := by simpa using hk
          have h1 : ((j - k : Nat) : Int) * g ≤ (j : Int) * g :=
            mul_le_mul_of_nonneg_right (by omega) hg'.le
          have h2 : 0 ≤ ((j - k : Nat) : Int) * g := mul_nonneg (by omega) hg'.le
          exact ⟨hgap o0 ho0 d0 hd0 (j - k) (by omega), by omega⟩
      · rintro ⟨⟨o, ho, d, hd, rfl⟩, hv⟩
        by_cases hlt : t.valuation o d < c
        · left; exact ⟨⟨⟨o, ho, d, hd, rfl⟩, hv⟩, by simpa using hlt⟩
        · right
          obtain ⟨m, hm⟩ := hstep o ho d hd hv
          have hmj : m ≤ j := by
            by_contra hcon
            have : ((j : Int) + 1) * g ≤ (m : Int) * g := mul_le_mul_of_nonneg_right (by omega) hg'.le
            have h3 : ((j : Int) + 1) * g = j * g + g := by ring
            rw [hm] at hlt
            omega
          refine ⟨j - m, by simp, ?_⟩
          rw [hm, show j - (j - m) = m by omega]
  rw [e]
  unfold pyGet
  have hlen : B.length = j + 1 := by simp [B]
  simp only [List.length_append, hlen]
  rw [if_pos (by omega)]
  rw [if_pos (by push_cast; omega)]
  congr 1
  have hidx : (-(j : Int) - 1 + (((knownValuations t).filter (fun v => decide (v < c))).length +
      (j + 1) : Nat)).toNat = ((knownValuations t).filter (fun v => decide (v < c))).length := by
    push_cast; omega
  rw [hidx, List.getD_eq_getElem?_getD, List.getElem?_append_right le_rfl]
  simp [B, hc]

theorem valOffset_months {dg og : Grain} {k : Nat} (h : valOffset dg og = some k) :
    og.months = k * dg.months := by
  cases dg <;> cases og <;> simp only [valOffset, Option.some.injEq, reduceCtorEq] at h <;>
    subst h <;> rfl

/-- **C32**, the weights of `1 ≤ n < origins - 1` periods: 1 for nonzero cells valued at most `n`
origin periods before the valuation date, 0 for other known cells, missing after it.  For triangles
where every origin and every age has a cell (known or future) valued in that range. -/
theorem C32_weights_partial {t : Tri K} (wf : WF t) (fin : Tri.Finite t) (diag : Diagonals t)
    (hd : 1 < t.values.d3) {n : Nat} (h1 : 1 ≤ n) (h2 : n + 1 < t.values.d2) {k : Nat}
    (hk : valOffset t.dgrain t.ograin = some k)
    (hex : ∃ o < t.odims.length, ∃ d < t.ddims.length,
      t.valuation o d ≤ t.vd - n * t.ograin.months)
    (hr : ∀ o < t.values.d2, ∃ d < t.values.d3, t.vd - n * t.ograin.months ≤ t.valuation o d)
    (hc : ∀ d < t.values.d3, ∃ o < t.values.d2, t.vd - n * t.ograin.months ≤ t.valuation o d) :
    ∃ w, nPeriodsInt t n = .ok w ∧ Arr.SameShape w t.values ∧
      ∀ i < t.values.d0, ∀ c < t.values.d1, ∀ o < t.values.d2, ∀ d < t.values.d3,
        w.get i c o d =
          if t.valuation o d > t.vd then .nan
          else if t.vd - n * t.ograin.months ≤ t.valuation o d ∧ (t.values.get i c o d).amt ≠ 0
          then 1 else 0 := by
  have hm := valOffset_months hk
  have e : (n : Int) * t.ograin.months = ((n * k : Nat) : Int) * t.dgrain.months := by
    rw [hm]; push_cast; ring
  simp only [e] at hex hr hc ⊢
  unfold nPeriodsInt
  rw [if_neg (by omega), hk]
  have hv := pyGet_known diag hex
  have hz : (-(n : Int) * k - 1) = -((n * k : Nat) : Int) - 1 := by push_cast; ring
  simp only [hz]
  obtain ⟨w, hw, hs, hg⟩ := recent_eq wf fin hd (by omega) hv hr hc
  refine ⟨w, hw, hs, ?_⟩
  intro i hi c hc o ho d hd'
  rw [hg i hi c hc o ho d hd']
  have hmin : min t.values.d2 t.values.d3 ≠ 1 := by omega
  unfold nanTri
  rw [if_neg hmin]
  by_cases hv : t.valuation o d > t.vd
  · simp [hv]
  · rw [if_neg hv, if_neg hv]
    split_ifs <;> simp [Num.zero_def, Num.one_def]

/-- **C32**: other values use all cells. -/
theorem C32_all (t : Tri K) {n : Int} (h : n < 1 ∨ (t.values.d2 : Int) - 1 ≤ n) :
    nPeriodsInt t n = .ok (t.values.map fun x => x * 0 + 1) := by
  unfold nPeriodsInt
  rw [if_pos (by omega)]

theorem mapM_range {β : Type} {f : Nat → Except Err β} {g : Nat → β} {l : List Nat}
    (h : ∀ a ∈ l, f a = .ok (g a)) : l.mapM f = .ok (l.map g) := by
  induction l with
  | nil => rfl
  | cons a l ih =>
    rw [List.mapM_cons, h a (by simp), ih (fun b hb => h b (by simp [hb]))]
    rfl

/-- The origins `n_periods = n` leaves for an age. -/
def inPeriods (t : Tri K) (n : Int) (i c d : Nat) : Finset Nat :=
  (included t (fun _ _ _ _ => 1) i c d).filter fun o =>
    n < 1 ∨ (t.values.d2 : Int) - 1 ≤ n ∨ t.vd - n * t.ograin.months ≤ t.valuation o d

/-- **C32**, the fit: with `n_periods` given per age and no other exclusion, each factor is the
average over the origins whose link ratio starts at most `n` origin periods before the valuation
date. -/
theorem C32_fit_partial {t u : Tri K} (h : Regular t) (diag : Diagonals t) (hd1 : 1 < t.values.d3)
    {p : Params K} (hp : p.NoDrop) (hu : fit t p = .ok u)
    (hper : ∀ d, 1 ≤ p.nPeriods d → p.nPeriods d < (t.values.d2 : Int) - 1 →
      (∃ o < t.odims.length, ∃ d' < t.ddims.length,
        t.valuation o d' ≤ t.vd - p.nPeriods d * t.ograin.months) ∧
      (∀ o < t.values.d2, ∃ d' < t.values.d3,
        t.vd - p.nPeriods d * t.ograin.months ≤ t.valuation o d') ∧
      ∀ d' < t.values.d3, ∃ o < t.values.d2,
        t.vd - p.nPeriods d * t.ograin.months ≤ t.valuation o d')
    {k : Nat} (hk : valOffset t.dgrain t.ograin = some k)
    {i c d : Nat} (hi : i < t.values.d0) (hc : c < t.values.d1) (hd : d + 1 < t.values.d3) :
    u.values.get i c 0 d =
      (Num.fin (average t i c d (inPeriods t (p.nPeriods d) i c d) (p.average d))).numToNan := by
  -- each column of weights
  have hcol : ∀ d, ∃ w, nPeriodsInt t (p.nPeriods d) = .ok w ∧ Arr.SameShape w t.values ∧
      ∀ i < t.values.d0, ∀ c < t.values.d1, ∀ o < t.values.d2, ∀ d' < t.values.d3,
        amount t i c o d' ≠ 0 → w.get i c o d' =
          if p.nPeriods d < 1 ∨ (t.values.d2 : Int) - 1 ≤ p.nPeriods d ∨
            t.vd - p.nPeriods d * t.ograin.months ≤ t.valuation o d' then 1 else 0 := by
    intro d
    by_cases hall : p.nPeriods d < 1 ∨ (t.values.d2 : Int) - 1 ≤ p.nPeriods d
    · refine ⟨_, C32_all t hall, ⟨rfl, rfl, rfl, rfl⟩, ?_⟩
      intro i hi c hc o ho d' hd' hne
      rw [if_pos (by tauto)]
      show t.values.get i c o d' * 0 + 1 = 1
      unfold amount at hne
      rcases Num.noInf_cases (h.finite i hi c hc o ho d' hd') with e | ⟨a, e⟩
      · rw [e] at hne; simp at hne
      · rw [e]; simp [Num.zero_def, Num.one_def]
    · have hall : 1 ≤ p.nPeriods d ∧ p.nPeriods d < (t.values.d2 : Int) - 1 := by omega
      obtain ⟨a1, a2, a3⟩ := hper d hall.1 hall.2
      obtain ⟨n, hn⟩ : ∃ n : Nat, p.nPeriods d = n := ⟨(p.nPeriods d).toNat, by omega⟩
      rw [hn] at a1 a2 a3 hall ⊢
      obtain ⟨w, hw, hs, hg⟩ := C32_weights_partial h.wf h.finite diag hd1 (n := n) (by omega)
        (by omega) hk a1 a2 a3
      refine ⟨w, hw, hs, ?_⟩
      intro i hi c hc o ho d' hd' hne
      rw [hg i hi c hc o ho d' hd']
      have hv : ¬ t.valuation o d' > t.vd := by
        intro hv
        apply hne
        unfold amount
        rw [h.known i hi c hc o ho d' hd' hv]; rfl
      rw [if_neg hv]
      have : ¬ ((n : Int) < 1) ∧ ¬ ((t.values.d2 : Int) - 1 ≤ n) := by omega
      simp only [this.1, this.2, false_or]
      unfold amount at hne
      simp only [ne_eq, hne, not_false_eq_true, and_true]
  choose ws hws hshape hcell using hcol
  have hnp : nPeriodsWeight t (t.values.d3 - 1) p.nPeriods =
      .ok (columns ((List.range (t.values.d3 - 1)).map ws)) := by
    unfold nPeriodsWeight
    rw [mapM_range (g := ws) (fun a _ => hws a)]
    rfl
  obtain ⟨g1, g2, g3, g4, g5, g6⟩ := hp
  obtain ⟨w, hw, hwv⟩ : ∃ w, weights t p = .ok w ∧ ∀ o < t.values.d2, w.get i c o d =
      (ws d).get i c o d * (t.nanTri o d * 1 * 1) := by
    unfold weights dropAdjustment
    simp only [hnp, g1, g2, g3, g4, g5, g6, Option.map_none, optWeight, Option.isSome_none, bind,
      Except.bind, Bool.or_self]
    refine ⟨_, rfl, ?_⟩
    intro o ho
    have hm : 0 < t.values.d3 - 1 := by omega
    obtain ⟨e0, e1, e2, e3⟩ := columns_dims ws (t.values.d3 - 1) hm
    obtain ⟨s0, s1, s2, s3⟩ := hshape 0
    simp only [Bool.false_eq_true, if_false]
    rw [bget_of_lt _ (by rw [e0, s0]; exact hi) (by rw [e1, s1]; exact hc)
      (by rw [e2, s2]; exact ho) (by rw [e3]; omega), columns_map _ _ (by omega)]
    rfl
  have hval : u.values = ldfArr t p w := fit_values hw hu
  rw [hval, C28_average h.finite p w hi hc hd (fun o _ => weights_zeroOne hd1 hw i c o d)]
  congr 3
  unfold inPeriods included
  rw [Finset.filter_filter]
  apply Finset.filter_congr
  intro o ho
  have ho : o < t.values.d2 := by simpa using ho
  beta_reduce
  rw [hwv o ho]
  by_cases hne : amount t i c o d = 0
  · simp [hne]
  have hn1 : t.nanTri o d = 1 := by
    rcases Tri.nanTri_eq t o d with e | ⟨-, e⟩
    · exact e
    · exfalso; apply hne
      unfold amount
      rw [h.known i hi c hc o ho d (by omega) e]; rfl
  rw [hcell d i hi c hc o ho d (by omega) hne, hn1]
  split_ifs with hin
  · constructor
    · rintro ⟨a, b, -⟩; exact ⟨⟨a, b, one_ne_zero⟩, hin⟩
    · rintro ⟨⟨a, b, -⟩, -⟩; exact ⟨a, b, by simp [Num.one_def]⟩
  · constructor
    · rintro ⟨-, -, hx⟩; exact absurd (by simp [Num.one_def, Num.zero_def]) hx
    · rintro ⟨-, hx⟩; exact absurd hx hin

/-- **C32** is false for triangles with fewer ages than origins: the cutoff removes the older
origins, and the weights no longer have the shape of the triangle. -/
theorem C32_shape_false : ∃ t : Tri ℚ, Regular t ∧ Diagonals t ∧
    fit t { nPeriods := fun _ => 1 } = .error .valueError := by
  refine ⟨tri53, regular_tri53, ⟨?_, ?_⟩, rfl⟩
  · intro o ho d hd
    have ho : o < 5 := ho
    have hd : d < 3 := hd
    interval_cases o <;> interval_cases d <;> intro h <;>
      first
      | exact ⟨0, by decide⟩ | exact ⟨1, by decide⟩ | exact ⟨2, by decide⟩ | exact ⟨3, by decide⟩
      | exact ⟨4, by decide⟩ | exact absurd h (by decide)
  · intro o ho d hd j h
    have ho : o < 5 := ho
    have hd : d < 3 := hd
    have hv : (24011 : Int) ≤ tri53.valuation o d := by
      interval_cases o <;> interval_cases d <;> decide
    have hj : j < 5 := by
      have h1 : tri53.vd = 24059 := rfl
      have h2 : tri53.dgrain.months = 12 := rfl
      rw [h1, h2] at h
      push_cast at h
      omega
    interval_cases j
    · exact ⟨4, by decide, 0, by decide, by decide⟩
    · exact ⟨3, by decide, 0, by decide, by decide⟩
    · exact ⟨2, by decide, 0, by decide, by decide⟩
    · exact ⟨1, by decide, 0, by decide, by decide⟩
    · exact ⟨0, by decide, 0, by decide, by decide⟩

/-- Three half-year origins and six quarterly ages. -/
def triHalf : Tri ℚ where
  kdims := [["Total"]]
  keyLabels := ["Total"]
  vdims := ["paid"]
  odims := [24240, 24246, 24252]
  ddims := [3, 6, 9, 12, 15, 18]
  isVal := false
  ograin := .S
  dgrain := .Q
  vd := 24257
  isCum := some true
  isPattern := false
  isAdditive := none
  values := ⟨1, 1, 3, 6, fun _ _ o d => if 2 * o + d < 6 then .fin (10 + d) else .nan⟩

theorem regular_triHalf : Regular triHalf where
  wf := by decide
  ordered := by unfold Ordered; decide
  finite := by
    intro i hi c hc o ho d hd
    show Num.NoInf (if 2 * o + d < 6 then _ else _)
    split_ifs <;> trivial
  known := by
    intro i hi c hc o ho d hd hv
    have ho : o < 3 := ho
    have hd : d < 6 := hd
    revert hv
    interval_cases o <;> interval_cases d <;> first | (intro; rfl) | (intro h; exact absurd h (by decide))

/-- **C32** is false for half-year origins with quarterly ages: the second table of offsets has no
entry for them, and `n_periods = 1` is a `KeyError`, though the first table has one. -/
theorem C32_half_year_false : ∃ t : Tri ℚ, Regular t ∧ valOffset t.dgrain t.ograin = some 2 ∧
    fit t { nPeriods := fun _ => 1 } = .error .keyError :=
  ⟨triHalf, regular_triHalf, rfl, rfl⟩

/-- Four yearly origins and ages. -/
def tri4 : Tri ℚ where
  kdims := [["Total"]]
  keyLabels := ["Total"]
  vdims := ["paid"]
  odims := [24000, 24012, 24024, 24036]
  ddims := [12, 24, 36, 48]
  isVal := false
  ograin := .Y
  dgrain := .Y
  vd := 24047
  isCum := some true
  isPattern := false
  isAdditive := none
  values := ⟨1, 1, 4, 4, fun _ _ o d => if o + d < 4 then .fin ((o + 1) * (d + 1) + o * d) else .nan⟩

example : ∃ u, fit tri4 { nPeriods := fun d => if d = 0 then 1 else 2 } = .ok u ∧
    u.values.get 0 0 0 0 = .fin (8 / 3) ∧ u.values.get 0 0 0 1 = .fin (11 / 7) ∧
    inPeriods tri4 1 0 0 0 = {2} ∧ inPeriods tri4 2 0 0 1 = {0, 1} :=
  ⟨_, rfl, by decide +kernel⟩

end Dev
end CL
