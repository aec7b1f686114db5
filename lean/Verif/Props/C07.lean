import Verif.Model.ValDev
import Verif.Spec.Standard
import Verif.Lemmas.Along
import Mathlib.Tactic.Linarith

set_option linter.unusedSectionVars false

/-! # C07: dev_to_val and val_to_dev -/

namespace CL
namespace Tri
variable {K : Type} [Field K] [LinearOrder K] [IsStrictOrderedRing K]

/-- `v` is `t` by valuation: one column for each valuation of `t` up to the valuation date, in
increasing order; each amount is at its origin and valuation, and nothing else is there. -/
structure ValuationOf (t v : Tri K) : Prop where
  wf : WF v
  isVal : v.isVal = true
  labels : v.kdims = t.kdims ∧ v.keyLabels = t.keyLabels ∧ v.vdims = t.vdims ∧ v.odims = t.odims ∧
    v.ograin = t.ograin ∧ v.dgrain = t.dgrain ∧ v.vd = t.vd
  flags : v.isCum = t.isCum ∧ v.isPattern = t.isPattern ∧ v.isAdditive = t.isAdditive
  sorted : v.ddims.Pairwise (· < ·)
  columns : ∀ x, x ∈ v.ddims ↔
    x ≤ t.vd ∧ ∃ o < t.odims.length, ∃ d < t.ddims.length, t.valuation o d = x
  cell : ∀ i c o k d, o < t.odims.length → d < t.ddims.length → v.ddims[k]? = some (t.valuation o d) →
    v.values.get i c o k = t.values.get i c o d
  nothing : ∀ i c o k, o < t.odims.length → k < v.ddims.length →
    (∀ d < t.ddims.length, v.ddims[k]? ≠ some (t.valuation o d)) → v.values.get i c o k = .nan

/-- Some origin other than the first has data. -/
def Later (t : Tri K) : Prop := ∃ i < t.kdims.length, ∃ c < t.vdims.length,
  ∃ o < t.odims.length, ∃ d < t.ddims.length, o ≠ 0 ∧ t.values.get i c o d ≠ .nan

theorem mem_coords {t : Tri K} {o d : Nat} : (o, d) ∈ t.coords ↔ o < t.values.d2 ∧ d < t.values.d3 ∧
    ∃ i < t.values.d0, ∃ c < t.values.d1, t.values.get i c o d ≠ .nan := by
  have hn : ∀ x : Num K, (!x.isNan) = true ↔ x ≠ .nan := by intro x; cases x <;> simp [Num.isNan]
  unfold coords
  simp only [List.mem_flatMap, List.mem_map, List.mem_filter, List.mem_range, List.any_eq_true,
    Prod.mk.injEq, hn]
  constructor
  · rintro ⟨o', ho, d', ⟨hd, i, hi, c, hc, hx⟩, rfl, rfl⟩
    exact ⟨ho, hd, i, hi, c, hc, hx⟩
  · rintro ⟨ho, hd, i, hi, c, hc, hx⟩
    exact ⟨o, ho, d, ⟨hd, i, hi, c, hc, hx⟩, rfl, rfl⟩

theorem mem_knownValuations {t : Tri K} {x : Int} : x ∈ Dev.knownValuations t ↔
    x ≤ t.vd ∧ ∃ o < t.odims.length, ∃ d < t.ddims.length, t.valuation o d = x := by
  have : Dev.knownValuations t = groupKeys (t.valuations.filter fun v => decide (v ≤ t.vd)) := rfl
  rw [this, mem_groupKeys, List.mem_filter, mem_valuations, decide_eq_true_eq]
  constructor
  · rintro ⟨⟨o, d, ho, hd, e⟩, hle⟩; exact ⟨hle, o, ho, d, hd, e⟩
  · rintro ⟨hle, o, ho, d, hd, e⟩; exact ⟨⟨o, d, ho, hd, e⟩, hle⟩

theorem knownValuations_sorted (t : Tri K) : (Dev.knownValuations t).Pairwise (· < ·) :=
  groupKeys_sorted _

/-- `_val_dev` when no coordinate moves below 0 or out of the new shape. -/
theorem valDev_eq {t : Tri K} {sign : Int} {q nd : Nat}
    (hq : Dev.valOffset t.dgrain t.ograin = some q) (hn : t.values.d2 ≠ 0)
    (hlater : ∃ p ∈ t.coords, p.1 ≠ 0) (hnd : (Dev.knownValuations t).length = nd)
    (hone : ¬ (nd = 1 ∧ sign = -1))
    (hin : ∀ p ∈ t.coords, 0 ≤ (p.2 : Int) + p.1 * q * sign ∧ (p.2 : Int) + p.1 * q * sign < nd) :
    t.valDev sign = .ok { t with
      values := ⟨t.values.d0, t.values.d1, t.values.d2, nd, fun i c o k =>
        if 0 ≤ (k : Int) - o * q * sign ∧ (k : Int) - o * q * sign < t.values.d3 then
          t.values.get i c o ((k : Int) - o * q * sign).toNat else .nan⟩ } := by
  have hedge : (t.coords.all fun p => p.1 == 0) = false := by
    rw [Bool.eq_false_iff]
    intro hall
    obtain ⟨p, hp, hne⟩ := hlater
    exact hne (by simpa using List.all_eq_true.mp hall p hp)
  unfold valDev
  rw [hq]
  simp only [if_neg hn, hedge, Bool.false_eq_true, if_false, hnd, if_neg hone]
  have hmem : ∀ x ∈ t.coords.map fun p => (p.2 : Int) + (p.1 : Int) * q * sign,
      0 ≤ x ∧ x < nd := by
    intro x hx
    obtain ⟨p, hp, rfl⟩ := List.mem_map.mp hx
    exact hin p hp
  generalize hxs : (t.coords.map fun p => (p.2 : Int) + (p.1 : Int) * q * sign) = xs at hmem
  have hne : xs ≠ [] := by
    obtain ⟨p, hp, -⟩ := hlater
    rw [← hxs]
    exact fun e => by rw [List.map_eq_nil_iff] at e; rw [e] at hp; cases hp
  obtain ⟨m, hm⟩ : ∃ m, xs.min? = some m := by
    cases e : xs.min? with
    | none => exact absurd (List.min?_eq_none_iff.mp e) hne
    | some m => exact ⟨m, rfl⟩
  obtain ⟨x, hx⟩ : ∃ m, xs.max? = some m := by
    cases e : xs.max? with
    | none => exact absurd (List.max?_eq_none_iff.mp e) hne
    | some m => exact ⟨m, rfl⟩
  have hm0 : ¬ m < 0 := not_lt.mpr (hmem m (List.min?_eq_some_iff.mp hm).1).1
  simp only [hm, hx, if_neg hm0, add_zero, sub_zero]
  rw [if_neg]
  intro hany
  obtain ⟨y, hy, hd⟩ := List.any_eq_true.mp hany
  have := of_decide_eq_true hd
  have := (hmem y hy).2
  omega

namespace Grid
variable {t : Tri K} {a : Int} {n D q : Nat}

theorem knownValuations (h : Grid t a n D q) : Dev.knownValuations t =
    (List.range D).map fun k : Nat => a + ((k + 1) * t.dgrain.months : Nat) - 1 := by
  have hp := months_pos t.dgrain
  refine List.Pairwise.eq_of_mem_iff (knownValuations_sorted t) ?_ fun x => ?_
  · rw [List.pairwise_map]
    refine List.pairwise_lt_range.imp fun {i j} hij => ?_
    have : (i + 1) * t.dgrain.months < (j + 1) * t.dgrain.months :=
      Nat.mul_lt_mul_of_pos_right (by omega) hp
    omega
  · rw [mem_knownValuations, h.lenO, h.lenD]
    simp only [List.mem_map, List.mem_range]
    constructor
    · rintro ⟨hle, o, ho, d, hd, rfl⟩
      have h1 : ¬ D < q * o + d + 1 := fun hlt => not_le.mpr ((h.valuation_gt ho hd).mpr hlt) hle
      exact ⟨q * o + d, by omega, (h.valuation ho hd).symm⟩
    · rintro ⟨k, hk, rfl⟩
      have h0 : 0 < n := by have := h.two_origins; omega
      have e := h.valuation h0 hk
      rw [Nat.mul_zero, Nat.zero_add] at e
      refine ⟨?_, 0, h0, k, hk, e⟩
      rw [← e]
      exact not_lt.mp fun hlt => by have := (h.valuation_gt h0 hk).mp hlt; omega

theorem notFull (h : Grid t a n D q) : t.isFull = false := by
  rw [Bool.eq_false_iff]
  intro hf
  have h1 := h.two_origins
  have h2 := h.two_ages
  unfold isFull at hf
  rw [List.all_eq_true] at hf
  have h3 := hf (n - 1) (List.mem_range.mpr (by rw [h.wf.2.2.1, h.lenO]; omega))
  rw [List.all_eq_true] at h3
  have h4 := h3 (D - 1) (List.mem_range.mpr (by rw [h.wf.2.2.2, h.lenD]; omega))
  unfold nanTri at h4
  rw [if_neg (by rw [h.wf.2.2.1, h.wf.2.2.2, h.lenO, h.lenD]; omega), if_pos] at h4
  · simp at h4
  · rw [gt_iff_lt, h.valuation_gt (by omega) (by omega)]
    have : 1 * 1 ≤ q * (n - 1) := Nat.mul_le_mul h.period (by omega)
    omega

theorem coords_bound (h : Grid t a n D q) {o d : Nat} (hp : (o, d) ∈ t.coords) :
    o < n ∧ d < D ∧ q * o + d < D := by
  obtain ⟨h1, h2, i, hi, c, hc, hx⟩ := mem_coords.mp hp
  rw [h.wf.2.2.1, h.lenO] at h1
  rw [h.wf.2.2.2, h.lenD] at h2
  rw [h.wf.1] at hi
  rw [h.wf.2.1] at hc
  refine ⟨h1, h2, ?_⟩
  by_contra hcon
  exact hx (h.known i hi c hc o h1 d h2 (by omega))

/-- The valuation triangle. -/
def byVal (t : Tri K) (D q : Nat) : Tri K :=
  { t with
    ddims := Dev.knownValuations t
    isVal := true
    values := ⟨t.values.d0, t.values.d1, t.values.d2, D, fun i c o k =>
      if 0 ≤ (k : Int) - o * q * 1 ∧ (k : Int) - o * q * 1 < t.values.d3 then
        t.values.get i c o ((k : Int) - o * q * 1).toNat else .nan⟩ }

theorem later_coords (h : Grid t a n D q) (hl : Later t) : ∃ p ∈ t.coords, p.1 ≠ 0 := by
  obtain ⟨i, hi, c, hc, o, ho, d, hd, hne, hx⟩ := hl
  exact ⟨(o, d), mem_coords.mpr ⟨by rw [h.wf.2.2.1]; exact ho, by rw [h.wf.2.2.2]; exact hd,
    i, by rw [h.wf.1]; exact hi, c, by rw [h.wf.2.1]; exact hc, hx⟩, hne⟩

theorem devToVal_eq (h : Grid t a n D q) (hq : Dev.valOffset t.dgrain t.ograin = some q)
    (hl : Later t) : t.devToVal = .ok (byVal t D q) := by
  have hlen : (Dev.knownValuations t).length = D := by rw [h.knownValuations]; simp
  have hv : t.valDev 1 = _ := valDev_eq (sign := 1) hq
    (by rw [h.wf.2.2.1, h.lenO]; have := h.two_origins; omega) (h.later_coords hl) hlen
    (fun hc => absurd hc.2 (by decide)) (by
      rintro ⟨o, d⟩ hp
      obtain ⟨h1, h2, h3⟩ := h.coords_bound hp
      have : q * o + d = d + o * q := by ring
      rw [this] at h3
      have h4 : ((d + o * q : Nat) : Int) < D := by exact_mod_cast h3
      push_cast at h4
      refine ⟨by positivity, by simpa using h4⟩)
  unfold devToVal
  rw [h.isVal, h.notFull]
  simp only [Bool.false_eq_true, if_false]
  rw [hv]
  rfl

end Grid

/-- **C07 (dev_to_val), partial: regular axes, and data after the first origin.** -/
theorem _root_.CL.C07_dev_to_val_partial {t : Tri K} {a : Int} {n D q : Nat} (h : Grid t a n D q)
    (hq : Dev.valOffset t.dgrain t.ograin = some q) (hl : Later t) :
    ∃ v, t.devToVal = .ok v ∧ ValuationOf t v := by
  have hkv := h.knownValuations
  have hp := months_pos t.dgrain
  have hlen : (Dev.knownValuations t).length = D := by rw [hkv]; simp
  have hget : ∀ k < D, (Dev.knownValuations t)[k]? =
      some (a + ((k + 1) * t.dgrain.months : Nat) - 1) := by
    intro k hk; rw [hkv]; simp [hk]
  have hpos : ∀ o < n, ∀ d < D, ∀ k < D,
      (Dev.knownValuations t)[k]? = some (t.valuation o d) ↔ k = q * o + d := by
    intro o ho d hd k hk
    rw [hget k hk, h.valuation ho hd, Option.some.injEq]
    constructor
    · intro e
      have : (k + 1) * t.dgrain.months = (q * o + d + 1) * t.dgrain.months := by omega
      have := Nat.eq_of_mul_eq_mul_right hp this
      omega
    · rintro rfl; rfl
  refine ⟨_, h.devToVal_eq hq hl, ?_⟩
  refine ⟨⟨h.wf.1, h.wf.2.1, h.wf.2.2.1, hlen.symm⟩, rfl, ⟨rfl, rfl, rfl, rfl, rfl, rfl, rfl⟩,
    ⟨rfl, rfl, rfl⟩, knownValuations_sorted t, fun x => mem_knownValuations, ?_, ?_⟩
  · intro i c o k d ho hd e
    rw [h.lenO] at ho
    rw [h.lenD] at hd
    have hk : k < D := by
      obtain ⟨hk, -⟩ := List.getElem?_eq_some_iff.mp e
      rwa [← hlen]
    have ek := (hpos o ho d hd k hk).mp e
    show (if _ then _ else _) = _
    have e1 : (k : Int) - o * q * 1 = d := by rw [ek]; push_cast; ring
    rw [e1, if_pos ⟨by omega, by rw [h.wf.2.2.2, h.lenD]; omega⟩]
    rfl
  · intro i c o k ho hk hno
    rw [h.lenO] at ho
    replace hk : k < D := by rw [← hlen]; exact hk
    show (if _ then _ else _) = _
    rw [if_neg]
    rintro ⟨h1, h2⟩
    rw [h.wf.2.2.2, h.lenD] at h2
    obtain ⟨d, hd⟩ := Int.eq_ofNat_of_zero_le h1
    rw [hd] at h2
    have hd' : d < D := by exact_mod_cast h2
    refine hno d (by rw [h.lenD]; exact hd') ((hpos o ho d hd' k hk).mpr ?_)
    have : (k : Int) = q * o + d := by rw [← hd]; ring
    exact_mod_cast this

/-- **C07 (round trip), partial: regular axes, and data after the first origin.**  Every label, every
flag and every cell comes back. -/
theorem _root_.CL.C07_round_trip_partial {t : Tri K} {a : Int} {n D q : Nat} (h : Grid t a n D q)
    (hq : Dev.valOffset t.dgrain t.ograin = some q) (hl : Later t) (hvd : t.vd < 12 * 2261) :
    ∃ v u, t.devToVal = .ok v ∧ v.valToDev = .ok u ∧ SameLabels u t ∧ u.isCum = t.isCum ∧
      u.isAdditive = t.isAdditive ∧ Arr.SameShape u.values t.values ∧
      ∀ i < t.kdims.length, ∀ c < t.vdims.length, ∀ o < t.odims.length, ∀ d < t.ddims.length,
        u.values.get i c o d = t.values.get i c o d := by
  have hkv := h.knownValuations
  have hp := months_pos t.dgrain
  have h2 := h.two_ages
  have hn2 := h.two_origins
  have hlen : (Dev.knownValuations t).length = D := by rw [hkv]; simp
  have hv := h.devToVal_eq hq hl
  have hval : ∀ o d, (Grid.byVal t D q).valuation o d = (Dev.knownValuations t).getD d 0 := fun _ _ => rfl
  have hkv' : Dev.knownValuations (Grid.byVal t D q) = Dev.knownValuations t := by
    refine List.Pairwise.eq_of_mem_iff (knownValuations_sorted _) (knownValuations_sorted t) fun x => ?_
    rw [mem_knownValuations]
    simp only [hval]
    show (x ≤ t.vd ∧ ∃ o < t.odims.length, ∃ d < (Dev.knownValuations t).length, _) ↔ _
    constructor
    · rintro ⟨-, o, ho, d, hd, rfl⟩
      rw [List.getD_eq_getElem _ _ hd]
      exact List.getElem_mem hd
    · intro hx
      refine ⟨(mem_knownValuations.mp hx).1, 0, by rw [h.lenO]; omega, ?_⟩
      obtain ⟨d, hd, e⟩ := List.mem_iff_getElem.mp hx
      exact ⟨d, hd, by rw [List.getD_eq_getElem _ _ hd]; exact e⟩
  have hco : ∀ p ∈ (Grid.byVal t D q).coords, 0 ≤ (p.2 : Int) + p.1 * q * (-1) ∧
      (p.2 : Int) + p.1 * q * (-1) < D := by
    rintro ⟨o, k⟩ hpk
    obtain ⟨h1, h3, i, hi, c, hc, hx⟩ := mem_coords.mp hpk
    replace h3 : k < D := h3
    replace hx : (if 0 ≤ (k : Int) - o * q * 1 ∧ (k : Int) - o * q * 1 < t.values.d3 then
        t.values.get i c o ((k : Int) - o * q * 1).toNat else .nan) ≠ .nan := hx
    have hnn : 0 ≤ (k : Int) - o * q * 1 ∧ (k : Int) - o * q * 1 < t.values.d3 := by
      by_contra hcon
      rw [if_neg hcon] at hx
      exact hx rfl
    have : (0 : Int) ≤ o * q := by positivity
    simp only
    constructor <;> linarith [hnn.1]
  have hlat : ∃ p ∈ (Grid.byVal t D q).coords, p.1 ≠ 0 := by
    obtain ⟨⟨o, d⟩, hpd, hne⟩ := h.later_coords hl
    obtain ⟨h1, h3, i, hi, c, hc, hx⟩ := mem_coords.mp hpd
    obtain ⟨-, b2, b3⟩ := h.coords_bound hpd
    refine ⟨(o, q * o + d), mem_coords.mpr ⟨h1, b3, i, hi, c, hc, ?_⟩, hne⟩
    show (if _ then _ else _) ≠ _
    have e1 : ((q * o + d : Nat) : Int) - o * q * 1 = d := by push_cast; ring
    rw [e1, if_pos ⟨by omega, by omega⟩]
    exact hx
  have hd : (Grid.byVal t D q).valDev (-1) = _ := valDev_eq (sign := -1) hq
    (by show t.values.d2 ≠ 0; rw [h.wf.2.2.1, h.lenO]; omega) hlat (by rw [hkv', hlen])
    (fun hc => by have := hc.1; omega) hco
  have hult : (Grid.byVal t D q).isUltimate = false := by
    rw [Bool.eq_false_iff]
    intro hu
    obtain ⟨x, hx, hd⟩ := List.any_eq_true.mp hu
    have h3 := of_decide_eq_true hd
    obtain ⟨o, d, -, hd', e⟩ := mem_valuations.mp hx
    rw [hval] at e
    have hd'' : d < (Dev.knownValuations t).length := hd'
    rw [List.getD_eq_getElem _ _ hd''] at e
    have := (mem_knownValuations.mp (e ▸ List.getElem_mem hd'')).1
    omega
  have hone : ¬ ((Grid.byVal t D q).ddims.length = 1 ∧
      (Grid.byVal t D q).ddims.getD 0 0 = (Grid.byVal t D q).vd) := by
    intro hc
    have : (Dev.knownValuations t).length = 1 := hc.1
    omega
  have hlag : (Dev.knownValuations t).getD 0 0 - t.odims.getD 0 0 + 1 = t.dgrain.months := by
    rw [hkv, h.getO (by omega), List.getD_eq_getElem?_getD]
    simp [show 0 < D by omega]
    omega
  have hdd : (List.range D).map (fun k : Nat => (k : Int) * t.dgrain.months +
      ((Dev.knownValuations t).getD 0 0 - t.odims.getD 0 0 + 1)) = t.ddims := by
    rw [hlag, h.ddims]
    refine List.map_congr_left fun k _ => ?_
    push_cast; ring
  have hu : (Grid.byVal t D q).valToDev = .ok { t with
      ddims := (List.range D).map fun k : Nat => (k : Int) * t.dgrain.months +
        ((Dev.knownValuations t).getD 0 0 - t.odims.getD 0 0 + 1)
      isVal := false
      values := ⟨t.values.d0, t.values.d1, t.values.d2, D, fun i c o k =>
        if 0 ≤ (k : Int) - o * q * (-1) ∧ (k : Int) - o * q * (-1) < D then
          (Grid.byVal t D q).values.get i c o ((k : Int) - o * q * (-1)).toNat else .nan⟩ } := by
    have hb : (Grid.byVal t D q).isVal = true := rfl
    unfold valToDev
    rw [hult]
    simp only [hb, Bool.false_and, Bool.false_eq_true, if_false, if_neg hone, bind, Except.bind,
      pure, Except.pure, Bool.true_eq_false]
    rw [hd]
    rfl
  refine ⟨_, _, hv, hu, ?_⟩
  refine ⟨⟨rfl, rfl, rfl, rfl, hdd, h.isVal.symm, rfl, rfl, rfl, rfl⟩, rfl, rfl,
    ⟨rfl, rfl, rfl, by rw [h.wf.2.2.2, h.lenD]⟩, ?_⟩
  intro i hi c hc o ho d hd
  rw [h.lenO] at ho
  rw [h.lenD] at hd
  have hnn : (0 : Int) ≤ o * q := by positivity
  have e1 : (d : Int) - o * q * (-1) = ((q * o + d : Nat) : Int) := by push_cast; ring
  show (if 0 ≤ (d : Int) - o * q * (-1) ∧ (d : Int) - o * q * (-1) < D then
    (Grid.byVal t D q).values.get i c o ((d : Int) - o * q * (-1)).toNat else .nan) = _
  rw [e1]
  by_cases hk : q * o + d < D
  · rw [if_pos ⟨by positivity, by exact_mod_cast hk⟩]
    show (if _ then _ else _) = _
    have e2 : (((q * o + d : Nat) : Int).toNat : Int) - o * q * 1 = d := by
      rw [Int.toNat_natCast]; push_cast; ring
    rw [e2, if_pos ⟨by positivity, by rw [h.wf.2.2.2, h.lenD]; exact_mod_cast hd⟩]
    rfl
  · rw [if_neg (fun hc => hk (by exact_mod_cast hc.2))]
    exact (h.known i hi c hc o ho d hd (by omega)).symm

/-- **C07 (false), data in the first origin only.**  Two origins, two ages, and one amount, that of the
first origin at its first age: `dev_to_val` shows it one year after its valuation. -/
theorem _root_.CL.C07_first_false : ∃ t : Tri ℚ, ∃ v, Grid t 24252 2 2 1 ∧
    Dev.valOffset t.dgrain t.ograin = some 1 ∧ t.devToVal = .ok v ∧
    t.values.get 0 0 0 0 = .fin 7 ∧ v.ddims = [24263, 24275] ∧ t.valuation 0 0 = 24263 ∧
    v.values.get 0 0 0 0 = .nan ∧ v.values.get 0 0 0 1 = .fin 7 ∧ ¬ ValuationOf t v := by
  let g : Nat → Nat → Num ℚ := fun o d => if o = 0 ∧ d = 0 then .fin 7 else .nan
  have hg : Grid (Ex.tri2 (some true) g) 24252 2 2 1 := by
    refine ⟨⟨rfl, rfl, rfl, rfl⟩, ?_, rfl, by decide, by decide, by decide, by decide, by decide,
      rfl, rfl, rfl, by decide, by decide, ?_⟩
    · intro i _ c _ o _ d _
      show Num.NoInf (if o = 0 ∧ d = 0 then (.fin 7 : Num ℚ) else .nan)
      split <;> trivial
    · intro i _ c _ o ho d hd hlt
      show (if o = 0 ∧ d = 0 then (.fin 7 : Num ℚ) else .nan) = .nan
      rw [if_neg (by omega)]
  refine ⟨Ex.tri2 (some true) g, _, hg, rfl, rfl, rfl, rfl, rfl, rfl, rfl, ?_⟩
  intro hv
  have := hv.cell 0 0 0 0 0 (by decide) (by decide) rfl
  exact absurd (this : (.nan : Num ℚ) = .fin 7) (by decide)

/-- Annual origins, semiannual ages: the amounts move two columns a row. -/
def C07ex : Tri ℚ where
  kdims := [["Total"]]
  keyLabels := ["Total"]
  vdims := ["paid"]
  odims := [24252, 24264]
  ddims := [6, 12, 18, 24]
  isVal := false
  ograin := .Y
  dgrain := .S
  vd := 24275
  isCum := some true
  isPattern := false
  isAdditive := none
  values := ⟨1, 1, 2, 4, fun _ _ o d => if 2 * o + d < 4 then .fin (10 * o + d + 1) else .nan⟩

theorem C07ex_grid : Grid C07ex 24252 2 4 2 := by
  refine ⟨⟨rfl, rfl, rfl, rfl⟩, ?_, rfl, by decide, by decide, by decide, by decide, by decide,
    rfl, rfl, rfl, by decide, by decide, ?_⟩
  · intro i _ c _ o _ d _
    show Num.NoInf (if 2 * o + d < 4 then (.fin (10 * o + d + 1) : Num ℚ) else .nan)
    split <;> trivial
  · intro i _ c _ o ho d hd hlt
    show (if 2 * o + d < 4 then (.fin (10 * o + d + 1) : Num ℚ) else .nan) = .nan
    rw [if_neg (by omega)]

theorem C07ex_later : Later C07ex :=
  ⟨0, by decide, 0, by decide, 1, by decide, 0, by decide, by decide, by decide +kernel⟩

example : ∃ v, C07ex.devToVal = .ok v ∧ ValuationOf C07ex v :=
  C07_dev_to_val_partial C07ex_grid rfl C07ex_later

example : ∃ v, C07ex.devToVal = .ok v ∧ v.ddims = [24257, 24263, 24269, 24275] ∧
    v.values.get 0 0 1 1 = .nan ∧ v.values.get 0 0 1 2 = .fin 11 := by
  refine ⟨_, rfl, by decide +kernel, by decide +kernel, by decide +kernel⟩

example : ∃ v u, C07ex.devToVal = .ok v ∧ v.valToDev = .ok u ∧ SameLabels u C07ex := by
  obtain ⟨v, u, h1, h2, h3, -⟩ := C07_round_trip_partial C07ex_grid rfl C07ex_later (by decide)
  exact ⟨v, u, h1, h2, h3⟩

/-- `l` is a diagonal: one column at the valuation date, for `n` origins of `q` development periods
each, the first one starting in month `a`. -/
structure OneDiagonal (l : Tri K) (a : Int) (n q : Nat) : Prop where
  wf : WF l
  isVal : l.isVal = true
  two_origins : 2 ≤ n
  odims : l.odims = (List.range n).map fun o : Nat => a + (o * q * l.dgrain.months : Nat)
  ddims : l.ddims = [l.vd]

/-- `_val_dev(-1)` of a single column: the amount of origin `o` moves to column `(n - 1 - o) * q`. -/
theorem OneDiagonal.valDev {l : Tri K} {a : Int} {n q : Nat} (h : OneDiagonal l a n q)
    (hq : Dev.valOffset l.dgrain l.ograin = some q) (hl : Later l) :
    ∃ nd : Nat, (∀ p ∈ l.coords, (n - 1 - p.1) * q < nd) ∧ l.valDev (-1) = .ok { l with
      values := ⟨l.values.d0, l.values.d1, l.values.d2, nd, fun i c o k =>
        if (k : Int) + o * q = (n - 1 : Nat) * q then l.values.get i c o 0 else .nan⟩ } := by
  have h2 := h.two_origins
  have hlo : l.odims.length = n := by rw [h.odims]; simp
  have w2 : l.values.d2 = n := by rw [h.wf.2.2.1, hlo]
  have w3 : l.values.d3 = 1 := by rw [h.wf.2.2.2, h.ddims]; rfl
  have hq1 : 1 ≤ q := by
    revert hq
    cases l.dgrain <;> cases l.ograin <;> simp [Dev.valOffset] <;> omega
  obtain ⟨i0, hi0, c0, hc0, o0, ho0, d0, hd0, hne0, hx0⟩ := hl
  have hmem0 : (o0, d0) ∈ l.coords := mem_coords.mpr ⟨by rw [h.wf.2.2.1]; exact ho0,
    by rw [h.wf.2.2.2]; exact hd0, i0, by rw [h.wf.1]; exact hi0, c0, by rw [h.wf.2.1]; exact hc0, hx0⟩
  have hedge : (l.coords.all fun p => p.1 == 0) = false := by
    rw [Bool.eq_false_iff]
    intro hall
    exact hne0 (by simpa using List.all_eq_true.mp hall _ hmem0)
  have hco : ∀ p ∈ l.coords, p.1 < n ∧ p.2 = 0 := by
    rintro ⟨o, d⟩ hp
    obtain ⟨a1, a2, -⟩ := mem_coords.mp hp
    exact ⟨by omega, by simp only; omega⟩
  have hd0' : d0 = 0 := (hco _ hmem0).2
  have hkv : Dev.knownValuations l = [l.vd] := by
    refine List.Pairwise.eq_of_mem_iff (knownValuations_sorted _) (by simp) fun x => ?_
    have hv : ∀ o, l.valuation o 0 = l.vd := by
      intro o
      unfold valuation valuationOf
      rw [h.isVal, h.ddims]
      rfl
    rw [mem_knownValuations, List.mem_singleton]
    constructor
    · rintro ⟨-, o, -, d, hd, e⟩
      rw [h.ddims] at hd
      have : d = 0 := by simpa using hd
      subst this
      rw [← e, hv]
    · rintro rfl
      exact ⟨le_refl _, 0, by omega, 0, by rw [h.ddims]; simp, hv 0⟩
  unfold Tri.valDev
  rw [hq]
  simp only [hedge, Bool.false_eq_true, if_false, hkv, w2,
    List.length_singleton, true_and, if_true, hlo]
  generalize hxs : (l.coords.map fun p => (p.2 : Int) + (p.1 : Int) * q * (-1)) = xs
  have hmem : ∀ x ∈ xs, ∃ p ∈ l.coords, x = - ((p.1 : Int) * q) := by
    intro x hx
    rw [← hxs] at hx
    obtain ⟨p, hp, rfl⟩ := List.mem_map.mp hx
    refine ⟨p, hp, ?_⟩
    rw [(hco p hp).2]
    push_cast; ring
  have hin : ∀ p ∈ l.coords, - ((p.1 : Int) * q) ∈ xs := by
    intro p hp
    rw [← hxs]
    refine List.mem_map.mpr ⟨p, hp, ?_⟩
    rw [(hco p hp).2]
    push_cast; ring
  have hne : xs ≠ [] := by
    have := hin _ hmem0
    exact fun e => by rw [e] at this; cases this
  obtain ⟨m, hm⟩ : ∃ m, xs.min? = some m := by
    cases e : xs.min? with
    | none => exact absurd (List.min?_eq_none_iff.mp e) hne
    | some m => exact ⟨m, rfl⟩
  obtain ⟨x, hx⟩ : ∃ m, xs.max? = some m := by
    cases e : xs.max? with
    | none => exact absurd (List.max?_eq_none_iff.mp e) hne
    | some m => exact ⟨m, rfl⟩
  obtain ⟨hm1, hm2⟩ := List.min?_eq_some_iff.mp hm
  obtain ⟨hx1, hx2⟩ := List.max?_eq_some_iff.mp hx
  have hmneg : m < 0 := by
    have h3 := hm2 _ (hin _ hmem0)
    have : 1 * 1 ≤ o0 * q := Nat.mul_le_mul (by omega) hq1
    have h4 : (1 : Int) ≤ (o0 : Int) * q := by exact_mod_cast this
    simp only at h3
    linarith
  have hmtop : - (((n - 1 : Nat) : Int) * q) ≤ m := by
    obtain ⟨p, hp, e⟩ := hmem m hm1
    have : p.1 * q ≤ (n - 1) * q := Nat.mul_le_mul_right _ (by have := (hco p hp).1; omega)
    have h4 : (p.1 : Int) * q ≤ ((n - 1 : Nat) : Int) * q := by exact_mod_cast this
    omega
  have hslide : - min m (- (((n - 1 : Nat) : Int) * q)) = ((n - 1 : Nat) : Int) * q := by
    rw [min_eq_right hmtop, neg_neg]
  simp only [hm, hx, if_pos hmneg, hslide]
  refine ⟨max (x + ((n - 1 : Nat) : Int) * q + 1).toNat n, ?_, ?_⟩
  · intro p hp
    have h3 := hx2 _ (hin p hp)
    have h5 := (hco p hp).1
    have e : (((n - 1 - p.1) * q : Nat) : Int) = ((n - 1 : Nat) : Int) * q - (p.1 : Int) * q := by
      rw [Nat.cast_mul, Nat.cast_sub (by omega)]; ring
    have : (((n - 1 - p.1) * q : Nat) : Int) < x + ((n - 1 : Nat) : Int) * q + 1 := by
      rw [e]; linarith
    have h6 := Int.self_le_toNat (x + ((n - 1 : Nat) : Int) * q + 1)
    have h7 : (n - 1 - p.1) * q < (x + ((n - 1 : Nat) : Int) * q + 1).toNat := by
      exact_mod_cast lt_of_lt_of_le this h6
    exact lt_of_lt_of_le h7 (le_max_left _ _)
  · rw [if_neg (show ¬ n = 0 by omega), if_neg]
    · congr 3
      funext i c o k
      rw [w3]
      have e : (k : Int) - (o : Int) * q * (-1) - ((n - 1 : Nat) : Int) * q =
          (k : Int) + o * q - (n - 1 : Nat) * q := by ring
      rw [e]
      by_cases hk : (k : Int) + o * q = (n - 1 : Nat) * q
      · rw [if_pos hk, if_pos (by omega), hk, sub_self]; rfl
      · rw [if_neg hk, if_neg (by omega)]
    · intro hany
      obtain ⟨y, hy, hd⟩ := List.any_eq_true.mp hany
      have h7 := of_decide_eq_true hd
      have h8 := hx2 y hy
      have : x + ((n - 1 : Nat) : Int) * q + 1 ≤ ((x + ((n - 1 : Nat) : Int) * q + 1).toNat : Int) :=
        Int.self_le_toNat _
      push_cast at h7
      have h9 := le_max_left (((x + ((n - 1 : Nat) : Int) * q + 1).toNat : Int)) (n : Int)
      omega

/-- **C07, a diagonal**: `val_to_dev` of a single column at the valuation date puts each amount at the
age its origin has at that date, and nothing elsewhere. -/
theorem _root_.CL.C07_diagonal {l : Tri K} {a : Int} {n q : Nat} (h : OneDiagonal l a n q)
    (hq : Dev.valOffset l.dgrain l.ograin = some q) (hl : Later l) :
    ∃ u, l.valToDev = .ok u ∧ WF u ∧ u.isVal = false ∧ u.kdims = l.kdims ∧ u.vdims = l.vdims ∧
      u.odims = l.odims ∧ u.vd = l.vd ∧
      ∀ i < l.kdims.length, ∀ c < l.vdims.length, ∀ o < l.odims.length,
        (∀ k < u.ddims.length, u.ddims.getD k 0 = l.vd - l.odims.getD o 0 + 1 →
          u.values.get i c o k = l.values.get i c o 0) ∧
        (∀ k < u.ddims.length, u.ddims.getD k 0 ≠ l.vd - l.odims.getD o 0 + 1 →
          u.values.get i c o k = .nan) ∧
        (l.values.get i c o 0 ≠ .nan → l.vd - l.odims.getD o 0 + 1 ∈ u.ddims) := by
  obtain ⟨nd, hnd, hv⟩ := h.valDev hq hl
  have h2 := h.two_origins
  have hlo : l.odims.length = n := by rw [h.odims]; simp
  have w2 : l.values.d2 = n := by rw [h.wf.2.2.1, hlo]
  have w3 : l.values.d3 = 1 := by rw [h.wf.2.2.2, h.ddims]; rfl
  have hq1 : 1 ≤ q := by
    revert hq
    cases l.dgrain <;> cases l.ograin <;> simp [Dev.valOffset] <;> omega
  have hp := months_pos l.dgrain
  have hod : ∀ o < n, l.odims.getD o 0 = a + (o * q * l.dgrain.months : Nat) := by
    intro o ho
    rw [h.odims, List.getD_eq_getElem?_getD]
    simp [ho]
  have hlast : (l.odims.getLast?).getD 0 = a + ((n - 1) * q * l.dgrain.months : Nat) := by
    rw [← hod (n - 1) (by omega), List.getLast?_eq_getElem?, hlo, List.getD_eq_getElem?_getD]
  have hrun : l.valToDev = .ok { l with
      values := ⟨l.values.d0, l.values.d1, l.values.d2, nd, fun i c o k =>
        if (k : Int) + o * q = (n - 1 : Nat) * q then l.values.get i c o 0 else .nan⟩
      ddims := (List.range nd).map fun k : Nat => (k : Int) * l.dgrain.months +
        (l.vd - (a + ((n - 1) * q * l.dgrain.months : Nat)) + 1)
      isVal := false } := by
    have hone : l.ddims.length = 1 ∧ l.ddims.getD 0 0 = l.vd := by rw [h.ddims]; exact ⟨rfl, rfl⟩
    have hv0 : l.valuation 0 0 = l.vd := by
      unfold valuation valuationOf
      rw [h.isVal, h.ddims]; rfl
    unfold valToDev
    rw [w3]
    simp only [h.isVal, Bool.true_eq_false, if_false, lt_self_iff_false, decide_false,
      Bool.and_false, Bool.false_eq_true, bind, Except.bind, pure, Except.pure, if_pos hone]
    rw [hv]
    simp only [hlast]
    congr 2
    have : ∀ z : Arr K, ({ l with values := z } : Tri K).valuation 0 0 = l.vd := fun _ => hv0
    rw [this]
  have hpos : ∀ o < n, ∀ k : Nat, (k : Int) * l.dgrain.months +
      (l.vd - (a + ((n - 1) * q * l.dgrain.months : Nat)) + 1) = l.vd - l.odims.getD o 0 + 1 ↔
        (k : Int) + o * q = (n - 1 : Nat) * q := by
    intro o ho k
    rw [hod o ho]
    have hm : (l.dgrain.months : Int) ≠ 0 := by omega
    constructor
    · intro e
      apply mul_right_cancel₀ hm
      push_cast at e ⊢
      linarith
    · intro e
      have := congrArg (fun z : Int => z * (l.dgrain.months : Int)) e
      push_cast at this ⊢
      linarith
  refine ⟨_, hrun, ⟨h.wf.1, h.wf.2.1, h.wf.2.2.1, by simp⟩, rfl, rfl, rfl, rfl, rfl, ?_⟩
  intro i hi c hc o ho
  rw [hlo] at ho
  have hget : ∀ k < nd, ((List.range nd).map fun k : Nat => (k : Int) * l.dgrain.months +
        (l.vd - (a + ((n - 1) * q * l.dgrain.months : Nat)) + 1)).getD k 0 =
      (k : Int) * l.dgrain.months + (l.vd - (a + ((n - 1) * q * l.dgrain.months : Nat)) + 1) := by
    intro k hk
    rw [List.getD_eq_getElem?_getD]
    simp [hk]
  refine ⟨?_, ?_, ?_⟩
  · intro k hk e
    have hk : k < nd := by simpa using hk
    rw [hget k hk, hpos o ho] at e
    show (if _ then _ else _) = _
    rw [if_pos e]
  · intro k hk e
    have hk : k < nd := by simpa using hk
    rw [hget k hk, ne_eq, hpos o ho] at e
    show (if _ then _ else _) = _
    rw [if_neg e]
  · intro hx
    have hmem : (o, 0) ∈ l.coords := mem_coords.mpr ⟨by omega, by omega, i, by rw [h.wf.1]; exact hi,
      c, by rw [h.wf.2.1]; exact hc, hx⟩
    refine List.mem_map.mpr ⟨(n - 1 - o) * q, by simpa using hnd _ hmem, ?_⟩
    rw [hpos o ho, Nat.cast_mul, Nat.cast_sub (by omega)]
    ring

/-- A diagonal at the end of 2022 for origins 2020, 2021 and 2022: ages 12, 24 and 36. -/
example : ∃ u, ({ Ex.tri3 (some true) Ex.cum3 with
      ddims := [24275]
      isVal := true
      values := ⟨1, 1, 3, 1, fun _ _ o _ => .fin (o + 7)⟩ } : Tri ℚ).valToDev = .ok u ∧
    u.ddims = [12, 24, 36] ∧ u.values.get 0 0 0 2 = .fin 7 ∧ u.values.get 0 0 2 0 = .fin 9 ∧
    u.values.get 0 0 0 0 = .nan := by
  refine ⟨_, rfl, by decide +kernel, by decide +kernel, by decide +kernel, by decide +kernel⟩

end Tri
end CL
