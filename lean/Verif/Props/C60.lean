import Verif.Lemmas.Additive
import Verif.Spec.Examples

set_option linter.unusedSectionVars false

/-! # C60: incremental additive method -/

namespace CL
namespace Additive
variable {K : Type} [Field K] [LinearOrder K] [IsStrictOrderedRing K]
open Tri

variable {x s : Tri K} {e : Nat → Nat → Nat → K} {a : Int} {D : Nat}

/-- **C60 (which ratios), partial: a triangle with as many ages as origins, exposures that are not zero.**
The rate of an age is the average of the trended increments over
the exposures of the origins left by `n_periods` and the exclusions; these have weight 1. -/
theorem C60_chosen_partial (h : Exposed x s e a D) (hb : x.valuation (D - 1) (D - 1) ≤ ultVal)
    {p : Params K} (hp : p.Valid) (hd : p.Drops x D)
    (hn : (∀ d, p.nPeriods d < 1) ∨ Dev.valOffsetFunc x.dgrain x.ograin = some 1) :
    ∃ F, fit p x s = .ok F ∧ ∀ i < x.kdims.length, ∀ c < x.vdims.length, ∀ d < D,
      ∃ S, Chosen p x e D i c d S ∧
        (∀ o < D, (o ∈ S → F.w.get i c o d = 1) ∧ (o ∉ S → F.w.get i c o d = .nan)) ∧
        (∀ o < D, (o ∈ S → F.fitZeta.values.get i c o d = .fin (ratio p x e i c o d)) ∧
          (o ∉ S → F.fitZeta.values.get i c o d = .nan)) ∧
        F.zeta.values.get i c 0 d =
          (Num.fin (rate (p.average d) S (fun o => level p x i c o d) (e i c))).numToNan := by
  obtain ⟨F, S, ζ, hf, hR⟩ := h.fit hb hp hd hn
  refine ⟨F, hf, fun i hi c hc d hd => ⟨S i c d, hR.chosen i hi c hc d hd,
    fun o ho => hR.weights.2 i hi c hc d hd o ho, fun o ho => hR.fitted.2.2 i hi c hc o ho d hd, ?_⟩⟩
  rw [hR.zeta.2.2.2.2.2.2.2.2.2 i hi c hc d hd, hR.rate i hi c hc d hd]

/-- No exclusions: the defaults of `IncrementalAdditive`. -/
structure Params.Plain (p : Params K) : Prop where
  drop : p.drop = none
  dropVal : p.dropVal = none
  above : p.dropAbove = none
  below : p.dropBelow = some fun _ => .ninf
  high : p.dropHigh = none
  low : p.dropLow = none
  preserve : 0 ≤ p.preserve
  trend : ∀ m, p.trend m ≠ 0

theorem Params.Plain.valid {p : Params K} (h : p.Plain) : p.Valid :=
  ⟨fun d => by rw [h.high]; simp, fun d => by rw [h.low]; simp, h.preserve, h.trend⟩

theorem Params.Plain.drops {p : Params K} (h : p.Plain) : p.Drops x D :=
  ⟨fun _ hl => absurd hl (by simp [h.drop]), fun _ hl => absurd hl (by simp [h.dropVal]),
    fun _ hl => absurd hl (by simp [h.dropVal])⟩

theorem Params.Plain.kept {p : Params K} (h : p.Plain) (o d : Nat) : Kept p x o d :=
  ⟨fun _ hl => absurd hl (by simp [h.drop]), fun _ hl => absurd hl (by simp [h.dropVal])⟩

theorem Params.Plain.chosen {p : Params K} (h : p.Plain) {i c d : Nat} {S : Finset Nat}
    (hS : Chosen p x e D i c d S) (o : Nat) :
    o ∈ S ↔ o < D ∧ Moves x i c o d ∧ Recent p x D i c o d := by
  obtain ⟨A, I, B, hA, hI, hB, h1, -⟩ := hS
  rw [h1 h.high h.low, hB, hA]
  refine ⟨fun h2 => ⟨h2.1.1, h2.1.2.1, h2.1.2.2.1⟩,
    fun h2 => ⟨⟨h2.1, h2.2.1, h2.2.2, h.kept o d⟩, fun _ _ => ?_⟩⟩
  rw [hI]
  refine ⟨h2.1, h2.2.1, ?_⟩
  unfold Inside
  rw [h.above, h.below]
  exact ⟨rfl, rfl⟩

/-- **C60 (rates), partial: as `C60_chosen_partial`, no exclusions.**  Of all known increments, those that
are not zero, or that are given as zero at the first age or in an incremental triangle, are averaged. -/
theorem C60_rates_partial (h : Exposed x s e a D) (hb : x.valuation (D - 1) (D - 1) ≤ ultVal)
    {p : Params K} (hp : p.Plain) (hn : ∀ d, p.nPeriods d < 1) :
    ∃ F, fit p x s = .ok F ∧ ∀ i < x.kdims.length, ∀ c < x.vdims.length, ∀ d < D, ∀ S : Finset Nat,
      (∀ o, o ∈ S ↔ o < D ∧ Moves x i c o d) →
        F.zeta.values.get i c 0 d =
          (Num.fin (rate (p.average d) S (fun o => level p x i c o d) (e i c))).numToNan := by
  obtain ⟨F, S, ζ, hf, hR⟩ := h.fit hb hp.valid hp.drops (Or.inl hn)
  refine ⟨F, hf, fun i hi c hc d hd T hT => ?_⟩
  have : T = S i c d := by
    ext o
    rw [hT, hp.chosen (hR.chosen i hi c hc d hd)]
    refine ⟨fun h2 => ⟨h2.1, h2.2, fun h3 _ => ?_⟩, fun h2 => ⟨h2.1, h2.2.1⟩⟩
    have := hn d
    omega
  rw [this, hR.zeta.2.2.2.2.2.2.2.2.2 i hi c hc d hd, hR.rate i hi c hc d hd]

/-- **C60 (periods), partial: as `C60_chosen_partial`, no exclusions.**  With `1 ≤ n_periods < D`, the latest
`n_periods` diagonals are averaged. -/
theorem C60_periods_partial (h : Exposed x s e a D) (hb : x.valuation (D - 1) (D - 1) ≤ ultVal)
    {p : Params K} (hp : p.Plain) {n : Nat} (h1 : 1 ≤ n) (h2 : n < D) (hn : ∀ d, p.nPeriods d = n)
    (hg : Dev.valOffsetFunc x.dgrain x.ograin = some 1) :
    ∃ F, fit p x s = .ok F ∧ ∀ i < x.kdims.length, ∀ c < x.vdims.length, ∀ d < D, ∀ S : Finset Nat,
      (∀ o, o ∈ S ↔ D ≤ o + d + n ∧ o + d < D ∧ increment x i c o d ≠ 0) →
        F.zeta.values.get i c 0 d =
          (Num.fin (rate (p.average d) S (fun o => level p x i c o d) (e i c))).numToNan := by
  obtain ⟨F, S, ζ, hf, hR⟩ := h.fit hb hp.valid hp.drops (Or.inr hg)
  refine ⟨F, hf, fun i hi c hc d hd T hT => ?_⟩
  have : T = S i c d := by
    ext o
    rw [hT, hp.chosen (hR.chosen i hi c hc d hd)]
    unfold Recent
    rw [hn d]
    constructor
    · rintro ⟨g1, g2, g3⟩
      have ho : o < D := by omega
      have hk := (Grid.le_iff h.toGrid ho hd).mpr (by omega)
      refine ⟨ho, ?_, fun _ _ => ⟨by omega, g3⟩⟩
      by_contra hm
      exact g3 (increment_zero hk hm)
    · rintro ⟨ho, hm, hr⟩
      obtain ⟨g1, g2⟩ := hr (by omega) (by omega)
      have hk := (Grid.le_iff h.toGrid ho hd).mp hm.1
      exact ⟨by omega, by omega, g2⟩
  rw [this, hR.zeta.2.2.2.2.2.2.2.2.2 i hi c hc d hd, hR.rate i hi c hc d hd]

/-- **C60 (completed triangle), partial: as `C60_chosen_partial`.**  Where the rate of an age is not zero,
known increments are unchanged, and future ones are the exposure times the rate, trended from the
valuation date to the date of the cell. -/
theorem C60_incremental_partial (h : Exposed x s e a D) (hb : x.valuation (D - 1) (D - 1) ≤ ultVal)
    {p : Params K} (hp : p.Valid) (hd : p.Drops x D)
    (hn : (∀ d, p.nPeriods d < 1) ∨ Dev.valOffsetFunc x.dgrain x.ograin = some 1)
    (h0 : (p.future.getD p.trend) 0 = 1) :
    ∃ F, fit p x s = .ok F ∧ WF F.incremental ∧ F.incremental.kdims = x.kdims ∧
      F.incremental.vdims = x.vdims ∧ F.incremental.odims = x.odims ∧ F.incremental.ddims = x.ddims ∧
      F.incremental.isCum = some false ∧ F.incremental.vd = x.valuation (D - 1) (D - 1) ∧
      ∀ i < x.kdims.length, ∀ c < x.vdims.length, ∀ o < D, ∀ d < D,
        (F.zeta.values.get i c 0 d).amt ≠ 0 → (F.incremental.values.get i c o d).NoInf ∧
        (F.incremental.values.get i c o d).amt = if o + d < D then increment x i c o d else
          e i c o * (F.zeta.values.get i c 0 d).amt *
            (p.future.getD p.trend) (x.valuation o d - x.vd) := by
  obtain ⟨F, S, ζ, hf, hR⟩ := h.fit hb hp hd hn
  obtain ⟨i1, i2, i3, i4, i5, i6, i7, i8⟩ := hR.incremental
  refine ⟨F, hf, i1, i2, i3, i4, i5, i6, i7, ?_⟩
  intro i hi c hc o ho d hd
  rw [hR.zeta.2.2.2.2.2.2.2.2.2 i hi c hc d hd, Num.amt_numToNan, Num.amt_fin]
  intro hz
  obtain ⟨g1, g2⟩ := (i8 i hi c hc o ho d hd).2 hz
  refine ⟨g1, ?_⟩
  rw [g2]
  unfold completed
  by_cases hk : o + d < D
  · have hv := (Grid.le_iff h.toGrid ho hd).mpr (by omega)
    rw [if_pos hk, if_pos hk, max_eq_right hv, sub_self, h0]
    have := h.nonzero i hi c hc o ho
    field_simp
  · have hv : x.vd < x.valuation o d := by
      rw [h.valuation_gt ho hd]
      omega
    rw [if_neg hk, if_neg hk, max_eq_left hv.le]
    ring

/-- **C60 (factors), partial: as `C60_chosen_partial`, no rate is zero, no future trend.**  The factors of an
origin take its amount at age `m` to its ultimate amount, if no cumulative amount in between is zero. -/
theorem C60_ldf_partial (h : Exposed x s e a D) (hb : x.valuation (D - 1) (D - 1) ≤ ultVal)
    {p : Params K} (hp : p.Valid) (hd : p.Drops x D)
    (hn : (∀ d, p.nPeriods d < 1) ∨ Dev.valOffsetFunc x.dgrain x.ograin = some 1)
    (h0 : ∀ m, (p.future.getD p.trend) m = 1) :
    ∃ F, fit p x s = .ok F ∧ WF F.ldf ∧ F.ldf.kdims = x.kdims ∧ F.ldf.vdims = x.vdims ∧
      F.ldf.odims = x.odims ∧ F.ldf.ddims = x.ddims.dropLast ∧ F.ldf.isPattern = true ∧
      ∀ i < x.kdims.length, ∀ c < x.vdims.length, (∀ d < D, (F.zeta.values.get i c 0 d).amt ≠ 0) →
        ∀ o < D, ∀ m < D,
        (∀ d, m ≤ d → d < D →
          ∑ j ∈ Finset.range (d + 1), (F.incremental.values.get i c o j).amt ≠ 0) →
        (∑ j ∈ Finset.range (m + 1), (F.incremental.values.get i c o j).amt) *
            ∏ d ∈ Finset.Ico m (D - 1), (F.ldf.values.get i c o d).amt =
          ∑ j ∈ Finset.range D, (F.incremental.values.get i c o j).amt := by
  obtain ⟨F, S, ζ, hf, hR⟩ := h.fit hb hp hd hn
  obtain ⟨-, -, -, -, -, -, -, i8⟩ := hR.incremental
  obtain ⟨l1, l2, l3, l4, l5, l6, l7⟩ := hR.ldf
  refine ⟨F, hf, l1, l2, l3, l4, l5, l6, ?_⟩
  intro i hi c hc hz o ho m hm hne
  have hD := h.two_ages
  have hz' : ∀ d < D, ζ i c d ≠ 0 := by
    intro d hd
    have := hz d hd
    rwa [hR.zeta.2.2.2.2.2.2.2.2.2 i hi c hc d hd, Num.amt_numToNan, Num.amt_fin] at this
  have hsum : ∀ k ≤ D, ∑ j ∈ Finset.range k, (F.incremental.values.get i c o j).amt =
      e i c o * ∑ j ∈ Finset.range k, if ζ i c j = 0 then 0 else completed x e D (ζ i c j) i c o j := by
    intro k hk
    rw [Finset.mul_sum]
    apply Finset.sum_congr rfl
    intro j hj
    have hj : j < D := by have := Finset.mem_range.mp hj; omega
    rw [((i8 i hi c hc o ho j hj).2 (hz' j hj)).2, if_neg (hz' j hj), h0]
    ring
  set C : Nat → K := fun k => ∑ j ∈ Finset.range k, (F.incremental.values.get i c o j).amt with hC
  have hfac : ∀ d, m ≤ d → d + 1 < D → (F.ldf.values.get i c o d).amt = C (d + 2) / C (d + 1) := by
    intro d hmd hd
    have he := h.nonzero i hi c hc o ho
    have n1 := hne d hmd (by omega)
    have n2 := hne (d + 1) (by omega) hd
    show _ = (∑ j ∈ Finset.range (d + 2), (F.incremental.values.get i c o j).amt) /
      ∑ j ∈ Finset.range (d + 1), (F.incremental.values.get i c o j).amt
    rw [hsum _ (by omega)] at n1
    rw [hsum _ (by omega)] at n2
    rw [hsum _ (by omega), hsum _ (by omega), l7 i hi c hc o ho d hd]
    have hr : ∀ u v : K, u ≠ 0 → v ≠ 0 → (Tri.ratio (.fin u) (.fin v)).amt = v / u := by
      intro u v hu hv
      unfold Tri.ratio
      rw [if_pos ⟨hu, hv⟩]
      rfl
    rw [hr _ _ (right_ne_zero_of_mul n1) (right_ne_zero_of_mul n2), mul_div_mul_left _ _ he]
  have key : ∀ k, m + k < D → C (m + 1) * ∏ d ∈ Finset.Ico m (m + k), (F.ldf.values.get i c o d).amt =
      C (m + k + 1) := by
    intro k
    induction k with
    | zero => intro _; simp
    | succ k ih =>
      intro hk
      rw [← Nat.add_assoc, Finset.prod_Ico_succ_top (by omega), ← mul_assoc, ih (by omega),
        hfac (m + k) (by omega) (by omega)]
      have := hne (m + k) (by omega) (by omega)
      show C (m + k + 1) * (C (m + k + 2) / C (m + k + 1)) = C (m + k + 2)
      exact mul_div_cancel₀ _ this
  have := key (D - 1 - m) (by omega)
  rw [show m + (D - 1 - m) = D - 1 by omega, show D - 1 + 1 = D by omega] at this
  exact this

/-! ## Examples -/

namespace C60

/-- Exposures 1000, 1100 and 1200. -/
def expo : Tri ℚ := { Ex.tri3 (some true) Ex.cum3 with
  ddims := [24275]
  isVal := true
  values := ⟨1, 1, 3, 1, fun _ _ o _ => .fin (1000 + 100 * o)⟩ }

theorem exposed (get : Nat → Nat → Num ℚ) (hf : ∀ o < 3, ∀ d < 3, (get o d).NoInf)
    (hk : ∀ o < 3, ∀ d < 3, 3 ≤ o + d → get o d = .nan) :
    Exposed (Ex.tri3 (some true) get) expo (fun _ _ o => 1000 + 100 * o) 24240 3 where
  wf := ⟨rfl, rfl, rfl, rfl⟩
  finite := fun _ _ _ _ o ho d hd => hf o ho d hd
  isVal := rfl
  index_pos := Nat.le_refl 1
  columns_pos := Nat.le_refl 1
  two_origins := by decide
  period := by decide
  recent := by decide
  odims := rfl
  ddims := rfl
  vd := rfl
  short := show 3 * 12 < 9999 by decide
  early := show (24275 : Int) ≤ ultVal by decide
  known := fun _ _ _ _ o ho d hd h => hk o ho d hd (by omega)
  noPattern := rfl
  flag := Or.inr ⟨rfl, by decide⟩
  index := Or.inl rfl
  columns := Or.inl rfl
  origins := rfl
  single := rfl
  exposure := fun _ _ _ _ _ _ => rfl
  nonzero := fun _ _ _ _ o _ => by positivity

/-- Costs double every year. -/
def double (m : Int) : ℚ := if 0 ≤ m then 2 ^ (m.toNat / 12) else (1 / 2) ^ ((-m).toNat / 12)

theorem plain (f g) (hf : ∀ m, f m ≠ 0) (n : Nat → Int) :
    Params.Plain (K := ℚ) { trend := f, future := g, nPeriods := n } :=
  ⟨rfl, rfl, rfl, rfl, rfl, rfl, show (0 : Int) ≤ 1 by decide, hf⟩

theorem double_ne (m : Int) : double m ≠ 0 := by
  unfold double
  split_ifs <;> positivity

theorem exposed3 : Exposed (Ex.tri3 (some true) Ex.cum3) expo (fun _ _ o => 1000 + 100 * o) 24240 3 :=
  exposed _ (by decide) (by decide)

/-- Increments 100, 50, 15; 110, 58; 120. -/
example : ∃ F, fit { trend := fun _ => (1 : ℚ) } (Ex.tri3 (some true) Ex.cum3) expo = .ok F ∧
    F.zeta.values.get 0 0 0 0 = .fin (330 / 3300) ∧ F.zeta.values.get 0 0 0 1 = .fin (108 / 2100) ∧
    F.zeta.values.get 0 0 0 2 = .fin (15 / 1000) ∧
    F.incremental.values.get 0 0 1 1 = .fin 58 ∧
    F.incremental.values.get 0 0 1 2 = .fin (1100 * (15 / 1000)) ∧
    F.incremental.values.get 0 0 2 1 = .fin (1200 * (108 / 2100)) :=
  ok_of _ (by decide +kernel)

/-- With doubling costs. -/
example : ∃ F, fit { trend := double } (Ex.tri3 (some true) Ex.cum3) expo = .ok F ∧
    F.zeta.values.get 0 0 0 1 = .fin ((50 * 2 + 58) / 2100) ∧
    F.incremental.values.get 0 0 2 1 = .fin (1200 * (158 / 2100) * 2) ∧
    F.incremental.values.get 0 0 2 2 = .fin (1200 * (15 / 1000) * 4) :=
  ok_of _ (by decide +kernel)

/-- The latest diagonal only. -/
example : ∃ F, fit { trend := fun _ => (1 : ℚ), nPeriods := fun _ => 1 } (Ex.tri3 (some true) Ex.cum3) expo =
      .ok F ∧
    F.zeta.values.get 0 0 0 0 = .fin (120 / 1200) ∧ F.zeta.values.get 0 0 0 1 = .fin (58 / 1100) :=
  ok_of _ (by decide +kernel)

/-- Dropping the highest ratio of each age, as long as one is left. -/
example : ∃ F, fit { trend := fun _ => (1 : ℚ), dropHigh := some fun _ => 1 }
      (Ex.tri3 (some true) Ex.cum3) expo = .ok F ∧
    F.zeta.values.get 0 0 0 1 = .fin (50 / 1000) ∧ F.zeta.values.get 0 0 0 2 = .fin (15 / 1000) :=
  ok_of _ (by decide +kernel)

/-- The increment of 2020 at age 24 dropped. -/
example : ∃ F, fit { trend := fun _ => (1 : ℚ), drop := some [(24240, 24)] }
      (Ex.tri3 (some true) Ex.cum3) expo = .ok F ∧
    F.zeta.values.get 0 0 0 0 = .fin (330 / 3300) ∧ F.zeta.values.get 0 0 0 1 = .fin (58 / 1100) :=
  ok_of _ (by decide +kernel)

/-- The increments of 2021 dropped. -/
example : ∃ F, fit { trend := fun _ => (1 : ℚ), dropVal := some [24263] }
      (Ex.tri3 (some true) Ex.cum3) expo = .ok F ∧
    F.zeta.values.get 0 0 0 0 = .fin (220 / 2200) ∧ F.zeta.values.get 0 0 0 1 = .fin (58 / 1100) :=
  ok_of _ (by decide +kernel)

example : Params.Drops (K := ℚ) { trend := fun _ => 1, drop := some [(24240, 24)], dropVal := some [24263] }
    (Ex.tri3 (some true) Ex.cum3) 3 where
  labels := by intro l hl; cases hl; decide
  past := by intro l hl; cases hl; decide
  left := by intro l hl; cases hl; exact ⟨0, 0, by decide, by decide, by decide +kernel⟩

/-- The first origin has no payment in its second year. -/
def idle : Nat → Nat → Num ℚ
  | 0, 0 => .fin 100 | 0, 1 => .fin 100 | 0, 2 => .fin 115
  | 1, 0 => .fin 110 | 1, 1 => .fin 168
  | 2, 0 => .fin 120
  | _, _ => .nan

/-- **C60 is false of the code for zero increments**: the volume-weighted rate is not the sum of the known
increments over the sum of their exposures; an increment of zero is left out. -/
theorem C60_zero_false : ∃ (x s : Tri ℚ) (e : Nat → Nat → Nat → ℚ) (a : Int) (D : Nat) (p : Params ℚ)
    (F : Fitted ℚ), Exposed x s e a D ∧ p.Plain ∧ (∀ d, p.nPeriods d < 1) ∧ fit p x s = .ok F ∧
      (∀ d, p.average d = .volume) ∧ F.zeta.values.get 0 0 0 1 ≠
        (Num.fin ((∑ o ∈ Finset.range (D - 1), level p x 0 0 o 1) /
          ∑ o ∈ Finset.range (D - 1), e 0 0 o)).numToNan := by
  obtain ⟨F, hF, h1⟩ : ∃ F, fit { trend := fun _ => (1 : ℚ) } (Ex.tri3 (some true) idle) expo = .ok F ∧
      F.zeta.values.get 0 0 0 1 = .fin (58 / 1100) := ok_of _ (by decide +kernel)
  refine ⟨_, _, _, _, _, _, F, exposed idle (by decide) (by decide),
    plain _ none (fun _ => one_ne_zero) (fun _ => -1), fun _ => show (-1 : Int) < 1 by decide, hF, fun _ => rfl, ?_⟩
  rw [h1]
  decide +kernel

/-- **C60 is false of the code for labels that are not in the triangle**: listing 2019 at age 12 and 2020 at
age 24 excludes 2020 at age 12. -/
theorem C60_drop_false : ∃ (x s : Tri ℚ) (e : Nat → Nat → Nat → ℚ) (a : Int) (D : Nat) (p : Params ℚ)
    (l : List (Int × Int)) (F : Fitted ℚ), Exposed x s e a D ∧ p.Valid ∧ p.drop = some l ∧ p.dropVal = none ∧
      p.dropHigh = none ∧ p.dropLow = none ∧ p.dropAbove = none ∧ (∀ d, p.nPeriods d < 1) ∧
      fit p x s = .ok F ∧ Moves x 0 0 0 0 ∧ (x.odims.getD 0 0, x.ddims.getD 0 0) ∉ l ∧
      F.w.get 0 0 0 0 = .nan := by
  obtain ⟨F, hF, h1⟩ : ∃ F, fit { trend := fun _ => (1 : ℚ), drop := some [(24228, 12), (24240, 24)] }
      (Ex.tri3 (some true) Ex.cum3) expo = .ok F ∧ F.w.get 0 0 0 0 = .nan := ok_of _ (by decide +kernel)
  exact ⟨_, _, _, _, _, _, _, F, exposed3,
    ⟨fun _ => le_refl 0, fun _ => le_refl 0, show (0 : Int) ≤ 1 by decide, fun _ => one_ne_zero⟩, rfl, rfl, rfl,
    rfl, rfl, fun _ => show (-1 : Int) < 1 by decide, hF,
    by unfold Moves; decide +kernel, by decide, h1⟩

/-- Two columns; in the first, 2020 has no payment in its second year. -/
def two : Tri ℚ := { Ex.tri3 (some true) Ex.cum3 with
  vdims := ["a", "b"]
  values := ⟨1, 2, 3, 3, fun _ c o d => if c = 0 then idle o d else Ex.cum3 o d⟩ }

theorem exposedTwo : Exposed two expo (fun _ _ o => 1000 + 100 * o) 24240 3 where
  wf := ⟨rfl, rfl, rfl, rfl⟩
  finite := by unfold Tri.Finite; decide
  isVal := rfl
  index_pos := Nat.le_refl 1
  columns_pos := by decide
  two_origins := by decide
  period := by decide
  recent := by decide
  odims := rfl
  ddims := rfl
  vd := rfl
  short := show 3 * 12 < 9999 by decide
  early := show (24275 : Int) ≤ ultVal by decide
  known := by
    intro i _ c hc o ho d hd h
    have hc : c < 2 := hc
    revert h
    interval_cases c <;> interval_cases o <;> interval_cases d <;>
      first | (intro; rfl) | (intro h; exact absurd h (by decide))
  noPattern := rfl
  flag := Or.inr ⟨rfl, by decide⟩
  index := Or.inl rfl
  columns := Or.inr rfl
  origins := rfl
  single := rfl
  exposure := fun _ _ _ _ _ _ => rfl
  nonzero := fun _ _ _ _ o _ => by positivity

/-- **C60 is false of the code for several columns with `drop_valuation`**: a payment of the second column is
left out because the first column has none, although its date is not listed. -/
theorem C60_first_false : ∃ (x s : Tri ℚ) (e : Nat → Nat → Nat → ℚ) (a : Int) (D : Nat) (p : Params ℚ)
    (l : List Int) (F : Fitted ℚ), Exposed x s e a D ∧ p.Valid ∧ p.Drops x D ∧ p.drop = none ∧
      p.dropVal = some l ∧ p.dropHigh = none ∧ p.dropLow = none ∧ p.dropAbove = none ∧
      (∀ d, p.nPeriods d < 1) ∧ fit p x s = .ok F ∧ increment x 0 1 0 1 = 50 ∧ x.valuation 0 1 ∉ l ∧
      F.w.get 0 1 0 1 = .nan := by
  obtain ⟨F, hF, h1⟩ : ∃ F, fit { trend := fun _ => (1 : ℚ), dropVal := some [24251] } two expo = .ok F ∧
      F.w.get 0 1 0 1 = .nan := ok_of _ (by decide +kernel)
  refine ⟨_, _, _, _, _, _, _, F, exposedTwo,
    ⟨fun _ => le_refl 0, fun _ => le_refl 0, show (0 : Int) ≤ 1 by decide, fun _ => one_ne_zero⟩, ⟨?_, ?_, ?_⟩, rfl,
    rfl, rfl, rfl, rfl, fun _ => show (-1 : Int) < 1 by decide, hF, by decide +kernel, by decide, h1⟩
  · intro l hl; cases hl
  · intro l hl; cases hl; decide
  · intro l hl; cases hl; exact ⟨1, 0, by decide, by decide, by decide +kernel⟩

/-- The payments of the second year cancel. -/
def cancel : Nat → Nat → Num ℚ
  | 0, 0 => .fin 100 | 0, 1 => .fin 150 | 0, 2 => .fin 165
  | 1, 0 => .fin 110 | 1, 1 => .fin 60
  | 2, 0 => .fin 120
  | _, _ => .nan

/-- **C60 is false of the code where a rate is zero**: a known increment is lost. -/
theorem C60_known_false : ∃ (x s : Tri ℚ) (e : Nat → Nat → Nat → ℚ) (a : Int) (D : Nat) (p : Params ℚ)
    (F : Fitted ℚ), Exposed x s e a D ∧ p.Plain ∧ (∀ d, p.nPeriods d < 1) ∧ fit p x s = .ok F ∧
      increment x 0 0 0 1 = 50 ∧ F.incremental.values.get 0 0 0 1 = .nan := by
  obtain ⟨F, hF, h1⟩ : ∃ F, fit { trend := fun _ => (1 : ℚ) } (Ex.tri3 (some true) cancel) expo = .ok F ∧
      F.incremental.values.get 0 0 0 1 = .nan := ok_of _ (by decide +kernel)
  exact ⟨_, _, _, _, _, _, F, exposed cancel (by decide) (by decide),
    plain _ none (fun _ => one_ne_zero) (fun _ => -1), fun _ => show (-1 : Int) < 1 by decide, hF, by decide +kernel, h1⟩

/-- **C60 is false of the code with a future trend**: the factors do not lead to the completed triangle. -/
theorem C60_future_false : ∃ (x s : Tri ℚ) (e : Nat → Nat → Nat → ℚ) (a : Int) (D : Nat) (p : Params ℚ)
    (F : Fitted ℚ), Exposed x s e a D ∧ p.Plain ∧ (∀ d, p.nPeriods d < 1) ∧ fit p x s = .ok F ∧
      (x.values.get 0 0 1 1).amt * (F.ldf.values.get 0 0 1 1).amt ≠
        ∑ j ∈ Finset.range D, (F.incremental.values.get 0 0 1 j).amt := by
  obtain ⟨F, hF, h1⟩ : ∃ F, fit { trend := fun _ => (1 : ℚ), future := some double }
      (Ex.tri3 (some true) Ex.cum3) expo = .ok F ∧ (168 : ℚ) * (F.ldf.values.get 0 0 1 1).amt ≠
        ∑ j ∈ Finset.range 3, (F.incremental.values.get 0 0 1 j).amt := ok_of _ (by decide +kernel)
  exact ⟨_, _, _, _, _, _, F, exposed3, plain _ (some double) (fun _ => one_ne_zero) (fun _ => -1),
    fun _ => show (-1 : Int) < 1 by decide, hF, h1⟩

/-- Three origins with four ages. -/
def wide : Tri ℚ := { Ex.tri3 (some true) Ex.cum3 with
  ddims := [12, 24, 36, 48]
  vd := 24287
  values := ⟨1, 1, 3, 4, fun _ _ o d => if o + d < 4 then .fin ((o + 2) * (d + 1)) else .nan⟩ }

/-- **C60 is false of the code where ages outnumber origins**: `fit` raises. -/
theorem C60_wide_false : ∃ (x s : Tri ℚ) (a : Int) (n D : Nat) (p : Params ℚ), Grid x a n D 1 ∧ n < D ∧
    p.Plain ∧ (∀ d, p.nPeriods d < 1) ∧ x.isCum = some true ∧ s.values.d2 = n ∧ s.values.d3 = 1 ∧
    fit p x s = .error .valueError := by
  refine ⟨wide, expo, 24240, 3, 4, { trend := fun _ => 1 }, ?_, by decide,
    plain _ none (fun _ => one_ne_zero) (fun _ => -1), fun _ => show (-1 : Int) < 1 by decide, rfl, rfl, rfl,
    error_of (by decide +kernel)⟩
  refine ⟨⟨rfl, rfl, rfl, rfl⟩, by decide, rfl, by decide, by decide, by decide, by decide, by decide,
    rfl, rfl, rfl, by decide, by decide, ?_⟩
  intro i _ c _ o ho d hd hlt
  show (if o + d < 4 then _ else .nan) = Num.nan
  rw [if_neg (by omega)]

end C60
end Additive
end CL
