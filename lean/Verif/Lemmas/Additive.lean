import Verif.Model.Additive
import Verif.Lemmas.Increments
import Verif.Lemmas.Factor
import Verif.Lemmas.Weights
import Verif.Lemmas.Bcast
import Verif.Props.C32
import Verif.Props.C31
import Verif.Props.C28
import Verif.Lemmas.DropFunc

set_option linter.unusedSectionVars false

/-! # Rates of increments to exposures -/

namespace CL
namespace Additive
variable {K : Type} [Field K] [LinearOrder K] [IsStrictOrderedRing K]
open Tri

/-- A triangle with as many ages as origins and the exposure of each origin. -/
structure Exposed (x s : Tri K) (e : Nat → Nat → Nat → K) (a : Int) (D : Nat) : Prop
    extends Grid x a D D 1 where
  noPattern : x.isPattern = false
  flag : x.isCum = some false ∨ x.isCum = some true ∧ 3 ≤ D
  index : s.values.d0 = x.kdims.length ∨ s.values.d0 = 1
  columns : s.values.d1 = x.vdims.length ∨ s.values.d1 = 1
  origins : s.values.d2 = D
  single : s.values.d3 = 1
  exposure : ∀ i < x.kdims.length, ∀ c < x.vdims.length, ∀ o < D,
    Dev.bget s.values i c o 0 = .fin (e i c o)
  nonzero : ∀ i < x.kdims.length, ∀ c < x.vdims.length, ∀ o < D, e i c o ≠ 0

/-- The average of `b o / e o` over the origins `s`. -/
def rate (v : Avg) (s : Finset Nat) (b e : Nat → K) : K :=
  match v with
  | .volume => (∑ o ∈ s, b o) / ∑ o ∈ s, e o
  | .simple => (∑ o ∈ s, b o / e o) / s.card
  | .regression => (∑ o ∈ s, e o * b o) / ∑ o ∈ s, e o * e o

/-- The increment at the level of the valuation date. -/
def level (p : Params K) (x : Tri K) (i c o d : Nat) : K :=
  increment x i c o d * p.trend (x.vd - x.valuation o d)

theorem bix_eq {m n i : Nat} (h : m = n ∨ m = 1) (hi : i < n) :
    Arr.bix m n i = if m = 1 then 0 else i := by
  unfold Arr.bix
  rcases h with h | h
  · subst h
    split_ifs <;> first | rfl | omega
  · subst h
    split_ifs <;> first | rfl | omega

theorem factor_rate (v : Avg) (n : Nat) {w x y : Nat → Num K} {e b : Nat → K} {S : Finset Nat}
    (hS : S ⊆ Finset.range n) (h1 : ∀ o ∈ S, w o = 1 ∧ y o = .fin (b o))
    (h2 : ∀ o < n, o ∉ S → w o = .nan) (he : ∀ o < n, x o = .fin (e o) ∧ e o ≠ 0) :
    Dev.factor v n w x y = (Num.fin (rate v S b e)).numToNan := by
  have hdiv : ∀ {a b : K}, b ≠ 0 → (Num.fin a / Num.fin b : Num K) = .fin (a / b) :=
    fun h => Num.fin_div_fin_of_ne _ h
  have hw : ∀ o ∈ S, Dev.regWeight v (w o) (x o) (y o) =
      .fin (match v with | .regression => 1 | .volume => 1 / e o | .simple => 1 / (e o * e o)) := by
    intro o ho
    have hn : o < n := by simpa using hS ho
    obtain ⟨hw, hy⟩ := h1 o ho
    obtain ⟨hx, hz⟩ := he o hn
    have hz2 : e o * e o ≠ 0 := mul_ne_zero hz hz
    rw [hw, hy, hx]
    cases v <;> simp [Dev.regWeight, Dev.expo, Avg.exponent, Num.npow, Num.one_def, hdiv, hz,
      Num.numToNan]
  have hw2 : ∀ o < n, o ∉ S → Dev.regWeight v (w o) (x o) (y o) = .nan := by
    intro o ho hs
    rw [h2 o ho hs]
    simp [Dev.regWeight]
  have key : ∀ (f : Nat → Num K) (g : Nat → K), (∀ o ∈ S, f o = .fin (g o)) →
      (∀ o < n, o ∉ S → f o = .nan) → Reg.nansum n f = .fin (∑ o ∈ S, g o) := by
    intro f g hf hg
    unfold Reg.nansum
    rw [← Num.sum_fin]
    rw [← Finset.sum_subset hS]
    · apply Finset.sum_congr rfl
      intro o ho
      rw [hf o ho]
      rfl
    · intro o ho hs
      rw [hg o (by simpa using ho) hs]
      rfl
  unfold Dev.factor Reg.origSlope Reg.origDen
  have en := key (fun j => Dev.regWeight v (w j) (x j) (y j) * x j * y j)
    (fun o => match v with | .regression => e o * b o | .volume => b o | .simple => b o / e o)
    (by
      intro o ho
      have hn : o < n := by simpa using hS ho
      obtain ⟨-, hy⟩ := h1 o ho
      obtain ⟨hx, hz⟩ := he o hn
      show Dev.regWeight v (w o) (x o) (y o) * x o * y o = _
      rw [hw o ho, hx, hy]
      cases v <;> simp <;> field_simp)
    (by
      intro o ho hs
      show Dev.regWeight v (w o) (x o) (y o) * x o * y o = _
      rw [hw2 o ho hs]; simp)
  have ed := key (fun j => (y j * 0 + 1) * Dev.regWeight v (w j) (x j) (y j) * x j * x j)
    (fun o => match v with | .regression => e o * e o | .volume => e o | .simple => 1)
    (by
      intro o ho
      have hn : o < n := by simpa using hS ho
      obtain ⟨-, hy⟩ := h1 o ho
      obtain ⟨hx, hz⟩ := he o hn
      show (y o * 0 + 1) * Dev.regWeight v (w o) (x o) (y o) * x o * x o = _
      rw [hw o ho, hx, hy]
      cases v <;> simp [Num.zero_def, Num.one_def] <;> field_simp)
    (by
      intro o ho hs
      show (y o * 0 + 1) * Dev.regWeight v (w o) (x o) (y o) * x o * x o = _
      rw [hw2 o ho hs]; simp)
  rw [en, ed, Dev.quot]
  unfold rate
  cases v <;> simp

namespace Exposed
variable {x s : Tri K} {e : Nat → Nat → Nat → K} {a : Int} {D : Nat}

theorem fits (h : Exposed x s e a D) {u : Arr K} (hu : Arr.SameShape u x.values) :
    Arr.Fits s.values u := by
  obtain ⟨u0, u1, u2, u3⟩ := hu
  obtain ⟨w0, w1, w2, w3⟩ := h.wf
  refine ⟨?_, ?_, Or.inl ?_, Or.inr h.single⟩
  · rw [u0, w0]; exact h.index
  · rw [u1, w1]; exact h.columns
  · rw [u2, w2, h.lenO]; exact h.origins

/-- Arithmetic with the exposures. -/
theorem zip (h : Exposed x s e a D) {u : Arr K} (hu : Arr.SameShape u x.values)
    (f : Num K → Num K → Num K) : ∃ v, Arr.zip f u s.values = .ok v ∧ Arr.SameShape v x.values ∧
      ∀ i < x.kdims.length, ∀ c < x.vdims.length, ∀ o < D, ∀ d < D,
        v.get i c o d = f (u.get i c o d) (.fin (e i c o)) := by
  refine ⟨_, Arr.zip_fits f (h.fits hu), hu, ?_⟩
  intro i hi c hc o ho d hd
  show f _ (s.values.get _ _ _ _) = _
  congr 1
  obtain ⟨u0, u1, u2, u3⟩ := hu
  obtain ⟨w0, w1, w2, w3⟩ := h.wf
  rw [bix_eq (by rw [u0, w0]; exact h.index) (by rw [u0, w0]; exact hi),
    bix_eq (by rw [u1, w1]; exact h.columns) (by rw [u1, w1]; exact hc),
    bix_eq (Or.inl (by rw [u2, w2, h.lenO]; exact h.origins)) (by rw [u2, w2, h.lenO]; exact ho),
    bix_eq (Or.inr h.single) (by rw [u3, w3, h.lenD]; exact hd)]
  have := h.exposure i hi c hc o ho
  unfold Dev.bget at this
  rw [if_pos h.single] at this ⊢
  exact this

/-- The increments, at the level of the valuation date. -/
theorem trended (h : Exposed x s e a D) (p : Params K) : ∃ u y, x.cumToIncr = .ok u ∧
    u.trend p.trend .valuation none none none = .ok y ∧ SameLabels u x ∧ SameLabels y x ∧
    Grid u a D D 1 ∧ Grid y a D D 1 ∧ u.isCum = some false ∧ u.isPattern = false ∧
    y.isCum = some false ∧ y.isPattern = false ∧
    (∀ i < x.kdims.length, ∀ c < x.vdims.length, ∀ o < D, ∀ d < D,
      (Moves x i c o d → u.values.get i c o d = .fin (increment x i c o d)) ∧
      (¬ Moves x i c o d → u.values.get i c o d = .nan)) ∧
    ∀ i < x.kdims.length, ∀ c < x.vdims.length, ∀ o < D, ∀ d < D,
      (Moves x i c o d → y.values.get i c o d = .fin (level p x i c o d)) ∧
      (¬ Moves x i c o d → y.values.get i c o d = .nan) := by
  obtain ⟨u, eu, lu, cu, pu, gu, hm, ha⟩ := h.toGrid.increments h.noPattern h.flag
  have hu : ∀ i < x.kdims.length, ∀ c < x.vdims.length, ∀ o < D, ∀ d < D,
      (Moves x i c o d → u.values.get i c o d = .fin (increment x i c o d)) ∧
      (¬ Moves x i c o d → u.values.get i c o d = .nan) := by
    intro i hi c hc o ho d hd
    constructor
    · intro hmv
      have h1 := (hm i hi c hc o ho d hd).mpr hmv
      have h2 := ha i hi c hc o ho d hd hmv.1
      have h3 : (u.values.get i c o d).NoInf := gu.finite i (by rw [gu.wf.1, lu.1]; exact hi) c
        (by rw [gu.wf.2.1, lu.2.2.1]; exact hc) o (by rw [gu.wf.2.2.1, gu.lenO]; exact ho) d
        (by rw [gu.wf.2.2.2, gu.lenD]; exact hd)
      rcases Num.noInf_cases h3 with e | ⟨b, e⟩
      · exact absurd e h1
      · rw [e] at h2 ⊢
        unfold increment
        rw [← h2]; rfl
    · intro hmv
      by_contra hne
      exact hmv ((hm i hi c hc o ho d hd).mp hne)
  have hD := h.two_ages
  have hval : ∀ o d, u.valuation o d = x.valuation o d := by
    intro o d
    unfold Tri.valuation valuationOf
    obtain ⟨-, -, -, l4, l5, l6, -, -, l9, -⟩ := lu
    rw [l4, l5, l6, l9]
  have hvd : u.vd = x.vd := lu.2.2.2.2.2.2.2.2.1
  have ey : u.trend p.trend .valuation none none none = .ok { u with values := { u.values with
      get := fun i c o d => u.values.get i c o d *
        (.fin (p.trend (u.trendMonths .valuation u.vd (u.odims.getD 0 0) none o d)) * u.nanTri o d) } } := by
    unfold trend
    have hall : u.allOrigins = false := by
      unfold allOrigins
      simp [pu]
    have hne : u.odims ≠ [] := by
      intro e0
      have := gu.lenO
      rw [e0] at this
      simp at this
      omega
    rw [if_neg (by simp), if_neg (by simp [hall]), if_neg (by simp [hne]), if_neg (by simp)]
    rfl
  have hy : ∀ i < x.kdims.length, ∀ c < x.vdims.length, ∀ o < D, ∀ d < D,
      (Moves x i c o d → u.values.get i c o d *
        (.fin (p.trend (u.trendMonths .valuation u.vd (u.odims.getD 0 0) none o d)) * u.nanTri o d) =
          .fin (level p x i c o d)) ∧
      (¬ Moves x i c o d → u.values.get i c o d *
        (.fin (p.trend (u.trendMonths .valuation u.vd (u.odims.getD 0 0) none o d)) * u.nanTri o d) =
          .nan) := by
    intro i hi c hc o ho d hd
    obtain ⟨h1, h2⟩ := hu i hi c hc o ho d hd
    constructor
    · intro hmv
      rw [h1 hmv]
      have hle := hmv.1
      have hnt : u.nanTri o d = 1 := by
        unfold nanTri
        rw [hval, hvd, if_neg (not_lt.mpr hle)]
        simp
      have hmth : u.trendMonths .valuation u.vd (u.odims.getD 0 0) none o d =
          x.vd - x.valuation o d := by
        have e0 := gu.getO (o := 0) (by omega)
        have e1 : a ≤ u.vd := by have := gu.origin_le (o := 0) (by omega); simpa using this
        have e2 : a ≤ u.valuation o d := by
          rw [gu.valuation ho hd]
          have h3 := months_pos u.dgrain
          have : 1 * u.dgrain.months ≤ (1 * o + d + 1) * u.dgrain.months :=
            Nat.mul_le_mul_right _ (by omega)
          omega
        have e3 : u.valuation o d ≤ u.vd := by rw [hval, hvd]; exact hle
        unfold trendMonths trendDate
        rw [e0]
        simp only [Nat.zero_mul, Nat.cast_zero, add_zero]
        rw [if_neg (by omega), if_neg (by omega), min_eq_right e3, max_eq_left e2, hval, hvd]
      rw [hnt, hmth]
      simp [level, Num.one_def]
    · intro hmv
      rw [h2 hmv]
      simp
  refine ⟨u, _, eu, ey, lu, lu, gu, ?_, cu, pu, cu, pu, hu, hy⟩
  have hs : Arr.SameShape u.values x.values := by
    refine ⟨?_, ?_, ?_, ?_⟩
    · rw [gu.wf.1, h.wf.1, lu.1]
    · rw [gu.wf.2.1, h.wf.2.1, lu.2.2.1]
    · rw [gu.wf.2.2.1, h.wf.2.2.1, lu.2.2.2.1]
    · rw [gu.wf.2.2.2, h.wf.2.2.2, lu.2.2.2.2.1]
  refine grid_congr h.toGrid lu hs fun i hi c hc o ho d hd => ?_
  obtain ⟨h1, h2⟩ := hy i hi c hc o ho d hd
  by_cases hgt : D < 1 * o + d + 1
  · left
    refine ⟨h2 fun hmv => ?_, hgt⟩
    exact (Grid.le_iff h.toGrid ho hd).mp hmv.1 hgt
  · right
    refine ⟨?_, hgt⟩
    by_cases hmv : Moves x i c o d
    · show Num.NoInf (_ * _)
      rw [h1 hmv]; trivial
    · show Num.NoInf (_ * _)
      rw [h2 hmv]; trivial

end Exposed
end Additive

namespace Tri
variable {K : Type} [Field K] [LinearOrder K] [IsStrictOrderedRing K]

/-- Valuations of a regular grid are whole periods before the valuation date, without gaps. -/
theorem Grid.diagonals {t : Tri K} {a : Int} {n D q : Nat} (h : Grid t a n D q) :
    Dev.Diagonals t := by
  have h0 := h.two_origins
  have h1 := h.two_ages
  refine ⟨?_, ?_⟩
  · intro o ho d hd hv
    rw [h.lenO] at ho
    rw [h.lenD] at hd
    have hle := (Grid.le_iff h ho hd).mp hv
    refine ⟨D - (q * o + d + 1), ?_⟩
    rw [h.valuation ho hd, h.vd]
    have e : D * t.dgrain.months = (D - (q * o + d + 1)) * t.dgrain.months +
        (q * o + d + 1) * t.dgrain.months := by
      rw [← Nat.add_mul]; congr 1; omega
    rw [e]
    push_cast
    ring
  · intro o ho d hd j hv
    rw [h.lenO] at ho ⊢
    rw [h.lenD] at hd ⊢
    rw [h.valuation ho hd, h.vd] at hv
    have h2 := months_pos t.dgrain
    have hj : q * o + d + 1 + j ≤ D := by
      have : ((q * o + d + 1 + j : Nat) : Int) * t.dgrain.months ≤ (D : Int) * t.dgrain.months := by
        push_cast at hv ⊢
        linarith
      have := le_of_mul_le_mul_right this (by omega)
      exact_mod_cast this
    refine ⟨0, by omega, D - 1 - j, by omega, ?_⟩
    rw [h.valuation (by omega) (by omega), h.vd]
    have e : D * t.dgrain.months = (q * 0 + (D - 1 - j) + 1) * t.dgrain.months + j * t.dgrain.months := by
      rw [← Nat.add_mul]; congr 1; omega
    rw [e]
    push_cast
    ring

end Tri

namespace Additive
variable {K : Type} [Field K] [LinearOrder K] [IsStrictOrderedRing K]
open Tri

/-- The ratio to the exposure. -/
def ratio (p : Params K) (x : Tri K) (e : Nat → Nat → Nat → K) (i c o d : Nat) : K :=
  level p x i c o d / e i c o

/-- `n_periods` keeps the latest diagonals; there, an increment of zero is left out. -/
def Recent (p : Params K) (x : Tri K) (D i c o d : Nat) : Prop :=
  1 ≤ p.nPeriods d → p.nPeriods d < D →
    (D : Int) ≤ o + d + p.nPeriods d ∧ increment x i c o d ≠ 0

/-- Not listed in `drop`, and not at a date listed in `drop_valuation`; with `drop_valuation`, a cell whose
increment is zero in the first index and column is left out as well. -/
def Kept (p : Params K) (x : Tri K) (o d : Nat) : Prop :=
  (∀ l, p.drop = some l → (x.odims.getD o 0, x.ddims.getD d 0) ∉ l) ∧
    ∀ l, p.dropVal = some l → x.valuation o d ∉ l ∧ increment x 0 0 o d ≠ 0

/-- Between `drop_below` and `drop_above`. -/
def Inside (p : Params K) (d : Nat) (r : K) : Prop :=
  (Num.fin r).ltb ((p.dropAbove.getD fun _ => .pinf) d) = true ∧
    ((p.dropBelow.getD fun _ => 0) d).ltb (.fin r) = true

/-- The origins whose ratios are averaged at age `d`: of the recorded increments, those of the latest
`n_periods` diagonals not listed in `drop` or `drop_valuation` (`A`); of these, those between `drop_below` and `drop_above`, unless fewer than
`preserve` ratios are (`B`); of these, all but the `drop_high` highest and the `drop_low` lowest, unless
fewer than `preserve` would be left. -/
def Chosen (p : Params K) (x : Tri K) (e : Nat → Nat → Nat → K) (D i c d : Nat) (S : Finset Nat) : Prop :=
  ∃ A I B : Finset Nat,
    (∀ o, o ∈ A ↔ o < D ∧ Moves x i c o d ∧ Recent p x D i c o d ∧ Kept p x o d) ∧
    (∀ o, o ∈ I ↔ o < D ∧ Moves x i c o d ∧ Inside p d (ratio p x e i c o d)) ∧
    (∀ o, o ∈ B ↔ o ∈ A ∧ ((p.dropAbove ≠ none ∨ p.dropBelow ≠ none) → p.preserve ≤ I.card → o ∈ I)) ∧
    (p.dropHigh = none → p.dropLow = none → S = B) ∧
    (p.dropHigh ≠ none ∨ p.dropLow ≠ none →
      ((p.dropHigh.getD fun _ => 0) d + (p.dropLow.getD fun _ => 0) d + p.preserve ≤ B.card →
        Dev.Trimmed B S (fun o => ratio p x e i c o d) ((p.dropLow.getD fun _ => 0) d).toNat
          ((p.dropHigh.getD fun _ => 0) d).toNat) ∧
      (B.card < (p.dropHigh.getD fun _ => 0) d + (p.dropLow.getD fun _ => 0) d + p.preserve → S = B))

/-- Parameters: `drop_high` and `drop_low` are not negative, a trend factor is not zero. -/
structure Params.Valid (p : Params K) : Prop where
  high : ∀ d, 0 ≤ (p.dropHigh.getD fun _ => 0) d
  low : ∀ d, 0 ≤ (p.dropLow.getD fun _ => 0) d
  preserve : 0 ≤ p.preserve
  trend : ∀ m, p.trend m ≠ 0

/-- The labels of `drop` are in the triangle, the dates of `drop_valuation` are past, and an increment of
the first index and column is left. -/
structure Params.Drops (p : Params K) (x : Tri K) (D : Nat) : Prop where
  labels : ∀ l, p.drop = some l → ∀ q ∈ l, q.1 ∈ x.odims ∧ q.2 ∈ x.ddims
  past : ∀ l, p.dropVal = some l → ∀ v ∈ l, v ≤ x.vd
  left : ∀ l, p.dropVal = some l → ∃ o d, o + d < D ∧ x.valuation o d ∉ l ∧ increment x 0 0 o d ≠ 0

theorem mapM_all {α β : Type} {f : α → Except Err β} {g : α → β} : ∀ (l : List α),
    (∀ a ∈ l, f a = .ok (g a)) → l.mapM f = .ok (l.map g)
  | [], _ => rfl
  | a :: l, h => by
    rw [List.mapM_cons, h a (by simp), mapM_all l fun b hb => h b (by simp [hb])]
    rfl

namespace Exposed
variable {x s : Tri K} {e : Nat → Nat → Nat → K} {a : Int} {D : Nat}

theorem shape (h : Exposed x s e a D) {r : Tri K} (lr : SameLabels r x) (gr : Grid r a D D 1) :
    Arr.SameShape r.values x.values := by
  refine ⟨?_, ?_, ?_, ?_⟩
  · rw [gr.wf.1, h.wf.1, lr.1]
  · rw [gr.wf.2.1, h.wf.2.1, lr.2.2.1]
  · rw [gr.wf.2.2.1, h.wf.2.2.1, lr.2.2.2.1]
  · rw [gr.wf.2.2.2, h.wf.2.2.2, lr.2.2.2.2.1]

theorem valuation_same {r x : Tri K} (lr : SameLabels r x) (o d : Nat) :
    r.valuation o d = x.valuation o d := by
  unfold Tri.valuation valuationOf
  obtain ⟨-, -, -, l4, l5, l6, -, -, l9, -⟩ := lr
  rw [l4, l5, l6, l9]

/-- The weights of `n_periods`. -/
theorem periods (h : Exposed x s e a D) {p : Params K} (hp : p.Valid) {r : Tri K}
    (lr : SameLabels r x) (gr : Grid r a D D 1)
    (hr : ∀ i < x.kdims.length, ∀ c < x.vdims.length, ∀ o < D, ∀ d < D,
      (Moves x i c o d → r.values.get i c o d = .fin (ratio p x e i c o d)) ∧
      (¬ Moves x i c o d → r.values.get i c o d = .nan))
    (hn : (∀ d, p.nPeriods d < 1) ∨ Dev.valOffsetFunc x.dgrain x.ograin = some 1) :
    ∃ w, Dev.nPeriodsWeightFunc r p.nPeriods = .ok w ∧
      ∀ i < x.kdims.length, ∀ c < x.vdims.length, ∀ o < D, ∀ d < D,
        (Moves x i c o d → Recent p x D i c o d → Dev.bget w i c o d = 1) ∧
        (Moves x i c o d → ¬ Recent p x D i c o d → Dev.bget w i c o d = 0) ∧
        (Dev.bget w i c o d = 0 ∨ Dev.bget w i c o d = 1 ∨ Dev.bget w i c o d = .nan) := by
  obtain ⟨s0, s1, s2, s3⟩ := h.shape lr gr
  obtain ⟨w0, w1, w2, w3⟩ := h.wf
  have hD := h.two_ages
  have key : ∀ d < D, ∃ w, Dev.nPeriodsFuncInt r (p.nPeriods d) = .ok w ∧
      Arr.SameShape w r.values ∧ ∀ i < x.kdims.length, ∀ c < x.vdims.length, ∀ o < D,
        (Moves x i c o d → Recent p x D i c o d → w.get i c o d = 1) ∧
        (Moves x i c o d → ¬ Recent p x D i c o d → w.get i c o d = 0) ∧
        (w.get i c o d = 0 ∨ w.get i c o d = 1 ∨ w.get i c o d = .nan) := by
    intro d hd
    unfold Dev.nPeriodsFuncInt
    rw [s2, w2, h.lenO]
    by_cases hc : p.nPeriods d < 1 ∨ p.nPeriods d ≥ (D : Int)
    · rw [if_pos hc]
      refine ⟨_, rfl, ⟨rfl, rfl, rfl, rfl⟩, ?_⟩
      intro i hi c hcc o ho
      obtain ⟨h1, h2⟩ := hr i hi c hcc o ho d hd
      show (_ → _ → r.values.get i c o d * 0 + 1 = 1) ∧ (_ → _ → r.values.get i c o d * 0 + 1 = 0) ∧
        (r.values.get i c o d * 0 + 1 = 0 ∨ r.values.get i c o d * 0 + 1 = 1 ∨
          r.values.get i c o d * 0 + 1 = .nan)
      refine ⟨fun hm _ => ?_, fun hm hno => ?_, ?_⟩
      · rw [h1 hm]; simp [Num.zero_def, Num.one_def]
      · exact absurd (fun ha hb => by omega) hno
      · by_cases hm : Moves x i c o d
        · right; left; rw [h1 hm]; simp [Num.zero_def, Num.one_def]
        · right; right; rw [h2 hm]; simp
    · rw [if_neg hc]
      push Not at hc
      obtain ⟨hc1, hc2⟩ := hc
      have hv : Dev.valOffsetFunc x.dgrain x.ograin = some 1 := by
        rcases hn with hn | hn
        · have := hn d; omega
        · exact hn
      have l8 : r.dgrain = x.dgrain := lr.2.2.2.2.2.2.2.1
      have l7 : r.ograin = x.ograin := lr.2.2.2.2.2.2.1
      rw [l8, l7, hv]
      obtain ⟨j, hj⟩ : ∃ j : Nat, p.nPeriods d = j + 1 := ⟨(p.nPeriods d - 1).toNat, by omega⟩
      have ez : -p.nPeriods d * ((1 : Nat) : Int) = -(j : Int) - 1 := by rw [hj]; push_cast; ring
      simp only [ez]
      have hjD : j + 1 < D := by omega
      have hcut : ∀ o < D, ∀ d < D, (r.vd - j * r.dgrain.months ≤ r.valuation o d ↔ D ≤ o + d + (j + 1)) := by
        intro o ho d hd
        rw [gr.valuation ho hd, gr.vd]
        have h2 := months_pos r.dgrain
        constructor
        · intro h3
          have : ((D : Nat) : Int) * r.dgrain.months ≤ ((1 * o + d + 1 + j : Nat) : Int) * r.dgrain.months := by
            push_cast at h3 ⊢
            linarith
          have := le_of_mul_le_mul_right this (by omega)
          have : D ≤ 1 * o + d + 1 + j := by exact_mod_cast this
          omega
        · intro h3
          have : D * r.dgrain.months ≤ (1 * o + d + 1 + j) * r.dgrain.months :=
            Nat.mul_le_mul_right _ (by omega)
          have : ((D * r.dgrain.months : Nat) : Int) ≤ ((1 * o + d + 1 + j) * r.dgrain.months : Nat) := by
            exact_mod_cast this
          push_cast at this ⊢
          linarith
      have hpy := Dev.pyGet_known gr.diagonals (j := j) ⟨0, by rw [gr.lenO]; omega, 0,
        by rw [gr.lenD]; omega, by
          rw [gr.valuation (by omega) (by omega), gr.vd]
          have : (1 * 0 + 0 + 1 + j) * r.dgrain.months ≤ D * r.dgrain.months :=
            Nat.mul_le_mul_right _ (by omega)
          have : (((1 * 0 + 0 + 1 + j) * r.dgrain.months : Nat) : Int) ≤ (D * r.dgrain.months : Nat) := by
            exact_mod_cast this
          push_cast at this ⊢
          linarith⟩
      have r2 : r.values.d2 = D := by rw [s2, w2, h.lenO]
      have r3 : r.values.d3 = D := by rw [s3, w3, h.lenD]
      have r0 : r.values.d0 = x.kdims.length := by rw [s0, w0]
      have r1 : r.values.d1 = x.vdims.length := by rw [s1, w1]
      obtain ⟨w, hw, hs, hg⟩ := Dev.recent_eq gr.wf gr.finite (by rw [r3]; omega) (by rw [r2]; omega) hpy
        (by
          intro o ho
          rw [r2] at ho
          refine ⟨D - 1, by rw [r3]; omega, ?_⟩
          rw [hcut o ho _ (by omega)]
          omega)
        (by
          intro d hd
          rw [r3] at hd
          refine ⟨D - 1, by rw [r2]; omega, ?_⟩
          rw [hcut _ (by omega) d hd]
          omega)
      refine ⟨w, hw, hs, ?_⟩
      intro i hi c hcc o ho
      obtain ⟨h1, h2⟩ := hr i hi c hcc o ho d hd
      rw [hg i (by rw [r0]; exact hi) c (by rw [r1]; exact hcc) o (by rw [r2]; exact ho) d
        (by rw [r3]; exact hd)]
      have hnt : Moves x i c o d → r.nanTri o d = 1 := by
        intro hm
        unfold nanTri
        rw [valuation_same lr, lr.2.2.2.2.2.2.2.2.1, if_neg (not_lt.mpr hm.1)]
        simp
      have hamt : Moves x i c o d → ((r.values.get i c o d).amt ≠ 0 ↔ increment x i c o d ≠ 0) := by
        intro hm
        rw [h1 hm]
        show level p x i c o d / e i c o ≠ 0 ↔ _
        have := h.nonzero i hi c hcc o ho
        have := hp.trend (x.vd - x.valuation o d)
        unfold level
        simp [*]
      have hrec : Recent p x D i c o d ↔ D ≤ o + d + (j + 1) ∧ increment x i c o d ≠ 0 := by
        unfold Recent
        rw [hj]
        constructor
        · intro h3
          have := h3 (by omega) (by omega)
          exact ⟨by omega, this.2⟩
        · intro h3 _ _
          exact ⟨by omega, h3.2⟩
      refine ⟨fun hm hre => ?_, fun hm hre => ?_, ?_⟩
      · rw [hnt hm, if_pos ⟨(hcut o ho d hd).mpr (hrec.mp hre).1, (hamt hm).mpr (hrec.mp hre).2⟩]
        simp [Num.one_def]
      · rw [hnt hm, if_neg]
        · simp [Num.one_def, Num.zero_def]
        · rintro ⟨h3, h4⟩
          exact hre (hrec.mpr ⟨(hcut o ho d hd).mp h3, (hamt hm).mp h4⟩)
      · have : r.nanTri o d = 1 ∨ r.nanTri o d = .nan := by
          unfold nanTri
          split_ifs <;> simp
        rcases this with h3 | h3
        · rw [h3]; split_ifs <;> simp [Num.one_def, Num.zero_def]
        · rw [h3]; simp
  choose g hg using fun d : Fin D => key d.1 d.2
  let g' : Nat → Arr K := fun d => if hd : d < D then g ⟨d, hd⟩ else r.values
  have e1 : (List.range r.values.d3).mapM (fun d => Dev.nPeriodsFuncInt r (p.nPeriods d)) =
      .ok ((List.range r.values.d3).map g') := by
    apply mapM_all
    intro d hd
    have hd : d < D := by rw [← h.lenD, ← w3, ← s3]; simpa using hd
    rw [(hg ⟨d, hd⟩).1]
    simp [g', hd]
  have r3 : r.values.d3 = D := by rw [s3, w3, h.lenD]
  refine ⟨Dev.columns ((List.range r.values.d3).map g'), ?_, ?_⟩
  · unfold Dev.nPeriodsWeightFunc
    rw [e1]
    rfl
  · intro i hi c hc o ho d hd
    obtain ⟨c0, c1, c2, c3⟩ := Dev.columns_dims g' r.values.d3 (by omega)
    have hg0 : Arr.SameShape (g' 0) r.values := by
      have : g' 0 = g ⟨0, by omega⟩ := by simp [g', show 0 < D by omega]
      rw [this]
      exact (hg ⟨0, by omega⟩).2.1
    rw [Dev.bget_of_lt _ (by rw [c0, hg0.1, s0, w0]; exact hi) (by rw [c1, hg0.2.1, s1, w1]; exact hc)
      (by rw [c2, hg0.2.2.1, s2, w2, h.lenO]; exact ho) (by rw [c3, r3]; exact hd),
      Dev.columns_map _ _ (by rw [r3]; exact hd)]
    have : g' d = g ⟨d, hd⟩ := by simp [g', hd]
    rw [this]
    exact (hg ⟨d, hd⟩).2.2 i hi c hc o ho

end Exposed

/-- A weight of zero or none. -/
def Out (w : Num K) : Prop := w = 0 ∨ w = .nan

theorem Out.ofBool {w : Num K} (h : Out w) (b : Bool) : Out (w * Num.ofBool b) := by
  rcases h with rfl | rfl
  · left; cases b <;> simp [Num.ofBool, Num.zero_def]
  · right; simp

theorem Out.numToNan {w : Num K} (h : Out w) : w.numToNan = .nan := by
  rcases h with rfl | rfl
  · exact Num.numToNan_fin_zero
  · rfl

theorem Chosen.sub {p : Params K} {x : Tri K} {e : Nat → Nat → Nat → K} {D i c d : Nat} {S : Finset Nat}
    (h : Chosen p x e D i c d S) : ∀ o ∈ S, o < D ∧ Moves x i c o d := by
  obtain ⟨A, I, B, hA, hI, hB, h1, h2⟩ := h
  have hBD : ∀ o ∈ B, o < D ∧ Moves x i c o d := fun o ho =>
    ⟨((hA o).mp ((hB o).mp ho).1).1, ((hA o).mp ((hB o).mp ho).1).2.1⟩
  intro o ho
  by_cases hn : p.dropHigh ≠ none ∨ p.dropLow ≠ none
  · obtain ⟨h3, h4⟩ := h2 hn
    rcases le_or_gt ((p.dropHigh.getD fun _ => 0) d + (p.dropLow.getD fun _ => 0) d + p.preserve)
      (B.card : Int) with hle | hlt
    · obtain ⟨low, high, hu, -⟩ := h3 hle
      apply hBD
      rw [← hu]
      simp [ho]
    · rw [h4 hlt] at ho
      exact hBD o ho
  · push Not at hn
    rw [h1 hn.1 hn.2] at ho
    exact hBD o ho

theorem increment_zero {x : Tri K} {i c o d : Nat} (hv : x.valuation o d ≤ x.vd)
    (h : ¬ Moves x i c o d) : increment x i c o d = 0 := by
  unfold Moves at h
  unfold increment
  split_ifs at h ⊢ with hc
  · simp only [hv, true_and, not_not] at h
    rw [h, sub_self]
  · simp only [hv, true_and, not_not] at h
    rw [h]; rfl

namespace Exposed
variable {x s : Tri K} {e : Nat → Nat → Nat → K} {a : Int} {D : Nat}

/-- The weights of `drop` and `drop_valuation`. -/
theorem drops (h : Exposed x s e a D) {p : Params K} (hp : p.Valid) (hd : p.Drops x D) {r : Tri K}
    (lr : SameLabels r x) (gr : Grid r a D D 1)
    (hr : ∀ i < x.kdims.length, ∀ c < x.vdims.length, ∀ o < D, ∀ d < D,
      (Moves x i c o d → r.values.get i c o d = .fin (ratio p x e i c o d)) ∧
      (¬ Moves x i c o d → r.values.get i c o d = .nan)) :
    ∃ b v, Dev.optWeight (p.drop.map (Dev.dropFunc r)) = .ok b ∧
      Dev.optWeight (p.dropVal.map (Dev.dropValuationFunc r)) = .ok v ∧
      ∀ i < x.kdims.length, ∀ c < x.vdims.length, ∀ o < D, ∀ d < D,
        (Dev.bget b i c o d = 0 ∨ Dev.bget b i c o d = 1) ∧
        (Dev.bget v i c o d = 0 ∨ Dev.bget v i c o d = 1) ∧
        (Moves x i c o d → (Kept p x o d ↔ Dev.bget b i c o d = 1 ∧ Dev.bget v i c o d = 1)) := by
  obtain ⟨s0, s1, s2, s3⟩ := h.shape lr gr
  obtain ⟨w0, w1, w2, w3⟩ := h.wf
  have hD := h.two_ages
  have r0 : r.values.d0 = x.kdims.length := by rw [s0, w0]
  have r1 : r.values.d1 = x.vdims.length := by rw [s1, w1]
  have r2 : r.values.d2 = D := by rw [s2, w2, h.lenO]
  have r3 : r.values.d3 = D := by rw [s3, w3, h.lenD]
  have k0 := h.index_pos
  have c0 := h.columns_pos
  have one_ne : ¬ (0 : Num K) = 1 := by simp [Num.zero_def, Num.one_def]
  have hO : r.odims.Nodup := by
    rw [gr.odims]
    refine List.Nodup.map_on ?_ List.nodup_range
    intro i _ j _ hij
    have hm := months_pos r.dgrain
    have : i * 1 * r.dgrain.months = j * 1 * r.dgrain.months := by
      have := add_left_cancel hij
      exact_mod_cast this
    simpa using Nat.eq_of_mul_eq_mul_right (by omega) this
  -- drop
  have hb : ∃ b, Dev.optWeight (p.drop.map (Dev.dropFunc r)) = .ok b ∧
      ∀ i c, ∀ o < D, ∀ d < D, (Dev.bget b i c o d = 0 ∨ Dev.bget b i c o d = 1) ∧
        (x.valuation o d ≤ x.vd → (Dev.bget b i c o d = 1 ↔
          ∀ l, p.drop = some l → (x.odims.getD o 0, x.ddims.getD d 0) ∉ l)) := by
    cases hl : p.drop with
    | none =>
      refine ⟨_, rfl, fun i c o _ d _ => ⟨Or.inr rfl, fun _ => ⟨fun _ l h => ?_, fun _ => rfl⟩⟩⟩
      cases h
    | some l =>
      have eo : r.odims = x.odims := lr.2.2.2.1
      have ed : r.ddims = x.ddims := lr.2.2.2.2.1
      obtain ⟨b, eb, b0, b1, b2, b3, hb⟩ := Dev.dropFunc_eq hO gr.nodup (items := l) (by
        rw [eo, ed]; exact hd.labels l hl)
      refine ⟨b, eb, ?_⟩
      intro i c o ho d hdd
      have eg : Dev.bget b i c o d = b.get 0 0 o d := by
        unfold Dev.bget
        rw [b0, b1, if_pos rfl, if_pos rfl, if_neg (by omega), if_neg (by omega)]
      rw [eg]
      obtain ⟨h1, h2⟩ := hb o (by rw [gr.lenO]; exact ho) d (by rw [gr.lenD]; exact hdd)
      rw [eo, ed] at h1 h2
      by_cases hm : (x.odims.getD o 0, x.ddims.getD d 0) ∈ l
      · rw [h1 hm]
        refine ⟨Or.inl rfl, fun _ => ⟨fun h => absurd h one_ne, fun h => absurd hm (h l rfl)⟩⟩
      · rw [h2 hm]
        refine ⟨?_, fun hv => ⟨fun _ l' h' => ?_, fun _ => ?_⟩⟩
        · rcases Tri.nanTri_eq r o d with e | ⟨e, -⟩ <;> rw [e] <;>
            simp [Num.nanToNum, Num.one_def, Num.zero_def]
        · cases h'; exact hm
        · have : r.nanTri o d = 1 := by
            unfold nanTri
            rw [valuation_same lr, lr.2.2.2.2.2.2.2.2.1, if_neg (not_lt.mpr hv)]
            simp
          rw [this]
          rfl
  have hv : ∃ v, Dev.optWeight (p.dropVal.map (Dev.dropValuationFunc r)) = .ok v ∧
      ∀ i c, ∀ o < D, ∀ d < D, (Dev.bget v i c o d = 0 ∨ Dev.bget v i c o d = 1) ∧
        (x.valuation o d ≤ x.vd → (Dev.bget v i c o d = 1 ↔
          ∀ l, p.dropVal = some l → x.valuation o d ∉ l ∧ increment x 0 0 o d ≠ 0)) := by
    cases hl : p.dropVal with
    | none =>
      refine ⟨_, rfl, fun i c o _ d _ => ⟨Or.inr rfl, fun _ => ⟨fun _ l h => ?_, fun _ => rfl⟩⟩⟩
      cases h
    | some l =>
      have hamt : ∀ o < D, ∀ d < D, x.valuation o d ≤ x.vd →
          ((r.values.get 0 0 o d).amt ≠ 0 ↔ increment x 0 0 o d ≠ 0) := by
        intro o ho d hdd hv
        obtain ⟨h1, h2⟩ := hr 0 (by omega) 0 (by omega) o ho d hdd
        by_cases hm : Moves x 0 0 o d
        · rw [h1 hm]
          show level p x 0 0 o d / e 0 0 o ≠ 0 ↔ _
          have := h.nonzero 0 (by omega) 0 (by omega) o ho
          have := hp.trend (x.vd - x.valuation o d)
          unfold level
          simp [*]
        · rw [h2 hm, increment_zero hv hm]
          simp
      obtain ⟨o', d', hod, hn', hi'⟩ := hd.left l hl
      have hval' : x.valuation 0 (o' + d') = x.valuation o' d' := by
        rw [h.valuation (by omega) (by omega), h.valuation (by omega) (by omega),
          show 1 * 0 + (o' + d') + 1 = 1 * o' + d' + 1 by omega]
      have hval'' : x.valuation (o' + d') 0 = x.valuation o' d' := by
        rw [h.valuation (by omega) (by omega), h.valuation (by omega) (by omega),
          show 1 * (o' + d') + 0 + 1 = 1 * o' + d' + 1 by omega]
      have hlate : ∀ o < D, ∀ d < D, D ≤ o + d → x.valuation o d ∉ l := by
        intro o ho d hdd hle hm
        have := hd.past l hl _ hm
        have := (Grid.le_iff h.toGrid ho hdd).mp this
        omega
      obtain ⟨v, ev, v0, v1, v2, v3, hv⟩ := Dev.dropValuationFunc_eq (vs := l) gr.wf gr.finite (by omega)
        (by omega) (by omega) (by omega)
        (by
          intro o ho
          rw [r2] at ho
          rcases Nat.eq_zero_or_pos o with rfl | hpos
          · exact ⟨o' + d', by omega, by rw [valuation_same lr, hval']; exact hn'⟩
          · exact ⟨D - 1, by omega, by
              rw [valuation_same lr]; exact hlate o ho _ (by omega) (by omega)⟩)
        (by
          intro d hdd
          rw [r3] at hdd
          rcases Nat.eq_zero_or_pos d with rfl | hpos
          · exact ⟨o' + d', by omega, by rw [valuation_same lr, hval'']; exact hn'⟩
          · exact ⟨D - 1, by omega, by
              rw [valuation_same lr]; exact hlate _ (by omega) d hdd (by omega)⟩)
        ⟨o', by omega, d', by omega, by rw [valuation_same lr]; exact hn',
          (hamt o' (by omega) d' (by omega)
            ((Grid.le_iff h.toGrid (by omega) (by omega)).mpr (by omega))).mpr hi'⟩
      refine ⟨v, ev, ?_⟩
      intro i c o ho d hdd
      have eg : Dev.bget v i c o d = v.get 0 0 o d := by
        unfold Dev.bget
        rw [v0, v1, if_pos rfl, if_pos rfl, if_neg (by omega), if_neg (by omega)]
      rw [eg]
      obtain ⟨h1, h2⟩ := hv o (by omega) d (by omega)
      rw [valuation_same lr] at h1 h2
      by_cases hm : x.valuation o d ∉ l ∧ (r.values.get 0 0 o d).amt ≠ 0
      · rw [h1 hm]
        refine ⟨Or.inr rfl, fun hv => ⟨fun _ l' h' => ?_, fun _ => rfl⟩⟩
        cases h'
        exact ⟨hm.1, (hamt o ho d hdd hv).mp hm.2⟩
      · rw [h2 hm]
        refine ⟨Or.inl rfl, fun hv => ⟨fun h => absurd h one_ne, fun h => ?_⟩⟩
        obtain ⟨g1, g2⟩ := h l rfl
        exact absurd ⟨g1, (hamt o ho d hdd hv).mpr g2⟩ hm
  obtain ⟨b, eb, hb⟩ := hb
  obtain ⟨v, ev, hv⟩ := hv
  refine ⟨b, v, eb, ev, ?_⟩
  intro i hi c hc o ho d hdd
  refine ⟨(hb i c o ho d hdd).1, (hv i c o ho d hdd).1, fun hm => ?_⟩
  unfold Kept
  rw [(hb i c o ho d hdd).2 hm.1, (hv i c o ho d hdd).2 hm.1]

theorem weights (h : Exposed x s e a D) {p : Params K} (hp : p.Valid) (hdr : p.Drops x D) {r y : Tri K}
    (lr : SameLabels r x) (gr : Grid r a D D 1)
    (hr : ∀ i < x.kdims.length, ∀ c < x.vdims.length, ∀ o < D, ∀ d < D,
      (Moves x i c o d → r.values.get i c o d = .fin (ratio p x e i c o d)) ∧
      (¬ Moves x i c o d → r.values.get i c o d = .nan))
    (hn : (∀ d, p.nPeriods d < 1) ∨ Dev.valOffsetFunc x.dgrain x.ograin = some 1) :
    ∃ w, Additive.weights p r y = .ok w ∧ Arr.SameShape w x.values ∧
      ∀ i < x.kdims.length, ∀ c < x.vdims.length, ∀ d < D, ∃ S, Chosen p x e D i c d S ∧
        ∀ o < D, (o ∈ S → w.get i c o d = 1) ∧ (o ∉ S → w.get i c o d = .nan) := by
  classical
  obtain ⟨s0, s1, s2, s3⟩ := h.shape lr gr
  obtain ⟨w0, w1, w2, w3⟩ := h.wf
  obtain ⟨ws, ews, hws⟩ := h.periods hp lr gr hr hn
  obtain ⟨wb, wv, ewb, ewv, hwd⟩ := h.drops hp hdr lr gr hr
  have r2 : r.values.d2 = D := by rw [s2, w2, h.lenO]
  unfold Additive.weights
  rw [ews, ewb, ewv]
  simp only [bind, Except.bind]
  refine ⟨_, rfl, ⟨s0, s1, s2, s3⟩, ?_⟩
  intro i hi c hc d hd
  have hr' : ∀ o < D, (Moves x i c o d → r.values.get i c o d = .fin (ratio p x e i c o d)) ∧
      (¬ Moves x i c o d → r.values.get i c o d = .nan) := fun o ho => hr i hi c hc o ho d hd
  have hws' := fun o ho => hws i hi c hc o ho d hd
  have hwd' := fun o ho => hwd i hi c hc o ho d hd
  set A := (Finset.range D).filter fun o => Moves x i c o d ∧ Recent p x D i c o d ∧ Kept p x o d with hA
  set I := (Finset.range D).filter fun o => Moves x i c o d ∧ Inside p d (ratio p x e i c o d) with hI
  have mA : ∀ o, o ∈ A ↔ o < D ∧ Moves x i c o d ∧ Recent p x D i c o d ∧ Kept p x o d := by
    intro o; rw [hA]; simp
  have mI : ∀ o, o ∈ I ↔ o < D ∧ Moves x i c o d ∧ Inside p d (ratio p x e i c o d) := by
    intro o; rw [hI]; simp
  -- first stage
  set v1 : Nat → Num K := fun o => Num.ofBool (!(r.values.get i c o d).isNan) * Dev.bget ws i c o d *
    Dev.bget wb i c o d * Dev.bget wv i c o d with hv1
  have k1 : ∀ o < D, (o ∈ A → v1 o = 1) ∧ (o ∉ A → Out (v1 o)) := by
    intro o ho
    obtain ⟨h1, h2⟩ := hr' o ho
    obtain ⟨g1, g2, g3⟩ := hws' o ho
    obtain ⟨g4, g5, g6⟩ := hwd' o ho
    constructor
    · intro hm
      obtain ⟨-, hm1, hm2, hm3⟩ := (mA o).mp hm
      obtain ⟨m4, m5⟩ := (g6 hm1).mp hm3
      show Num.ofBool _ * _ * _ * _ = _
      rw [h1 hm1, g1 hm1 hm2, m4, m5]
      simp [Num.isNan, Num.ofBool, Num.one_def]
    · intro hm
      show Out (Num.ofBool _ * _ * _ * _)
      by_cases hmv : Moves x i c o d
      · by_cases hre : Recent p x D i c o d
        · have hk : ¬ Kept p x o d := fun hk => hm ((mA o).mpr ⟨ho, hmv, hre, hk⟩)
          rw [g6 hmv] at hk
          rw [g1 hmv hre, h1 hmv]
          rcases g4 with g4 | g4 <;> rcases g5 with g5 | g5
          · rw [g4, g5]; left; simp [Num.isNan, Num.ofBool, Num.zero_def, Num.one_def]
          · rw [g4, g5]; left; simp [Num.isNan, Num.ofBool, Num.zero_def, Num.one_def]
          · rw [g4, g5]; left; simp [Num.isNan, Num.ofBool, Num.zero_def, Num.one_def]
          · exact absurd ⟨g4, g5⟩ hk
        · rw [g2 hmv hre, h1 hmv]
          left
          rcases g4 with g4 | g4 <;> rcases g5 with g5 | g5 <;> rw [g4, g5] <;>
            simp [Num.isNan, Num.ofBool, Num.zero_def, Num.one_def]
      · rw [h2 hmv]
        rcases g3 with g | g | g <;> rcases g4 with g4 | g4 <;> rcases g5 with g5 | g5 <;>
          rw [g, g4, g5] <;> simp [Out, Num.isNan, Num.ofBool, Num.zero_def, Num.one_def]
  -- second stage
  set bd : Bool := p.dropAbove.isSome || p.dropBelow.isSome with hbd
  set v2 : Nat → Num K := fun o => if bd then
      v1 o * Num.ofBool (Dev.dropX ((p.dropAbove.getD fun _ => .pinf) d)
        ((p.dropBelow.getD fun _ => 0) d) p.preserve r.values.d2 (fun o => r.values.get i c o d) o)
    else v1 o with hv2
  set B := A.filter fun o => bd = true → p.preserve ≤ I.card → o ∈ I with hB
  have mbd : bd = true ↔ (p.dropAbove ≠ none ∨ p.dropBelow ≠ none) := by
    rw [hbd, Bool.or_eq_true, Option.isSome_iff_ne_none, Option.isSome_iff_ne_none]
  have hcount : ((List.range r.values.d2).filter fun o => (r.values.get i c o d).ltb
      ((p.dropAbove.getD fun _ => .pinf) d) && ((p.dropBelow.getD fun _ => 0) d).ltb
        (r.values.get i c o d)).length = I.card := by
    rw [Dev.filter_length, r2]
    congr 1
    ext o
    rw [mI, Finset.mem_filter, Finset.mem_range, Bool.and_eq_true]
    constructor
    · rintro ⟨ho, h3, h4⟩
      by_cases hmv : Moves x i c o d
      · rw [(hr' o ho).1 hmv] at h3 h4
        exact ⟨ho, hmv, h3, h4⟩
      · rw [(hr' o ho).2 hmv] at h3
        simp [Num.ltb] at h3
    · rintro ⟨ho, hmv, h3, h4⟩
      rw [(hr' o ho).1 hmv]
      exact ⟨ho, h3, h4⟩
  have hdrop : ∀ o < D, Moves x i c o d → (Dev.dropX ((p.dropAbove.getD fun _ => .pinf) d)
      ((p.dropBelow.getD fun _ => 0) d) p.preserve r.values.d2 (fun o => r.values.get i c o d) o = true ↔
        (p.preserve ≤ I.card → o ∈ I)) := by
    intro o ho hmv
    unfold Dev.dropX
    simp only [hcount]
    by_cases hlt : (I.card : Int) < p.preserve
    · rw [if_pos hlt, (hr' o ho).1 hmv]
      simp only [Num.isNan, Bool.not_false, true_iff]
      intro hle
      omega
    · rw [if_neg hlt, Bool.and_eq_true, (hr' o ho).1 hmv, mI]
      constructor
      · rintro ⟨h3, h4⟩ -
        exact ⟨ho, hmv, h3, h4⟩
      · intro h3
        exact (h3 (by omega)).2.2
  have k2 : ∀ o < D, (o ∈ B → v2 o = 1) ∧ (o ∉ B → Out (v2 o)) := by
    intro o ho
    obtain ⟨h1, h2⟩ := k1 o ho
    show (_ → (if bd then _ else _) = _) ∧ (_ → Out (if bd then _ else _))
    by_cases hb : bd = true
    · rw [if_pos hb]
      constructor
      · intro hm
        obtain ⟨m1, m2⟩ := Finset.mem_filter.mp hm
        rw [h1 m1, (hdrop o ho ((mA o).mp m1).2.1).mpr (m2 hb)]
        simp [Num.ofBool, Num.one_def]
      · intro hm
        by_cases m1 : o ∈ A
        · have : ¬ (p.preserve ≤ I.card → o ∈ I) := fun h3 => hm (Finset.mem_filter.mpr ⟨m1, fun _ => h3⟩)
          rw [← hdrop o ho ((mA o).mp m1).2.1, Bool.not_eq_true] at this
          rw [h1 m1, this]
          left
          simp [Num.ofBool, Num.one_def, Num.zero_def]
        · exact (h2 m1).ofBool _
    · rw [if_neg hb]
      have : B = A := by
        rw [hB, Finset.filter_eq_self]
        intro o _ hb'
        exact absurd hb' hb
      rw [this]
      exact ⟨h1, h2⟩
  -- third stage
  set hl : Bool := p.dropHigh.isSome || p.dropLow.isSome with hhl
  have mhl : hl = true ↔ (p.dropHigh ≠ none ∨ p.dropLow ≠ none) := by
    rw [hhl, Bool.or_eq_true, Option.isSome_iff_ne_none, Option.isSome_iff_ne_none]
  set kp : Nat → Bool := Dev.dropN r.values.d2 ((p.dropHigh.getD fun _ => 0) d)
    ((p.dropLow.getD fun _ => 0) d) (-1) p.preserve r.values.d2
    (fun o => r.values.get i c o d * (v2 o).numToNan) (fun o => y.values.get i c o d) with hkp
  set v3 : Nat → Num K := fun o => if hl then v2 o * Num.ofBool (kp o) else v2 o with hv3
  set S := B.filter fun o => hl = true → kp o = true with hS
  have mB : ∀ o ∈ B, o < D ∧ Moves x i c o d := fun o ho =>
    ⟨((mA o).mp (Finset.mem_filter.mp ho).1).1, ((mA o).mp (Finset.mem_filter.mp ho).1).2.1⟩
  have k3 : ∀ o < D, (o ∈ S → v3 o = 1) ∧ (o ∉ S → Out (v3 o)) := by
    intro o ho
    obtain ⟨h1, h2⟩ := k2 o ho
    show (_ → (if hl then _ else _) = _) ∧ (_ → Out (if hl then _ else _))
    by_cases hb : hl = true
    · rw [if_pos hb]
      constructor
      · intro hm
        obtain ⟨m1, m2⟩ := Finset.mem_filter.mp hm
        rw [h1 m1, m2 hb]
        simp [Num.ofBool, Num.one_def]
      · intro hm
        by_cases m1 : o ∈ B
        · have : ¬ kp o = true := fun h3 => hm (Finset.mem_filter.mpr ⟨m1, fun _ => h3⟩)
          rw [Bool.not_eq_true] at this
          rw [h1 m1, this]
          left
          simp [Num.ofBool, Num.one_def, Num.zero_def]
        · exact (h2 m1).ofBool _
    · rw [if_neg hb]
      have : S = B := by
        rw [hS, Finset.filter_eq_self]
        intro o _ hb'
        exact absurd hb' hb
      rw [this]
      exact ⟨h1, h2⟩
  refine ⟨S, ⟨A, I, B, mA, mI, ?_, ?_, ?_⟩, ?_⟩
  · intro o
    rw [hB, Finset.mem_filter, mbd]
  · intro n1 n2
    rw [hS, Finset.filter_eq_self]
    intro o _ hb
    rw [mhl] at hb
    rcases hb with hb | hb
    · exact absurd n1 hb
    · exact absurd n2 hb
  · intro hne
    have hb := mhl.mpr hne
    have hS' : S = B.filter fun o => kp o = true := by
      rw [hS]
      apply Finset.filter_congr
      intro o _
      simp [hb]
    have hfB : B = (Finset.range r.values.d2).filter fun o =>
        (r.values.get i c o d * (v2 o).numToNan).isNan = false := by
      ext o
      refine Iff.trans ?_ Finset.mem_filter.symm
      rw [Finset.mem_range, r2]
      constructor
      · intro hm
        obtain ⟨ho, hmv⟩ := mB o hm
        refine ⟨ho, ?_⟩
        rw [(k2 o ho).1 hm, (hr' o ho).1 hmv]
        simp [Num.one_def, Num.numToNan, Num.isNan]
      · rintro ⟨ho, hf⟩
        by_contra hm
        rw [((k2 o ho).2 hm).numToNan] at hf
        simp [Num.isNan] at hf
    have hfin : ∀ o ∈ B, r.values.get i c o d * (v2 o).numToNan = .fin (ratio p x e i c o d) := by
      intro o hm
      obtain ⟨ho, hmv⟩ := mB o hm
      rw [(k2 o ho).1 hm, (hr' o ho).1 hmv]
      simp [Num.one_def, Num.numToNan]
    have hcard : (B.card : Int) ≤ if (-1 : Int) = -1 then (r.values.d2 : Int) else -1 := by
      rw [if_pos rfl]
      have : B.card ≤ (Finset.range r.values.d2).card := by
        apply Finset.card_le_card
        rw [hfB]
        exact Finset.filter_subset _ _
      simp only [Finset.card_range] at this
      exact_mod_cast this
    have e1 : (((p.dropHigh.getD fun _ => 0) d).toNat : Int) = (p.dropHigh.getD fun _ => 0) d :=
      Int.toNat_of_nonneg (hp.high d)
    have e2 : (((p.dropLow.getD fun _ => 0) d).toNat : Int) = (p.dropLow.getD fun _ => 0) d :=
      Int.toNat_of_nonneg (hp.low d)
    obtain ⟨t1, t2⟩ := Dev.dropN_trimmed (h := ((p.dropHigh.getD fun _ => 0) d).toNat)
      (l := ((p.dropLow.getD fun _ => 0) d).toNat) (m := r.values.d2)
      (x := fun o => y.values.get i c o d) hp.preserve hfB hfin hcard
    rw [e1, e2] at t1 t2
    rw [hS']
    exact ⟨fun hle => t1 (by omega), fun hlt => t2 (by omega)⟩
  · intro o ho
    obtain ⟨h1, h2⟩ := k3 o ho
    show (_ → (v3 o).numToNan = _) ∧ (_ → (v3 o).numToNan = _)
    exact ⟨fun hm => by rw [h1 hm]; simp [Num.one_def, Num.numToNan], fun hm => (h2 hm).numToNan⟩

end Exposed

theorem zeroToNan_fin (b : K) : Dev.zeroToNan (Num.fin b) = (Num.fin b).numToNan := by
  unfold Dev.zeroToNan
  simp [Num.numToNan, Num.eqb, Num.zero_def]

/-- The increment over the exposure, the rate `z` after the valuation date. -/
def completed (x : Tri K) (e : Nat → Nat → Nat → K) (D : Nat) (z : K) (i c o d : Nat) : K :=
  if o + d < D then increment x i c o d / e i c o else z

namespace Exposed
variable {x s : Tri K} {e : Nat → Nat → Nat → K} {a : Int} {D : Nat}

/-- The completed triangle of rates: known cells keep their own rate. -/
theorem complete (h : Exposed x s e a D) {p : Params K} {u r : Tri K} {z : Arr K}
    (lu : SameLabels u x) (gu : Grid u a D D 1)
    (hu : ∀ i < x.kdims.length, ∀ c < x.vdims.length, ∀ o < D, ∀ d < D,
      (Moves x i c o d → u.values.get i c o d = .fin (increment x i c o d)) ∧
      (¬ Moves x i c o d → u.values.get i c o d = .nan))
    (lr : SameLabels r x) (gr : Grid r a D D 1)
    (z0 : z.d0 = x.kdims.length) (z1 : z.d1 = x.vdims.length) (z3 : z.d3 = D) {ζ : Nat → Nat → Nat → K}
    (hz : ∀ i < x.kdims.length, ∀ c < x.vdims.length, ∀ d < D,
      z.get i c 0 d = (Num.fin (ζ i c d)).numToNan) :
    ∃ l keep v v' q v'', r.getVal (· == r.vd) = .ok l ∧
      Arr.zip (· + ·) (future r) ⟨1, 1, l.values.d2, l.values.d3, fun _ _ o d =>
        (l.values.get 0 0 o d * 0 + 1).nanToNum⟩ = .ok keep ∧
      Arr.zip (· * ·) { z with
        d2 := r.odims.length
        get := fun i c _ d => z.get i c 0 d } keep = .ok v ∧
      Arr.zip (· * ·) v (future r) = .ok v' ∧
      Arr.zip (· / ·) u.values s.values = .ok q ∧
      Arr.zip (· + ·) v' (q.map Num.nanToNum) = .ok v'' ∧
      Arr.SameShape v'' x.values ∧
      ∀ i < x.kdims.length, ∀ c < x.vdims.length, ∀ o < D, ∀ d < D,
        Dev.zeroToNan (v''.get i c o d) = if ζ i c d = 0 then .nan
          else (Num.fin (completed x e D (ζ i c d) i c o d)).numToNan := by
  have hD := h.two_ages
  obtain ⟨s0, s1, s2, s3⟩ := h.shape lr gr
  obtain ⟨w0, w1, w2, w3⟩ := h.wf
  have r0 : r.values.d0 = x.kdims.length := by rw [s0, w0]
  have r1 : r.values.d1 = x.vdims.length := by rw [s1, w1]
  have r2 : r.values.d2 = D := by rw [s2, w2, h.lenO]
  have r3 : r.values.d3 = D := by rw [s3, w3, h.lenD]
  have hvd : ∀ o < D, ∀ d < D, o + d + 1 = D → r.valuation o d = r.vd := by
    intro o ho d hd hod
    rw [gr.valuation ho hd, gr.vd, show 1 * o + d + 1 = D by omega]
  obtain ⟨l, el, wl, ⟨l0, l1, l2, l3⟩, -, -, -, -, -, hl⟩ := Dev.filterMask_full gr.wf
    (fun o d => r.valuation o d == r.vd)
    (by
      intro o ho
      rw [r2] at ho
      exact ⟨D - 1 - o, by rw [r3]; omega, by
        simp only [beq_iff_eq]; exact hvd o ho _ (by omega) (by omega)⟩)
    (by
      intro d hd
      rw [r3] at hd
      exact ⟨D - 1 - d, by rw [r2]; omega, by
        simp only [beq_iff_eq]; exact hvd _ (by omega) d hd (by omega)⟩)
    (by rw [r2]; omega) (by rw [r3]; omega)
  have el' : r.getVal (· == r.vd) = .ok l := by
    unfold getVal
    rw [if_pos (by rw [r3]; omega)]
    exact el
  have ek := Arr.zip_same (· + ·) (a := future r) (b := ⟨1, 1, l.values.d2, l.values.d3, fun _ _ o d =>
        (l.values.get 0 0 o d * 0 + 1).nanToNum⟩) ⟨rfl, rfl, l2.symm, l3.symm⟩
  have hf1 : Arr.Fits (⟨1, 1, r.values.d2, r.values.d3, fun i c o d => (future r).get i c o d +
      (l.values.get 0 0 o d * 0 + 1).nanToNum⟩ : Arr K) { z with
        d2 := r.odims.length
        get := fun i c _ d => z.get i c 0 d } :=
    ⟨Or.inr rfl, Or.inr rfl, Or.inl gr.wf.2.2.1, Or.inl (by show r.values.d3 = z.d3; rw [r3, z3])⟩
  have ev := Arr.zip_fits (· * ·) hf1
  have hf2 : Arr.Fits (future r) ({ z with
        d2 := r.odims.length
        get := fun i c o d => z.get i c 0 d * ((future r).get (Arr.bix 1 z.d0 i) (Arr.bix 1 z.d1 c)
          (Arr.bix r.values.d2 r.odims.length o) (Arr.bix r.values.d3 z.d3 d) +
            (l.values.get 0 0 (Arr.bix r.values.d2 r.odims.length o) (Arr.bix r.values.d3 z.d3 d) * 0 +
              1).nanToNum) } : Arr K) :=
    ⟨Or.inr rfl, Or.inr rfl, Or.inl gr.wf.2.2.1, Or.inl (by show r.values.d3 = z.d3; rw [r3, z3])⟩
  have ev' := Arr.zip_fits (· * ·) hf2
  have su := h.shape lu gu
  obtain ⟨q, eq, sq, hq⟩ := h.zip su (· / ·)
  obtain ⟨q0, q1, q2, q3⟩ := sq
  refine ⟨l, _, _, _, q, _, el', ek, ev, ev', eq, Arr.zip_same _ ?_, ?_, ?_⟩
  · refine ⟨?_, ?_, ?_, ?_⟩
    · show z.d0 = q.d0
      rw [z0, q0, w0]
    · show z.d1 = q.d1
      rw [z1, q1, w1]
    · show r.odims.length = q.d2
      rw [gr.lenO, q2, w2, h.lenO]
    · show z.d3 = q.d3
      rw [z3, q3, w3, h.lenD]
  · refine ⟨?_, ?_, ?_, ?_⟩
    · show z.d0 = _
      rw [z0, w0]
    · show z.d1 = _
      rw [z1, w1]
    · show r.odims.length = _
      rw [gr.lenO, w2, h.lenO]
    · show z.d3 = _
      rw [z3, w3, h.lenD]
  · intro i hi c hc o ho d hd
    have b2 : Arr.bix r.values.d2 r.odims.length o = o := by
      rw [gr.wf.2.2.1]; exact Arr.bix_self _ _
    have b3 : Arr.bix r.values.d3 z.d3 d = d := by
      rw [r3, z3]; exact Arr.bix_self _ _
    show Dev.zeroToNan (z.get i c 0 d * ((future r).get _ _ (Arr.bix r.values.d2 r.odims.length o)
        (Arr.bix r.values.d3 z.d3 d) +
          (l.values.get 0 0 (Arr.bix r.values.d2 r.odims.length o) (Arr.bix r.values.d3 z.d3 d) * 0 +
            1).nanToNum) * (future r).get _ _ (Arr.bix r.values.d2 r.odims.length o)
        (Arr.bix r.values.d3 z.d3 d) + (q.get i c o d).nanToNum) = _
    rw [b2, b3]
    show Dev.zeroToNan (z.get i c 0 d * ((1 - (r.nanTri o d).nanToNum) +
          (l.values.get 0 0 o d * 0 + 1).nanToNum) * (1 - (r.nanTri o d).nanToNum) +
            (q.get i c o d).nanToNum) = _
    have hnt : r.nanTri o d = if o + d < D then 1 else .nan := by
      unfold nanTri
      rw [if_neg (by rw [r2, r3]; omega)]
      by_cases hk : o + d < D
      · rw [if_pos hk, if_neg]
        rw [gt_iff_lt, gr.valuation_gt ho hd]
        omega
      · rw [if_neg hk, if_pos]
        rw [gt_iff_lt, gr.valuation_gt ho hd]
        omega
    have hlc := hl 0 (by rw [r0]; exact h.index_pos) 0 (by rw [r1]; exact h.columns_pos) o
      (by rw [r2]; exact ho) d (by rw [r3]; exact hd)
    rw [hz i hi c hc d hd, hq i hi c hc o ho d hd]
    obtain ⟨h1, h2⟩ := hu i hi c hc o ho d hd
    have he := h.nonzero i hi c hc o ho
    have hqn : (u.values.get i c o d / Num.fin (e i c o)).nanToNum =
        .fin (if o + d < D then increment x i c o d / e i c o else 0) := by
      by_cases hmv : Moves x i c o d
      · have hk : o + d < D := by
          have := (Grid.le_iff h.toGrid ho hd).mp hmv.1
          omega
        rw [h1 hmv, Num.fin_div_fin_of_ne _ he, if_pos hk]
        rfl
      · rw [h2 hmv, Num.nan_div]
        by_cases hk : o + d < D
        · rw [if_pos hk, increment_zero ((Grid.le_iff h.toGrid ho hd).mpr (by omega)) hmv]
          simp
        · rw [if_neg hk]
          rfl
    rw [hqn]
    by_cases hζ : ζ i c d = 0
    · rw [if_pos hζ, hζ, Num.numToNan_fin_zero]
      simp [Dev.zeroToNan, Num.eqb]
    · rw [if_neg hζ, Num.numToNan_fin_of_ne hζ, hnt]
      unfold completed
      by_cases hk : o + d < D
      · simp only [if_pos hk]
        obtain ⟨b, hb⟩ := Num.nanToNum_isFin (l.values.get 0 0 o d * 0 + 1)
        rw [hb]
        simp only [Num.one_def, Num.nanToNum_fin, Num.fin_sub_fin, sub_self, Num.fin_add_fin,
          Num.fin_mul_fin, mul_zero, zero_add]
        exact zeroToNan_fin _
      · simp only [if_neg hk]
        have hrn : r.values.get 0 0 o d = .nan := gr.known 0 (by rw [lr.1]; exact h.index_pos) 0
          (by rw [lr.2.2.1]; exact h.columns_pos) o ho d hd (by omega)
        rw [hlc, hrn]
        simp only [Num.nan_mul, Num.numToNan_nan, Num.nan_add, Num.nanToNum_nan, Num.one_def,
          Num.fin_sub_fin, sub_zero, Num.fin_add_fin, Num.fin_mul_fin, add_zero, mul_one]
        exact zeroToNan_fin _

end Exposed

/-- Amounts on the labels of `x`, all of them known: the valuation date is that of the last cell. -/
structure Complete (t x : Tri K) (a : Int) (D : Nat) : Prop where
  index : t.kdims = x.kdims
  columns : t.vdims = x.vdims
  origins : t.odims = x.odims
  ages : t.ddims = x.ddims
  isVal : t.isVal = false
  vd : t.vd = a + ((2 * D - 1) * x.dgrain.months : Nat) - 1
  shape : Arr.SameShape t.values x.values

namespace Complete
variable {t x : Tri K} {a : Int} {D : Nat}

theorem later (h : Complete t x a D) (g : Grid x a D D 1) : x.vd ≤ t.vd := by
  have := g.two_ages
  rw [h.vd, g.vd]
  have : D * x.dgrain.months ≤ (2 * D - 1) * x.dgrain.months := Nat.mul_le_mul_right _ (by omega)
  omega

theorem valuation (h : Complete t x a D) (g : Grid x a D D 1) {o d : Nat} (ho : o < D) (hd : d < D) :
    t.valuation o d = x.valuation o d := by
  have hl := h.later g
  unfold Tri.valuation valuationOf
  rw [h.origins, h.ages, h.isVal, g.isVal]
  simp only [Bool.false_eq_true, if_false]
  have hn : ¬ (x.ddims.getLast? = some 9999 ∧ d + 1 = x.ddims.length) := by
    rintro ⟨e, -⟩
    exact g.not_ult (List.mem_of_getLast? e)
  have e1 := g.origin_le ho
  rw [if_neg hn, if_neg hn, g.getO ho, min_eq_left e1, min_eq_left (le_trans e1 hl)]

theorem valuation_le (h : Complete t x a D) (g : Grid x a D D 1) {o d : Nat} (ho : o < D) (hd : d < D) :
    t.valuation o d ≤ t.vd := by
  rw [h.valuation g ho hd, g.valuation ho hd, h.vd]
  have : (1 * o + d + 1) * x.dgrain.months ≤ (2 * D - 1) * x.dgrain.months :=
    Nat.mul_le_mul_right _ (by omega)
  omega

theorem nanTri (h : Complete t x a D) (g : Grid x a D D 1) {o d : Nat} (ho : o < D) (hd : d < D) :
    t.nanTri o d = 1 := by
  unfold Tri.nanTri
  rw [if_neg (c := t.valuation o d > t.vd) (not_lt.mpr (h.valuation_le g ho hd))]
  simp

theorem wf (h : Complete t x a D) (g : Grid x a D D 1) : WF t := by
  obtain ⟨w0, w1, w2, w3⟩ := g.wf
  obtain ⟨s0, s1, s2, s3⟩ := h.shape
  exact ⟨by rw [s0, w0, h.index], by rw [s1, w1, h.columns], by rw [s2, w2, h.origins],
    by rw [s3, w3, h.ages]⟩

theorem ordered (h : Complete t x a D) (g : Grid x a D D 1) : Ordered t := by
  intro _
  obtain ⟨o1, o2, o3⟩ := g.ordered g.isVal
  rw [h.origins, h.ages]
  exact ⟨fun o ho => le_trans (o1 o ho) (h.later g), o2, o3⟩

/-- `trend` of a complete triangle from the valuation date of `x` on. -/
theorem trend (h : Complete t x a D) (g : Grid x a D D 1) (f : Int → K) :
    t.trend f .valuation (some x.vd) (some t.vd) none = .ok { t with values := { t.values with
      get := fun i c o d => t.values.get i c o d *
        (.fin (f (t.trendMonths .valuation x.vd t.vd none o d)) * t.nanTri o d) } } ∧
    ∀ o < D, ∀ d < D, t.trendMonths .valuation x.vd t.vd none o d =
      x.vd - max (x.valuation o d) x.vd := by
  constructor
  · unfold Tri.trend
    rw [if_neg (by simp), if_neg (by simp), if_neg (by simp), if_neg (by simp)]
    rfl
  · intro o ho d hd
    have h1 := h.later g
    have h2 := h.valuation_le g ho hd
    unfold trendMonths trendDate
    simp only
    by_cases hlt : t.vd > x.vd
    · rw [if_pos hlt, if_pos hlt, min_eq_right h2, h.valuation g ho hd]
    · have : t.vd = x.vd := by omega
      rw [if_neg hlt, if_neg hlt, ← this, min_eq_right h2, h.valuation g ho hd]

/-- The link ratios of the cumulated amounts. -/
theorem links (h : Complete t x a D) (g : Grid x a D D 1) (hb : t.vd ≤ ultVal) (hcum : t.isCum = some false)
    (hpat : t.isPattern = false) (fin : Finite t) :
    ∃ l, t.incrToCum.linkRatio = .ok l ∧ l.odims = x.odims ∧ l.ddims = x.ddims.dropLast ∧
      l.kdims = x.kdims ∧ l.vdims = x.vdims ∧ WF l ∧ l.isPattern = true ∧
      ∀ i < x.kdims.length, ∀ c < x.vdims.length, ∀ o < D, ∀ d, d + 1 < D →
        l.values.get i c o d = Tri.ratio
          (.fin (∑ j ∈ Finset.range (d + 1), (t.values.get i c o j).amt))
          (.fin (∑ j ∈ Finset.range (d + 2), (t.values.get i c o j).amt)) := by
  have hD := g.two_ages
  obtain ⟨ec, hcell⟩ := incrToCum_cells fin (by simp [hcum]) hpat
  obtain ⟨w0, w1, w2, w3⟩ := g.wf
  obtain ⟨s0, s1, s2, s3⟩ := h.shape
  set C := t.incrToCum with hC
  have kC : C.kdims = x.kdims := by rw [ec]; exact h.index
  have vC : C.vdims = x.vdims := by rw [ec]; exact h.columns
  have oC : C.odims = x.odims := by rw [ec]; exact h.origins
  have dC : C.ddims = x.ddims := by rw [ec]; exact h.ages
  have hcC : Complete C x a D := by
    refine ⟨kC, vC, oC, dC, by rw [ec]; exact h.isVal, by rw [ec]; exact h.vd, ?_⟩
    rw [ec]
    exact ⟨s0, s1, s2, s3⟩
  have wC := hcC.wf g
  have cellC : ∀ i < x.kdims.length, ∀ c < x.vdims.length, ∀ o < D, ∀ d < D, C.values.get i c o d =
      (Num.fin (∑ j ∈ Finset.range (d + 1), (t.values.get i c o j).amt)).numToNan := by
    intro i hi c hc o ho d hd
    rw [ec]
    show t.cumSumVals.get i c o d = _
    rw [hcell i (by rw [s0, w0]; exact hi) c (by rw [s1, w1]; exact hc) o
      (by rw [s2, w2, g.lenO]; exact ho) d (by rw [s3, w3, g.lenD]; exact hd), h.nanTri g ho hd]
    simp [Num.one_def]
  have c0 : C.values.d0 = x.kdims.length := by rw [hcC.shape.1, w0]
  have c1 : C.values.d1 = x.vdims.length := by rw [hcC.shape.2.1, w1]
  have c2 : C.values.d2 = D := by rw [hcC.shape.2.2.1, w2, g.lenO]
  have c3 : C.values.d3 = D := by rw [hcC.shape.2.2.2, w3, g.lenD]
  have finC : Finite C := by
    intro i hi c hc o ho d hd
    rw [cellC i (by rw [← c0]; exact hi) c (by rw [← c1]; exact hc) o (by rw [← c2]; exact ho) d
      (by rw [← c3]; exact hd)]
    exact Num.noInf_numToNan trivial
  have nzC : NoZeros C := by
    intro i hi c hc o ho d hd
    rw [cellC i (by rw [← c0]; exact hi) c (by rw [← c1]; exact hc) o (by rw [← c2]; exact ho) d
      (by rw [← c3]; exact hd), Num.numToNan_fin]
    split_ifs with h0
    · simp
    · rw [Ne, Num.fin_inj]; exact h0
  obtain ⟨v, v1, v2, v3, e⟩ := linkRatio_eq wC (hcC.ordered g)
    (fun _ => by rw [ec]; exact hb) (by rw [ec]; exact hpat) (by rw [dC, g.lenD]; omega)
  have hval : ∀ o < D, ∀ d, d + 1 < D → (quot C v).valuation o d ≤ v := by
    intro o ho d hd
    rw [quot_valuation wC (hcC.ordered g) v1 (by rw [oC, g.lenO]; exact ho) (by rw [dC, g.lenD]; exact hd)]
    rcases v3 with v3 | v3
    · rw [v3]; exact hcC.valuation_le g ho (by omega)
    · exact v3 o (by rw [oC, g.lenO]; exact ho) d (by rw [dC, g.lenD]; omega)
  have hfull : (quot C v).isFull = true := by
    unfold isFull
    simp only [List.all_eq_true, List.mem_range, beq_iff_eq]
    intro o ho d hd
    by_contra hne
    obtain ⟨-, g2⟩ := nanTri_ne hne
    have ho' : o < D := by rw [← c2]; exact ho
    have hd' : d + 1 < D := by
      have : d < C.values.d3 - 1 := hd
      omega
    have g3 : (quot C v).vd = v := rfl
    rw [g3] at g2
    have := hval o ho' d hd'
    omega
  rw [if_pos hfull] at e
  simp only [bind, Except.bind, pure, Except.pure] at e
  have hlen : 1 ≤ C.ddims.length := by rw [dC, g.lenD]; omega
  refine ⟨_, e, ?_, ?_, ?_, ?_, ?_, rfl, ?_⟩
  · show (quot C v).odims = _
    rw [quot_odims wC, oC]
  · show (quot C v).ddims = _
    rw [quot_ddims wC v hlen, dC]
  · show (List.range C.values.d0).map (C.kdims.getD · []) = _
    rw [wC.1, map_getD_range, kC]
  · show (List.range C.values.d1).map (C.vdims.getD · "") = _
    rw [wC.2.1, map_getD_range, vC]
  · exact quot_wf wC v hlen
  · intro i hi c hc o ho d hd
    show ((quot C v).values.get i c o d).numToNan = _
    rw [quot_cell finC nzC wC v (by rw [c0]; exact hi) (by rw [c1]; exact hc)
      (by rw [oC, g.lenO]; exact ho) (by rw [dC, g.lenD]; exact hd), cellC i hi c hc o ho d (by omega),
      cellC i hi c hc o ho (d + 1) hd]
    unfold Tri.ratio
    simp only [Num.amt_numToNan]

end Complete

/-- What `fit` returns: the origins `S i c d` averaged at each age and the rates `ζ`. -/
structure Result (p : Params K) (x : Tri K) (e : Nat → Nat → Nat → K) (D : Nat)
    (S : Nat → Nat → Nat → Finset Nat) (ζ : Nat → Nat → Nat → K) (F : Fitted K) : Prop where
  chosen : ∀ i < x.kdims.length, ∀ c < x.vdims.length, ∀ d < D, Chosen p x e D i c d (S i c d)
  rate : ∀ i < x.kdims.length, ∀ c < x.vdims.length, ∀ d < D,
    ζ i c d = Additive.rate (p.average d) (S i c d) (fun o => level p x i c o d) (e i c)
  weights : Arr.SameShape F.w x.values ∧
    ∀ i < x.kdims.length, ∀ c < x.vdims.length, ∀ d < D, ∀ o < D,
      (o ∈ S i c d → F.w.get i c o d = 1) ∧ (o ∉ S i c d → F.w.get i c o d = .nan)
  ratios : SameLabels F.triZeta x ∧ Arr.SameShape F.triZeta.values x.values ∧
    ∀ i < x.kdims.length, ∀ c < x.vdims.length, ∀ o < D, ∀ d < D,
      (Moves x i c o d → F.triZeta.values.get i c o d = .fin (ratio p x e i c o d)) ∧
      (¬ Moves x i c o d → F.triZeta.values.get i c o d = .nan)
  fitted : SameLabels F.fitZeta x ∧ Arr.SameShape F.fitZeta.values x.values ∧
    ∀ i < x.kdims.length, ∀ c < x.vdims.length, ∀ o < D, ∀ d < D,
      (o ∈ S i c d → F.fitZeta.values.get i c o d = .fin (ratio p x e i c o d)) ∧
      (o ∉ S i c d → F.fitZeta.values.get i c o d = .nan)
  zeta : WF F.zeta ∧ F.zeta.kdims = x.kdims ∧ F.zeta.vdims = x.vdims ∧
    F.zeta.odims = [x.odims.getD 0 0] ∧ F.zeta.ddims = x.ddims ∧ F.zeta.vd = ultVal ∧
    F.zeta.isPattern = true ∧ F.zeta.isAdditive = some true ∧ F.zeta.isCum = some false ∧
    ∀ i < x.kdims.length, ∀ c < x.vdims.length, ∀ d < D,
      F.zeta.values.get i c 0 d = (Num.fin (ζ i c d)).numToNan
  incremental : WF F.incremental ∧ F.incremental.kdims = x.kdims ∧ F.incremental.vdims = x.vdims ∧
    F.incremental.odims = x.odims ∧ F.incremental.ddims = x.ddims ∧
    F.incremental.isCum = some false ∧ F.incremental.vd = x.valuation (D - 1) (D - 1) ∧
    ∀ i < x.kdims.length, ∀ c < x.vdims.length, ∀ o < D, ∀ d < D,
      (ζ i c d = 0 → F.incremental.values.get i c o d = .nan) ∧
      (ζ i c d ≠ 0 → (F.incremental.values.get i c o d).NoInf ∧ (F.incremental.values.get i c o d).amt =
        completed x e D (ζ i c d) i c o d * e i c o *
          (p.future.getD p.trend) (max (x.valuation o d) x.vd - x.vd))
  ldf : WF F.ldf ∧ F.ldf.kdims = x.kdims ∧ F.ldf.vdims = x.vdims ∧ F.ldf.odims = x.odims ∧
    F.ldf.ddims = x.ddims.dropLast ∧ F.ldf.isPattern = true ∧
    ∀ i < x.kdims.length, ∀ c < x.vdims.length, ∀ o < D, ∀ d, d + 1 < D →
      F.ldf.values.get i c o d = Tri.ratio
        (.fin (∑ j ∈ Finset.range (d + 1), if ζ i c j = 0 then 0 else completed x e D (ζ i c j) i c o j))
        (.fin (∑ j ∈ Finset.range (d + 2), if ζ i c j = 0 then 0 else completed x e D (ζ i c j) i c o j))

theorem max_valuation {r : Tri K} {a : Int} {D : Nat} (g : Grid r a D D 1) :
    r.valuations.max?.getD r.vd = r.valuation (D - 1) (D - 1) := by
  have hD := g.two_ages
  have hm : r.valuation (D - 1) (D - 1) ∈ r.valuations := by
    rw [mem_valuations]
    exact ⟨D - 1, D - 1, by rw [g.lenO]; omega, by rw [g.lenD]; omega, rfl⟩
  have : r.valuations.max? = some (r.valuation (D - 1) (D - 1)) := by
    rw [List.max?_eq_some_iff]
    refine ⟨hm, ?_⟩
    intro v hv
    rw [mem_valuations] at hv
    obtain ⟨o, d, ho, hd, rfl⟩ := hv
    rw [g.lenO] at ho
    rw [g.lenD] at hd
    rw [g.valuation_le ho hd (by omega) (by omega)]
    omega
  rw [this]
  rfl

theorem first_origin {r : Tri K} {a : Int} {n D q : Nat} (g : Grid r a n D q) :
    (r.odims.filter fun o => o == (r.odims.min?).getD 0) = [r.odims.getD 0 0] := by
  have h2 := g.two_origins
  have h3 := months_pos r.dgrain
  have h4 := g.period
  obtain ⟨m, rfl⟩ : ∃ m, n = m + 1 := ⟨n - 1, by omega⟩
  have e : r.odims = a :: (List.range m).map fun o : Nat => a + ((o + 1) * q * r.dgrain.months : Nat) := by
    rw [g.odims, List.range_succ_eq_map]
    simp
  have hpos : ∀ o : Nat, 1 ≤ (o + 1) * q * r.dgrain.months := by
    intro o
    have := Nat.mul_le_mul (Nat.mul_le_mul (show 1 ≤ o + 1 by omega) h4) h3
    simpa using this
  have hmin : r.odims.min? = some a := by
    rw [List.min?_eq_some_iff, e]
    refine ⟨by simp, ?_⟩
    intro b hb
    simp only [List.mem_cons, List.mem_map, List.mem_range] at hb
    rcases hb with rfl | ⟨o, -, rfl⟩
    · exact le_refl _
    · omega
  rw [hmin, e]
  simp only [Option.getD_some, List.filter_cons, beq_self_eq_true, if_true, List.getD_cons_zero,
    List.cons.injEq, true_and, List.filter_eq_nil_iff, List.mem_map, List.mem_range]
  rintro b ⟨o, -, rfl⟩
  have := hpos o
  simp only [beq_iff_eq]
  omega

namespace Exposed
variable {x s : Tri K} {e : Nat → Nat → Nat → K} {a : Int} {D : Nat}

theorem fit (h : Exposed x s e a D) (hb : x.valuation (D - 1) (D - 1) ≤ ultVal) {p : Params K}
    (hp : p.Valid) (hdr : p.Drops x D)
    (hn : (∀ d, p.nPeriods d < 1) ∨ Dev.valOffsetFunc x.dgrain x.ograin = some 1) :
    ∃ F S ζ, Additive.fit p x s = .ok F ∧ Result p x e D S ζ F := by
  classical
  have hD := h.two_ages
  obtain ⟨w0, w1, w2, w3⟩ := h.wf
  obtain ⟨u, y, eu, ey, lu, ly, gu, gy, cu, pu, cy, py, hu, hy⟩ := h.trended p
  obtain ⟨v, ev, sv, hv⟩ := h.zip (h.shape ly gy) (· / ·)
  set r : Tri K := { y with values := v } with hr
  have er : y.divArr s.values = .ok r := by
    unfold divArr zipArr
    rw [ev]
    rfl
  have lr : SameLabels r x := ly
  have hrc : ∀ i < x.kdims.length, ∀ c < x.vdims.length, ∀ o < D, ∀ d < D,
      (Moves x i c o d → r.values.get i c o d = .fin (ratio p x e i c o d)) ∧
      (¬ Moves x i c o d → r.values.get i c o d = .nan) := by
    intro i hi c hc o ho d hd
    obtain ⟨h1, h2⟩ := hy i hi c hc o ho d hd
    have e1 : r.values.get i c o d = y.values.get i c o d / .fin (e i c o) := hv i hi c hc o ho d hd
    rw [e1]
    refine ⟨fun hm => ?_, fun hm => ?_⟩
    · rw [h1 hm, Num.fin_div_fin_of_ne _ (h.nonzero i hi c hc o ho)]
      rfl
    · rw [h2 hm, Num.nan_div]
  have gr : Grid r a D D 1 := by
    refine grid_congr h.toGrid lr sv fun i hi c hc o ho d hd => ?_
    obtain ⟨h1, h2⟩ := hrc i hi c hc o ho d hd
    by_cases hgt : D < 1 * o + d + 1
    · left
      exact ⟨h2 fun hm => (Grid.le_iff h.toGrid ho hd).mp hm.1 hgt, hgt⟩
    · right
      refine ⟨?_, hgt⟩
      by_cases hm : Moves x i c o d
      · rw [h1 hm]; trivial
      · rw [h2 hm]; trivial
  obtain ⟨w, ew, sw, hw⟩ := h.weights (y := y) hp hdr lr gr hrc hn
  choose S hS using fun (i : Fin x.kdims.length) (c : Fin x.vdims.length) (d : Fin D) =>
    hw i.1 i.2 c.1 c.2 d.1 d.2
  let S' : Nat → Nat → Nat → Finset Nat := fun i c d =>
    if hi : i < x.kdims.length then if hc : c < x.vdims.length then if hd : d < D then
      S ⟨i, hi⟩ ⟨c, hc⟩ ⟨d, hd⟩ else ∅ else ∅ else ∅
  have hS' : ∀ i < x.kdims.length, ∀ c < x.vdims.length, ∀ d < D, Chosen p x e D i c d (S' i c d) ∧
      ∀ o < D, (o ∈ S' i c d → w.get i c o d = 1) ∧ (o ∉ S' i c d → w.get i c o d = .nan) := by
    intro i hi c hc d hd
    have : S' i c d = S ⟨i, hi⟩ ⟨c, hc⟩ ⟨d, hd⟩ := by simp [S', hi, hc, hd]
    rw [this]
    exact hS ⟨i, hi⟩ ⟨c, hc⟩ ⟨d, hd⟩
  let ζ : Nat → Nat → Nat → K := fun i c d =>
    Additive.rate (p.average d) (S' i c d) (fun o => level p x i c o d) (e i c)
  obtain ⟨sw0, sw1, sw2, sw3⟩ := sw
  obtain ⟨sv0, sv1, sv2, sv3⟩ := sv
  have efz : r.mulArr w = .ok { r with values := { r.values with
      get := fun i c o d => r.values.get i c o d * w.get i c o d } } := by
    unfold mulArr zipArr
    rw [Arr.zip_same _ ⟨sv0.trans sw0.symm, sv1.trans sw1.symm, sv2.trans sw2.symm, sv3.trans sw3.symm⟩]
    rfl
  have sy := h.shape ly gy
  have y0 : y.values.d0 = x.kdims.length := by rw [sy.1, w0]
  have y1 : y.values.d1 = x.vdims.length := by rw [sy.2.1, w1]
  have y2 : y.values.d2 = D := by rw [sy.2.2.1, w2, h.lenO]
  have y3 : y.values.d3 = D := by rw [sy.2.2.2, w3, h.lenD]
  have hz : ∀ i < x.kdims.length, ∀ c < x.vdims.length, ∀ d < D,
      (zetaArr p y.values s.values w).get i c 0 d = (Num.fin (ζ i c d)).numToNan := by
    intro i hi c hc d hd
    obtain ⟨hch, hwt⟩ := hS' i hi c hc d hd
    show Dev.factor (p.average d) y.values.d2 _ _ _ = _
    rw [y2]
    apply factor_rate
    · intro o ho
      rw [Finset.mem_range]
      exact (hch.sub o ho).1
    · intro o ho
      obtain ⟨h1, h2⟩ := hch.sub o ho
      exact ⟨(hwt o h1).1 ho, (hy i hi c hc o h1 d hd).1 h2⟩
    · intro o ho hs
      exact (hwt o ho).2 hs
    · intro o ho
      refine ⟨?_, h.nonzero i hi c hc o ho⟩
      have := h.exposure i hi c hc o ho
      unfold Dev.bget at this ⊢
      rw [if_pos h.single] at this ⊢
      exact this
  obtain ⟨l, keep, v1, v2, q, v3, el, ek, e1, e2, eq, e3, s3, h3⟩ := h.complete (p := p) lu gu hu lr gr
    (z := (paramTri r (zetaArr p y.values s.values w)).values) (ζ := ζ) y0 y1 y3 hz
  set obj : Tri K := { r with
    vd := (r.valuations.max?).getD r.vd
    values := v3.map Dev.zeroToNan } with hobj
  have hmax := max_valuation gr
  rw [valuation_same lr] at hmax
  have ovd : obj.vd = x.valuation (D - 1) (D - 1) := hmax
  have oC : Complete obj x a D := by
    refine ⟨lr.1, lr.2.2.1, lr.2.2.2.1, lr.2.2.2.2.1, gr.isVal, ?_, s3⟩
    rw [ovd, h.valuation (by omega) (by omega), show 1 * (D - 1) + (D - 1) + 1 = 2 * D - 1 by omega]
  have ocell : ∀ i < x.kdims.length, ∀ c < x.vdims.length, ∀ o < D, ∀ d < D,
      obj.values.get i c o d = if ζ i c d = 0 then .nan
        else (Num.fin (completed x e D (ζ i c d) i c o d)).numToNan := h3
  obtain ⟨v4, e4, s4, h4⟩ := h.zip oC.shape (· * ·)
  set inc : Tri K := { obj with values := v4 } with hinc
  have einc : obj.mulArr s.values = .ok inc := by
    unfold mulArr zipArr
    rw [e4]
    rfl
  have iC : Complete inc x a D := by
    refine ⟨oC.index, oC.columns, oC.origins, oC.ages, oC.isVal, oC.vd, s4⟩
  obtain ⟨et, hmths⟩ := iC.trend h.toGrid fun m => (p.future.getD p.trend) (-m)
  have oamt : ∀ i < x.kdims.length, ∀ c < x.vdims.length, ∀ o < D, ∀ d < D,
      (obj.values.get i c o d).amt = if ζ i c d = 0 then 0 else completed x e D (ζ i c d) i c o d := by
    intro i hi c hc o ho d hd
    rw [ocell i hi c hc o ho d hd]
    split_ifs
    · rfl
    · rw [Num.amt_numToNan, Num.amt_fin]
  have onoinf : ∀ i < x.kdims.length, ∀ c < x.vdims.length, ∀ o < D, ∀ d < D,
      (obj.values.get i c o d).NoInf := by
    intro i hi c hc o ho d hd
    rw [ocell i hi c hc o ho d hd]
    split_ifs
    · trivial
    · exact Num.noInf_numToNan trivial
  have ofin : Finite obj := by
    intro i hi c hc o ho d hd
    obtain ⟨t0, t1, t2, t3⟩ := oC.shape
    exact onoinf i (by rw [← w0, ← t0]; exact hi) c (by rw [← w1, ← t1]; exact hc) o
      (by rw [← h.lenO, ← w2, ← t2]; exact ho) d (by rw [← h.lenD, ← w3, ← t3]; exact hd)
  obtain ⟨L, eL, oL, dL, kL, vL, wL, pL, hL⟩ := oC.links h.toGrid (by rw [ovd]; exact hb) cy py ofin
  set inc' : Tri K := { inc with values := { inc.values with
      get := fun i c o d => inc.values.get i c o d *
        (.fin ((fun m => (p.future.getD p.trend) (-m)) (inc.trendMonths .valuation x.vd inc.vd none o d)) *
          inc.nanTri o d) } } with hinc'
  refine ⟨⟨w, r, { r with values := { r.values with
      get := fun i c o d => r.values.get i c o d * w.get i c o d } },
    paramTri r (zetaArr p y.values s.values w), inc', L⟩, S', ζ, ?_, ?_⟩
  · unfold Additive.fit
    simp only
    rw [h.isVal]
    simp only [Bool.false_eq_true, if_false]
    rw [if_neg (by
      rw [not_not, w0, w1, w2, h.lenO]
      exact ⟨h.index, h.columns, h.origins, h.single⟩)]
    simp only [bind, Except.bind]
    rw [eu]; simp only
    rw [ey]; simp only
    rw [er]; simp only
    rw [ew]; simp only
    rw [efz]; simp only
    rw [el]; simp only
    rw [ek]; simp only
    rw [e1]; simp only
    rw [e2]; simp only
    rw [eq]; simp only
    rw [e3]; simp only
    rw [← hobj, einc]; simp only
    rw [et]; simp only
    rw [eL]
  · refine ⟨?_, ?_, ⟨⟨sw0, sw1, sw2, sw3⟩, ?_⟩, ⟨lr, ⟨sv0, sv1, sv2, sv3⟩, hrc⟩,
      ⟨lr, ⟨sv0, sv1, sv2, sv3⟩, ?_⟩, ?_, ?_, ?_⟩
    · exact fun i hi c hc d hd => (hS' i hi c hc d hd).1
    · exact fun i hi c hc d hd => rfl
    · exact fun i hi c hc d hd => (hS' i hi c hc d hd).2
    · intro i hi c hc o ho d hd
      obtain ⟨hch, hwt⟩ := hS' i hi c hc d hd
      show (_ → r.values.get i c o d * w.get i c o d = _) ∧ (_ → r.values.get i c o d * w.get i c o d = _)
      refine ⟨fun hm => ?_, fun hm => ?_⟩
      · rw [(hwt o ho).1 hm, (hrc i hi c hc o ho d hd).1 (hch.sub o hm).2]
        simp [Num.one_def]
      · rw [(hwt o ho).2 hm, Num.mul_nan]
    · have hod : (paramTri r (zetaArr p y.values s.values w)).odims = [x.odims.getD 0 0] := by
        show (r.odims.filter fun o => o == (r.odims.min?).getD 0) = _
        rw [first_origin gr, lr.2.2.2.1]
      refine ⟨?_, lr.1, lr.2.2.1, hod, lr.2.2.2.2.1, rfl, rfl, rfl, rfl, hz⟩
      refine ⟨?_, ?_, ?_, ?_⟩
      · show y.values.d0 = r.kdims.length
        rw [lr.1, y0]
      · show y.values.d1 = r.vdims.length
        rw [lr.2.2.1, y1]
      · rw [hod]; rfl
      · show y.values.d3 = r.ddims.length
        rw [gr.lenD, y3]
    · refine ⟨iC.wf h.toGrid, iC.index, iC.columns, iC.origins, iC.ages, cy, ovd, ?_⟩
      intro i hi c hc o ho d hd
      show (_ → inc.values.get i c o d * (.fin ((p.future.getD p.trend)
          (-(inc.trendMonths .valuation x.vd inc.vd none o d))) * inc.nanTri o d) = _) ∧
        (_ → Num.NoInf (inc.values.get i c o d * (.fin ((p.future.getD p.trend)
          (-(inc.trendMonths .valuation x.vd inc.vd none o d))) * inc.nanTri o d)) ∧
          Num.amt (inc.values.get i c o d * (.fin ((p.future.getD p.trend)
          (-(inc.trendMonths .valuation x.vd inc.vd none o d))) * inc.nanTri o d)) = _)
      rw [iC.nanTri h.toGrid ho hd, hmths o ho d hd, neg_sub]
      have e5 : inc.values.get i c o d = obj.values.get i c o d * .fin (e i c o) := h4 i hi c hc o ho d hd
      rw [e5, ocell i hi c hc o ho d hd]
      refine ⟨fun h0 => ?_, fun h0 => ?_⟩
      · rw [if_pos h0]
        simp
      · rw [if_neg h0, Num.numToNan_fin]
        split_ifs with h6
        · rw [h6]; simp
        · simp [Num.one_def]
    · refine ⟨wL, kL, vL, oL, dL, pL, ?_⟩
      intro i hi c hc o ho d hd
      rw [hL i hi c hc o ho d hd]
      have : ∀ m ≤ D, ∑ j ∈ Finset.range m, (obj.values.get i c o j).amt =
          ∑ j ∈ Finset.range m, if ζ i c j = 0 then 0 else completed x e D (ζ i c j) i c o j := by
        intro m hm
        apply Finset.sum_congr rfl
        intro j hj
        exact oamt i hi c hc o ho j (by have := Finset.mem_range.mp hj; omega)
      rw [this _ (by omega), this _ (by omega)]

end Exposed
end Additive

end CL
