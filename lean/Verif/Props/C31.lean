import Verif.Lemmas.Rank
import Verif.Lemmas.Weights
import Mathlib.Tactic.IntervalCases

set_option linter.unusedSimpArgs false
set_option linter.unusedSectionVars false

/-! # C31: `drop_high` and `drop_low` -/

namespace CL
namespace Dev
variable {K : Type} [Field K] [LinearOrder K] [IsStrictOrderedRing K]
open Tri

/-- `s` is what remains of `a` without `l` smallest and `h` largest elements by `f`. -/
def Trimmed (a s : Finset Nat) (f : Nat → K) (l h : Nat) : Prop :=
  ∃ low high : Finset Nat, low ∪ s ∪ high = a ∧ Disjoint low s ∧ Disjoint low high ∧
    Disjoint s high ∧ low.card = l ∧ high.card = h ∧
    (∀ x ∈ low, ∀ y ∈ s, f x ≤ f y) ∧ (∀ x ∈ low, ∀ y ∈ high, f x ≤ f y) ∧
    ∀ x ∈ s, ∀ y ∈ high, f x ≤ f y

/-- One age. -/
theorem dropN_trimmed {m n : Nat} {h l : Nat} {nper preserve : Int} (hp : 0 ≤ preserve)
    {r x : Nat → Num K} {f : Nat → K} {a : Finset Nat}
    (ha : a = (Finset.range n).filter fun o => (r o).isNan = false)
    (hf : ∀ o ∈ a, r o = .fin (f o))
    (hc : (a.card : Int) ≤ if nper = -1 then (m : Int) else nper) :
    ((l + h + preserve ≤ a.card →
      Trimmed a (a.filter fun o => dropN m h l nper preserve n r x o = true) f l h) ∧
    (a.card < l + h + preserve →
      (a.filter fun o => dropN m h l nper preserve n r x o = true) = a)) := by
  have hcount : ((List.range n).filter fun o => !(r o).isNan).length = a.card := by
    rw [filter_length, ha]; congr 1; ext o; simp
  have hn : ∀ o ∈ a, o < n := fun o ho => by rw [ha] at ho; simpa using (Finset.mem_filter.1 ho).1
  have hrank : ∀ o < n, (o ∈ a ↔ rank n r x o < a.card) := by
    intro o ho
    have := rank_lt_count (r := r) (x := x) ho
    rw [← ha] at this
    rw [← this, ha]
    simp [ho]
  have hle : a.card ≤ n := by
    have := Finset.card_filter_le (Finset.range n) fun o => (r o).isNan = false
    rw [← ha] at this
    simpa using this
  have hmono : ∀ o ∈ a, ∀ o' ∈ a, rank n r x o < rank n r x o' → f o ≤ f o' := by
    intro o ho o' ho' hlt
    rcases (before_iff r x o o').1 (before_of_rank (hn o' ho') hlt) with h | ⟨h, -⟩
    · rw [hf o ho, hf o' ho'] at h
      simp [numLt, Num.ltb] at h
      exact h.le
    · rw [hf o ho, hf o' ho'] at h
      exact (Num.fin.inj h).le
  have hd : ∀ o, dropN m h l nper preserve n r x o =
      (decide ((rank n r x o : Int) < if (a.card : Int) - h - l < preserve then (a.card : Int)
          else a.card - h) &&
        decide ((rank n r x o : Int) > (if (a.card : Int) - h - l < preserve then 0 else (l : Int)) - 1))
      := by
    intro o
    unfold dropN
    have hcap : (if (a.card : Int) > (if nper = -1 then (m : Int) else nper) then
        (if nper = -1 then (m : Int) else nper) else (a.card : Int)) = a.card := if_neg (by omega)
    simp only [hcount, hcap, decide_eq_true_eq]
  constructor
  · intro hk
    have hneg : ¬ ((a.card : Int) - h - l < preserve) := by omega
    simp only [hd, if_neg hneg]
    have hlh : l + h ≤ a.card := by omega
    have cl : (a.filter fun o => rank n r x o < l) = (Finset.range n).filter fun o => rank n r x o < l := by
      ext o
      simp only [Finset.mem_filter, Finset.mem_range]
      constructor
      · rintro ⟨h1, h2⟩; exact ⟨hn o h1, h2⟩
      · rintro ⟨h1, h2⟩; exact ⟨(hrank o h1).2 (by omega), h2⟩
    refine ⟨a.filter fun o => rank n r x o < l, a.filter fun o => a.card - h ≤ rank n r x o, ?_, ?_,
      ?_, ?_, ?_, ?_, ?_, ?_, ?_⟩
    · ext o
      simp only [Finset.mem_union, Finset.mem_filter, Bool.and_eq_true, decide_eq_true_eq]
      constructor
      · rintro ((h1 | h1) | h1) <;> exact h1.1
      · intro ho
        simp only [ho, true_and]
        omega
    · rw [Finset.disjoint_left]
      intro o
      simp only [Finset.mem_filter, Bool.and_eq_true, decide_eq_true_eq]
      omega
    · rw [Finset.disjoint_left]
      intro o
      simp only [Finset.mem_filter]
      omega
    · rw [Finset.disjoint_left]
      intro o
      simp only [Finset.mem_filter, Bool.and_eq_true, decide_eq_true_eq]
      omega
    · rw [cl]; exact card_rank_lt r x (by omega)
    · have h1 : (a.filter fun o => rank n r x o < a.card - h) =
          (Finset.range n).filter fun o => rank n r x o < a.card - h := by
        ext o
        simp only [Finset.mem_filter, Finset.mem_range]
        constructor
        · rintro ⟨h1, h2⟩; exact ⟨hn o h1, h2⟩
        · rintro ⟨h1, h2⟩; exact ⟨(hrank o h1).2 (by omega), h2⟩
      have h2 := Finset.card_filter_add_card_filter_not (s := a) (fun o => rank n r x o < a.card - h)
      rw [h1, card_rank_lt r x (by omega)] at h2
      simp only [not_lt] at h2
      omega
    · intro o ho o' ho'
      simp only [Finset.mem_filter, Bool.and_eq_true, decide_eq_true_eq] at ho ho'
      exact hmono o ho.1 o' ho'.1 (by omega)
    · intro o ho o' ho'
      simp only [Finset.mem_filter] at ho ho'
      exact hmono o ho.1 o' ho'.1 (by omega)
    · intro o ho o' ho'
      simp only [Finset.mem_filter, Bool.and_eq_true, decide_eq_true_eq] at ho ho'
      exact hmono o ho.1 o' ho'.1 (by omega)
  · intro hk
    have hpos : (a.card : Int) - h - l < preserve := by omega
    simp only [hd, if_pos hpos]
    rw [Finset.filter_eq_self]
    intro o ho
    have := (hrank o (hn o ho)).1 ho
    simp only [Bool.and_eq_true, decide_eq_true_eq]
    omega

/-- Origins whose link ratio of the age is available: nonzero amounts at both ages, and within the
periods selected by `n_periods`. -/
def available (t : Tri K) (a : Arr K) (i c d : Nat) : Finset Nat :=
  included t (fun i c o d => (bget a i c o d).amt) i c d

/-- **C31**, for ages with no more available link ratios than the triangle has link ratio columns
(or than `n_periods`): the factor is the average over what remains of the available link ratios
without the `l` smallest and the `h` largest, or over all of them if fewer than `preserve` would
remain. -/
theorem C31_fit_partial {t u : Tri K} (fin : Tri.Finite t) (known : Known t) {p : Params K}
    (h1 : p.drop = none) (h2 : p.dropVal = none) (h3 : p.dropAbove = none) (h4 : p.dropBelow = none)
    {hs ls : Nat → Nat} (hh : p.dropHigh = some fun d => (hs d : Int))
    (hl : p.dropLow = some fun d => (ls d : Int)) (hpre : 0 ≤ p.preserve) (hu : fit t p = .ok u)
    {a : Arr K} (ha : nPeriodsWeight t (t.values.d3 - 1) p.nPeriods = .ok a)
    {i c d : Nat} (hi : i < t.values.d0) (hc : c < t.values.d1) (hd : d + 1 < t.values.d3)
    (hcount : ((available t a i c d).card : Int) ≤
      if p.nPeriods d = -1 then ((t.values.d3 - 1 : Nat) : Int) else p.nPeriods d) :
    ∃ s : Finset Nat,
      u.values.get i c 0 d = (Num.fin (average t i c d s (p.average d))).numToNan ∧
      (ls d + hs d + p.preserve ≤ (available t a i c d).card →
        Trimmed (available t a i c d) s (fun o => amount t i c o (d + 1) / amount t i c o d)
          (ls d) (hs d)) ∧
      ((available t a i c d).card < ls d + hs d + p.preserve → s = available t a i c d) := by
  set A := available t a i c d with hA
  have z := nPeriodsWeight_zeroOne (t := t) (by omega) ha
  -- the weights
  obtain ⟨w, hw, hwv⟩ : ∃ w, weights t p = .ok w ∧ ∀ o, w.get i c o d =
      bget a i c o d * (t.nanTri o d * 1 * 1 * Num.ofBool (dropN (t.values.d3 - 1) (hs d) (ls d)
        (p.nPeriods d) p.preserve t.values.d2
        (fun o => ratio t i c o d * zeroToNan (bget a i c o d)) (fun o => t.values.get i c o d) o)) := by
    unfold weights dropAdjustment
    simp only [ha, h1, h2, h3, h4, hh, hl, Option.map_none, optWeight, Option.isSome_none,
      Option.isSome_some, Option.getD_some, bind, Except.bind, Bool.or_self, Bool.or_true, if_true]
    refine ⟨_, rfl, ?_⟩
    intro o
    simp [bget]
  have hval : u.values = ldfArr t p w := fit_values hw hu
  -- the link ratios that are ranked
  have cell : ∀ o < t.values.d2, ∀ e < t.values.d3, (t.values.get i c o e).numToNan =
      if amount t i c o e = 0 then .nan else .fin (amount t i c o e) := by
    intro o ho e he
    unfold amount
    rcases Num.noInf_cases (fin i hi c hc o ho e he) with h | ⟨b, h⟩
    · rw [h]; simp
    · rw [h, Num.numToNan_fin, Num.amt_fin]
  have hr : ∀ o < t.values.d2, ratio t i c o d * zeroToNan (bget a i c o d) =
      if o ∈ A then .fin (amount t i c o (d + 1) / amount t i c o d) else .nan := by
    intro o ho
    have hmem : o ∈ A ↔ amount t i c o d ≠ 0 ∧ amount t i c o (d + 1) ≠ 0 ∧
        (bget a i c o d).amt ≠ 0 := by
      rw [hA]; unfold available included; simp [ho]
    unfold ratio
    rw [cell o ho (d + 1) hd, cell o ho d (by omega)]
    by_cases e1 : amount t i c o d = 0
    · have hn : o ∉ A := by rw [hmem]; tauto
      rw [if_neg hn, if_pos e1]; simp
    by_cases e2 : amount t i c o (d + 1) = 0
    · have hn : o ∉ A := by rw [hmem]; tauto
      rw [if_neg hn, if_pos e2]; simp
    rw [if_neg e1, if_neg e2, Num.fin_div_fin_of_ne _ e1]
    have zb : ZeroOne (bget a i c o d) := z _ _ _ _
    rcases zb with e3 | e3 | e3
    · have hn : o ∉ A := by rw [hmem, e3]; simp
      rw [if_neg hn, e3]; simp [zeroToNan, Num.eqb, Num.zero_def]
    · have hn : o ∉ A := by rw [hmem, e3]; simp [Num.zero_def]
      rw [if_neg hn, e3]
      simp [zeroToNan, Num.eqb, Num.zero_def]
    · have hn : o ∈ A := by rw [hmem, e3]; exact ⟨e1, e2, by simp [Num.one_def]⟩
      rw [if_pos hn, e3]
      simp [zeroToNan, Num.eqb, Num.zero_def, Num.one_def]
  have hAn : ∀ o ∈ A, o < t.values.d2 := fun o ho => by
    have := (Finset.mem_filter.1 ho).1; simpa using this
  have haA : A = (Finset.range t.values.d2).filter fun o =>
      (ratio t i c o d * zeroToNan (bget a i c o d)).isNan = false := by
    ext o
    simp only [Finset.mem_filter, Finset.mem_range]
    constructor
    · intro ho
      refine ⟨hAn o ho, ?_⟩
      rw [hr o (hAn o ho), if_pos ho]; rfl
    · rintro ⟨ho, hn⟩
      by_contra hc'
      rw [hr o ho, if_neg hc'] at hn
      cases hn
  obtain ⟨d1, d2⟩ := dropN_trimmed (m := t.values.d3 - 1) (n := t.values.d2) (h := hs d) (l := ls d)
    (nper := p.nPeriods d) (preserve := p.preserve) hpre
    (r := fun o => ratio t i c o d * zeroToNan (bget a i c o d))
    (x := fun o => t.values.get i c o d)
    (f := fun o => amount t i c o (d + 1) / amount t i c o d) haA
    (fun o ho => by
      show ratio t i c o d * zeroToNan (bget a i c o d) = _
      rw [hr o (hAn o ho), if_pos ho]) hcount
  refine ⟨A.filter fun o => dropN (t.values.d3 - 1) (hs d) (ls d) (p.nPeriods d) p.preserve
    t.values.d2 (fun o => ratio t i c o d * zeroToNan (bget a i c o d))
    (fun o => t.values.get i c o d) o = true, ?_, d1, d2⟩
  rw [hval, C28_average fin p w hi hc hd (fun o _ => weights_zeroOne (by omega) hw i c o d)]
  congr 3
  rw [hA]
  unfold available included
  rw [Finset.filter_filter]
  apply Finset.filter_congr
  intro o ho
  have ho : o < t.values.d2 := by simpa using ho
  have zb : ZeroOne (bget a i c o d) := z _ _ _ _
  have hk : amount t i c o d ≠ 0 → t.nanTri o d = 1 := by
    intro hne
    rcases Tri.nanTri_eq t o d with e | ⟨-, e⟩
    · exact e
    · have := known i hi c hc o ho d (by omega) e
      unfold amount at hne
      rw [this] at hne
      simp at hne
  beta_reduce
  rw [hwv o]
  constructor
  · rintro ⟨a1, a2, a3⟩
    rw [hk a1] at a3
    generalize hb : dropN (t.values.d3 - 1) (hs d) (ls d) (p.nPeriods d) p.preserve t.values.d2
      (fun o => ratio t i c o d * zeroToNan (bget a i c o d)) (fun o => t.values.get i c o d) o = b
      at a3 ⊢
    rcases zb with e | e | e <;> rw [e] at a3 ⊢ <;> cases b <;>
      simp_all [Num.ofBool, Num.zero_def, Num.one_def]
  · rintro ⟨⟨a1, a2, a3⟩, a4⟩
    refine ⟨a1, a2, ?_⟩
    rw [hk a1, a4]
    rcases zb with e | e | e <;> rw [e] at a3 ⊢ <;>
      simp_all [Num.ofBool, Num.zero_def, Num.one_def]

/-- Five origins and three ages; the link ratios of the first age are 1, 2, 3, 4. -/
def tri53 : Tri ℚ :=
  { kdims := [["Total"]], keyLabels := ["Total"], vdims := ["values"]
    odims := [24000, 24012, 24024, 24036, 24048]
    ddims := [12, 24, 36]
    isVal := false, isCum := some true, isPattern := false, ograin := .Y, dgrain := .Y, vd := 24059, isAdditive := none
    values :=
      { d0 := 1, d1 := 1, d2 := 5, d3 := 3
        get := fun _ _ o d =>
          (([[.fin 10, .fin 10, .fin 11], [.fin 10, .fin 20, .fin 22], [.fin 10, .fin 30, .fin 33],
            [.fin 10, .fin 40, .nan], [.fin 10, .nan, .nan]] : List (List (Num ℚ))).getD o []).getD
            d .nan } }

theorem regular_tri53 : Regular tri53 where
  wf := by decide
  ordered := by unfold Ordered; decide
  finite := by unfold Tri.Finite; decide
  known := by
    intro i hi c hc o ho d hd hv
    have ho : o < 5 := ho
    have hd : d < 3 := hd
    revert hv
    interval_cases o <;> interval_cases d <;> first | (intro; rfl) | (intro h; exact absurd h (by decide))

/-- **C31** is false for triangles with more available link ratios than link ratio columns: with
`drop_high = 1` not one but three of the four link ratios of the first age are excluded. -/
theorem C31_columns_false : ∃ (t u : Tri ℚ) (p : Params ℚ), Regular t ∧
    p = { dropHigh := some (fun _ => 1), dropLow := some (fun _ => 0) } ∧ fit t p = .ok u ∧
    included t (fun _ _ _ _ => 1) 0 0 0 = {0, 1, 2, 3} ∧
    ∀ s, Trimmed {0, 1, 2, 3} s (fun o => amount t 0 0 o 1 / amount t 0 0 o 0) 0 1 →
      u.values.get 0 0 0 0 ≠ (Num.fin (average t 0 0 0 s .volume)).numToNan := by
  have e : fit tri53 { dropHigh := some (fun _ => 1), dropLow := some (fun _ => 0) } = .ok _ := rfl
  refine ⟨tri53, _, _, regular_tri53, rfl, e, by decide +kernel, ?_⟩
  rintro s ⟨low, high, hu, d1, d2, d3, c1, c2, -⟩
  have hlow : low = ∅ := Finset.card_eq_zero.1 c1
  subst hlow
  have hc : s.card = 3 := by
    have := congrArg Finset.card hu
    rw [Finset.empty_union, Finset.card_union_of_disjoint d3, c2] at this
    have h4 : ({0, 1, 2, 3} : Finset Nat).card = 4 := rfl
    omega
  have hs : s ∈ Finset.powersetCard 3 ({0, 1, 2, 3} : Finset Nat) := by
    rw [Finset.mem_powersetCard]
    refine ⟨?_, hc⟩
    rw [← hu]
    intro x hx; simp [hx]
  have hv : ∀ s ∈ Finset.powersetCard 3 ({0, 1, 2, 3} : Finset Nat),
      (Num.fin 1 : Num ℚ) ≠ (Num.fin (average tri53 0 0 0 s .volume)).numToNan := by decide +kernel
  intro hcon
  apply hv s hs
  rw [← hcon]
  decide +kernel

/-- `n_periods = 0`, `drop_high = 0`, `drop_low = 0`. -/
def zeroParams : Params ℚ where
  nPeriods := fun _ => 0
  dropHigh := some fun _ => 0
  dropLow := some fun _ => 0

/-- `drop_high = 0`, `drop_low = 1`. -/
def lowParams : Params ℚ where
  dropHigh := some fun _ => 0
  dropLow := some fun _ => 1

/-- **C31** is false for `n_periods = 0`: with `drop_high = 0` and `drop_low = 0` the factor is
missing, though `n_periods = 0` otherwise means all periods. -/
theorem C31_zero_false : ∃ (t u u' : Tri ℚ), Regular t ∧
    fit t { nPeriods := fun _ => 0 } = .ok u ∧ u.values.get 0 0 0 0 = .fin (5 / 2) ∧
    fit t zeroParams = .ok u' ∧
      u'.values.get 0 0 0 0 = .nan :=
  ⟨tri53, _, _, regular_tri53, rfl, by decide +kernel, rfl, by decide +kernel⟩

example : ∃ u, fit (Ex.tri3 (some true) Ex.cum3) lowParams = .ok u ∧
    (available (Ex.tri3 (some true) Ex.cum3) ⟨1, 1, 3, 2, fun _ _ _ _ => 1⟩ 0 0 0) = {0, 1} ∧
    u.values.get 0 0 0 0 = .fin (168 / 110) ∧ u.values.get 0 0 0 1 = .fin (165 / 150) :=
  ⟨_, rfl, by decide +kernel⟩

end Dev
end CL
