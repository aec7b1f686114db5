import Verif.Lemmas.Weights

set_option linter.unusedSectionVars false

/-! # C53: `drop` -/

namespace CL
namespace Dev
variable {K : Type} [Field K] [LinearOrder K] [IsStrictOrderedRing K]
open Tri

/-- The link ratios of an age whose starting cell is not listed. -/
def notListed (t : Tri K) (items : List (Int × Int)) (i c d : Nat) : Finset Nat :=
  (included t (fun _ _ _ _ => 1) i c d).filter fun o =>
    (t.odims.getD o 0, t.ddims.getD d 0) ∉ items

private theorem idxOf_getD {l : List Int} (h : l.Nodup) {a : Int} (ha : a ∈ l) {k : Nat}
    (hk : k < l.length) : k = l.idxOf a ↔ l.getD k 0 = a := by
  have hi := List.idxOf_lt_length_of_mem ha
  rw [List.getD_eq_getElem _ _ hk]
  constructor
  · rintro rfl; exact List.getElem_idxOf hi
  · rintro rfl; exact (h.idxOf_getElem k hk).symm

/-- **C53**: the factor of each age is the average over the link ratios not listed. -/
theorem C53_fit {t u : Tri K} (h : Regular t) (ho : t.odims.Nodup) (hdd : t.ddims.Nodup)
    {p : Params K} (hn : ∀ d, p.nPeriods d < 1) {items : List (Int × Int)} (h1 : p.drop = some items)
    (h2 : p.dropVal = none) (h3 : p.dropHigh = none) (h4 : p.dropLow = none)
    (h5 : p.dropAbove = none) (h6 : p.dropBelow = none) (hu : fit t p = .ok u)
    {i c d : Nat} (hi : i < t.values.d0) (hc : c < t.values.d1) (hd : d + 1 < t.values.d3)
    (h2' : 1 < t.values.d2) :
    (∀ x ∈ items, x.1 ∈ t.odims ∧ x.2 ∈ t.ddims) ∧
    u.values.get i c 0 d =
      (Num.fin (average t i c d (notListed t items i c d) (p.average d))).numToNan := by
  have hlab : ∀ x ∈ items, x.1 ∈ t.odims ∧ x.2 ∈ t.ddims := by
    by_contra hcon
    have : drop t items = .error .indexError := by
      unfold drop
      rw [if_neg]
      intro hall
      apply hcon
      intro x hx
      have := (List.all_eq_true.1 hall) x hx
      simpa using this
    unfold fit weights dropAdjustment at hu
    rw [nPeriodsWeight_all t _ hn] at hu
    simp only [h1, Option.map_some, optWeight, this, bind, Except.bind] at hu
    repeat' split at hu
    all_goals cases hu
  refine ⟨hlab, ?_⟩
  have hdrop : drop t items = .ok ⟨1, 1, t.values.d2, t.values.d3, fun _ _ o d =>
      if items.any fun p => decide (o = t.odims.idxOf p.1) && decide (d = t.ddims.idxOf p.2)
      then 0 else t.nanTri o d⟩ := by
    unfold drop
    rw [if_pos]
    rw [List.all_eq_true]
    intro x hx
    simpa using hlab x hx
  obtain ⟨w, hw, hwv⟩ := weights_masks (t := t) hn h3 h4 (by rw [h1]; exact hdrop)
    (b := ⟨1, 1, 1, 1, fun _ _ _ _ => 1⟩) (by rw [h2]; rfl)
  rw [fit_average h.finite hw hu hi hc hd]
  congr 3
  unfold notListed included
  rw [Finset.filter_filter]
  apply Finset.filter_congr
  intro o ho'
  have ho' : o < t.values.d2 := by simpa using ho'
  beta_reduce
  by_cases hne : amount t i c o d = 0
  · simp [hne]
  obtain ⟨a1, a2, -⟩ := observed_of_amount h.finite h.known hi hc ho' (by omega : d < t.values.d3) hne
  rw [hwv i hi c hc o ho' d hd, h5, h6, a1, a2]
  have hany : (items.any fun p => decide (o = t.odims.idxOf p.1) && decide (d = t.ddims.idxOf p.2)) =
      decide ((t.odims.getD o 0, t.ddims.getD d 0) ∈ items) := by
    rw [Bool.eq_iff_iff, List.any_eq_true]
    simp only [Bool.and_eq_true, decide_eq_true_eq]
    constructor
    · rintro ⟨x, hx, e1, e2⟩
      obtain ⟨m1, m2⟩ := hlab x hx
      have e1 := (idxOf_getD ho m1 (by rw [← h.wf.2.2.1]; exact ho')).1 e1
      have e2 := (idxOf_getD hdd m2 (by rw [← h.wf.2.2.2]; omega)).1 e2
      rw [e1, e2]; exact hx
    · intro hx
      obtain ⟨m1, m2⟩ := hlab _ hx
      exact ⟨_, hx, (idxOf_getD ho m1 (by rw [← h.wf.2.2.1]; exact ho')).2 rfl,
        (idxOf_getD hdd m2 (by rw [← h.wf.2.2.2]; omega)).2 rfl⟩
  have e2 : ¬ t.values.d2 = 1 := by omega
  have e3 : ¬ t.values.d3 = 1 := by omega
  simp only [Option.isSome_none, Bool.or_self, Bool.false_eq_true, if_false, bget, e2, e3,
    hany, a2]
  by_cases hin : (t.odims.getD o 0, t.ddims.getD d 0) ∈ items
  · simp only [hin, decide_true, if_true, not_true, and_false, iff_false]
    simp [Num.one_def, Num.zero_def]
  · simp only [hin, decide_false, Bool.false_eq_true, if_false, not_false_eq_true, and_true]
    simp [Num.one_def]

/-- **C53**: a label not on the axis is an error. -/
theorem C53_error {t lr : Tri K} {p : Params K} (hn : ∀ d, p.nPeriods d < 1)
    {items : List (Int × Int)} (h1 : p.drop = some items) (h2 : p.dropVal = none)
    (hl : t.linkRatio = .ok lr) {x : Int × Int} (hx : x ∈ items) (hbad : x.1 ∉ t.odims ∨ x.2 ∉ t.ddims) :
    fit t p = .error .indexError := by
  have : drop t items = .error .indexError := by
    unfold drop
    rw [if_neg]
    intro hall
    have := (List.all_eq_true.1 hall) x hx
    simp at this
    tauto
  obtain ⟨a, ha⟩ := nPeriodsWeightFunc_all lr hn
  unfold fit weights dropAdjustment
  rw [nPeriodsWeight_all t _ hn]
  have hf : ∀ e, dropFunc lr items = .error e → e = .indexError := by
    intro e he
    unfold dropFunc at he
    dsimp only at he
    split at he
    · cases he; rfl
    · cases he
  cases hd : dropFunc lr items with
  | error e =>
    rw [hf e hd] at hd
    simp only [hl, ha, h1, hd, Option.map_some, optWeight, bind, Except.bind]
  | ok b =>
    simp only [hl, ha, h1, h2, hd, Option.map_some, Option.map_none, optWeight, this, bind, Except.bind]

/-- `drop = ('2020', 12)`. -/
def dropParams : Params ℚ where
  drop := some [(24240, 12)]

example : ∃ u, fit (Ex.tri3 (some true) Ex.cum3) dropParams = .ok u ∧
    u.values.get 0 0 0 0 = .fin (168 / 110) ∧
    notListed (Ex.tri3 (some true) Ex.cum3) [(24240, 12)] 0 0 0 = {1} :=
  ⟨_, rfl, by decide +kernel⟩

end Dev
end CL
