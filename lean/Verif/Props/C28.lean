import Verif.Lemmas.Factor
import Verif.Lemmas.Convert
import Verif.Spec.Examples

set_option linter.unusedSectionVars false

/-! # C28: development averages -/

namespace CL
namespace Dev
variable {K : Type} [Field K] [LinearOrder K] [IsStrictOrderedRing K]

/-- The amount of a cell. -/
def amount (t : Tri K) (i c o d : Nat) : K := (t.values.get i c o d).amt

/-- Origins with a nonzero amount at age `d` and at the next one, and with a nonzero weight. -/
def included (t : Tri K) (w : Nat → Nat → Nat → Nat → K) (i c d : Nat) : Finset Nat :=
  (Finset.range t.values.d2).filter fun o =>
    amount t i c o d ≠ 0 ∧ amount t i c o (d + 1) ≠ 0 ∧ w i c o d ≠ 0

/-- The documented averages over a set of origins. -/
def average (t : Tri K) (i c d : Nat) (s : Finset Nat) : Avg → K
  | .volume => (∑ o ∈ s, amount t i c o (d + 1)) / ∑ o ∈ s, amount t i c o d
  | .simple => (∑ o ∈ s, amount t i c o (d + 1) / amount t i c o d) / s.card
  | .regression => (∑ o ∈ s, amount t i c o d * amount t i c o (d + 1)) /
      ∑ o ∈ s, amount t i c o d ^ 2

/-- **C28** for given 0/1 weights (a missing weight counts as 0). -/
theorem C28_average {t : Tri K} (fin : Tri.Finite t) (p : Params K) (w : Arr K) {i c d : Nat}
    (hi : i < t.values.d0) (hc : c < t.values.d1) (hd : d + 1 < t.values.d3)
    (hw : ∀ o < t.values.d2, w.get i c o d = .nan ∨ w.get i c o d = 0 ∨ w.get i c o d = 1) :
    (ldfArr t p w).get i c 0 d =
      (Num.fin (average t i c d (included t (fun i c o d => (w.get i c o d).amt) i c d)
        (p.average d))).numToNan := by
  unfold ldfArr
  simp only
  have hamt : ∀ o < t.values.d2, (w.get i c o d).amt = 0 ∨ (w.get i c o d).amt = 1 := by
    intro o ho
    rcases hw o ho with h | h | h <;> rw [h] <;> simp [Num.amt, Num.zero_def, Num.one_def]
  rw [factor_eq _ _ (by
      intro j hj
      rcases hw j hj with h | h | h <;> rw [h] <;> trivial)
    (fun j hj => clean_numToNan (fin i hi c hc j hj d (by omega)))
    (fun j hj => clean_numToNan (fin i hi c hc j hj (d + 1) hd))]
  simp only [Num.amt_numToNan]
  congr 2
  have key : ∀ f g : Nat → K,
      (∀ o < t.values.d2, g o = if (w.get i c o d).amt ≠ 0 then f o else 0) →
      (∑ o ∈ Finset.range t.values.d2,
        if (t.values.get i c o d).amt ≠ 0 ∧ (t.values.get i c o (d + 1)).amt ≠ 0 then g o else 0) =
      ∑ o ∈ included t (fun i c o d => (w.get i c o d).amt) i c d, f o := by
    intro f g h
    unfold included amount
    rw [Finset.sum_filter]
    apply Finset.sum_congr rfl
    intro o ho
    rw [h o (by simpa using ho)]
    by_cases h1 : (t.values.get i c o d).amt = 0 <;>
      by_cases h2 : (t.values.get i c o (d + 1)).amt = 0 <;>
        by_cases h3 : (w.get i c o d).amt = 0 <;> simp [h1, h2, h3]
  have h01 : ∀ o < t.values.d2, ∀ x : K,
      (w.get i c o d).amt * x = if (w.get i c o d).amt ≠ 0 then x else 0 := by
    intro o ho x
    rcases hamt o ho with h | h <;> rw [h] <;> simp
  cases p.average d
  · simp only [average]
    congr 1
    · apply key
      intro o ho
      rw [numer, mul_assoc, h01 o ho]; rfl
    · apply key
      intro o ho
      rw [denom, h01 o ho, ← pow_two]; rfl
  · simp only [average]
    congr 1
    · apply key
      intro o ho
      rw [numer, h01 o ho]; rfl
    · apply key
      intro o ho
      rw [denom, h01 o ho]; rfl
  · simp only [average]
    congr 1
    · apply key
      intro o ho
      rw [numer, h01 o ho]; rfl
    · rw [key (fun _ => 1) _ ?_]
      · simp
      · intro o ho
        rw [denom, ← h01 o ho, mul_one]

theorem mapM_ok {α β : Type} (f : α → β) : ∀ l : List α,
    l.mapM (fun a => (.ok (f a) : Except Err β)) = .ok (l.map f)
  | [] => rfl
  | a :: l => by
    rw [List.mapM_cons, mapM_ok f l]; rfl

theorem columns_map (f : Nat → Arr K) (m : Nat) {i c o d : Nat} (hd : d < m) :
    (columns ((List.range m).map f)).get i c o d = (f d).get i c o d := by
  obtain ⟨k, rfl⟩ : ∃ k, m = k + 1 := ⟨m - 1, by omega⟩
  have e : (List.range (k + 1)).map f = f 0 :: ((List.range k).map (f ∘ Nat.succ)) := by
    rw [List.range_succ_eq_map]; simp
  rw [e]
  show ((f 0 :: ((List.range k).map (f ∘ Nat.succ))).getD d (f 0)).get i c o d = _
  rw [← e]
  simp [List.getD_eq_getElem?_getD, hd]

theorem columns_dims (f : Nat → Arr K) (m : Nat) (hm : 0 < m) :
    (columns ((List.range m).map f)).d0 = (f 0).d0 ∧
    (columns ((List.range m).map f)).d1 = (f 0).d1 ∧
    (columns ((List.range m).map f)).d2 = (f 0).d2 ∧
    (columns ((List.range m).map f)).d3 = m := by
  obtain ⟨k, rfl⟩ : ∃ k, m = k + 1 := ⟨m - 1, by omega⟩
  have e : (List.range (k + 1)).map f = f 0 :: ((List.range k).map (f ∘ Nat.succ)) := by
    rw [List.range_succ_eq_map]; simp
  rw [e]
  exact ⟨rfl, rfl, rfl, by simp [columns]⟩

theorem bget_of_lt (a : Arr K) {i c o d : Nat} (hi : i < a.d0) (hc : c < a.d1)
    (ho : o < a.d2) (hd : d < a.d3) : bget a i c o d = a.get i c o d := by
  unfold bget
  have e : ∀ {n j : Nat}, j < n → (if n = 1 then 0 else j) = j := by
    intro n j h; split_ifs <;> omega
  rw [e hi, e hc, e ho, e hd]

/-- `n_periods = -1` gives every observed cell weight 1. -/
theorem nPeriodsWeight_all (t : Tri K) (m : Nat) {ns : Nat → Int} (hn : ∀ d, ns d < 1) :
    nPeriodsWeight t m ns =
      .ok (columns ((List.range m).map fun _ => t.values.map fun x => x * 0 + 1)) := by
  unfold nPeriodsWeight
  have : ∀ d, nPeriodsInt t (ns d) = .ok (t.values.map fun x => x * 0 + 1) := by
    intro d; unfold nPeriodsInt; rw [if_pos (Or.inl (hn d))]
  simp only [this, mapM_ok]
  rfl

theorem nPeriodsWeightFunc_all (t : Tri K) {ns : Nat → Int} (hn : ∀ d, ns d < 1) :
    ∃ a, nPeriodsWeightFunc t ns = .ok a := by
  unfold nPeriodsWeightFunc
  have : ∀ d, nPeriodsFuncInt t (ns d) = .ok (t.values.map fun x => x * 0 + 1) := by
    intro d; unfold nPeriodsFuncInt; rw [if_pos (Or.inl (hn d))]
  simp only [this, mapM_ok]
  exact ⟨_, rfl⟩

/-- No origin, valuation or link ratio is excluded. -/
def Params.NoDrop (p : Params K) : Prop :=
  p.drop = none ∧ p.dropVal = none ∧ p.dropHigh = none ∧ p.dropLow = none ∧
    p.dropAbove = none ∧ p.dropBelow = none

theorem weights_all {t : Tri K} {p : Params K} (hp : p.NoDrop) (hn : ∀ d, p.nPeriods d < 1) :
    ∃ w, weights t p = .ok w ∧ ∀ i < t.values.d0, ∀ c < t.values.d1, ∀ o < t.values.d2, ∀ d,
      d + 1 < t.values.d3 →
        w.get i c o d = (t.values.get i c o d * 0 + 1) * (t.nanTri o d * 1 * 1) := by
  obtain ⟨h1, h2, h3, h4, h5, h6⟩ := hp
  unfold weights dropAdjustment
  rw [nPeriodsWeight_all t _ hn]
  simp only [h1, h2, h3, h4, h5, h6, Option.map_none, optWeight, Option.isSome_none, bind,
    Except.bind, Bool.or_self]
  refine ⟨_, rfl, ?_⟩
  intro i hi c hc o ho d hd
  have hm : 0 < t.values.d3 - 1 := by omega
  obtain ⟨e0, e1, e2, e3⟩ :=
    columns_dims (fun _ => t.values.map fun x => x * 0 + 1) (t.values.d3 - 1) hm
  simp only [Bool.false_eq_true, if_false]
  rw [bget_of_lt _ (by rw [e0]; exact hi) (by rw [e1]; exact hc) (by rw [e2]; exact ho)
    (by rw [e3]; omega), columns_map _ _ (by omega)]
  rfl

theorem fit_values {t u : Tri K} {p : Params K} {w : Arr K} (hw : weights t p = .ok w)
    (hu : fit t p = .ok u) : u.values = ldfArr t p w := by
  unfold fit at hu
  simp only [hw, bind, Except.bind, paramTri] at hu
  repeat' split at hu
  all_goals first | (cases hu; done) | (cases hu; rfl)

/-- **C28**: without exclusions, `Development.fit` gives the documented average over all origins
with nonzero amounts at both ages. -/
theorem C28_fit {t : Tri K} (h : Tri.Regular t) {p : Params K} (hp : p.NoDrop)
    (hn : ∀ d, p.nPeriods d < 1) {lr : Tri K} (hl : t.linkRatio = .ok lr) :
    ∃ u, fit t p = .ok u ∧ u.kdims = t.kdims ∧ u.vdims = t.vdims ∧ u.ddims = lr.ddims ∧
      u.isPattern = true ∧ u.isCum = some false ∧ u.vd = ultVal ∧
      ∀ i < t.values.d0, ∀ c < t.values.d1, ∀ d, d + 1 < t.values.d3 →
        u.values.get i c 0 d =
          (Num.fin (average t i c d (included t (fun _ _ _ _ => 1) i c d) (p.average d))).numToNan := by
  obtain ⟨a, ha⟩ := nPeriodsWeightFunc_all lr hn
  obtain ⟨w, hw, hw'⟩ := weights_all (t := t) hp hn
  refine ⟨{ t with
      odims := t.odims.filter fun o => o == (t.odims.min?).getD 0
      ddims := lr.ddims
      vd := ultVal
      isPattern := true
      isCum := some false
      values := ldfArr t p w }, ?_, ?_⟩
  · simp only [fit, hl, ha, hw, paramTri, hp.1, hp.2.1, Option.map_none, optWeight, bind, Except.bind]
  · refine ⟨rfl, rfl, rfl, rfl, rfl, rfl, ?_⟩
    intro i hi c hc d hd
    have hwv : ∀ o < t.values.d2, w.get i c o d =
        if (t.values.get i c o d).isNan || (t.nanTri o d).isNan then .nan else 1 := by
      intro o ho
      rw [hw' i hi c hc o ho d hd]
      rcases Num.noInf_cases (h.finite i hi c hc o ho d (by omega)) with e | ⟨b, e⟩ <;> rw [e] <;>
        rcases Tri.nanTri_eq t o d with e' | ⟨e', -⟩ <;> rw [e'] <;>
        simp [Num.isNan, Num.zero_def, Num.one_def]
    rw [C28_average h.finite p w hi hc hd (by
      intro o ho
      rw [hwv o ho]
      split_ifs <;> simp)]
    congr 3
    unfold included
    apply Finset.filter_congr
    intro o ho
    have ho : o < t.values.d2 := by simpa using ho
    simp only [ne_eq, one_ne_zero, not_false_eq_true, and_true]
    constructor
    · rintro ⟨h1, h2, -⟩; exact ⟨h1, h2⟩
    · rintro ⟨h1, h2⟩
      refine ⟨h1, h2, ?_⟩
      rw [hwv o ho]
      have n1 : (t.values.get i c o d).isNan = false := by
        unfold amount at h1
        cases hx : t.values.get i c o d <;> rw [hx] at h1 <;> simp_all [Num.isNan, Num.amt]
      have n2 : (t.nanTri o d).isNan = false := by
        rcases Tri.nanTri_eq t o d with e' | ⟨-, e'⟩
        · rw [e']; rfl
        · rw [h.known i hi c hc o ho d (by omega) e'] at n1; cases n1
      rw [n1, n2]
      simp [Num.one_def, Num.amt]

example : ∃ u : Tri ℚ, fit (Ex.tri3 (some true) Ex.cum3) {} = .ok u ∧
    Tri.Regular (Ex.tri3 (some true) Ex.cum3) ∧
    u.values.get 0 0 0 0 = .fin (318 / 210) ∧ u.values.get 0 0 0 1 = .fin (165 / 150) ∧
    u.ddims = [12, 24] :=
  ⟨_, rfl, (Ex.proper_tri3 _).regular, by decide +kernel⟩

end Dev
end CL
