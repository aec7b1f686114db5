import Verif.Lemmas.BcastUp
import Verif.Spec.Examples

set_option linter.unusedSectionVars false

/-! # C54: arithmetic with an operand that has a single index, column, origin or development -/

namespace CL
namespace Tri
variable {K : Type} [Field K] [LinearOrder K] [IsStrictOrderedRing K]

/-- Position on an axis of length `n` that is used at position `i` of the result: the only one if
there is only one. -/
def C54.only (n i : Nat) : Nat := if n = 1 then 0 else i

/-- `r` has, on each axis, the labels of the longer operand, and `rel` relates each of its cells to
the cells of the operands. -/
structure C54.Combined (x y r : Tri K) (rel : Num K → Num K → Num K → Nat → Nat → Prop) : Prop where
  wf : WF r
  kdims : r.kdims = if x.kdims.length < y.kdims.length then y.kdims else x.kdims
  keyLabels : r.keyLabels = x.keyLabels
  vdims : r.vdims = if x.vdims.length < y.vdims.length then y.vdims else x.vdims
  odims : r.odims = if x.odims.length < y.odims.length then y.odims else x.odims
  ddims : r.ddims = if x.ddims.length < y.ddims.length then y.ddims else x.ddims
  isVal : r.isVal = if x.ddims.length < y.ddims.length then y.isVal else x.isVal
  ograin : r.ograin = x.ograin
  dgrain : r.dgrain = if x.ddims.length < y.ddims.length then y.dgrain else x.dgrain
  vd : r.vd = max x.vd y.vd
  cells : ∀ i < r.kdims.length, ∀ c < r.vdims.length, ∀ o < r.odims.length, ∀ d < r.ddims.length,
    rel (x.values.get (C54.only x.kdims.length i) (C54.only x.vdims.length c)
        (C54.only x.odims.length o) (C54.only x.ddims.length d))
      (y.values.get (C54.only y.kdims.length i) (C54.only y.vdims.length c)
        (C54.only y.odims.length o) (C54.only y.ddims.length d))
      (r.values.get i c o d) o d

private theorem longer_lt {α : Type} {a b : List α} (h : Fit a b) :
    longer a b = if a.length < b.length then b else a := by
  unfold longer
  rcases h with e | e | e
  · rw [e]; split_ifs <;> rfl
  · rw [if_neg (by omega), if_neg (by omega)]
  · by_cases h : b.length > 1
    · rw [if_pos ⟨e.1, h⟩, if_pos (by omega)]
    · rw [if_neg (by omega), if_neg (by omega)]

private theorem cond_lt {α : Type} {a b : List α} (h : Fit a b) :
    (a.length = 1 ∧ b.length > 1) ↔ a.length < b.length := by
  rcases h with e | e | e
  · rw [e]; omega
  · omega
  · omega

private theorem bix_left {α : Type} {a b : List α} (h : Fit a b) {i : Nat}
    (hi : i < (longer a b).length) : Arr.bix a.length (longer a b).length i = C54.only a.length i := by
  have hl : a.length = (longer a b).length ∨ a.length = 1 := by
    rw [longer_lt h]
    rcases h with e | e | e
    · left; rw [e]; simp
    · split_ifs <;> omega
    · split_ifs <;> omega
  unfold Arr.bix C54.only
  split_ifs <;> omega

private theorem bix_right {α : Type} {a b : List α} (h : Fit a b) {i : Nat}
    (hi : i < (longer a b).length) : Arr.bix b.length (longer a b).length i = C54.only b.length i := by
  have hl : b.length = (longer a b).length ∨ b.length = 1 := by
    rw [longer_lt h]
    rcases h with e | e | e
    · left; rw [e]; simp
    · split_ifs <;> omega
    · split_ifs <;> omega
  unfold Arr.bix C54.only
  split_ifs <;> omega

private theorem cell_eq (f : Num K → Num K → Num K) {x y : Tri K} (h : Compat x y) {i c o d : Nat}
    (hi : i < (longer x.kdims y.kdims).length) (hc : c < (longer x.vdims y.vdims).length)
    (ho : o < (longer x.odims y.odims).length) (hd : d < (longer x.ddims y.ddims).length) :
    (combined f x y).values.get i c o d =
      f (x.values.get (C54.only x.kdims.length i) (C54.only x.vdims.length c)
        (C54.only x.odims.length o) (C54.only x.ddims.length d))
      (y.values.get (C54.only y.kdims.length i) (C54.only y.vdims.length c)
        (C54.only y.odims.length o) (C54.only y.ddims.length d)) := by
  obtain ⟨x0, x1, x2, x3⟩ := h.wx
  obtain ⟨y0, y1, y2, y3⟩ := h.wy
  rw [← bix_left h.kdims hi, ← bix_left h.vdims hc, ← bix_left h.odims ho, ← bix_left h.ddims hd,
    ← bix_right h.kdims hi, ← bix_right h.vdims hc, ← bix_right h.odims ho, ← bix_right h.ddims hd,
    ← x0, ← x1, ← x2, ← x3, ← y0, ← y1, ← y2, ← y3]
  rfl

private theorem combined_of (f : Num K → Num K → Num K) {x y r : Tri K} (h : Compat x y)
    {rel : Num K → Num K → Num K → Nat → Nat → Prop}
    (wf : WF r) (l : { r with values := x.values } = mergedLabels x y)
    (hc : ∀ i < r.kdims.length, ∀ c < r.vdims.length, ∀ o < r.odims.length, ∀ d < r.ddims.length,
      ∀ a b, (combined f x y).values.get i c o d = f a b → rel a b (r.values.get i c o d) o d) :
    C54.Combined x y r rel := by
  have e1 : r.kdims = longer x.kdims y.kdims := congrArg Tri.kdims l
  have e2 : r.vdims = longer x.vdims y.vdims := congrArg Tri.vdims l
  have e3 : r.odims = longer x.odims y.odims := congrArg Tri.odims l
  have e4 : r.ddims = longer x.ddims y.ddims := congrArg Tri.ddims l
  have e7 : r.keyLabels = x.keyLabels := (congrArg Tri.keyLabels l :)
  have e8 : r.ograin = x.ograin := (congrArg Tri.ograin l :)
  have e5 := congrArg Tri.isVal l
  have e6 := congrArg Tri.dgrain l
  simp only [mergedLabels, cond_lt h.ddims] at e5 e6
  refine ⟨wf, ?_, e7, ?_, ?_, ?_, e5, e8, e6,
    by exact congrArg Tri.vd l, ?_⟩
  · rw [e1, longer_lt h.kdims]
  · rw [e2, longer_lt h.vdims]
  · rw [e3, longer_lt h.odims]
  · rw [e4, longer_lt h.ddims]
  · intro i hi c hcc o ho d hd
    exact hc i hi c hcc o ho d hd _ _
      (cell_eq f h (e1 ▸ hi) (e2 ▸ hcc) (e3 ▸ ho) (e4 ▸ hd))

/-- **C54, multiplication.**  An operand with a single index, column, origin or development is used
with every index, column, origin, development of the other; the result has the longer axes. -/
theorem C54_mul {x y : Tri K} (h : Compat x y) :
    ∃ r, x.mul y = .ok r ∧ C54.Combined x y r fun a b z _ _ => z = a * b := by
  refine ⟨_, mul_compat h, combined_of (· * ·) h (wf_combined _ _ _) rfl ?_⟩
  intro i _ c _ o _ d _ a b e
  exact e

/-- **C54, division.** -/
theorem C54_div {x y : Tri K} (h : Compat x y) :
    ∃ r, x.div y = .ok r ∧ C54.Combined x y r fun a b z _ _ => z = a / b := by
  refine ⟨_, div_compat h, combined_of (· / ·) h (wf_combined _ _ _) rfl ?_⟩
  intro i _ c _ o _ d _ a b e
  exact e

private theorem cleanup_amt {t : Tri K} {i c o d : Nat} {v : K}
    (hv : t.values.get i c o d = .fin v) (h : t.valuation o d ≤ t.vd) :
    (t.cleanup.values.get i c o d).amt = v := by
  show ((t.values.get i c o d * (t.nanTri o d).nanToNum).numToNan).amt = v
  rcases nanTri_eq t o d with e | ⟨e, e'⟩
  · rw [e, hv, Num.one_def]
    simp
  · omega

/-- **C54, addition**: up to the valuation date each amount of the result is the sum of the amounts
of the operands (missing counts as 0). -/
theorem C54_add {x y : Tri K} (h : Compat x y) :
    ∃ r, x.add y = .ok r ∧ C54.Combined x y r fun a b z o d =>
      a.NoInf → b.NoInf → r.valuation o d ≤ r.vd → z.amt = a.amt + b.amt := by
  refine ⟨_, add_compat h, combined_of (fun a b => a.nanToNum + b.nanToNum) h
    (wf_combined (fun a b => a.nanToNum + b.nanToNum) x y) rfl ?_⟩
  intro i _ c _ o _ d _ a b e na nb hv
  refine cleanup_amt ?_ hv
  rw [e, Num.nanToNum_eq na, Num.nanToNum_eq nb, Num.fin_add_fin]

/-- **C54, subtraction.** -/
theorem C54_sub {x y : Tri K} (h : Compat x y) :
    ∃ r, x.sub y = .ok r ∧ C54.Combined x y r fun a b z o d =>
      a.NoInf → b.NoInf → r.valuation o d ≤ r.vd → z.amt = a.amt - b.amt := by
  refine ⟨_, sub_compat h, combined_of (fun a b => a.nanToNum - b.nanToNum) h
    (wf_combined (fun a b => a.nanToNum - b.nanToNum) x y) rfl ?_⟩
  intro i _ c _ o _ d _ a b e na nb hv
  refine cleanup_amt ?_ hv
  rw [e, Num.nanToNum_eq na, Num.nanToNum_eq nb, Num.fin_sub_fin]

/-- One origin times three origins. -/
example : ∃ r, (Ex.tri1 (some true) fun _ d => .fin (d + 2)).mul (Ex.tri3 (some true) Ex.cum3) = .ok r ∧
    r.odims = [24240, 24252, 24264] ∧ r.values.get 0 0 1 1 = .fin 504 := by
  obtain ⟨r, e, h⟩ := C54_mul (x := Ex.tri1 (some true) fun _ d => .fin (d + 2))
    (y := Ex.tri3 (some true) Ex.cum3)
    ⟨by decide, by decide, rfl, Or.inl rfl, rfl, Or.inl rfl, Or.inl rfl,
      Or.inr (Or.inr (by decide)), Or.inl rfl, fun _ _ => rfl⟩
  have e3 : r.odims = [24240, 24252, 24264] := h.odims
  have e1 : r.kdims = [["Total"]] := h.kdims
  have e2 : r.vdims = ["paid"] := h.vdims
  have e4 : r.ddims = [12, 24, 36] := h.ddims
  refine ⟨r, e, e3, ?_⟩
  rw [h.cells 0 (by rw [e1]; decide) 0 (by rw [e2]; decide) 1 (by rw [e3]; decide) 1
    (by rw [e4]; decide)]
  decide +kernel

end Tri
end CL
