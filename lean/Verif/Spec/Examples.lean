import Verif.Spec.Amounts

/-! # Concrete triangles used in the examples -/

namespace CL

/-- A computation that succeeds, with a decidable property of its result. -/
theorem ok_of {α : Type} {x : Except Err α} (p : α → Prop) [DecidablePred p]
    (h : (match x with | .ok u => decide (p u) | .error _ => false) = true) : ∃ u, x = .ok u ∧ p u := by
  cases x with
  | error e => simp at h
  | ok u => exact ⟨u, rfl, of_decide_eq_true h⟩

/-- A computation that raises. -/
theorem error_of {α : Type} {x : Except Err α} {e : Err}
    (h : (match x with | .ok _ => false | .error e' => decide (e' = e)) = true) : x = .error e := by
  cases x with
  | ok u => simp at h
  | error e' => rw [of_decide_eq_true h]

namespace Ex

/-- Amounts of a 3 x 3 cumulative triangle. -/
def cum3 : Nat → Nat → Num ℚ
  | 0, 0 => .fin 100 | 0, 1 => .fin 150 | 0, 2 => .fin 165
  | 1, 0 => .fin 110 | 1, 1 => .fin 168 | 1, 2 => .nan
  | 2, 0 => .fin 120 | 2, 1 => .nan | 2, 2 => .nan
  | _, _ => .nan

/-- Origins 2020, 2021, 2022, ages 12, 24, 36, valuation date December 2022. -/
def tri3 (isCum : Option Bool) (get : Nat → Nat → Num ℚ) : Tri ℚ where
  kdims := [["Total"]]
  keyLabels := ["Total"]
  vdims := ["paid"]
  odims := [24240, 24252, 24264]
  ddims := [12, 24, 36]
  isVal := false
  ograin := .Y
  dgrain := .Y
  vd := 24275
  isCum := isCum
  isPattern := false
  isAdditive := none
  values := ⟨1, 1, 3, 3, fun _ _ o d => get o d⟩

/-- The first two ages of `tri3`, as a triangle with two developments and two origins. -/
def tri2 (isCum : Option Bool) (get : Nat → Nat → Num ℚ) : Tri ℚ where
  kdims := [["Total"]]
  keyLabels := ["Total"]
  vdims := ["paid"]
  odims := [24252, 24264]
  ddims := [12, 24]
  isVal := false
  ograin := .Y
  dgrain := .Y
  vd := 24275
  isCum := isCum
  isPattern := false
  isAdditive := none
  values := ⟨1, 1, 2, 2, fun _ _ o d => get o d⟩

/-- The latest origin alone, with all three ages on the axis. -/
def tri1 (isCum : Option Bool) (get : Nat → Nat → Num ℚ) : Tri ℚ where
  kdims := [["Total"]]
  keyLabels := ["Total"]
  vdims := ["paid"]
  odims := [24264]
  ddims := [12, 24, 36]
  isVal := false
  ograin := .Y
  dgrain := .Y
  vd := 24275
  isCum := isCum
  isPattern := false
  isAdditive := none
  values := ⟨1, 1, 1, 3, fun _ _ o d => get o d⟩

/-- A pattern of three age-to-age factors, dated at the sentinel date like every `ldf_`. -/
def pat3 (isCum : Option Bool) (get : Nat → Num ℚ) : Tri ℚ where
  kdims := [["Total"]]
  keyLabels := ["Total"]
  vdims := ["paid"]
  odims := [24240]
  ddims := [12, 24, 36]
  isVal := false
  ograin := .Y
  dgrain := .Y
  vd := ultVal
  isCum := isCum
  isPattern := true
  isAdditive := none
  values := ⟨1, 1, 1, 3, fun _ _ _ d => get d⟩

/-- Factors 3/2, missing, 11/10. -/
def fac3 : Nat → Num ℚ
  | 0 => .fin (3 / 2)
  | 2 => .fin (11 / 10)
  | _ => .nan

theorem proper_of {t : Tri ℚ} (h1 : Tri.WF t) (h2 : Tri.Ordered t) (h3 : Tri.Dated t)
    (h4 : t.ddims.Nodup) (h5 : Tri.DevSorted t) (h6 : Tri.Finite t) (h7 : Tri.Known t) :
    Tri.Proper t := ⟨h1, h2, h3, h4, h5, h6, h7⟩

instance (t : Tri ℚ) : Decidable (Tri.WF t) := by unfold Tri.WF; infer_instance
instance (t : Tri ℚ) : Decidable (Tri.Ordered t) := by unfold Tri.Ordered; infer_instance
instance (t : Tri ℚ) : Decidable (Tri.Dated t) := by unfold Tri.Dated; infer_instance
instance (t : Tri ℚ) : Decidable (Tri.DevSorted t) := by unfold Tri.DevSorted; infer_instance
instance (t : Tri ℚ) : Decidable (Tri.Finite t) := by unfold Tri.Finite; infer_instance
set_option synthInstance.maxSize 4096 in
instance (t : Tri ℚ) : Decidable (Tri.Known t) := by unfold Tri.Known; infer_instance

theorem proper_tri3 (b : Option Bool) : Tri.Proper (tri3 b cum3) := by
  refine proper_of ?_ ?_ ?_ ?_ ?_ ?_ ?_
  · exact ⟨rfl, rfl, rfl, rfl⟩
  all_goals first | decide | (revert b; decide)

end Ex
end CL
