import Verif.Lemmas.Arith
import Verif.Spec.Examples

set_option linter.unusedSectionVars false

/-! # C10: comparison operators -/

namespace CL
namespace Tri
variable {K : Type} [Field K] [LinearOrder K] [IsStrictOrderedRing K]

private theorem ofBool_eq_true (b : Bool) : ((Num.ofBool b : Num K) == Num.ofBool true) = b := by
  cases b
  · have : (Num.fin (0 : K)) ≠ Num.fin 1 := by
      intro h; rw [Num.fin_inj] at h; exact zero_ne_one h
    simp [Num.ofBool, this]
  · simp [Num.ofBool]

private theorem eqb_fin (a b : K) : (Num.fin a).eqb (Num.fin b) = decide (a = b) := rfl

/-- **C10, `==`** on a common shape is equality of all amounts (a missing cell and a zero cell being
the same amount). -/
theorem C10_eq {x y : Tri K} (hs : Arr.SameShape x.values y.values) (fx : Finite x)
    (fy : Finite y) : ∃ b, x.eq y = .ok b ∧ (b = true ↔ SameAmounts x.values y.values) := by
  unfold eq
  rw [Arr.zip_same _ hs]
  refine ⟨_, rfl, ?_⟩
  obtain ⟨s0, s1, s2, s3⟩ := hs
  simp only [List.all_eq_true, List.mem_range, ofBool_eq_true]
  constructor
  · intro h
    refine ⟨⟨s0, s1, s2, s3⟩, ?_⟩
    intro i hi c hc o ho d hd
    have := h i (by omega) c (by omega) o (by omega) d (by omega)
    rw [Num.nanToNum_eq (fx i (by omega) c (by omega) o (by omega) d (by omega)),
      Num.nanToNum_eq (fy i hi c hc o ho d hd), eqb_fin] at this
    simpa using this
  · rintro ⟨-, h⟩ i hi c hc o ho d hd
    rw [Num.nanToNum_eq (fx i hi c hc o ho d hd),
      Num.nanToNum_eq (fy i (by omega) c (by omega) o (by omega) d (by omega)), eqb_fin,
      h i (by omega) c (by omega) o (by omega) d (by omega)]
    simp

/-- **C10, `==` is an equivalence** on the triangles of one shape. -/
theorem C10_equivalence_partial {x y z : Tri K} (h1 : Arr.SameShape x.values y.values)
    (h2 : Arr.SameShape y.values z.values) (fx : Finite x) (fy : Finite y) (fz : Finite z) :
    x.eq x = .ok true ∧ (x.eq y = .ok true → y.eq x = .ok true) ∧
      (x.eq y = .ok true → y.eq z = .ok true → x.eq z = .ok true) := by
  have h1' : Arr.SameShape y.values x.values :=
    ⟨h1.1.symm, h1.2.1.symm, h1.2.2.1.symm, h1.2.2.2.symm⟩
  have h3 : Arr.SameShape x.values z.values :=
    ⟨h1.1.trans h2.1, h1.2.1.trans h2.2.1, h1.2.2.1.trans h2.2.2.1, h1.2.2.2.trans h2.2.2.2⟩
  obtain ⟨bxx, exx, ixx⟩ := C10_eq (x := x) (y := x) ⟨rfl, rfl, rfl, rfl⟩ fx fx
  obtain ⟨bxy, exy, ixy⟩ := C10_eq h1 fx fy
  obtain ⟨byx, eyx, iyx⟩ := C10_eq h1' fy fx
  obtain ⟨byz, eyz, iyz⟩ := C10_eq h2 fy fz
  obtain ⟨bxz, exz, ixz⟩ := C10_eq h3 fx fz
  rw [exx, exy, eyx, eyz, exz]
  simp only [Except.ok.injEq, ixx, ixy, iyx, iyz, ixz]
  obtain ⟨s0, s1, s2, s3⟩ := h1
  obtain ⟨t0, t1, t2, t3⟩ := h2
  refine ⟨⟨⟨rfl, rfl, rfl, rfl⟩, by simp⟩, ?_, ?_⟩
  · rintro ⟨-, h⟩
    exact ⟨h1', fun i hi c hc o ho d hd =>
      (h i (by omega) c (by omega) o (by omega) d (by omega)).symm⟩
  · rintro ⟨-, h⟩ ⟨-, h'⟩
    exact ⟨h3, fun i hi c hc o ho d hd =>
      (h i (by omega) c (by omega) o (by omega) d (by omega)).trans (h' i hi c hc o ho d hd)⟩

example : (Ex.tri3 (some true) Ex.cum3).eq (Ex.tri3 (some true) fun o d =>
    if o + d < 3 then Ex.cum3 o d else .fin 0) = .ok true := by
  obtain ⟨b, e, h⟩ := C10_eq (x := Ex.tri3 (some true) Ex.cum3) (y := Ex.tri3 (some true) fun o d =>
    if o + d < 3 then Ex.cum3 o d else .fin 0) ⟨rfl, rfl, rfl, rfl⟩ (by decide) (by decide)
  rw [e, h.2 ⟨⟨rfl, rfl, rfl, rfl⟩, by decide⟩]

/-- A triangle of the given number of origins, holding 5 everywhere. -/
def C10_fives (n : Nat) : Tri ℚ :=
  { Ex.tri1 (some true) (fun _ _ => .fin 5) with
    odims := (List.range n).map fun k => 24264 + 12 * (k : Int)
    values := ⟨1, 1, n, 3, fun _ _ _ _ => .fin 5⟩ }

/-- **C10 is false across shapes**: `==` broadcasts, so it is not transitive (two triangles with 2
and with 3 origins both equal the one with a single origin, but comparing them raises). -/
theorem C10_not_transitive_false :
    ∃ x y z : Tri ℚ, x.eq y = .ok true ∧ y.eq z = .ok true ∧ x.eq z = .error .valueError :=
  ⟨C10_fives 2, C10_fives 1, C10_fives 3, by decide +kernel, by decide +kernel, by decide +kernel⟩

/-- **C10, `<`** marks exactly the cells whose amount is below the threshold. -/
theorem C10_lt {x : Tri K} (fx : Finite x) (v : K) :
    Arr.SameShape (x.lt (.fin v)).values x.values ∧
    ∀ i < x.values.d0, ∀ c < x.values.d1, ∀ o < x.values.d2, ∀ d < x.values.d3,
      ((x.lt (.fin v)).values.get i c o d = .fin 1 ↔ (x.values.get i c o d).amt < v) ∧
      ((x.lt (.fin v)).values.get i c o d = .fin 0 ↔ ¬ (x.values.get i c o d).amt < v) := by
  refine ⟨⟨rfl, rfl, rfl, rfl⟩, ?_⟩
  intro i hi c hc o ho d hd
  have : (x.lt (.fin v)).values.get i c o d =
      Num.ofBool (decide ((x.values.get i c o d).amt < v)) := by
    show Num.ofBool ((x.values.get i c o d).nanToNum.ltb (Num.fin v).nanToNum) = _
    rw [Num.nanToNum_eq (fx i hi c hc o ho d hd)]; rfl
  rw [this]
  by_cases h : (x.values.get i c o d).amt < v <;> simp [Num.ofBool, h]

example : (((Ex.tri3 (some true) Ex.cum3).lt (.fin 150)).values.get 0 0 0 0) = .fin 1 ∧
    (((Ex.tri3 (some true) Ex.cum3).lt (.fin 150)).values.get 0 0 0 1) = .fin 0 := by
  have h := (C10_lt (Ex.proper_tri3 (some true)).finite (150 : ℚ)).2 0 (by decide) 0 (by decide) 0
    (by decide)
  exact ⟨(h 0 (by decide)).1.2 (by decide +kernel), (h 1 (by decide)).2.2 (by decide +kernel)⟩

/-- **C10, `<=`** (partial): right wherever the amount differs from the threshold. -/
theorem C10_le_partial {x : Tri K} (fx : Finite x) (v : K) :
    ∀ i < x.values.d0, ∀ c < x.values.d1, ∀ o < x.values.d2, ∀ d < x.values.d3,
      (x.values.get i c o d).amt ≠ v →
      ((x.le (.fin v)).values.get i c o d = .fin 1 ↔ (x.values.get i c o d).amt ≤ v) := by
  intro i hi c hc o ho d hd hne
  have := ((C10_lt fx v).2 i hi c hc o ho d hd).1
  rw [show x.le (.fin v) = x.lt (.fin v) from rfl, this]
  exact ⟨le_of_lt, fun h => lt_of_le_of_ne h hne⟩

/-- **C10 is false for `<=`**: no cell equal to the threshold is ever marked. -/
theorem C10_le_false {x : Tri K} (fx : Finite x) (v : K) {i c o d : Nat} (hi : i < x.values.d0)
    (hc : c < x.values.d1) (ho : o < x.values.d2) (hd : d < x.values.d3)
    (h : (x.values.get i c o d).amt = v) : (x.le (.fin v)).values.get i c o d = .fin 0 := by
  have := ((C10_lt fx v).2 i hi c hc o ho d hd).2
  rw [show x.le (.fin v) = x.lt (.fin v) from rfl, this, h]
  exact lt_irrefl v

example : ((Ex.tri3 (some true) Ex.cum3).le (.fin 150)).values.get 0 0 0 1 = .fin 0 :=
  C10_le_false (Ex.proper_tri3 (some true)).finite 150 (by decide) (by decide) (by decide)
    (by decide) rfl

end Tri
end CL
