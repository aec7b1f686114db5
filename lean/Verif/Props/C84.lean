import Verif.Model.Elementwise
import Verif.Lemmas.Mack
import Verif.Lemmas.Munich
import Verif.Lemmas.TailStats
import Verif.Props.C83

set_option linter.unusedSectionVars false

/-! # C84: exponential, logarithm, square root and powers -/

namespace CL
namespace Tri

/-- **C84 (exp of log).**  `x.log().exp()` has the amounts of a triangle without negative amounts, the same labels, and a number
exactly where there was one. -/
theorem C84_exp_log {x : Tri ℝ} (hx : Regular x) (px : NonNeg x) :
    SameAxes x.npLog.npExp x ∧ x.npLog.npExp.vd = x.vd ∧ SameAmounts x.npLog.npExp.values x.values ∧
      SameMissing x x.npLog.npExp := by
  have cell : ∀ i < x.values.d0, ∀ c < x.values.d1, ∀ o < x.values.d2, ∀ d < x.values.d3,
      x.npLog.npExp.values.get i c o d = x.values.get i c o d := by
    intro i hi c hc o ho d hd
    have p := px i hi c hc o ho d hd
    show Tail.exp (Tail.log (x.values.get i c o d)) = _
    rcases Num.noInf_cases (hx.finite i hi c hc o ho d hd) with e | ⟨a, e⟩
    · rw [e]; rfl
    · rw [e] at p ⊢
      have p' : 0 ≤ a := p
      rcases eq_or_lt_of_le p' with h | h
      · subst h
        simp [Tail.log, Tail.exp, Num.zero_def]
      · rw [Tail.log_pos h]
        show Num.fin (Real.exp (Real.log a)) = _
        rw [Real.exp_log h]
  refine ⟨sameAxes_refl x, rfl, ⟨⟨rfl, rfl, rfl, rfl⟩, ?_⟩, ?_⟩
  · intro i hi c hc o ho d hd
    rw [cell i hi c hc o ho d hd]
  · intro i hi c hc o ho d hd
    rw [cell i hi c hc o ho d hd]

/-- **C84 (log of exp).**  `x.exp().log()` has every cell of the triangle. -/
theorem C84_log_exp {x : Tri ℝ} (hx : Regular x) :
    SameAxes x.npExp.npLog x ∧ x.npExp.npLog.vd = x.vd ∧
    ∀ i < x.values.d0, ∀ c < x.values.d1, ∀ o < x.values.d2, ∀ d < x.values.d3,
      x.npExp.npLog.values.get i c o d = x.values.get i c o d := by
  refine ⟨sameAxes_refl x, rfl, ?_⟩
  intro i hi c hc o ho d hd
  show Tail.log (Tail.exp (x.values.get i c o d)) = _
  rcases Num.noInf_cases (hx.finite i hi c hc o ho d hd) with e | ⟨a, e⟩
  · rw [e]; rfl
  · rw [e]
    show Tail.log (.fin (Real.exp a)) = _
    rw [Tail.log_pos (Real.exp_pos a), Real.log_exp]

/-- **C84 (square root).**  The square of `x.sqrt()` has the amounts of a triangle without negative amounts. -/
theorem C84_sqrt {x : Tri ℝ} (hx : Regular x) (px : NonNeg x) :
    SameAxes (x.npSqrt.pow 2) x ∧ SameAmounts (x.npSqrt.pow 2).values x.values := by
  refine ⟨sameAxes_refl x, ⟨⟨rfl, rfl, rfl, rfl⟩, ?_⟩⟩
  intro i hi c hc o ho d hd
  have p := px i hi c hc o ho d hd
  show ((Tail.sqrt (x.values.get i c o d)).nanToNum.npow 2).amt = _
  rcases Num.noInf_cases (hx.finite i hi c hc o ho d hd) with e | ⟨a, e⟩
  · rw [e]
    show ((Num.fin (0 : ℝ)).npow 2).amt = 0
    rw [Num.npow_two]
    simp
  · rw [e] at p ⊢
    have p' : 0 ≤ a := p
    rw [Munich.sqrt_fin p']
    show ((Num.fin (Real.sqrt a)).npow 2).amt = a
    rw [Num.npow_two]
    show _ = a
    have := Real.mul_self_sqrt p'
    simpa [pow_two] using this

theorem mul_same {x y : Tri ℝ} (h : SameAxes x y) (wx : WF x) (wy : WF y) :
    x.mul y = .ok { x with
      isPattern := x.isPattern && y.isPattern, vd := max x.vd y.vd
      values := { x.values with get := fun i c o d => (x.values.get i c o d * y.values.get i c o d) } } := by
  have hs := h.shape wx wy
  simp only [mul, validate_same h wx wy, bind, Except.bind, mulArr, zipArr]
  rw [Arr.zip_same _ (by exact hs)]

/-- Every number is positive. -/
def Positive (x : Tri ℝ) : Prop :=
  ∀ i < x.values.d0, ∀ c < x.values.d1, ∀ o < x.values.d2, ∀ d < x.values.d3, ∀ a,
    x.values.get i c o d = .fin a → 0 < a

theorem regular_log {x : Tri ℝ} (hx : Regular x) (px : Positive x) : Regular x.npLog := by
  refine regular_cells hx _ ?_
  intro i hi c hc o ho d hd
  rcases Num.noInf_cases (hx.finite i hi c hc o ho d hd) with e | ⟨a, e⟩
  · rw [e]; exact ⟨trivial, fun _ => rfl⟩
  · rw [e, Tail.log_pos (px i hi c hc o ho d hd a e)]
    exact ⟨trivial, fun h => by simp at h⟩

/-- **C84 (log of a product), partial: the same cells are missing.**  For positive numbers, the logarithm of `x * y` has the amounts
of the sum of the logarithms. -/
theorem C84_log_mul_partial {x y : Tri ℝ} (h : SameAxes x y) (hx : Regular x) (hy : Regular y) (px : Positive x)
    (py : Positive y) (hm : SameMissing x y) :
    ∃ p s, x.mul y = .ok p ∧ x.npLog.add y.npLog = .ok s ∧ SameAxes p.npLog s ∧ p.vd = s.vd ∧
      SameAmounts p.npLog.values s.values := by
  obtain ⟨s0, s1, s2, s3⟩ := h.shape hx.wf hy.wf
  obtain ⟨s, es, as, vs, ⟨r0, r1, r2, r3⟩, -, cs⟩ :=
    C09_add (x := x.npLog) (y := y.npLog) h (regular_log hx px) (regular_log hy py)
  refine ⟨_, s, mul_same h hx.wf hy.wf, es, ?_, vs.symm, ⟨⟨r0.symm, r1.symm, r2.symm, r3.symm⟩, ?_⟩⟩
  · exact SameAxes.trans (y := x.npLog) ⟨rfl, rfl, rfl, rfl, rfl, rfl, rfl, rfl⟩ as.symm
  · intro i hi c hc o ho d hd
    have hi' : i < x.values.d0 := hi.trans_eq r0
    have hc' : c < x.values.d1 := hc.trans_eq r1
    have ho' : o < x.values.d2 := ho.trans_eq r2
    have hd' : d < x.values.d3 := hd.trans_eq r3
    rw [cs i hi' c hc' o ho' d hd']
    show (Tail.log (x.values.get i c o d * y.values.get i c o d)).amt =
      (Tail.log (x.values.get i c o d)).amt + (Tail.log (y.values.get i c o d)).amt
    have m := hm i hi' c hc' o ho' d hd'
    rcases Num.noInf_cases (hx.finite i hi' c hc' o ho' d hd') with e | ⟨a, e⟩
    · rw [m.mp e, e]
      show (0 : ℝ) = 0 + 0
      simp
    · rcases Num.noInf_cases (hy.finite i (by omega) c (by omega) o (by omega) d (by omega)) with e' | ⟨b, e'⟩
      · rw [m.mpr e'] at e; simp at e
      · have ha := px i hi' c hc' o ho' d hd' a e
        have hb := py i (by omega) c (by omega) o (by omega) d (by omega) b e'
        rw [e, e', Num.fin_mul_fin, Tail.log_pos ha, Tail.log_pos hb, Tail.log_pos (mul_pos ha hb)]
        exact Real.log_mul ha.ne' hb.ne'

/-- **C84 (log of a product) is false where only one amount is missing**: the logarithm of `x * y` is missing there, the sum of the
logarithms has the one that is known. -/
theorem C84_log_mul_false {x y : Tri ℝ} (h : SameAxes x y) (hx : Regular x) (hy : Regular y) (px : Positive x)
    (py : Positive y) {i c o d : Nat} (hi : i < x.values.d0) (hc : c < x.values.d1) (ho : o < x.values.d2)
    (hd : d < x.values.d3) (e : x.values.get i c o d = .nan) {b : ℝ} (e' : y.values.get i c o d = .fin b) (hb : b ≠ 1) :
    ∃ p s, x.mul y = .ok p ∧ x.npLog.add y.npLog = .ok s ∧ p.npLog.values.get i c o d = .nan ∧
      (s.values.get i c o d).amt = Real.log b ∧ Real.log b ≠ 0 := by
  obtain ⟨s0, s1, s2, s3⟩ := h.shape hx.wf hy.wf
  obtain ⟨s, es, -, -, -, -, cs⟩ :=
    C09_add (x := x.npLog) (y := y.npLog) h (regular_log hx px) (regular_log hy py)
  have p := py i (by omega) c (by omega) o (by omega) d (by omega) b e'
  refine ⟨_, s, mul_same h hx.wf hy.wf, es, ?_, ?_, Real.log_ne_zero_of_pos_of_ne_one p hb⟩
  · show Tail.log (x.values.get i c o d * y.values.get i c o d) = _
    rw [e, e']
    rfl
  · rw [cs i hi c hc o ho d hd]
    show (Tail.log (x.values.get i c o d)).amt + (Tail.log (y.values.get i c o d)).amt = _
    rw [e, e', Tail.log_pos p]
    show (0 : ℝ) + Real.log b = _
    rw [zero_add]

/-- **C84 (square root of a product).**  Without negative amounts, the square root of `x * y` has the amounts of the product of the
square roots, whatever is missing. -/
theorem C84_sqrt_mul {x y : Tri ℝ} (h : SameAxes x y) (hx : Regular x) (hy : Regular y) (px : NonNeg x) (py : NonNeg y) :
    ∃ p s, x.mul y = .ok p ∧ x.npSqrt.mul y.npSqrt = .ok s ∧ SameAxes p.npSqrt s ∧ p.vd = s.vd ∧
      SameAmounts p.npSqrt.values s.values := by
  obtain ⟨s0, s1, s2, s3⟩ := h.shape hx.wf hy.wf
  refine ⟨_, _, mul_same h hx.wf hy.wf, mul_same (x := x.npSqrt) (y := y.npSqrt) h hx.wf hy.wf,
    ⟨rfl, rfl, rfl, rfl, rfl, rfl, rfl, rfl⟩, rfl, ⟨⟨rfl, rfl, rfl, rfl⟩, ?_⟩⟩
  intro i hi c hc o ho d hd
  have hi' : i < x.values.d0 := hi
  have hc' : c < x.values.d1 := hc
  have ho' : o < x.values.d2 := ho
  have hd' : d < x.values.d3 := hd
  have p := px i hi' c hc' o ho' d hd'
  have q := py i (by omega) c (by omega) o (by omega) d (by omega)
  show (Tail.sqrt (x.values.get i c o d * y.values.get i c o d)).amt =
    (Tail.sqrt (x.values.get i c o d) * Tail.sqrt (y.values.get i c o d)).amt
  rcases Num.noInf_cases (hx.finite i hi' c hc' o ho' d hd') with e | ⟨a, e⟩
  · rw [e]; rfl
  · rcases Num.noInf_cases (hy.finite i (by omega) c (by omega) o (by omega) d (by omega)) with e' | ⟨b, e'⟩
    · rw [e, e']
      rw [e] at p
      have p' : 0 ≤ a := p
      rw [Munich.sqrt_fin p']
      rfl
    · rw [e] at p ⊢
      rw [e'] at q ⊢
      have p' : 0 ≤ a := p
      have q' : 0 ≤ b := q
      rw [Num.fin_mul_fin, Munich.sqrt_fin p', Munich.sqrt_fin q', Munich.sqrt_fin (mul_nonneg p' q'), Num.fin_mul_fin,
        Real.sqrt_mul p']

/-- **C84 (square root of a square)**: the absolute amounts. -/
theorem C84_sqrt_pow {x : Tri ℝ} (hx : Regular x) :
    SameAxes (x.pow 2).npSqrt x ∧ EachAmount (fun a => |a|) x (x.pow 2).npSqrt := by
  refine ⟨sameAxes_refl x, ?_⟩
  intro i hi c hc o ho d hd
  show (Tail.sqrt ((x.values.get i c o d).nanToNum.npow 2)).amt = |(x.values.get i c o d).amt|
  rw [Num.nanToNum_eq (hx.finite i hi c hc o ho d hd), Num.npow_two, Munich.sqrt_fin (sq_nonneg _)]
  exact Real.sqrt_sq_eq_abs _

/-- **C84 (powers).**  The amounts of `x ** n` are the powers of the amounts. -/
theorem C84_pow {K : Type} [Field K] [LinearOrder K] [IsStrictOrderedRing K] {x : Tri K} (hx : Regular x)
    (n : Nat) : SameAxes (x.pow n) x ∧ EachAmount (· ^ n) x (x.pow n) := by
  have fin : ∀ (a : K) (m : Nat), (Num.fin a).npow m = .fin (a ^ m) := by
    intro a m
    induction m with
    | zero => simp [Num.npow]
    | succ m ih => simp [Num.npow, ih, pow_succ]
  refine ⟨sameAxes_refl x, ?_⟩
  intro i hi c hc o ho d hd
  show ((x.values.get i c o d).nanToNum.npow n).amt = (x.values.get i c o d).amt ^ n
  rw [Num.nanToNum_eq (hx.finite i hi c hc o ho d hd), fin]
  rfl

/-- **C84 is false of future cells under powers**: `x ** n` has a number in every cell, also after the valuation date, where nothing
is known. -/
theorem C84_pow_false {x : Tri ℝ} (hx : Regular x) (n : Nat) {o d : Nat} (h0 : 0 < x.values.d0) (h1 : 0 < x.values.d1)
    (ho : o < x.values.d2) (hd : d < x.values.d3) (hv : x.valuation o d > x.vd) :
    x.values.get 0 0 o d = .nan ∧ (x.pow n).values.get 0 0 o d = .fin (0 ^ n) := by
  have e := hx.known 0 h0 0 h1 o ho d hd hv
  refine ⟨e, ?_⟩
  show (x.values.get 0 0 o d).nanToNum.npow n = _
  rw [e]
  show (Num.fin (0 : ℝ)).npow n = _
  induction n with
  | zero => simp [Num.npow]
  | succ m ih => simp [Num.npow, ih, pow_succ]

/-- One known amount and one cell in the future. -/
private noncomputable def corner : Tri ℝ where
  kdims := [["Total"]]
  keyLabels := ["Total"]
  vdims := ["values"]
  odims := [24240, 24252]
  ddims := [12, 24]
  isVal := false
  ograin := .Y
  dgrain := .Y
  vd := 24263
  isCum := some true
  isPattern := false
  isAdditive := none
  values := ⟨1, 1, 2, 2, fun _ _ o d => if o = 1 ∧ d = 1 then .nan else if o = 0 ∧ d = 0 then .nan else .fin 2⟩

/-- **C84 is false of `exp` and zeros**: an amount of zero is stored as missing, and its exponential is missing instead of one. -/
theorem C84_exp_false : ∃ x : Tri ℝ, WF x ∧ x.nanTri 0 0 = 1 ∧ (x.values.get 0 0 0 0).amt = 0 ∧
    (x.npExp.values.get 0 0 0 0).amt ≠ Real.exp 0 := by
  refine ⟨corner, ⟨rfl, rfl, rfl, rfl⟩, ?_, ?_, ?_⟩
  · simp [corner, nanTri, valuation, valuationOf]
  · simp [corner]
  · show (Tail.exp (corner.values.get 0 0 0 0)).amt ≠ _
    simp [corner, Tail.exp]

/-- The hypotheses hold of a triangle with a missing amount and a cell in the future. -/
example : Regular corner ∧ NonNeg corner ∧ Positive corner ∧ SameMissing corner corner ∧
    corner.valuation 1 1 > corner.vd := by
  have cell : ∀ i c o d, corner.values.get i c o d = .nan ∨ corner.values.get i c o d = .fin 2 := by
    intro i c o d
    simp only [corner]
    split_ifs <;> simp
  refine ⟨⟨⟨rfl, rfl, rfl, rfl⟩, ?_, ?_, ?_⟩, ?_, ?_, ?_, ?_⟩
  · simp [Ordered, corner]
  · intro i _ c _ o _ d _
    rcases cell i c o d with e | e <;> rw [e] <;> trivial
  · intro i _ c _ o ho d hd hv
    have ho' : o < 2 := ho
    have hd' : d < 2 := hd
    interval_cases o <;> interval_cases d <;> simp_all [corner, valuation, valuationOf]
  · intro i _ c _ o _ d _
    rcases cell i c o d with e | e <;> rw [e] <;> simp
  · intro i _ c _ o _ d _ a ha
    rcases cell i c o d with e | e
    · rw [e] at ha; simp at ha
    · rw [e] at ha
      have : (2 : ℝ) = a := by simpa using ha
      rw [← this]; norm_num
  · intro i _ c _ o _ d _
    exact Iff.rfl
  · simp [corner, valuation, valuationOf]

end Tri
end CL
