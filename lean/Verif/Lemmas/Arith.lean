import Verif.Lemmas.Convert

set_option linter.unusedSectionVars false

namespace CL
namespace Tri
variable {K : Type} [Field K] [LinearOrder K] [IsStrictOrderedRing K]

/-- Identical labels and grains on all four axes. -/
def SameAxes (x y : Tri K) : Prop :=
  x.kdims = y.kdims ∧ x.keyLabels = y.keyLabels ∧ x.vdims = y.vdims ∧ x.odims = y.odims ∧
  x.ddims = y.ddims ∧ x.isVal = y.isVal ∧ x.ograin = y.ograin ∧ x.dgrain = y.dgrain

theorem SameAxes.symm {x y : Tri K} (h : SameAxes x y) : SameAxes y x := by
  obtain ⟨a, b, c, d, e, f, g, i⟩ := h
  exact ⟨a.symm, b.symm, c.symm, d.symm, e.symm, f.symm, g.symm, i.symm⟩

theorem SameAxes.trans {x y z : Tri K} (h : SameAxes x y) (h' : SameAxes y z) : SameAxes x z := by
  obtain ⟨a, b, c, d, e, f, g, i⟩ := h
  obtain ⟨a', b', c', d', e', f', g', i'⟩ := h'
  exact ⟨a.trans a', b.trans b', c.trans c', d.trans d', e.trans e', f.trans f', g.trans g',
    i.trans i'⟩

theorem allDiffer_self (l : List Int) (h : l.length > 1) : allDiffer l l = false := by
  cases l with
  | nil => simp at h
  | cons a l => simp [allDiffer]

theorem SameAxes.shape {x y : Tri K} (h : SameAxes x y) (wx : WF x) (wy : WF y) :
    Arr.SameShape x.values y.values := by
  obtain ⟨a, b, c, d, e, f, g, i⟩ := h
  obtain ⟨a0, a1, a2, a3⟩ := wx
  obtain ⟨b0, b1, b2, b3⟩ := wy
  exact ⟨by rw [a0, b0, a], by rw [a1, b1, c], by rw [a2, b2, d], by rw [a3, b3, e]⟩

theorem SameAxes.valuationOf {x y : Tri K} (h : SameAxes x y) (v : Int) (o d : Nat) :
    Tri.valuationOf x.isVal x.odims x.ddims v o d =
      Tri.valuationOf y.isVal y.odims y.ddims v o d := by
  obtain ⟨-, -, -, e1, e2, e3, -⟩ := h
  rw [e1, e2, e3]

theorem validate_same {x y : Tri K} (h : SameAxes x y) (wx : WF x) (wy : WF y) :
    validate x y = .ok ({ x with isPattern := x.isPattern && y.isPattern, vd := max x.vd y.vd },
      y.values) := by
  obtain ⟨s0, s1, s2, s3⟩ := h.shape wx wy
  obtain ⟨a, b, c, d, e, f, g, i⟩ := h
  have hc : prepColumns ({ x with isPattern := x.isPattern && y.isPattern, vd := max x.vd y.vd } :
      Tri K) { y with isPattern := x.isPattern && y.isPattern } =
      .ok ({ x with isPattern := x.isPattern && y.isPattern, vd := max x.vd y.vd },
        { y with isPattern := x.isPattern && y.isPattern }) := by
    unfold prepColumns
    have e1 : ¬ (y.vdims.length = 1 ∧ y.vdims.length > 1) := by omega
    simp only [c, e1, if_false, ne_eq, not_true_eq_false, and_false, s1, and_self, if_true]
  have hb : ∀ x' y' : Tri K, x'.values = x.values → y'.values = y.values → x'.odims = x.odims →
      y'.odims = y.odims → x'.ddims = x.ddims → y'.ddims = y.ddims → x'.isVal = x.isVal →
      y'.isVal = y.isVal → broadcastable x' y' = true := by
    intro x' y' h1 h2 h3 h4 h5 h6 h7 h8
    unfold broadcastable
    rw [h1, h2, h3, h4, h5, h6, h7, h8, s2, s3, d, e, f]
    simp only [beq_self_eq_true, Bool.true_or, Bool.and_self, if_true, bne_self_eq_false,
      Bool.false_or, Bool.true_and]
    by_cases l1 : y.ddims.length > 1
    · by_cases l2 : y.odims.length > 1
      · simp [allDiffer_self, l1, l2]
      · simp [allDiffer_self, l1, l2]
    · by_cases l2 : y.odims.length > 1
      · simp [allDiffer_self, l1, l2]
      · simp [l1, l2]
  have ho : prepOriginDev x.values.d0 x.values.d1
      ({ x with isPattern := x.isPattern && y.isPattern, vd := max x.vd y.vd } :
      Tri K) { y with isPattern := x.isPattern && y.isPattern } =
      .ok ({ x with isPattern := x.isPattern && y.isPattern, vd := max x.vd y.vd },
        { y with isPattern := x.isPattern && y.isPattern }) := by
    unfold prepOriginDev
    have hb' := hb ({ x with isPattern := x.isPattern && y.isPattern, vd := max x.vd y.vd } :
      Tri K) { y with isPattern := x.isPattern && y.isPattern } rfl rfl rfl rfl rfl rfl rfl rfl
    rw [hb']
    have e1 : ¬ (y.odims.length = 1 ∧ y.odims.length > 1) := by omega
    have e2 : ¬ (y.ddims.length = 1 ∧ y.ddims.length > 1) := by omega
    simp only [relabelOnes, d, e, e1, e2, if_false, if_true]
  have hi : prepIndex
      ({ x with isPattern := x.isPattern && y.isPattern, vd := max x.vd y.vd } :
      Tri K) { y with isPattern := x.isPattern && y.isPattern } =
      .ok ({ x with isPattern := x.isPattern && y.isPattern, vd := max x.vd y.vd },
        { y with isPattern := x.isPattern && y.isPattern }) := by
    unfold prepIndex
    have e1 : ¬ (y.kdims.length = 1 ∧ y.kdims.length > 1) := by omega
    have e2 : ¬ (y.kdims.length > 1 ∧ y.kdims.length = 1) := by omega
    simp only [a, b, e1, e2, if_false, ne_eq, not_true_eq_false, and_false]
    simp
  unfold validate
  have e1 : ¬ (x.ograin ≠ y.ograin ∨ (x.dgrain ≠ y.dgrain ∧ min x.values.d3 y.values.d3 > 1)) := by
    simp [g, i]
  simp only [e1, if_false, hc, ho, hi, bind, Except.bind]

theorem addArr_same {x : Tri K} {a : Arr K} (h : Arr.SameShape x.values a) :
    x.addArr a = .ok ({ x with values := { x.values with get := fun i c o d =>
      (x.values.get i c o d).nanToNum + (a.get i c o d).nanToNum } } : Tri K).cleanup := by
  simp only [addArr, zipArr, Arr.zip_same _ h, bind, Except.bind]

theorem subArr_same {x : Tri K} {a : Arr K} (h : Arr.SameShape x.values a) :
    x.subArr a = .ok ({ x with values := { x.values with get := fun i c o d =>
      (x.values.get i c o d).nanToNum - (a.get i c o d).nanToNum } } : Tri K).cleanup := by
  simp only [subArr, zipArr, Arr.zip_same _ h, bind, Except.bind]

/-- Cell-wise description of addition on identical axes. -/
theorem add_same {x y : Tri K} (h : SameAxes x y) (wx : WF x) (wy : WF y) :
    x.add y = .ok { x with
      isPattern := x.isPattern && y.isPattern, vd := max x.vd y.vd
      values := { x.values with get := fun i c o d =>
        (((x.values.get i c o d).nanToNum + (y.values.get i c o d).nanToNum) *
          (nanTri { x with vd := max x.vd y.vd } o d).nanToNum).numToNan } } := by
  have hs := h.shape wx wy
  simp only [add, validate_same h wx wy, bind, Except.bind]
  rw [addArr_same (by exact hs)]
  rfl

theorem sub_same {x y : Tri K} (h : SameAxes x y) (wx : WF x) (wy : WF y) :
    x.sub y = .ok { x with
      isPattern := x.isPattern && y.isPattern, vd := max x.vd y.vd
      values := { x.values with get := fun i c o d =>
        (((x.values.get i c o d).nanToNum - (y.values.get i c o d).nanToNum) *
          (nanTri { x with vd := max x.vd y.vd } o d).nanToNum).numToNan } } := by
  have hs := h.shape wx wy
  simp only [sub, validate_same h wx wy, bind, Except.bind]
  rw [subArr_same (by exact hs)]
  rfl

/-- A triangle that went through `_arithmetic_cleanup` has no number after its valuation date,
unless an axis has length one. -/
theorem known_cleanup (t : Tri K) (h : min t.values.d2 t.values.d3 ≠ 1)
    (hf : ∀ i < t.values.d0, ∀ c < t.values.d1, ∀ o < t.values.d2, ∀ d < t.values.d3,
      (t.values.get i c o d).NoInf) : Known t.cleanup := by
  intro i hi c hc o ho d hd hv
  show (t.values.get i c o d * (t.nanTri o d).nanToNum).numToNan = _
  have : t.nanTri o d = .nan := by
    unfold nanTri
    rw [if_neg h, if_pos]
    exact hv
  rw [this]
  have hn := hf i hi c hc o ho d hd
  rcases Num.noInf_cases hn with e | ⟨a, e⟩ <;> rw [e] <;> simp

end Tri
end CL
