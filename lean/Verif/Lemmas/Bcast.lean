import Verif.Lemmas.Arith

set_option linter.unusedSectionVars false

/-! # Arithmetic with an operand that broadcasts to the shape of the other -/

namespace CL
namespace Arr
variable {K : Type}

/-- Every dimension of `b` is that of `a` or one. -/
def Fits (b a : Arr K) : Prop :=
  (b.d0 = a.d0 ∨ b.d0 = 1) ∧ (b.d1 = a.d1 ∨ b.d1 = 1) ∧ (b.d2 = a.d2 ∨ b.d2 = 1) ∧
    (b.d3 = a.d3 ∨ b.d3 = 1)

theorem bdim_fits {m n : Nat} (h : n = m ∨ n = 1) : bdim m n = some m := by
  unfold bdim
  rcases h with h | h
  · rw [if_pos h.symm]
  · split_ifs with h1 h2
    · rfl
    · subst h h2; rfl
    · rfl

theorem zip_fits (f : Num K → Num K → Num K) {a b : Arr K} (h : Fits b a) :
    zip f a b = .ok { a with
      get := fun i c o d => f (a.get i c o d)
        (b.get (bix b.d0 a.d0 i) (bix b.d1 a.d1 c) (bix b.d2 a.d2 o) (bix b.d3 a.d3 d)) } := by
  obtain ⟨h0, h1, h2, h3⟩ := h
  unfold zip
  simp only [bdim_fits h0, bdim_fits h1, bdim_fits h2, bdim_fits h3, bix_self]

end Arr

namespace Tri
variable {K : Type} [Field K] [LinearOrder K] [IsStrictOrderedRing K]

/-- `y` can be combined with `x` without changing the axes of `x`: each axis of `y` is that of `x`
or has length one. -/
structure FitsIn (y x : Tri K) : Prop where
  wx : WF x
  wy : WF y
  ograin : x.ograin = y.ograin
  dgrain : x.dgrain = y.dgrain ∨ min x.values.d3 y.values.d3 ≤ 1
  keyLabels : x.keyLabels = y.keyLabels
  kdims : y.kdims = x.kdims ∨ (y.kdims.length = 1 ∧ 1 ≤ x.kdims.length)
  vdims : y.vdims = x.vdims ∨ (y.vdims.length = 1 ∧ 1 ≤ x.vdims.length)
  odims : y.odims = x.odims ∨ (y.odims.length = 1 ∧ 1 ≤ x.odims.length)
  ddims : (y.ddims = x.ddims ∧ y.isVal = x.isVal) ∨ (y.ddims.length = 1 ∧ 1 ≤ x.ddims.length)

theorem FitsIn.fits {x y : Tri K} (h : FitsIn y x) : Arr.Fits y.values x.values := by
  obtain ⟨a0, a1, a2, a3⟩ := h.wx
  obtain ⟨b0, b1, b2, b3⟩ := h.wy
  refine ⟨?_, ?_, ?_, ?_⟩
  · rw [a0, b0]; rcases h.kdims with e | e
    · exact Or.inl (by rw [e])
    · exact Or.inr e.1
  · rw [a1, b1]; rcases h.vdims with e | e
    · exact Or.inl (by rw [e])
    · exact Or.inr e.1
  · rw [a2, b2]; rcases h.odims with e | e
    · exact Or.inl (by rw [e])
    · exact Or.inr e.1
  · rw [a3, b3]; rcases h.ddims with e | e
    · exact Or.inl (by rw [e.1])
    · exact Or.inr e.1

private theorem prepColumns_fits {x y : Tri K} (wx : WF x) (wy : WF y)
    (h : y.vdims = x.vdims ∨ (y.vdims.length = 1 ∧ 1 ≤ x.vdims.length)) :
    ∃ vd', prepColumns x y = .ok (x, { y with vdims := vd' }) := by
  unfold prepColumns
  by_cases he : x.vdims = y.vdims
  · have e1 : ¬ (y.vdims.length = 1 ∧ y.vdims.length > 1) := by omega
    have hd : x.values.d1 = y.values.d1 := by rw [wx.2.1, wy.2.1, he]
    simp only [he, e1, if_false, ne_eq, not_true_eq_false, and_false, and_true, hd, if_true]
    exact ⟨y.vdims, rfl⟩
  · rcases h with h | ⟨h1, h2⟩
    · exact absurd h.symm he
    · have e1 : ¬ (x.vdims.length = 1 ∧ y.vdims.length > 1) := by omega
      rw [if_neg e1]
      by_cases hx : x.vdims.length > 1
      · rw [if_pos ⟨h1, hx⟩]; exact ⟨_, rfl⟩
      · have e2 : ¬ (y.vdims.length = 1 ∧ x.vdims.length > 1) := by omega
        rw [if_neg e2, if_pos ⟨h1, by omega, he⟩]; exact ⟨_, rfl⟩

private theorem broadcastable_fits {x y : Tri K} (wx : WF x) (wy : WF y)
    (ho : y.odims = x.odims ∨ (y.odims.length = 1 ∧ 1 ≤ x.odims.length))
    (hd : (y.ddims = x.ddims ∧ y.isVal = x.isVal) ∨ (y.ddims.length = 1 ∧ 1 ≤ x.ddims.length)) :
    broadcastable x y = true := by
  have b2 : y.values.d2 = x.values.d2 ∨ y.values.d2 = 1 := by
    rw [wx.2.2.1, wy.2.2.1]
    rcases ho with e | e
    · exact Or.inl (by rw [e])
    · exact Or.inr e.1
  have b3 : y.values.d3 = x.values.d3 ∨ y.values.d3 = 1 := by
    rw [wx.2.2.2, wy.2.2.2]
    rcases hd with e | e
    · exact Or.inl (by rw [e.1])
    · exact Or.inr e.1
  have hb0 : ((x.values.d3 == y.values.d3 || x.values.d3 == 1 || y.values.d3 == 1) &&
      (x.values.d2 == y.values.d2 || x.values.d2 == 1 || y.values.d2 == 1)) = true := by
    rcases b2 with e | e <;> rcases b3 with e' | e' <;> simp [e, e']
  unfold broadcastable
  simp only [hb0, Bool.true_and]
  split_ifs with hl
  · have h1 : ((x.isVal != y.isVal || allDiffer x.ddims y.ddims) && decide (x.ddims.length > 1)) =
        false := by
      by_cases hx : x.ddims.length > 1
      · rcases hd with e | e
        · rw [e.1, e.2, allDiffer_self _ hx]; simp
        · omega
      · simp [hx]
    have h2 : (allDiffer x.odims y.odims && decide (x.odims.length > 1)) = false := by
      by_cases hx : x.odims.length > 1
      · rcases ho with e | e
        · rw [e, allDiffer_self _ hx]; simp
        · omega
      · simp [hx]
    rw [h1, h2]; rfl
  · rfl

private theorem prepIndex_fits {x y : Tri K} (hl : x.keyLabels = y.keyLabels)
    (hk : y.kdims = x.kdims ∨ (y.kdims.length = 1 ∧ 1 ≤ x.kdims.length)) :
    ∃ y', prepIndex x y = .ok (x, y') ∧ y'.values = y.values := by
  unfold prepIndex
  have e1 : ¬ (x.kdims.length = 1 ∧ y.kdims.length > 1) := by
    rcases hk with e | e
    · rw [e]; omega
    · omega
  rw [if_neg e1]
  by_cases h2 : x.kdims.length > 1 ∧ y.kdims.length = 1
  · rw [if_pos h2]; exact ⟨_, rfl, rfl⟩
  · rw [if_neg h2, if_neg (by rw [hl]; simp)]
    have hlen : x.kdims.length = y.kdims.length := by
      rcases hk with e | e
      · rw [e]
      · omega
    have hne : ¬ (x.kdims.length > 1 ∧ x.kdims ≠ y.kdims) := by
      rcases hk with e | e
      · rw [e]; simp
      · omega
    have hall : (y.keyLabels.all fun l => y.keyLabels.contains l) = true := by simp
    simp only [hl, hall, Bool.and_self, Bool.not_true, Bool.or_self, if_true, hlen]
    rw [if_neg (by simp), if_neg (by rw [← hlen]; exact hne)]
    exact ⟨_, rfl, rfl⟩

theorem validate_fits {x y : Tri K} (h : FitsIn y x) :
    validate x y = .ok ({ x with isPattern := x.isPattern && y.isPattern, vd := max x.vd y.vd },
      y.values) := by
  obtain ⟨vd', h1⟩ := prepColumns_fits
    (x := ({ x with isPattern := x.isPattern && y.isPattern, vd := max x.vd y.vd } : Tri K))
    (y := { y with isPattern := x.isPattern && y.isPattern }) h.wx h.wy h.vdims
  -- the labels of `y` after `_prep_columns` need not match its array any more
  have hwb : broadcastable ({ x with isPattern := x.isPattern && y.isPattern, vd := max x.vd y.vd } : Tri K)
      { y with isPattern := x.isPattern && y.isPattern, vdims := vd' } = true :=
    broadcastable_fits (x := x) (y := y) h.wx h.wy h.odims h.ddims
  obtain ⟨y2, h2, v2, k2, l2⟩ : ∃ y', prepOriginDev x.values.d0 x.values.d1
      ({ x with isPattern := x.isPattern && y.isPattern, vd := max x.vd y.vd } : Tri K)
      { y with isPattern := x.isPattern && y.isPattern, vdims := vd' } =
      .ok ({ x with isPattern := x.isPattern && y.isPattern, vd := max x.vd y.vd }, y') ∧
      y'.values = y.values ∧ y'.kdims = y.kdims ∧ y'.keyLabels = y.keyLabels := by
    unfold prepOriginDev
    rw [hwb]
    have e1 : ¬ (x.odims.length = 1 ∧ y.odims.length > 1) := by
      rcases h.odims with e | e
      · rw [e]; omega
      · omega
    have e2 : ¬ (x.ddims.length = 1 ∧ y.ddims.length > 1) := by
      rcases h.ddims with e | e
      · rw [e.1]; omega
      · omega
    simp only [relabelOnes, if_true]
    split_ifs <;> exact ⟨_, rfl, rfl, rfl, rfl⟩
  obtain ⟨y3, h3, v3⟩ := prepIndex_fits
    (x := ({ x with isPattern := x.isPattern && y.isPattern, vd := max x.vd y.vd } : Tri K)) (y := y2)
    (by rw [l2]; exact h.keyLabels) (by rw [k2]; exact h.kdims)
  unfold validate
  have e1 : ¬ (x.ograin ≠ y.ograin ∨ (x.dgrain ≠ y.dgrain ∧ min x.values.d3 y.values.d3 > 1)) := by
    rintro (g | g)
    · exact g h.ograin
    · rcases h.dgrain with e | e
      · exact g.1 e
      · omega
  simp only [e1, if_false, h1, h2, h3, v3, v2, bind, Except.bind]

/-- The cell of `y` used with cell `i c o d` of `x`. -/
def bcell (y x : Arr K) (i c o d : Nat) : Num K :=
  y.get (Arr.bix y.d0 x.d0 i) (Arr.bix y.d1 x.d1 c) (Arr.bix y.d2 x.d2 o) (Arr.bix y.d3 x.d3 d)

/-- The result of an operation with an operand that fits. -/
def zipped (f : Num K → Num K → Num K) (x y : Tri K) : Tri K :=
  { x with
    isPattern := x.isPattern && y.isPattern
    vd := max x.vd y.vd
    values := { x.values with
      get := fun i c o d => f (x.values.get i c o d) (bcell y.values x.values i c o d) } }

theorem mul_fits {x y : Tri K} (h : FitsIn y x) : x.mul y = .ok (zipped (· * ·) x y) := by
  unfold mul
  simp only [validate_fits h, bind, Except.bind, mulArr, zipArr]
  rw [Arr.zip_fits _ h.fits]
  rfl

theorem div_fits {x y : Tri K} (h : FitsIn y x) : x.div y = .ok (zipped (· / ·) x y) := by
  unfold div
  simp only [validate_fits h, bind, Except.bind, divArr, zipArr]
  rw [Arr.zip_fits _ h.fits]
  rfl

theorem add_fits {x y : Tri K} (h : FitsIn y x) :
    x.add y = .ok (zipped (fun a b => a.nanToNum + b.nanToNum) x y).cleanup := by
  unfold add
  simp only [validate_fits h, bind, Except.bind, addArr, zipArr]
  rw [Arr.zip_fits _ h.fits]
  rfl

theorem sub_fits {x y : Tri K} (h : FitsIn y x) :
    x.sub y = .ok (zipped (fun a b => a.nanToNum - b.nanToNum) x y).cleanup := by
  unfold sub
  simp only [validate_fits h, bind, Except.bind, subArr, zipArr]
  rw [Arr.zip_fits _ h.fits]
  rfl

theorem SameAxes.fitsIn {x y : Tri K} (h : SameAxes x y) (wx : WF x) (wy : WF y) : FitsIn y x := by
  obtain ⟨a, b, c, d, e, f, g, i⟩ := h
  exact ⟨wx, wy, g, Or.inl i, b, Or.inl a.symm, Or.inl c.symm, Or.inl d.symm,
    Or.inl ⟨e.symm, f.symm⟩⟩

end Tri
end CL
