import Verif.Lemmas.Bcast

set_option linter.unusedSectionVars false

/-! # Arithmetic between triangles whose axes are equal or of length one, in either direction -/

namespace CL
namespace Tri
variable {K : Type} [Field K] [LinearOrder K] [IsStrictOrderedRing K]

/-- Two axes that are equal, or one of which has length one. -/
def Fit {α : Type} (a b : List α) : Prop :=
  a = b ∨ (b.length = 1 ∧ 1 ≤ a.length) ∨ (a.length = 1 ∧ 1 ≤ b.length)

/-- The labels of the longer axis, the first one if both have the same length. -/
def longer {α : Type} (a b : List α) : List α := if a.length = 1 ∧ b.length > 1 then b else a

theorem Fit.length {α : Type} {a b : List α} (h : Fit a b) :
    a.length = b.length ∨ a.length = 1 ∨ b.length = 1 := by
  rcases h with e | e | e
  · exact Or.inl (by rw [e])
  · exact Or.inr (Or.inr e.1)
  · exact Or.inr (Or.inl e.1)

theorem longer_length {α : Type} {a b : List α} (h : Fit a b) :
    Arr.bdim a.length b.length = some (longer a b).length := by
  unfold Arr.bdim longer
  rcases h with e | e | e
  · rw [e]
    have : ¬ (b.length = 1 ∧ b.length > 1) := by omega
    rw [if_pos rfl, if_neg this]
  · split_ifs with h1 h2 h3 h4 <;> first | rfl | omega
  · split_ifs with h1 h2 h3 h4 <;> first | rfl | omega

/-- `x` and `y` can be combined by broadcasting. -/
structure Compat (x y : Tri K) : Prop where
  wx : WF x
  wy : WF y
  ograin : x.ograin = y.ograin
  dgrain : x.dgrain = y.dgrain ∨ min x.values.d3 y.values.d3 ≤ 1
  keyLabels : x.keyLabels = y.keyLabels
  kdims : Fit x.kdims y.kdims
  vdims : Fit x.vdims y.vdims
  odims : Fit x.odims y.odims
  ddims : Fit x.ddims y.ddims
  isVal : x.ddims.length > 1 → y.ddims.length > 1 → x.isVal = y.isVal

/-- The labels of the result of an operation of `x` with `y`. -/
def mergedLabels (x y : Tri K) : Tri K :=
  { x with
    isPattern := x.isPattern && y.isPattern
    vd := max x.vd y.vd
    kdims := longer x.kdims y.kdims
    vdims := longer x.vdims y.vdims
    odims := longer x.odims y.odims
    ddims := longer x.ddims y.ddims
    isVal := if x.ddims.length = 1 ∧ y.ddims.length > 1 then y.isVal else x.isVal
    dgrain := if x.ddims.length = 1 ∧ y.ddims.length > 1 then y.dgrain else x.dgrain }

private theorem broadcastable_compat {x y : Tri K} (x2 : x.values.d2 = x.odims.length)
    (x3 : x.values.d3 = x.ddims.length) (y2 : y.values.d2 = y.odims.length)
    (y3 : y.values.d3 = y.ddims.length) (ho : Fit x.odims y.odims) (hd : Fit x.ddims y.ddims)
    (hv : x.ddims.length > 1 → y.ddims.length > 1 → x.isVal = y.isVal) :
    broadcastable x y = true := by
  have hb0 : ((x.values.d3 == y.values.d3 || x.values.d3 == 1 || y.values.d3 == 1) &&
      (x.values.d2 == y.values.d2 || x.values.d2 == 1 || y.values.d2 == 1)) = true := by
    rw [x2, x3, y2, y3]
    rcases ho.length with e | e | e <;> rcases hd.length with e' | e' | e' <;> simp [e, e']
  unfold broadcastable
  simp only [hb0, Bool.true_and]
  split_ifs with hl
  · have h1 : ((x.isVal != y.isVal || allDiffer x.ddims y.ddims) && decide (x.ddims.length > 1)) =
        false := by
      by_cases hx : x.ddims.length > 1
      · rcases hd with e | e | e
        · have := hv hx (by rw [← e]; exact hx)
          rw [this, ← e, allDiffer_self _ hx]; simp
        · omega
        · omega
      · simp [hx]
    have h2 : (allDiffer x.odims y.odims && decide (x.odims.length > 1)) = false := by
      by_cases hx : x.odims.length > 1
      · rcases ho with e | e | e
        · rw [← e, allDiffer_self _ hx]; simp
        · omega
        · omega
      · simp [hx]
    rw [h1, h2]; rfl
  · rfl

private theorem prepColumns_compat {x y : Tri K} (h : Compat x y) (p : Bool) (v : Int) :
    ∃ vd', prepColumns ({ x with isPattern := p, vd := v } : Tri K) { y with isPattern := p } =
      .ok ({ x with isPattern := p, vd := v, vdims := longer x.vdims y.vdims },
        { y with isPattern := p, vdims := vd' }) := by
  unfold prepColumns longer
  dsimp only
  by_cases h1 : x.vdims.length = 1 ∧ y.vdims.length > 1
  · rw [if_pos h1, if_pos h1]; exact ⟨_, rfl⟩
  · rw [if_neg h1, if_neg h1]
    by_cases h2 : y.vdims.length = 1 ∧ x.vdims.length > 1
    · rw [if_pos h2]; exact ⟨_, rfl⟩
    · rw [if_neg h2]
      by_cases h3 : y.vdims.length = 1 ∧ x.vdims.length = 1 ∧ x.vdims ≠ y.vdims
      · rw [if_pos h3]; exact ⟨_, rfl⟩
      · rw [if_neg h3]
        have he : x.vdims = y.vdims := by
          rcases h.vdims with e | e | e
          · exact e
          · by_contra hne
            exact h3 ⟨e.1, by omega, hne⟩
          · by_contra hne
            exact h3 ⟨by omega, e.1, hne⟩
        rw [if_pos ⟨by rw [h.wx.2.1, h.wy.2.1, he], he⟩]
        exact ⟨_, rfl⟩

private theorem relabelOnes_eq (x y : Tri K) :
    (relabelOnes x y).1 = { x with
      odims := longer x.odims y.odims
      ograin := if x.odims.length = 1 ∧ y.odims.length > 1 then y.ograin else x.ograin
      ddims := longer x.ddims y.ddims
      isVal := if x.ddims.length = 1 ∧ y.ddims.length > 1 then y.isVal else x.isVal
      dgrain := if x.ddims.length = 1 ∧ y.ddims.length > 1 then y.dgrain else x.dgrain } ∧
    (relabelOnes x y).2.values = y.values ∧ (relabelOnes x y).2.kdims = y.kdims ∧
    (relabelOnes x y).2.keyLabels = y.keyLabels := by
  unfold relabelOnes longer
  by_cases o2 : y.odims.length = 1 ∧ x.odims.length > 1
  · have o1 : ¬ (x.odims.length = 1 ∧ y.odims.length > 1) := by omega
    simp only [if_pos o2, if_neg o1]
    by_cases d2 : y.ddims.length = 1 ∧ x.ddims.length > 1
    · have d1 : ¬ (x.ddims.length = 1 ∧ y.ddims.length > 1) := by omega
      simp only [if_pos d2, if_neg d1, and_self]
    · simp only [if_neg d2]
      by_cases d1 : x.ddims.length = 1 ∧ y.ddims.length > 1
      · simp only [if_pos d1, and_self]
      · simp only [if_neg d1, and_self]
  · simp only [if_neg o2]
    by_cases o1 : x.odims.length = 1 ∧ y.odims.length > 1
    · simp only [if_pos o1]
      by_cases d2 : y.ddims.length = 1 ∧ x.ddims.length > 1
      · have d1 : ¬ (x.ddims.length = 1 ∧ y.ddims.length > 1) := by omega
        simp only [if_pos d2, if_neg d1, and_self]
      · simp only [if_neg d2]
        by_cases d1 : x.ddims.length = 1 ∧ y.ddims.length > 1
        · simp only [if_pos d1, and_self]
        · simp only [if_neg d1, and_self]
    · simp only [if_neg o1]
      by_cases d2 : y.ddims.length = 1 ∧ x.ddims.length > 1
      · have d1 : ¬ (x.ddims.length = 1 ∧ y.ddims.length > 1) := by omega
        simp only [if_pos d2, if_neg d1, and_self]
      · simp only [if_neg d2]
        by_cases d1 : x.ddims.length = 1 ∧ y.ddims.length > 1
        · simp only [if_pos d1, and_self]
        · simp only [if_neg d1, and_self]

private theorem prepIndex_eq {x y : Tri K} (hkl : x.keyLabels = y.keyLabels)
    (hk : Fit x.kdims y.kdims) :
    ∃ y', prepIndex x y = .ok ({ x with kdims := longer x.kdims y.kdims }, y') ∧
      y'.values = y.values := by
  unfold prepIndex longer
  by_cases e1 : x.kdims.length = 1 ∧ y.kdims.length > 1
  · simp only [if_pos e1]
    exact ⟨_, by rw [hkl], rfl⟩
  · simp only [if_neg e1]
    by_cases e2 : x.kdims.length > 1 ∧ y.kdims.length = 1
    · simp only [if_pos e2]; exact ⟨_, rfl, rfl⟩
    · simp only [if_neg e2]
      have e3 : ¬ (x.kdims.length = 1 ∧ y.kdims.length = 1 ∧ x.keyLabels ≠ y.keyLabels) := by
        rw [hkl]; simp
      simp only [if_neg e3]
      have hlen : x.kdims.length = y.kdims.length := by
        rcases hk with e | e | e
        · rw [e]
        · omega
        · omega
      have hne : ¬ (y.kdims.length > 1 ∧ x.kdims ≠ y.kdims) := by
        rcases hk with e | e | e
        · rw [e]; simp
        · omega
        · omega
      have hall : (y.keyLabels.all fun l => y.keyLabels.contains l) = true := by simp
      simp only [hkl, hall, Bool.and_self, Bool.not_true, Bool.or_self, if_true, hlen]
      rw [if_neg (by simp), if_neg hne]
      exact ⟨_, by rw [← hkl], rfl⟩

/-- `_validate_arithmetic` broadcasts: the result has the longer axes. -/
theorem validate_compat {x y : Tri K} (h : Compat x y) :
    validate x y = .ok (mergedLabels x y, y.values) := by
  obtain ⟨vd', h1⟩ := prepColumns_compat h (x.isPattern && y.isPattern) (max x.vd y.vd)
  have hb : broadcastable ({ x with
      isPattern := x.isPattern && y.isPattern
      vd := max x.vd y.vd
      vdims := longer x.vdims y.vdims } : Tri K)
      { y with isPattern := x.isPattern && y.isPattern, vdims := vd' } = true :=
    broadcastable_compat (x := { x with vdims := longer x.vdims y.vdims }) (y := { y with vdims := vd' })
      h.wx.2.2.1 h.wx.2.2.2 h.wy.2.2.1 h.wy.2.2.2 h.odims h.ddims h.isVal
  obtain ⟨y2, h2, v2, k2, l2⟩ : ∃ y', prepOriginDev x.values.d0 x.values.d1 ({ x with
      isPattern := x.isPattern && y.isPattern
      vd := max x.vd y.vd
      vdims := longer x.vdims y.vdims } : Tri K)
      { y with isPattern := x.isPattern && y.isPattern, vdims := vd' } =
      .ok ({ mergedLabels x y with kdims := x.kdims }, y') ∧ y'.values = y.values ∧
        y'.kdims = y.kdims ∧ y'.keyLabels = y.keyLabels := by
    unfold prepOriginDev
    rw [hb]
    obtain ⟨r1, r2, r3, r4⟩ := relabelOnes_eq ({ x with
      isPattern := x.isPattern && y.isPattern
      vd := max x.vd y.vd
      vdims := longer x.vdims y.vdims } : Tri K)
      { y with isPattern := x.isPattern && y.isPattern, vdims := vd' }
    refine ⟨_, ?_, r2, r3, r4⟩
    have hg : (if x.odims.length = 1 ∧ y.odims.length > 1 then y.ograin else x.ograin) = x.ograin := by
      rw [h.ograin, ite_self]
    dsimp only at r1
    rw [hg] at r1
    dsimp only
    rw [if_pos rfl]
    exact congrArg Except.ok (Prod.ext r1 rfl)
  obtain ⟨y3, h3, v3⟩ := prepIndex_eq (x := ({ mergedLabels x y with kdims := x.kdims } : Tri K))
    (y := y2) (by rw [l2]; exact h.keyLabels) (by rw [k2]; exact h.kdims)
  have h3' : prepIndex ({ mergedLabels x y with kdims := x.kdims } : Tri K) y2 =
      .ok (mergedLabels x y, y3) := by
    rw [h3, k2]; rfl
  rw [v2] at v3
  unfold validate
  have e1 : ¬ (x.ograin ≠ y.ograin ∨ (x.dgrain ≠ y.dgrain ∧ min x.values.d3 y.values.d3 > 1)) := by
    rintro (g | g)
    · exact g h.ograin
    · rcases h.dgrain with e | e
      · exact g.1 e
      · omega
  simp only [e1, if_false, h1, h2, h3', v3, bind, Except.bind]

/-- The result of an elementwise operation with broadcasting. -/
def combined (f : Num K → Num K → Num K) (x y : Tri K) : Tri K :=
  { mergedLabels x y with values :=
      { d0 := (longer x.kdims y.kdims).length
        d1 := (longer x.vdims y.vdims).length
        d2 := (longer x.odims y.odims).length
        d3 := (longer x.ddims y.ddims).length
        get := fun i c o d =>
          f (x.values.get (Arr.bix x.values.d0 (longer x.kdims y.kdims).length i)
              (Arr.bix x.values.d1 (longer x.vdims y.vdims).length c)
              (Arr.bix x.values.d2 (longer x.odims y.odims).length o)
              (Arr.bix x.values.d3 (longer x.ddims y.ddims).length d))
            (y.values.get (Arr.bix y.values.d0 (longer x.kdims y.kdims).length i)
              (Arr.bix y.values.d1 (longer x.vdims y.vdims).length c)
              (Arr.bix y.values.d2 (longer x.odims y.odims).length o)
              (Arr.bix y.values.d3 (longer x.ddims y.ddims).length d)) } }

theorem wf_combined (f : Num K → Num K → Num K) (x y : Tri K) : WF (combined f x y) :=
  ⟨rfl, rfl, rfl, rfl⟩

theorem zip_compat (f : Num K → Num K → Num K) {x y : Tri K} (h : Compat x y) :
    Arr.zip f x.values y.values = .ok (combined f x y).values := by
  obtain ⟨x0, x1, x2, x3⟩ := h.wx
  obtain ⟨y0, y1, y2, y3⟩ := h.wy
  have e0 := longer_length h.kdims
  have e1 := longer_length h.vdims
  have e2 := longer_length h.odims
  have e3 := longer_length h.ddims
  rw [← x0, ← y0] at e0
  rw [← x1, ← y1] at e1
  rw [← x2, ← y2] at e2
  rw [← x3, ← y3] at e3
  unfold Arr.zip
  simp only [e0, e1, e2, e3]
  rfl

theorem mul_compat {x y : Tri K} (h : Compat x y) : x.mul y = .ok (combined (· * ·) x y) := by
  unfold mul
  simp only [validate_compat h, bind, Except.bind, mulArr, zipArr]
  have := zip_compat (· * ·) h
  have e : (mergedLabels x y).values = x.values := rfl
  rw [e, this]
  rfl

theorem div_compat {x y : Tri K} (h : Compat x y) : x.div y = .ok (combined (· / ·) x y) := by
  unfold div
  simp only [validate_compat h, bind, Except.bind, divArr, zipArr]
  have := zip_compat (· / ·) h
  have e : (mergedLabels x y).values = x.values := rfl
  rw [e, this]
  rfl

theorem add_compat {x y : Tri K} (h : Compat x y) :
    x.add y = .ok (combined (fun a b => a.nanToNum + b.nanToNum) x y).cleanup := by
  unfold add
  simp only [validate_compat h, bind, Except.bind, addArr, zipArr]
  have := zip_compat (fun a b => a.nanToNum + b.nanToNum) h
  have e : (mergedLabels x y).values = x.values := rfl
  rw [e, this]
  rfl

theorem sub_compat {x y : Tri K} (h : Compat x y) :
    x.sub y = .ok (combined (fun a b => a.nanToNum - b.nanToNum) x y).cleanup := by
  unfold sub
  simp only [validate_compat h, bind, Except.bind, subArr, zipArr]
  have := zip_compat (fun a b => a.nanToNum - b.nanToNum) h
  have e : (mergedLabels x y).values = x.values := rfl
  rw [e, this]
  rfl

end Tri
end CL
