import Verif.Lemmas.Bcast
import Verif.Lemmas.Coherent
import Verif.Props.C11
import Verif.Props.C14
import Verif.Spec.Standard
import Verif.Lemmas.LinkGrid
import Verif.Model.Regression
import Verif.Model.Trend

set_option linter.unusedSectionVars false

/-! # Single-column triangles on the grid of another triangle -/

namespace CL
namespace Tri
variable {K : Type} [Field K] [LinearOrder K] [IsStrictOrderedRing K]

/-- `t` has one column and otherwise the axes of `x`, valuation date `v`, and cells `f` where `o + d < D`. -/
structure OnGrid (x t : Tri K) (D : Nat) (v : Int) (f : Nat → Nat → Nat → Num K) : Prop where
  wf : WF t
  kdims : t.kdims = x.kdims
  keyLabels : t.keyLabels = x.keyLabels
  one : t.vdims.length = 1
  odims : t.odims = x.odims
  ddims : t.ddims = x.ddims
  isVal : t.isVal = x.isVal
  ograin : t.ograin = x.ograin
  dgrain : t.dgrain = x.dgrain
  vd : t.vd = v
  cell : ∀ i < x.kdims.length, ∀ o d, o + d < D → t.values.get i 0 o d = f i o d

/-- `t` has one column and broadcasts to the axes of `x`, with the cells `f` where `o + d < D`. -/
structure Spread (x t : Tri K) (D : Nat) (v : Int) (f : Nat → Nat → Nat → Num K) : Prop where
  wf : WF t
  kdims : t.kdims = x.kdims ∨ t.kdims.length = 1
  keyLabels : t.keyLabels = x.keyLabels
  one : t.vdims.length = 1
  odims : t.odims = x.odims ∨ t.odims.length = 1
  ddims : (t.ddims = x.ddims ∧ t.isVal = x.isVal) ∨ t.ddims.length = 1
  ograin : t.ograin = x.ograin
  dgrain : t.dgrain = x.dgrain ∨ t.ddims.length = 1
  vd : t.vd = v
  cell : ∀ i < x.kdims.length, ∀ o d, o + d < D →
    t.values.get (Arr.bix t.values.d0 x.values.d0 i) 0 (Arr.bix t.values.d2 x.values.d2 o)
      (Arr.bix t.values.d3 x.values.d3 d) = f i o d

theorem OnGrid.spread {x t : Tri K} {D : Nat} {v : Int} {f : Nat → Nat → Nat → Num K} (wx : WF x)
    (h : OnGrid x t D v f) : Spread x t D v f where
  wf := h.wf
  kdims := Or.inl h.kdims
  keyLabels := h.keyLabels
  one := h.one
  odims := Or.inl h.odims
  ddims := Or.inl ⟨h.ddims, h.isVal⟩
  ograin := h.ograin
  dgrain := Or.inl h.dgrain
  vd := h.vd
  cell := by
    intro i hi o d hod
    have e0 : t.values.d0 = x.values.d0 := by rw [h.wf.1, wx.1, h.kdims]
    have e2 : t.values.d2 = x.values.d2 := by rw [h.wf.2.2.1, wx.2.2.1, h.odims]
    have e3 : t.values.d3 = x.values.d3 := by rw [h.wf.2.2.2, wx.2.2.2, h.ddims]
    rw [e0, e2, e3, Arr.bix_self, Arr.bix_self, Arr.bix_self]
    exact h.cell i hi o d hod

section
variable {x s t : Tri K} {a : Int} {D : Nat} {v w : Int} {f g : Nat → Nat → Nat → Num K}

theorem OnGrid.fitsIn (hx : Grid x a D D 1) (hs : OnGrid x s D v f) (ht : Spread x t D w g) : FitsIn t s where
  wx := hs.wf
  wy := ht.wf
  ograin := by rw [hs.ograin, ht.ograin]
  dgrain := by
    rcases ht.dgrain with e | e
    · left; rw [hs.dgrain, e]
    · right; rw [ht.wf.2.2.2, e]; omega
  keyLabels := by rw [hs.keyLabels, ht.keyLabels]
  kdims := by
    rw [hs.kdims]
    rcases ht.kdims with e | e
    · exact Or.inl e
    · exact Or.inr ⟨e, hx.index_pos⟩
  vdims := Or.inr ⟨ht.one, by rw [hs.one]⟩
  odims := by
    rw [hs.odims]
    rcases ht.odims with e | e
    · exact Or.inl e
    · exact Or.inr ⟨e, by rw [hx.lenO]; have := hx.two_ages; omega⟩
  ddims := by
    rw [hs.ddims, hs.isVal]
    rcases ht.ddims with e | e
    · exact Or.inl e
    · exact Or.inr ⟨e, by rw [hx.lenD]; have := hx.two_ages; omega⟩

theorem OnGrid.dims (hs : OnGrid x s D v f) (wx : WF x) : s.values.d0 = x.values.d0 ∧ s.values.d1 = 1 ∧
    s.values.d2 = x.values.d2 ∧ s.values.d3 = x.values.d3 := by
  refine ⟨?_, ?_, ?_, ?_⟩
  · rw [hs.wf.1, wx.1, hs.kdims]
  · rw [hs.wf.2.1, hs.one]
  · rw [hs.wf.2.2.1, wx.2.2.1, hs.odims]
  · rw [hs.wf.2.2.2, wx.2.2.2, hs.ddims]

theorem OnGrid.zipped (hx : Grid x a D D 1) (hs : OnGrid x s D v f) (ht : Spread x t D w g)
    (op : Num K → Num K → Num K) :
    OnGrid x (zipped op s t) D (max v w) fun i o d => op (f i o d) (g i o d) where
  wf := hs.wf
  kdims := hs.kdims
  keyLabels := hs.keyLabels
  one := hs.one
  odims := hs.odims
  ddims := hs.ddims
  isVal := hs.isVal
  ograin := hs.ograin
  dgrain := hs.dgrain
  vd := by
    show max s.vd t.vd = _
    rw [hs.vd, ht.vd]
  cell := by
    intro i hi o d hod
    show op (s.values.get i 0 o d) (bcell t.values s.values i 0 o d) = _
    rw [hs.cell i hi o d hod]
    congr 1
    unfold bcell
    obtain ⟨e0, e1, e2, e3⟩ := hs.dims hx.wf
    have e : Arr.bix t.values.d1 s.values.d1 0 = 0 := by
      unfold Arr.bix; split_ifs <;> rfl
    rw [e, e0, e2, e3]
    exact ht.cell i hi o d hod

theorem OnGrid.mul (hx : Grid x a D D 1) (hs : OnGrid x s D v f) (ht : Spread x t D w g) :
    ∃ r, s.mul t = .ok r ∧ OnGrid x r D (max v w) fun i o d => f i o d * g i o d :=
  ⟨_, mul_fits (hs.fitsIn hx ht), hs.zipped hx ht _⟩

theorem OnGrid.div (hx : Grid x a D D 1) (hs : OnGrid x s D v f) (ht : Spread x t D w g) :
    ∃ r, s.div t = .ok r ∧ OnGrid x r D (max v w) fun i o d => f i o d / g i o d :=
  ⟨_, div_fits (hs.fitsIn hx ht), hs.zipped hx ht _⟩

/-- A later valuation date does not move the valuation of a cell. -/
theorem OnGrid.valuation (hx : Grid x a D D 1) (hs : OnGrid x s D v f) (hv : x.vd ≤ v) {o d : Nat}
    (ho : o < D) (_ : d < D) : s.valuation o d = x.valuation o d := by
  have hu : ¬ (x.ddims.getLast? = some 9999 ∧ d + 1 = x.ddims.length) := by
    rintro ⟨e, -⟩
    exact hx.not_ult (List.mem_of_getLast? e)
  have h1 := hx.origin_le ho
  unfold Tri.valuation valuationOf
  rw [hs.isVal, hs.odims, hs.ddims, hs.vd, hx.isVal]
  simp only [Bool.false_eq_true, if_false]
  rw [if_neg hu, if_neg hu, hx.getO ho, min_eq_left h1, min_eq_left (le_trans h1 hv)]

theorem OnGrid.nanTri (hx : Grid x a D D 1) (hs : OnGrid x s D v f) (hv : x.vd ≤ v) {o d : Nat}
    (hod : o + d < D) : s.nanTri o d = 1 := by
  unfold Tri.nanTri
  split_ifs with h1 h2
  · rfl
  · rw [hs.valuation hx hv (by omega) (by omega), hs.vd] at h2
    have : x.vd < x.valuation o d := by omega
    rw [hx.valuation_gt (by omega) (by omega)] at this
    omega
  · rfl

theorem OnGrid.cleanup (hx : Grid x a D D 1) (hs : OnGrid x s D v f) (hv : x.vd ≤ v) :
    OnGrid x s.cleanup D v fun i o d => (f i o d).numToNan where
  wf := hs.wf
  kdims := hs.kdims
  keyLabels := hs.keyLabels
  one := hs.one
  odims := hs.odims
  ddims := hs.ddims
  isVal := hs.isVal
  ograin := hs.ograin
  dgrain := hs.dgrain
  vd := hs.vd
  cell := by
    intro i hi o d hod
    show (s.values.get i 0 o d * (s.nanTri o d).nanToNum).numToNan = _
    have e : (1 : Num K).nanToNum = 1 := rfl
    rw [hs.cell i hi o d hod, hs.nanTri hx hv hod, e, mul_one]

theorem OnGrid.add (hx : Grid x a D D 1) (hs : OnGrid x s D v f) (ht : Spread x t D w g) (hv : x.vd ≤ max v w) :
    ∃ r, s.add t = .ok r ∧
      OnGrid x r D (max v w) fun i o d => ((f i o d).nanToNum + (g i o d).nanToNum).numToNan :=
  ⟨_, add_fits (hs.fitsIn hx ht), (hs.zipped hx ht _).cleanup hx hv⟩

theorem OnGrid.sub (hx : Grid x a D D 1) (hs : OnGrid x s D v f) (ht : Spread x t D w g) (hv : x.vd ≤ max v w) :
    ∃ r, s.sub t = .ok r ∧
      OnGrid x r D (max v w) fun i o d => ((f i o d).nanToNum - (g i o d).nanToNum).numToNan :=
  ⟨_, sub_fits (hs.fitsIn hx ht), (hs.zipped hx ht _).cleanup hx hv⟩

/-- An operation with an array of the shape of the triangle, or with a number. -/
theorem OnGrid.zipArr (hs : OnGrid x s D v f) {b : Arr K} (hb : Arr.Fits b s.values)
    (op : Num K → Num K → Num K) : ∃ r, s.zipArr op b = .ok r ∧
      OnGrid x r D v fun i o d => op (f i o d) (bcell b s.values i 0 o d) := by
  unfold Tri.zipArr
  rw [Arr.zip_fits _ hb]
  refine ⟨_, rfl, hs.wf, hs.kdims, hs.keyLabels, hs.one, hs.odims, hs.ddims, hs.isVal, hs.ograin,
    hs.dgrain, hs.vd, ?_⟩
  intro i hi o d hod
  show op (s.values.get i 0 o d) _ = _
  rw [hs.cell i hi o d hod]
  rfl

theorem OnGrid.mulScalar (hs : OnGrid x s D v f) (y : Num K) :
    ∃ r, s.mulArr (Arr.scalar y) = .ok r ∧ OnGrid x r D v fun i o d => f i o d * y :=
  hs.zipArr (b := Arr.scalar y) ⟨Or.inr rfl, Or.inr rfl, Or.inr rfl, Or.inr rfl⟩ _

theorem OnGrid.addArr (hx : Grid x a D D 1) (hs : OnGrid x s D v f) (hv : x.vd ≤ v) {b : Arr K}
    (hb : Arr.Fits b s.values) : ∃ r, s.addArr b = .ok r ∧
      OnGrid x r D v fun i o d => ((f i o d).nanToNum + (bcell b s.values i 0 o d).nanToNum).numToNan := by
  obtain ⟨r, h1, h2⟩ := hs.zipArr hb fun x y => x.nanToNum + y.nanToNum
  unfold Tri.addArr
  rw [h1]
  exact ⟨_, rfl, h2.cleanup hx hv⟩

theorem OnGrid.congr (hs : OnGrid x s D v f)
    (h : ∀ i < x.kdims.length, ∀ o d, o + d < D → f i o d = g i o d) : OnGrid x s D v g :=
  ⟨hs.wf, hs.kdims, hs.keyLabels, hs.one, hs.odims, hs.ddims, hs.isVal, hs.ograin,
    hs.dgrain, hs.vd, fun i hi o d hod => by rw [hs.cell i hi o d hod, h i hi o d hod]⟩

theorem OnGrid.ordered (hx : Grid x a D D 1) (hs : OnGrid x s D v f) (hv : x.vd ≤ v) : Ordered s := by
  intro _
  obtain ⟨h1, h2, h3⟩ := hx.ordered hx.isVal
  rw [hs.odims, hs.ddims, hs.vd]
  exact ⟨fun o ho => le_trans (h1 o ho) hv, h2, h3⟩

theorem even_range (m : Nat) : Even (List.range m) :=
  even_of_convex List.pairwise_lt_range fun a _ b hb x _ hxb => by
    rw [List.mem_range] at hb ⊢
    omega

/-- A filter on valuations that keeps the first `m` origins and ages. -/
theorem OnGrid.getVal (hx : Grid x a D D 1) (hs : OnGrid x s D v f) (hv : x.vd ≤ v) (hu : v ≤ ultVal)
    {P : Int → Bool} {m : Nat} (hm : 1 ≤ m) (hmD : m ≤ D)
    (hr : ∀ o < D, (∃ d < D, P (x.valuation o d) = true) ↔ o < m)
    (hc : ∀ d < D, (∃ o < D, P (x.valuation o d) = true) ↔ d < m) :
    ∃ r, s.getVal P = .ok r ∧
      FilterSpec s r (fun o d => P (s.valuation o d)) (List.range m) (List.range m) ∧
      r.ograin = x.ograin ∧ r.dgrain = x.dgrain ∧ r.keyLabels = x.keyLabels := by
  have hD := hx.two_ages
  have l2 : s.values.d2 = D := by rw [hs.wf.2.2.1, hs.odims, hx.lenO]
  have l3 : s.values.d3 = D := by rw [hs.wf.2.2.2, hs.ddims, hx.lenD]
  have hrow : keyRows s.values.d2 s.values.d3 (fun o d => P (s.valuation o d)) = List.range m := by
    refine List.Pairwise.eq_of_mem_iff (keyRows_pairwise _ _ _) List.pairwise_lt_range fun o => ?_
    rw [mem_keyRows, List.mem_range, l2, l3]
    constructor
    · rintro ⟨ho, d, hd, hk⟩
      rw [hs.valuation hx hv ho hd] at hk
      exact (hr o ho).1 ⟨d, hd, hk⟩
    · intro ho
      obtain ⟨d, hd, hk⟩ := (hr o (by omega)).2 ho
      rw [← hs.valuation hx hv (by omega) hd] at hk
      exact ⟨by omega, d, hd, hk⟩
  have hcol : keyCols s.values.d2 s.values.d3 (fun o d => P (s.valuation o d)) = List.range m := by
    refine List.Pairwise.eq_of_mem_iff (keyCols_pairwise _ _ _) List.pairwise_lt_range fun d => ?_
    rw [mem_keyCols, List.mem_range, l2, l3]
    constructor
    · rintro ⟨hd, o, ho, hk⟩
      rw [hs.valuation hx hv ho hd] at hk
      exact (hc d hd).1 ⟨o, ho, hk⟩
    · intro hd
      obtain ⟨o, ho, hk⟩ := (hc d (by omega)).2 hd
      rw [← hs.valuation hx hv ho (by omega)] at hk
      exact ⟨by omega, o, ho, hk⟩
  obtain ⟨u, h1, h2, h3, h4, -, -, h5⟩ := filterMask_spec hs.wf (hs.ordered hx hv)
    (fun _ => by rw [hs.vd]; exact hu) (key := fun o d => P (s.valuation o d))
    (by rw [hrow]; exact List.ne_nil_of_mem (List.mem_range.2 hm))
    (by rw [hrow]; exact even_range m) (by rw [hcol]; exact even_range m)
  rw [hrow, hcol] at h2
  refine ⟨u, ?_, h2, h3.trans hs.ograin, h4.trans hs.dgrain, h5.trans hs.keyLabels⟩
  unfold Tri.getVal
  rw [if_pos (by omega), h1]

/-- The attributes that slicing leaves alone. -/
structure Keeps (t r : Tri K) : Prop where
  keyLabels : r.keyLabels = t.keyLabels
  isVal : r.isVal = t.isVal
  ograin : r.ograin = t.ograin
  dgrain : r.dgrain = t.dgrain
  isCum : r.isCum = t.isCum
  isPattern : r.isPattern = t.isPattern
  isAdditive : r.isAdditive = t.isAdditive

theorem pick_keeps {t r : Tri K} {pi pc po pd : List Nat} (h : t.pick pi pc po pd = .ok r) : Keeps t r := by
  unfold pick at h
  simp only at h
  split_ifs at h
  split at h
  · injection h with h; rw [← h]; exact ⟨rfl, rfl, rfl, rfl, rfl, rfl, rfl⟩
  · injection h with h; rw [← h]; exact ⟨rfl, rfl, rfl, rfl, rfl, rfl, rfl⟩

theorem getIdx_keeps {t r : Tri K} {i c o d : Key} (h : t.getIdx i c o d = .ok r) : Keeps t r := by
  unfold getIdx at h
  obtain ⟨_, -, h⟩ := bind_ok h
  obtain ⟨_, -, h⟩ := bind_ok h
  obtain ⟨_, -, h⟩ := bind_ok h
  obtain ⟨_, -, h⟩ := bind_ok h
  split_ifs at h
  obtain ⟨_, -, h⟩ := bind_ok h
  obtain ⟨_, -, h⟩ := bind_ok h
  obtain ⟨_, -, h⟩ := bind_ok h
  obtain ⟨_, -, h⟩ := bind_ok h
  exact pick_keeps h

theorem iloc_keeps {t r : Tri K} {i c o d : Key} (h : t.iloc i c o d = .ok r) : Keeps t r := by
  unfold iloc at h
  obtain ⟨_, -, h⟩ := bind_ok h
  obtain ⟨_, -, h⟩ := bind_ok h
  obtain ⟨_, -, h⟩ := bind_ok h
  obtain ⟨_, -, h⟩ := bind_ok h
  exact getIdx_keeps h

theorem getCols_keeps {t r : Tri K} {cols : List String} (h : t.getCols cols = .ok r) : Keeps t r := by
  unfold getCols at h
  split_ifs at h
  exact iloc_keeps h

theorem filterMask_keeps {t r : Tri K} {key : Nat → Nat → Bool} (h : t.filterMask key = .ok r) : Keeps t r := by
  unfold filterMask at h
  have := getIdx_keeps h
  exact ⟨this.keyLabels, this.isVal, this.ograin, this.dgrain, this.isCum, this.isPattern, this.isAdditive⟩

theorem getVal_keepsAll {t r : Tri K} {P : Int → Bool} (h3 : t.values.d3 > 1) (h : t.getVal P = .ok r) :
    Keeps t r := by
  unfold Tri.getVal at h
  rw [if_pos h3] at h
  exact filterMask_keeps h

/-- One column of a triangle. -/
theorem Grid.getCol (hx : Grid x a D D 1) {c : String} (hc : c ∈ x.vdims) :
    ∃ r, x.getCols [c] = .ok r ∧ OnGrid x r D x.vd (fun i o d => x.values.get i (x.vdims.idxOf c) o d) ∧
      ∀ i < x.kdims.length, ∀ o < D, ∀ d < D, r.values.get i 0 o d = x.values.get i (x.vdims.idxOf c) o d := by
  have hD := hx.two_ages
  have hS : ∀ n, Sel n (.slc .all) (List.range n) := fun n => (selS_all n).sel
  have hlt : x.vdims.idxOf c < x.values.d1 := by
    rw [hx.wf.2.1]; exact List.idxOf_lt_length_iff.2 hc
  have hfs : fromStart x.values.d1 [(x.vdims.idxOf c : Int)] = [x.vdims.idxOf c] := by
    unfold fromStart
    simp only [List.map_cons, List.map_nil]
    rw [if_neg (by omega)]
    simp
  have hsel : Sel x.values.d1 (.lst [(x.vdims.idxOf c : Int)]) [x.vdims.idxOf c] := by
    rw [← hfs]
    apply sel_lst ⟨by simp, by simp; omega⟩
    rintro ⟨h, -⟩
    simp at h
  have w2 : x.values.d2 = D := by rw [hx.wf.2.2.1, hx.lenO]
  have w3 : x.values.d3 = D := by rw [hx.wf.2.2.2, hx.lenD]
  have ko : (List.range x.values.d2).map (x.odims.getD · 0) = x.odims := by
    rw [hx.wf.2.2.1]; exact map_getD_range _ _
  have kd : (List.range x.values.d3).map (x.ddims.getD · 0) = x.ddims := by
    rw [hx.wf.2.2.2]; exact map_getD_range _ _
  have kk : (List.range x.values.d0).map (x.kdims.getD · []) = x.kdims := by
    rw [hx.wf.1]; exact map_getD_range _ _
  have hvd : (((x.picked (List.range x.values.d0) [x.vdims.idxOf c] (List.range x.values.d2)
      (List.range x.values.d3) x.vd).valuations.max?).elim x.vd fun m => min m x.vd) = x.vd := by
    have hmem : x.vd ∈ (x.picked (List.range x.values.d0) [x.vdims.idxOf c] (List.range x.values.d2)
        (List.range x.values.d3) x.vd).valuations := by
      unfold valuations
      rw [List.mem_flatMap]
      refine ⟨D - 1, ?_, ?_⟩
      · show D - 1 ∈ List.range (List.length (List.map _ _))
        rw [kd, hx.lenD, List.mem_range]; omega
      · rw [List.mem_map]
        refine ⟨0, ?_, ?_⟩
        · show 0 ∈ List.range (List.length (List.map _ _))
          rw [ko, hx.lenO, List.mem_range]; omega
        · show valuationOf x.isVal (List.map _ _) (List.map _ _) x.vd 0 (D - 1) = _
          rw [kd, ko]
          exact hx.vd_eq.symm
    cases hm : (x.picked (List.range x.values.d0) [x.vdims.idxOf c] (List.range x.values.d2)
        (List.range x.values.d3) x.vd).valuations.max? with
    | none => rfl
    | some m =>
      have := (List.max?_eq_some_iff.1 hm).2 _ hmem
      exact min_eq_right this
  have hcell : ∀ i < x.kdims.length, ∀ o < D, ∀ d < D,
      (x.values.take (List.range x.values.d0) [x.vdims.idxOf c] (List.range x.values.d2)
        (List.range x.values.d3)).get i 0 o d = x.values.get i (x.vdims.idxOf c) o d := by
    intro i hi o ho d hd
    show x.values.get _ _ _ _ = _
    rw [← hx.wf.1] at hi
    simp [List.getD_eq_getElem?_getD, hi, w2, w3, ho, hd]
  refine ⟨x.picked (List.range x.values.d0) [x.vdims.idxOf c] (List.range x.values.d2)
    (List.range x.values.d3) (((x.picked (List.range x.values.d0) [x.vdims.idxOf c]
      (List.range x.values.d2) (List.range x.values.d3) x.vd).valuations.max?).elim x.vd fun m => min m x.vd),
    ?_, ⟨?_, kk, rfl, rfl, ko, kd, rfl, rfl, rfl, hvd, fun i hi o d hod => hcell i hi o (by omega) d (by omega)⟩, hcell⟩
  · unfold getCols
    rw [if_pos (by simpa using hc)]
    show x.iloc _ (.lst [_]) _ _ = _
    rw [iloc_of_sel (hS _) hsel (selS_all _) (selS_all _), pick_eq x _ _ _ _ (Or.inr _)]
    exact List.ne_nil_of_mem (a := 0) (List.mem_range.2 (by omega))
  · refine ⟨?_, ?_, ?_, ?_⟩ <;> simp [picked, Arr.take]

/-- The latest diagonal as a matrix. -/
theorem OnGrid.diagonal (hx : Grid x a D D 1) (hs : OnGrid x s D v f) (hv : x.vd ≤ v) (hu : v ≤ ultVal) :
    ∃ r, s.getVal (· == x.vd) = .ok r ∧ OnGrid x r D x.vd
        (fun i o d => if o + d + 1 = D then (f i o d).numToNan else .nan) ∧
      r.vdims = s.vdims ∧
      ∀ i < x.kdims.length, ∀ o < D, ∀ d < D, r.values.get i 0 o d =
        if o + d + 1 = D then (f i o d).numToNan else .nan := by
  have hD := hx.two_ages
  have hkey : ∀ o < D, ∀ d < D, (x.valuation o d == x.vd) = true ↔ o + d + 1 = D := by
    intro o ho d hd
    rw [beq_iff_eq, hx.valuation_vd ho hd]; omega
  obtain ⟨r, h1, h2, h3, h4, h5⟩ := hs.getVal hx hv hu (P := (· == x.vd)) (m := D) (by omega) le_rfl
    (fun o ho => ⟨fun _ => ho, fun _ => ⟨D - 1 - o, by omega, (hkey o ho _ (by omega)).2 (by omega)⟩⟩)
    (fun d hd => ⟨fun _ => hd, fun _ => ⟨D - 1 - d, by omega, (hkey _ (by omega) d hd).2 (by omega)⟩⟩)
  have ho : r.odims = x.odims := by
    rw [At.eq_map h2.origins (by rw [hs.odims, hx.lenO]), hs.odims, ← hx.lenO]
    exact map_getD_range _ _
  have hd : r.ddims = x.ddims := by
    rw [At.eq_map h2.developments (by rw [hs.ddims, hx.lenD]), hs.ddims, ← hx.lenD]
    exact map_getD_range _ _
  have hcell : ∀ i < x.kdims.length, ∀ o < D, ∀ d < D, r.values.get i 0 o d =
      if o + d + 1 = D then (f i o d).numToNan else .nan := by
    intro i hi o ho d hd
    have hc := h2.cells i 0 o d (by rw [hs.wf.1, hs.kdims]; exact hi) (by rw [hs.wf.2.1, hs.one]; omega)
      (by simpa using ho) (by simpa using hd)
    simp only [List.getElem_range] at hc
    rw [hc, hs.valuation hx hv ho hd]
    by_cases h : o + d + 1 = D
    · rw [if_pos ((hkey o ho d hd).2 h), if_pos h, hs.cell i hi o d (by omega)]
    · rw [if_neg (by rw [hkey o ho d hd]; exact h), if_neg h]
  refine ⟨r, h1, ⟨h2.wf, h2.index.trans hs.kdims, h5, by rw [h2.columns, hs.one], ho, hd, h2.isVal.trans hs.isVal,
    h3, h4, ?_, fun i hi o d hod => hcell i hi o (by omega) d (by omega)⟩, h2.columns, hcell⟩
  obtain ⟨m, ⟨o, d, ho, hd, hk, e⟩, -, e'⟩ := h2.vd
  rw [hs.odims, hx.lenO] at ho
  rw [hs.ddims, hx.lenD] at hd
  have : m = x.vd := by rw [← e]; simpa using hk
  rw [e', this, hs.vd]
  exact min_eq_left hv

/-- The sum over the origins of a matrix that is missing off the latest diagonal. -/
theorem OnGrid.diagonal_sum (hx : Grid x a D D 1) (hs : OnGrid x s D v f)
    (hc : ∀ i < x.kdims.length, ∀ o < D, ∀ d < D, o + d + 1 ≠ D → s.values.get i 0 o d = .nan) :
    ∃ r, s.sum .origin = .tri r ∧ Spread x r D v fun i _ d => (f i (D - 1 - d) d).numToNan := by
  have hD := hx.two_ages
  obtain ⟨e0, e1, e2, e3⟩ := hs.dims hx.wf
  have w2 : s.values.d2 = D := by rw [e2, hx.wf.2.2.1, hx.lenO]
  have w3 : s.values.d3 = D := by rw [e3, hx.wf.2.2.2, hx.lenD]
  have hr : s.relabelAgg .origin = { s with odims := s.odims.take 1 } := by
    show (if s.odims.length > 1 then _ else s) = _
    rw [if_pos (by rw [hs.odims, hx.lenO]; omega)]
  refine ⟨s.sumKeep .origin, ?_, ?_⟩
  · unfold Tri.sum toAgg
    rw [if_neg]
    rintro ⟨-, -, -, h⟩
    have h' : s.values.d3 = 1 := h
    rw [w3] at h'
    omega
  have ho : (s.sumKeep .origin).odims.length = 1 := by
    unfold sumKeep
    rw [hr]
    show (s.odims.take 1).length = 1
    rw [List.length_take, hs.odims, hx.lenO]; omega
  have hk : s.sumKeep .origin = { s with
      odims := s.odims.take 1
      values := (s.values.nansum .origin).map Num.numToNan } := by
    unfold sumKeep; rw [hr]
  rw [hk] at ho ⊢
  refine ⟨⟨hs.wf.1, hs.wf.2.1, ho.symm, hs.wf.2.2.2⟩, Or.inl hs.kdims, hs.keyLabels, hs.one, Or.inr ho,
    Or.inl ⟨hs.ddims, hs.isVal⟩, hs.ograin, Or.inl hs.dgrain, hs.vd, ?_⟩
  intro i hi o d hod
  show (∑ o ∈ Finset.range s.values.d2, (s.values.get (Arr.bix s.values.d0 x.values.d0 i) 0 o
    (Arr.bix s.values.d3 x.values.d3 d)).nan0).numToNan = _
  rw [e0, e3, Arr.bix_self, Arr.bix_self, w2, Finset.sum_eq_single (D - 1 - d)]
  · rw [hs.cell i hi _ _ (by omega)]
    cases f i (D - 1 - d) d <;> simp [Num.nan0]
  · intro o' ho' hne
    rw [hc i hi o' (by simpa using ho') d (by omega) (by omega)]
    rfl
  · intro h
    exact absurd (Finset.mem_range.2 (by omega)) h

end
end Tri
end CL
