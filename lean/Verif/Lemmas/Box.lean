import Verif.Lemmas.BcastUp
import Verif.Lemmas.OnGrid
import Verif.Lemmas.ValGrid
import Verif.Lemmas.Berquist

set_option linter.unusedSectionVars false

/-! # Single-column triangles with cells on the whole rectangle -/

namespace CL
namespace Tri
variable {K : Type} [Field K] [LinearOrder K] [IsStrictOrderedRing K]

/-- `is_cumulative`, `is_pattern` and `is_additive`. -/
abbrev Flags := Option Bool × Bool × Option Bool

def flags (t : Tri K) : Flags := (t.isCum, t.isPattern, t.isAdditive)

/-- `t` has one column and otherwise the axes of `x`, valuation date `v`, and cells `f`. -/
structure Box (x t : Tri K) (v : Int) (fl : Flags) (f : Nat → Nat → Nat → Num K) : Prop where
  wf : WF t
  kdims : t.kdims = x.kdims
  keyLabels : t.keyLabels = x.keyLabels
  one : t.vdims.length = 1
  odims : t.odims = x.odims
  ddims : t.ddims = x.ddims
  isVal : t.isVal = false
  ograin : t.ograin = x.ograin
  dgrain : t.dgrain = x.dgrain
  vd : t.vd = v
  flags : t.flags = fl
  cell : ∀ i < x.kdims.length, ∀ o < x.odims.length, ∀ d < x.ddims.length, t.values.get i 0 o d = f i o d

/-- `r` is `t` at the development positions `pd`. -/
structure Cut (t r : Tri K) (pd : List Nat) : Prop where
  wf : WF r
  kdims : r.kdims = t.kdims
  keyLabels : r.keyLabels = t.keyLabels
  vdims : r.vdims = t.vdims
  odims : r.odims = t.odims
  ddims : r.ddims = pd.map (t.ddims.getD · 0)
  isVal : r.isVal = t.isVal
  ograin : r.ograin = t.ograin
  dgrain : r.dgrain = t.dgrain
  flags : r.flags = t.flags
  vd_le : r.vd ≤ t.vd
  vd : ∀ w, t.vd ≤ w → (∃ o < t.odims.length, ∃ d < pd.length,
    valuationOf t.isVal t.odims (pd.map (t.ddims.getD · 0)) t.vd o d = w) → r.vd = t.vd
  cell : ∀ i < t.kdims.length, ∀ c < t.vdims.length, ∀ o < t.odims.length, ∀ d (h : d < pd.length),
    r.values.get i c o d = t.values.get i c o pd[d]

theorem ilocD_cut {t : Tri K} (wf : WF t) {k : Key} {pd : List Nat} (h : SelS t.values.d3 k pd)
    (hne : pd ≠ []) : ∃ r, t.ilocD k = .ok r ∧ Cut t r pd := by
  obtain ⟨w0, w1, w2, w3⟩ := wf
  rw [ilocD_of_positions h, pick_eq t _ _ _ _ (Or.inr hne)]
  set p := t.picked (List.range t.values.d0) (List.range t.values.d1) (List.range t.values.d2) pd t.vd with hp
  have ko : (List.range t.values.d2).map (t.odims.getD · 0) = t.odims := by
    rw [w2]; exact map_getD_range _ _
  have kk : (List.range t.values.d0).map (t.kdims.getD · []) = t.kdims := by
    rw [w0]; exact map_getD_range _ _
  have kv : (List.range t.values.d1).map (t.vdims.getD · "") = t.vdims := by
    rw [w1]; exact map_getD_range _ _
  refine ⟨_, rfl, ⟨?_, kk, rfl, kv, ko, rfl, rfl, rfl, rfl, rfl, ?_, ?_, ?_⟩⟩
  · refine ⟨?_, ?_, ?_, ?_⟩ <;> simp [picked, Arr.take]
  · show (p.valuations.max?).elim t.vd (fun m => min m t.vd) ≤ t.vd
    cases p.valuations.max? with
    | none => exact le_rfl
    | some m => exact min_le_right _ _
  · rintro w hw ⟨o, ho, d, hd, e⟩
    show (p.valuations.max?).elim t.vd (fun m => min m t.vd) = t.vd
    have hmem : w ∈ p.valuations := by
      refine mem_valuations.2 ⟨o, d, ?_, ?_, ?_⟩
      · show o < (List.map _ _).length
        rw [ko]; exact ho
      · show d < (List.map _ _).length
        simpa using hd
      · show valuationOf t.isVal (List.map _ _) (List.map _ _) t.vd o d = w
        rw [ko]; exact e
    cases hm : p.valuations.max? with
    | none =>
      rw [List.max?_eq_none_iff.1 hm] at hmem
      cases hmem
    | some m =>
      have := (List.max?_eq_some_iff.1 hm).2 _ hmem
      exact min_eq_right (le_trans hw this)
  · intro i hi c hc o ho d hd
    show t.values.get _ _ _ _ = _
    rw [← w0] at hi
    rw [← w1] at hc
    rw [← w2] at ho
    simp [List.getD_eq_getElem?_getD, hi, hc, ho, hd]

section
variable {x s t : Tri K} {a : Int} {n D q : Nat} {v w : Int} {fl fl' : Flags} {f g : Nat → Nat → Nat → Num K}

theorem Box.congr (hs : Box x s v fl f) (h : ∀ i < x.kdims.length, ∀ o < x.odims.length, ∀ d < x.ddims.length,
    f i o d = g i o d) : Box x s v fl g :=
  ⟨hs.wf, hs.kdims, hs.keyLabels, hs.one, hs.odims, hs.ddims, hs.isVal, hs.ograin, hs.dgrain, hs.vd, hs.flags,
    fun i hi o ho d hd => by rw [hs.cell i hi o ho d hd, h i hi o ho d hd]⟩

theorem Box.withVd (hs : Box x s v fl f) (w : Int) : Box x { s with vd := w } w fl f :=
  ⟨hs.wf, hs.kdims, hs.keyLabels, hs.one, hs.odims, hs.ddims, hs.isVal, hs.ograin, hs.dgrain, rfl, hs.flags, hs.cell⟩

theorem Box.dims (hs : Box x s v fl f) : s.values.d0 = x.kdims.length ∧ s.values.d1 = 1 ∧
    s.values.d2 = x.odims.length ∧ s.values.d3 = x.ddims.length := by
  refine ⟨?_, ?_, ?_, ?_⟩
  · rw [hs.wf.1, hs.kdims]
  · rw [hs.wf.2.1, hs.one]
  · rw [hs.wf.2.2.1, hs.odims]
  · rw [hs.wf.2.2.2, hs.ddims]

theorem Box.fitsIn (hs : Box x s v fl f) (ht : Box x t w fl' g) : FitsIn t s where
  wx := hs.wf
  wy := ht.wf
  ograin := by rw [hs.ograin, ht.ograin]
  dgrain := Or.inl (by rw [hs.dgrain, ht.dgrain])
  keyLabels := by rw [hs.keyLabels, ht.keyLabels]
  kdims := Or.inl (by rw [hs.kdims, ht.kdims])
  vdims := Or.inr ⟨ht.one, by rw [hs.one]⟩
  odims := Or.inl (by rw [hs.odims, ht.odims])
  ddims := Or.inl ⟨by rw [hs.ddims, ht.ddims], by rw [hs.isVal, ht.isVal]⟩

/-- A later valuation date does not move the valuation of a cell. -/
theorem Box.valuation (hx : Grid x a n D q) (hs : Box x s v fl f) (hv : x.vd ≤ v) {o d : Nat} (ho : o < n) :
    s.valuation o d = x.valuation o d := by
  have hu : ¬ (x.ddims.getLast? = some 9999 ∧ d + 1 = x.ddims.length) := by
    rintro ⟨e, -⟩
    exact hx.not_ult (List.mem_of_getLast? e)
  have h1 := hx.origin_le ho
  unfold Tri.valuation valuationOf
  rw [hs.isVal, hs.odims, hs.ddims, hs.vd, hx.isVal]
  simp only [Bool.false_eq_true, if_false]
  rw [if_neg hu, if_neg hu, hx.getO ho, min_eq_left h1, min_eq_left (le_trans h1 hv)]

theorem Box.nanTri (hx : Grid x a n D q) (hs : Box x s v fl f) (hv : x.vd ≤ v) {o d : Nat} (ho : o < n) :
    s.nanTri o d = if v < x.valuation o d then .nan else 1 := by
  obtain ⟨-, -, e2, e3⟩ := hs.dims
  have h1 := hx.two_ages
  have h2 := hx.two_origins
  unfold Tri.nanTri
  rw [e2, e3, hx.lenO, hx.lenD, if_neg (by omega), hs.valuation hx hv ho, hs.vd]

/-- The part of a cell that `_arithmetic_cleanup` keeps. -/
def kept (x : Tri K) (v : Int) (o d : Nat) (y : Num K) : Num K :=
  (y * (if v < x.valuation o d then 0 else 1)).numToNan

theorem Box.cleanup (hx : Grid x a n D q) (hs : Box x s v fl f) (hv : x.vd ≤ v) :
    Box x s.cleanup v fl fun i o d => kept x v o d (f i o d) where
  wf := hs.wf
  kdims := hs.kdims
  keyLabels := hs.keyLabels
  one := hs.one
  odims := hs.odims
  ddims := hs.ddims
  isVal := hs.isVal
  ograin := hs.ograin
  dgrain := hs.dgrain
  vd := hs.vd
  flags := hs.flags
  cell := by
    intro i hi o ho d hd
    show (s.values.get i 0 o d * (s.nanTri o d).nanToNum).numToNan = _
    rw [hs.cell i hi o ho d hd, hs.nanTri hx hv (by rw [← hx.lenO]; exact ho)]
    unfold kept
    split_ifs <;> rfl

theorem Box.zipped (hs : Box x s v fl f) (ht : Box x t w fl' g)
    (op : Num K → Num K → Num K) :
    Box x (zipped op s t) (max v w) (fl.1, fl.2.1 && fl'.2.1, fl.2.2) fun i o d => op (f i o d) (g i o d) where
  wf := hs.wf
  kdims := hs.kdims
  keyLabels := hs.keyLabels
  one := hs.one
  odims := hs.odims
  ddims := hs.ddims
  isVal := hs.isVal
  ograin := hs.ograin
  dgrain := hs.dgrain
  vd := by
    show max s.vd t.vd = _
    rw [hs.vd, ht.vd]
  flags := by rw [← hs.flags, ← ht.flags]; rfl
  cell := by
    intro i hi o ho d hd
    show op (s.values.get i 0 o d) (bcell t.values s.values i 0 o d) = _
    rw [hs.cell i hi o ho d hd]
    congr 1
    unfold bcell
    obtain ⟨e0, e1, e2, e3⟩ := hs.dims
    obtain ⟨k0, k1, k2, k3⟩ := ht.dims
    rw [e0, e1, e2, e3, k0, k1, k2, k3, Arr.bix_self, Arr.bix_self, Arr.bix_self, Arr.bix_self]
    exact ht.cell i hi o ho d hd

theorem Box.add (hx : Grid x a n D q) (hs : Box x s v fl f) (ht : Box x t w fl' g) (hv : x.vd ≤ max v w) :
    ∃ r, s.add t = .ok r ∧ Box x r (max v w) (fl.1, fl.2.1 && fl'.2.1, fl.2.2)
      fun i o d => kept x (max v w) o d ((f i o d).nanToNum + (g i o d).nanToNum) :=
  ⟨_, add_fits (hs.fitsIn ht), (hs.zipped ht _).cleanup hx hv⟩

theorem Box.sub (hx : Grid x a n D q) (hs : Box x s v fl f) (ht : Box x t w fl' g) (hv : x.vd ≤ max v w) :
    ∃ r, s.sub t = .ok r ∧ Box x r (max v w) (fl.1, fl.2.1 && fl'.2.1, fl.2.2)
      fun i o d => kept x (max v w) o d ((f i o d).nanToNum - (g i o d).nanToNum) :=
  ⟨_, sub_fits (hs.fitsIn ht), (hs.zipped ht _).cleanup hx hv⟩

/-- With the cells known at the valuation date only, it is a triangle on the same grid. -/
theorem Box.grid (hx : Grid x a n D q) (hs : Box x s x.vd fl f)
    (hf : ∀ i < x.kdims.length, ∀ o < n, ∀ d < D, (f i o d).NoInf)
    (hk : ∀ i < x.kdims.length, ∀ o < n, ∀ d < D, D < q * o + d + 1 → f i o d = .nan) : Grid s a n D q where
  wf := hs.wf
  finite := by
    obtain ⟨e0, e1, e2, e3⟩ := hs.dims
    intro i hi c hc o ho d hd
    rw [e0] at hi
    rw [e2] at ho
    rw [e3] at hd
    have : c = 0 := by omega
    subst this
    rw [hs.cell i hi o ho d hd]
    rw [hx.lenO] at ho
    rw [hx.lenD] at hd
    exact hf i hi o ho d hd
  isVal := hs.isVal
  index_pos := by rw [hs.kdims]; exact hx.index_pos
  columns_pos := by rw [hs.one]
  two_origins := hx.two_origins
  period := hx.period
  recent := hx.recent
  odims := by rw [hs.odims, hs.dgrain]; exact hx.odims
  ddims := by rw [hs.ddims, hs.dgrain]; exact hx.ddims
  vd := by rw [hs.vd, hs.dgrain]; exact hx.vd
  short := by rw [hs.dgrain]; exact hx.short
  early := by rw [hs.vd]; exact hx.early
  known := by
    intro i hi c hc o ho d hd hlt
    rw [hs.kdims] at hi
    rw [hs.one] at hc
    have : c = 0 := by omega
    subst this
    rw [hs.cell i hi o (by rw [hx.lenO]; exact ho) d (by rw [hx.lenD]; exact hd)]
    exact hk i hi o ho d hd hlt

/-- One column of a triangle. -/
theorem Grid.colBox (hx : Grid x a n D q) {c : String} (hc : c ∈ x.vdims) :
    ∃ r, x.getCols [c] = .ok r ∧ Box x r x.vd x.flags fun i o d => x.values.get i (x.vdims.idxOf c) o d := by
  have hD := hx.two_ages
  have hn := hx.two_origins
  have hS : ∀ n, Sel n (.slc .all) (List.range n) := fun n => (selS_all n).sel
  have hlt : x.vdims.idxOf c < x.values.d1 := by
    rw [hx.wf.2.1]; exact List.idxOf_lt_length_iff.2 hc
  have hfs : fromStart x.values.d1 [(x.vdims.idxOf c : Int)] = [x.vdims.idxOf c] := by
    unfold fromStart
    simp only [List.map_cons, List.map_nil]
    rw [if_neg (by omega)]
    simp
  have hsel : Sel x.values.d1 (.lst [(x.vdims.idxOf c : Int)]) [x.vdims.idxOf c] := by
    rw [← hfs]
    apply sel_lst ⟨by simp, by simp; omega⟩
    rintro ⟨h, -⟩
    simp at h
  have w2 : x.values.d2 = n := by rw [hx.wf.2.2.1, hx.lenO]
  have w3 : x.values.d3 = D := by rw [hx.wf.2.2.2, hx.lenD]
  have ko : (List.range x.values.d2).map (x.odims.getD · 0) = x.odims := by
    rw [hx.wf.2.2.1]; exact map_getD_range _ _
  have kd : (List.range x.values.d3).map (x.ddims.getD · 0) = x.ddims := by
    rw [hx.wf.2.2.2]; exact map_getD_range _ _
  have kk : (List.range x.values.d0).map (x.kdims.getD · []) = x.kdims := by
    rw [hx.wf.1]; exact map_getD_range _ _
  have hvd : (((x.picked (List.range x.values.d0) [x.vdims.idxOf c] (List.range x.values.d2)
      (List.range x.values.d3) x.vd).valuations.max?).elim x.vd fun m => min m x.vd) = x.vd := by
    have hmem : x.vd ∈ (x.picked (List.range x.values.d0) [x.vdims.idxOf c] (List.range x.values.d2)
        (List.range x.values.d3) x.vd).valuations := by
      unfold valuations
      rw [List.mem_flatMap]
      refine ⟨D - 1, ?_, ?_⟩
      · show D - 1 ∈ List.range (List.length (List.map _ _))
        rw [kd, hx.lenD, List.mem_range]; omega
      · rw [List.mem_map]
        refine ⟨0, ?_, ?_⟩
        · show 0 ∈ List.range (List.length (List.map _ _))
          rw [ko, hx.lenO, List.mem_range]; omega
        · show valuationOf x.isVal (List.map _ _) (List.map _ _) x.vd 0 (D - 1) = _
          rw [kd, ko]
          exact hx.vd_eq.symm
    cases hm : (x.picked (List.range x.values.d0) [x.vdims.idxOf c] (List.range x.values.d2)
        (List.range x.values.d3) x.vd).valuations.max? with
    | none => rfl
    | some m =>
      have := (List.max?_eq_some_iff.1 hm).2 _ hmem
      exact min_eq_right this
  refine ⟨x.picked (List.range x.values.d0) [x.vdims.idxOf c] (List.range x.values.d2)
    (List.range x.values.d3) (((x.picked (List.range x.values.d0) [x.vdims.idxOf c]
      (List.range x.values.d2) (List.range x.values.d3) x.vd).valuations.max?).elim x.vd fun m => min m x.vd),
    ?_, ⟨?_, kk, rfl, rfl, ko, kd, hx.isVal, rfl, rfl, hvd, rfl, ?_⟩⟩
  · unfold getCols
    rw [if_pos (by simpa using hc)]
    show x.iloc _ (.lst [_]) _ _ = _
    rw [iloc_of_sel (hS _) hsel (selS_all _) (selS_all _), pick_eq x _ _ _ _ (Or.inr _)]
    exact List.ne_nil_of_mem (a := 0) (List.mem_range.2 (by omega))
  · refine ⟨?_, ?_, ?_, ?_⟩ <;> simp [picked, Arr.take]
  · intro i hi o ho d hd
    show x.values.get _ _ _ _ = _
    rw [← hx.wf.1] at hi
    rw [hx.lenO] at ho
    rw [hx.lenD] at hd
    simp [List.getD_eq_getElem?_getD, hi, w2, w3, ho, hd]

end
end Tri
end CL
