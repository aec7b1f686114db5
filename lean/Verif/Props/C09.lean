import Verif.Lemmas.Arith
import Verif.Spec.Examples

set_option linter.unusedSectionVars false

/-! # C09: addition and subtraction on common axes -/

namespace CL
namespace Tri
variable {K : Type} [Field K] [LinearOrder K] [IsStrictOrderedRing K]

/-- A later valuation date does not move the cells of an ordered triangle. -/
theorem known_later {x : Tri K} (ho : Ordered x) (hk : Known x) {v : Int}
    (wf : WF x) (hv : x.vd ≤ v) : Known { x with vd := v } := by
  intro i hi c hc o hoo d hd hgt
  apply hk i hi c hc o hoo d hd
  have : valuationOf x.isVal x.odims x.ddims v o d = x.valuation o d := by
    unfold valuation valuationOf
    rcases Bool.eq_false_or_eq_true x.isVal with h | h
    · simp [h]
    · have hom : x.odims.getD o 0 ∈ x.odims := by
        have : o < x.odims.length := by rw [← wf.2.2.1]; exact hoo
        rw [List.getD_eq_getElem _ _ this]; exact List.getElem_mem this
      have := (ho h).1 _ hom
      rw [min_eq_left this, min_eq_left (le_trans this hv)]
  have hgt' : valuationOf x.isVal x.odims x.ddims v o d > v := hgt
  rw [this] at hgt'
  exact lt_of_le_of_lt hv hgt'

theorem ordered_later {x : Tri K} (ho : Ordered x) {v : Int} (hv : x.vd ≤ v) :
    Ordered { x with vd := v } := by
  intro h
  obtain ⟨h1, h2, h3⟩ := ho h
  exact ⟨fun o hm => le_trans (h1 o hm) hv, h2, h3⟩

/-- The amounts of `z` are `f` of the amounts of `x` and `y`, cell by cell. -/
def CellAmounts (f : K → K → K) (x y z : Tri K) : Prop :=
  ∀ i < x.values.d0, ∀ c < x.values.d1, ∀ o < x.values.d2, ∀ d < x.values.d3,
    (z.values.get i c o d).amt = f (x.values.get i c o d).amt (y.values.get i c o d).amt

private theorem key (f : K → K → K) (g : Num K → Num K → Num K) (h0 : f 0 0 = 0)
    (hg : ∀ a b : K, g (.fin a) (.fin b) = .fin (f a b)) {x y : Tri K} (h : SameAxes x y)
    (hx : Regular x) (hy : Regular y) (z : Tri K)
    (hz : z = { x with
      isPattern := x.isPattern && y.isPattern, vd := max x.vd y.vd
      values := { x.values with get := fun i c o d =>
        (g (x.values.get i c o d).nanToNum (y.values.get i c o d).nanToNum *
          (nanTri { x with vd := max x.vd y.vd } o d).nanToNum).numToNan } }) :
    SameAxes z x ∧ z.vd = max x.vd y.vd ∧ Arr.SameShape z.values x.values ∧ Regular z ∧
      CellAmounts f x y z := by
  subst hz
  have kx := known_later hx.ordered hx.known hx.wf (le_max_left x.vd y.vd)
  have ky := known_later hy.ordered hy.known hy.wf (le_max_right x.vd y.vd)
  obtain ⟨s0, s1, s2, s3⟩ := h.shape hx.wf hy.wf
  have hval := h.valuationOf (max x.vd y.vd)
  have hcell : ∀ i < x.values.d0, ∀ c < x.values.d1, ∀ o < x.values.d2, ∀ d < x.values.d3,
      (g (x.values.get i c o d).nanToNum (y.values.get i c o d).nanToNum *
          (nanTri { x with vd := max x.vd y.vd } o d).nanToNum).numToNan =
        (Num.fin (f (x.values.get i c o d).amt (y.values.get i c o d).amt)).numToNan := by
    intro i hi c hc o ho d hd
    rw [Num.nanToNum_eq (hx.finite i hi c hc o ho d hd),
      Num.nanToNum_eq (hy.finite i (by omega) c (by omega) o (by omega) d (by omega)), hg]
    rcases nanTri_eq ({ x with vd := max x.vd y.vd } : Tri K) o d with hm | ⟨hm, hv⟩
    · rw [hm, Num.one_def]; simp
    · have e1 : x.values.get i c o d = .nan := kx i hi c hc o ho d hd hv
      have hv' : valuationOf x.isVal x.odims x.ddims (max x.vd y.vd) o d > max x.vd y.vd := hv
      rw [hval] at hv'
      have e2 : y.values.get i c o d = .nan :=
        ky i (show i < y.values.d0 by omega) c (show c < y.values.d1 by omega) o
          (show o < y.values.d2 by omega) d (show d < y.values.d3 by omega) hv'
      rw [hm, e1, e2]; simp [h0]
  refine ⟨⟨rfl, rfl, rfl, rfl, rfl, rfl, rfl, rfl⟩, rfl, ⟨rfl, rfl, rfl, rfl⟩, ⟨?_, ?_, ?_, ?_⟩, ?_⟩
  · exact hx.wf
  · exact ordered_later hx.ordered (le_max_left x.vd y.vd)
  · intro i hi c hc o ho d hd
    have := hcell i hi c hc o ho d hd
    show Num.NoInf (Num.numToNan _)
    rw [this]; exact Num.noInf_numToNan (by simp)
  · intro i hi c hc o ho d hd hv
    have := hcell i hi c hc o ho d hd
    show Num.numToNan _ = _
    rw [this]
    have e1 : x.values.get i c o d = .nan := kx i hi c hc o ho d hd hv
    have hv' : valuationOf x.isVal x.odims x.ddims (max x.vd y.vd) o d > max x.vd y.vd := hv
    rw [hval] at hv'
    have hi' : i < x.values.d0 := hi
    have hc' : c < x.values.d1 := hc
    have ho' : o < x.values.d2 := ho
    have hd' : d < x.values.d3 := hd
    have e2 : y.values.get i c o d = .nan :=
      ky i (show i < y.values.d0 by omega) c (show c < y.values.d1 by omega) o
        (show o < y.values.d2 by omega) d (show d < y.values.d3 by omega) hv'
    rw [e1, e2]; simp [h0]
  · intro i hi c hc o ho d hd
    show (Num.numToNan _).amt = _
    rw [hcell i hi c hc o ho d hd]
    simp

/-- **C09, addition is cell-wise.**  For ordinary triangles on common axes the sum exists, is an
ordinary triangle on the same axes valued at the later date, and each of its amounts is the sum of
the two amounts. -/
theorem C09_add {x y : Tri K} (h : SameAxes x y) (hx : Regular x) (hy : Regular y) :
    ∃ z, x.add y = .ok z ∧ SameAxes z x ∧ z.vd = max x.vd y.vd ∧
      Arr.SameShape z.values x.values ∧ Regular z ∧ CellAmounts (· + ·) x y z :=
  ⟨_, add_same h hx.wf hy.wf, key (· + ·) (· + ·) (by simp) (by simp) h hx hy _ rfl⟩

/-- **C09, subtraction is cell-wise.** -/
theorem C09_sub {x y : Tri K} (h : SameAxes x y) (hx : Regular x) (hy : Regular y) :
    ∃ z, x.sub y = .ok z ∧ SameAxes z x ∧ z.vd = max x.vd y.vd ∧
      Arr.SameShape z.values x.values ∧ Regular z ∧ CellAmounts (· - ·) x y z :=
  ⟨_, sub_same h hx.wf hy.wf, key (· - ·) (· - ·) (by simp) (by simp) h hx hy _ rfl⟩

/-- **C09, commutativity.** -/
theorem C09_comm {x y : Tri K} (h : SameAxes x y) (hx : Regular x) (hy : Regular y) :
    ∃ z w, x.add y = .ok z ∧ y.add x = .ok w ∧ SameAxes z w ∧ z.vd = w.vd ∧
      SameAmounts z.values w.values := by
  obtain ⟨z, e1, a1, v1, s1, -, c1⟩ := C09_add h hx hy
  obtain ⟨w, e2, a2, v2, s2, -, c2⟩ := C09_add h.symm hy hx
  obtain ⟨t0, t1, t2, t3⟩ := h.shape hx.wf hy.wf
  obtain ⟨p0, p1, p2, p3⟩ := s1
  obtain ⟨q0, q1, q2, q3⟩ := s2
  refine ⟨z, w, e1, e2, a1.trans (h.trans a2.symm), by rw [v1, v2, max_comm],
    ⟨⟨by omega, by omega, by omega, by omega⟩, ?_⟩⟩
  intro i hi c hc o ho d hd
  rw [c1 i (by omega) c (by omega) o (by omega) d (by omega),
    c2 i (by omega) c (by omega) o (by omega) d (by omega)]
  exact add_comm _ _

/-- **C09, associativity.** -/
theorem C09_assoc {x y z : Tri K} (h : SameAxes x y) (h' : SameAxes y z) (hx : Regular x)
    (hy : Regular y) (hz : Regular z) :
    ∃ a b l r, x.add y = .ok a ∧ a.add z = .ok l ∧ y.add z = .ok b ∧ x.add b = .ok r ∧
      SameAxes l r ∧ l.vd = r.vd ∧ SameAmounts l.values r.values := by
  obtain ⟨a, e1, a1, v1, s1, r1, c1⟩ := C09_add h hx hy
  obtain ⟨b, e2, a2, v2, s2, r2, c2⟩ := C09_add h' hy hz
  obtain ⟨l, e3, a3, v3, s3, -, c3⟩ := C09_add (a1.trans (h.trans h')) r1 hz
  obtain ⟨r, e4, a4, v4, s4, -, c4⟩ := C09_add (h.trans a2.symm) hx r2
  obtain ⟨t0, t1, t2, t3⟩ := h.shape hx.wf hy.wf
  obtain ⟨p0, p1, p2, p3⟩ := s1
  obtain ⟨q0, q1, q2, q3⟩ := s2
  obtain ⟨m0, m1, m2, m3⟩ := s3
  obtain ⟨n0, n1, n2, n3⟩ := s4
  refine ⟨a, b, l, r, e1, e3, e2, e4, (a3.trans a1).trans a4.symm,
    by rw [v3, v4, v1, v2, max_assoc], ⟨⟨by omega, by omega, by omega, by omega⟩, ?_⟩⟩
  intro i hi c hc o ho d hd
  rw [c3 i (by omega) c (by omega) o (by omega) d (by omega),
    c4 i (by omega) c (by omega) o (by omega) d (by omega),
    c1 i (by omega) c (by omega) o (by omega) d (by omega),
    c2 i (by omega) c (by omega) o (by omega) d (by omega)]
  exact add_assoc _ _ _

/-- **C09, `x - x` is empty**: every cell is missing. -/
theorem C09_sub_self {x : Tri K} (hx : Regular x) :
    ∃ z, x.sub x = .ok z ∧ SameAxes z x ∧
      ∀ i < x.values.d0, ∀ c < x.values.d1, ∀ o < x.values.d2, ∀ d < x.values.d3,
        z.values.get i c o d = .nan := by
  have h : SameAxes x x := ⟨rfl, rfl, rfl, rfl, rfl, rfl, rfl, rfl⟩
  refine ⟨_, sub_same h hx.wf hx.wf, ⟨rfl, rfl, rfl, rfl, rfl, rfl, rfl, rfl⟩, ?_⟩
  intro i hi c hc o ho d hd
  show (((x.values.get i c o d).nanToNum - (x.values.get i c o d).nanToNum) * _).numToNan = _
  obtain ⟨a, ha⟩ := Num.nanToNum_isFin (x.values.get i c o d)
  obtain ⟨m, hm⟩ := Num.nanToNum_isFin (nanTri { x with vd := max x.vd x.vd } o d)
  rw [ha, hm]; simp

/-- **C09, subtraction undoes addition.** -/
theorem C09_add_sub {x y : Tri K} (h : SameAxes x y) (hx : Regular x) (hy : Regular y) :
    ∃ z w, x.add y = .ok z ∧ z.sub y = .ok w ∧ SameAxes w x ∧ SameAmounts w.values x.values := by
  obtain ⟨z, e1, a1, v1, s1, r1, c1⟩ := C09_add h hx hy
  obtain ⟨w, e2, a2, v2, s2, -, c2⟩ := C09_sub (a1.trans h) r1 hy
  obtain ⟨p0, p1, p2, p3⟩ := s1
  obtain ⟨q0, q1, q2, q3⟩ := s2
  refine ⟨z, w, e1, e2, a2.trans a1, ⟨⟨by omega, by omega, by omega, by omega⟩, ?_⟩⟩
  intro i hi c hc o ho d hd
  rw [c2 i (by omega) c (by omega) o (by omega) d (by omega), c1 i hi c hc o ho d hd]
  exact add_sub_cancel_right _ _

/-- **C09, `sum([x1, ..., xn])` is the cell-wise total** (`0 + x1` being `x1`). -/
theorem C09_sum {x : Tri K} {l : List (Tri K)} (hx : Regular x)
    (hl : ∀ y ∈ l, SameAxes x y ∧ Regular y) :
    ∃ z, pySum (x :: l) = .ok z ∧ SameAxes z x ∧ Arr.SameShape z.values x.values ∧
      ∀ i < x.values.d0, ∀ c < x.values.d1, ∀ o < x.values.d2, ∀ d < x.values.d3,
        (z.values.get i c o d).amt = ((x :: l).map fun y => (y.values.get i c o d).amt).sum := by
  unfold pySum
  induction l generalizing x with
  | nil =>
    exact ⟨x, rfl, ⟨rfl, rfl, rfl, rfl, rfl, rfl, rfl, rfl⟩, ⟨rfl, rfl, rfl, rfl⟩, by simp⟩
  | cons y l ih =>
    obtain ⟨hy1, hy2⟩ := hl y (by simp)
    obtain ⟨z, e1, a1, v1, s1, r1, c1⟩ := C09_add hy1 hx hy2
    obtain ⟨p0, p1, p2, p3⟩ := s1
    obtain ⟨w, e2, a2, s2, c2⟩ := ih r1 (fun y' h' => ⟨a1.trans (hl y' (by simp [h'])).1,
      (hl y' (by simp [h'])).2⟩)
    obtain ⟨q0, q1, q2, q3⟩ := s2
    refine ⟨w, ?_, a2.trans a1, ⟨by omega, by omega, by omega, by omega⟩, ?_⟩
    · show List.foldlM add x (y :: l) = _
      rw [List.foldlM_cons, e1]; exact e2
    · intro i hi c hc o ho d hd
      rw [c2 i (by omega) c (by omega) o (by omega) d (by omega)]
      simp only [List.map_cons, List.sum_cons]
      rw [c1 i hi c hc o ho d hd, add_assoc]

example : ∃ z, pySum [Ex.tri3 (some true) Ex.cum3, Ex.tri3 (some true) Ex.cum3,
    Ex.tri3 (some true) Ex.cum3] = .ok z ∧ (z.values.get 0 0 1 1).amt = 504 := by
  have hr := (Ex.proper_tri3 (some true)).regular
  have hs : SameAxes (Ex.tri3 (some true) Ex.cum3) (Ex.tri3 (some true) Ex.cum3) :=
    ⟨rfl, rfl, rfl, rfl, rfl, rfl, rfl, rfl⟩
  obtain ⟨z, e, -, -, h⟩ := C09_sum (l := [Ex.tri3 (some true) Ex.cum3,
    Ex.tri3 (some true) Ex.cum3]) hr (by intro y hy; simp at hy; subst hy; exact ⟨hs, hr⟩)
  refine ⟨z, e, ?_⟩
  rw [h 0 (by decide) 0 (by decide) 1 (by decide) 1 (by decide)]
  decide +kernel

/-- A second triangle on the axes of `Ex.tri3`, valued some months earlier. -/
def C09_earlier : Tri ℚ :=
  { Ex.tri3 (some true) fun o d => if o + d < 2 then .fin (-7) else .nan with vd := 24264 }

example : ∃ z w, (Ex.tri3 (some true) Ex.cum3).add C09_earlier = .ok z ∧
    C09_earlier.add (Ex.tri3 (some true) Ex.cum3) = .ok w ∧ SameAmounts z.values w.values := by
  have hr : Regular C09_earlier := ⟨by decide, by decide, by decide, by decide⟩
  obtain ⟨z, w, h1, h2, -, -, h3⟩ := C09_comm (x := Ex.tri3 (some true) Ex.cum3) (y := C09_earlier)
    ⟨rfl, rfl, rfl, rfl, rfl, rfl, rfl, rfl⟩ (Ex.proper_tri3 (some true)).regular hr
  exact ⟨z, w, h1, h2, h3⟩

end Tri
end CL
