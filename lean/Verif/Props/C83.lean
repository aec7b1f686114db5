import Verif.Model.Ufunc
import Verif.Props.C09

set_option linter.unusedSectionVars false

/-! # C83: minimum and maximum -/

namespace CL
namespace Num
variable {K : Type} [Field K] [LinearOrder K] [IsStrictOrderedRing K]

theorem least_fin (a b : K) : least (.fin a) (.fin b) = .fin (min a b) := by
  unfold least
  simp only [isNan, ltb, Bool.or_self, Bool.false_eq_true, if_false, decide_eq_true_eq]
  split_ifs with h
  · rw [min_eq_right h.le]
  · rw [min_eq_left (not_lt.mp h)]

theorem greatest_fin (a b : K) : greatest (.fin a) (.fin b) = .fin (max a b) := by
  unfold greatest
  simp only [isNan, ltb, Bool.or_self, Bool.false_eq_true, if_false, decide_eq_true_eq]
  split_ifs with h
  · rw [max_eq_right h.le]
  · rw [max_eq_left (not_lt.mp h)]

theorem least_nan (b : Num K) : least .nan b = .nan := by simp [least, isNan]
theorem least_nan' (b : Num K) : least b .nan = .nan := by simp [least, isNan]
theorem greatest_nan (b : Num K) : greatest .nan b = .nan := by simp [greatest, isNan]
theorem greatest_nan' (b : Num K) : greatest b .nan = .nan := by simp [greatest, isNan]

end Num

namespace Tri
variable {K : Type} [Field K] [LinearOrder K] [IsStrictOrderedRing K]

theorem sameAxes_refl (x : Tri K) : SameAxes x x := ⟨rfl, rfl, rfl, rfl, rfl, rfl, rfl, rfl⟩

theorem ufunc_scalar (f : Num K → Num K → Num K) (x : Tri K) (a : Num K) :
    x.ufunc f (Arr.scalar a) = .ok { x with values := { x.values with get := fun i c o d =>
      (f (x.values.get i c o d) a) } } := by
  unfold ufunc
  rw [Arr.zip_scalar]
  rfl

theorem ufunc_same (f : Num K → Num K → Num K) {x : Tri K} {a : Arr K} (h : Arr.SameShape x.values a) :
    x.ufunc f a = .ok { x with values := { x.values with get := fun i c o d =>
      (f (x.values.get i c o d) (a.get i c o d)) } } := by
  unfold ufunc
  rw [Arr.zip_same _ h]
  rfl

/-- New cells that are finite or missing, and missing where they were, leave an ordinary triangle. -/
theorem regular_cells {x : Tri K} (hx : Regular x) (g : Nat → Nat → Nat → Nat → Num K)
    (hg : ∀ i < x.values.d0, ∀ c < x.values.d1, ∀ o < x.values.d2, ∀ d < x.values.d3, (g i c o d).NoInf ∧
      (x.values.get i c o d = .nan → g i c o d = .nan)) :
    Regular { x with values := { x.values with get := g } } := by
  refine ⟨hx.wf, hx.ordered, ?_, ?_⟩
  · intro i hi c hc o ho d hd
    exact (hg i hi c hc o ho d hd).1
  · intro i hi c hc o ho d hd hv
    exact (hg i hi c hc o ho d hd).2 (hx.known i hi c hc o ho d hd hv)

/-- The amounts of `u` are those of `x`, each through `f`. -/
def EachAmount (f : K → K) (x u : Tri K) : Prop :=
  ∀ i < x.values.d0, ∀ c < x.values.d1, ∀ o < x.values.d2, ∀ d < x.values.d3,
    (u.values.get i c o d).amt = f (x.values.get i c o d).amt

/-- **C83 (limit).**  `x.minimum(cap)` with a limit that is not negative succeeds, keeps the labels, the valuation date and the
missing cells, and limits every amount. -/
theorem C83_limit {x : Tri K} (hx : Regular x) {cap : K} (h0 : 0 ≤ cap) :
    ∃ m, x.minimum (Arr.scalar (.fin cap)) = .ok m ∧ SameAxes m x ∧ m.vd = x.vd ∧ Arr.SameShape m.values x.values ∧
      Regular m ∧ EachAmount (min · cap) x m := by
  refine ⟨_, ufunc_scalar _ x _, sameAxes_refl x, rfl, ⟨rfl, rfl, rfl, rfl⟩,
    regular_cells hx _ ?_, ?_⟩
  · intro i hi c hc o ho d hd
    rcases Num.noInf_cases (hx.finite i hi c hc o ho d hd) with e | ⟨a, e⟩
    · rw [e, Num.least_nan]; exact ⟨trivial, fun _ => rfl⟩
    · rw [e, Num.least_fin]; exact ⟨trivial, fun h => by simp at h⟩
  · intro i hi c hc o ho d hd
    show (Num.least (x.values.get i c o d) (.fin cap)).amt = _
    rcases Num.noInf_cases (hx.finite i hi c hc o ho d hd) with e | ⟨a, e⟩
    · rw [e, Num.least_nan]
      show (0 : K) = min 0 cap
      rw [min_eq_left h0]
    · rw [e, Num.least_fin]; rfl

/-- **C83 (layers).**  What is above the limit is `x - x.minimum(cap)`, never negative, and both layers together are the
triangle again. -/
theorem C83_layers {x : Tri K} (hx : Regular x) {cap : K} (h0 : 0 ≤ cap) :
    ∃ m e z, x.minimum (Arr.scalar (.fin cap)) = .ok m ∧ x.sub m = .ok e ∧ m.add e = .ok z ∧
      EachAmount (fun a => max (a - cap) 0) x e ∧ SameAxes z x ∧ z.vd = x.vd ∧ SameAmounts z.values x.values := by
  obtain ⟨m, em, am, vm, ⟨p0, p1, p2, p3⟩, rm, cm⟩ := C83_limit hx h0
  obtain ⟨e, ee, ae, ve, ⟨q0, q1, q2, q3⟩, re, ce⟩ := C09_sub am.symm hx rm
  obtain ⟨z, ez, az, vz, ⟨r0, r1, r2, r3⟩, -, cz⟩ := C09_add (am.trans ae.symm) rm re
  refine ⟨m, e, z, em, ee, ez, ?_, az.trans am, ?_, ⟨⟨by omega, by omega, by omega, by omega⟩, ?_⟩⟩
  · intro i hi c hc o ho d hd
    rw [ce i hi c hc o ho d hd, cm i hi c hc o ho d hd]
    simp only
    rcases le_total (x.values.get i c o d).amt cap with h | h
    · rw [min_eq_left h, sub_self, max_eq_right (sub_nonpos.mpr h)]
    · rw [min_eq_right h, max_eq_left (sub_nonneg.mpr h)]
  · rw [vz, ve, vm]; simp
  · intro i hi c hc o ho d hd
    have hi' : i < x.values.d0 := by omega
    have hc' : c < x.values.d1 := by omega
    have ho' : o < x.values.d2 := by omega
    have hd' : d < x.values.d3 := by omega
    rw [cz i (by omega) c (by omega) o (by omega) d (by omega), ce i hi' c hc' o ho' d hd',
      cm i hi' c hc' o ho' d hd']
    ring

/-- **C83 (layer between two limits).**  `x.minimum(b) - x.minimum(a)` is the part of every amount between the two limits. -/
theorem C83_between {x : Tri K} (hx : Regular x) {a b : K} (ha : 0 ≤ a) (hab : a ≤ b) :
    ∃ m n l, x.minimum (Arr.scalar (.fin a)) = .ok m ∧ x.minimum (Arr.scalar (.fin b)) = .ok n ∧ n.sub m = .ok l ∧
      SameAxes l x ∧ l.vd = x.vd ∧ EachAmount (fun v => min (max (v - a) 0) (b - a)) x l := by
  obtain ⟨m, em, am, vm, -, rm, cm⟩ := C83_limit hx ha
  obtain ⟨n, en, an, vn, ⟨p0, p1, p2, p3⟩, rn, cn⟩ := C83_limit hx (ha.trans hab)
  obtain ⟨l, el, al, vl, -, -, cl⟩ := C09_sub (an.trans am.symm) rn rm
  refine ⟨m, n, l, em, en, el, al.trans an, by rw [vl, vm, vn, max_self], ?_⟩
  intro i hi c hc o ho d hd
  rw [cl i (by omega) c (by omega) o (by omega) d (by omega), cm i hi c hc o ho d hd, cn i hi c hc o ho d hd]
  simp only
  generalize (x.values.get i c o d).amt = v
  rcases le_total v a with h | h
  · rw [min_eq_left h, min_eq_left (h.trans hab), max_eq_right (sub_nonpos.mpr h), sub_self,
      min_eq_left (sub_nonneg.mpr hab)]
  · rw [min_eq_right h, max_eq_left (sub_nonneg.mpr h)]
    rcases le_total v b with h' | h'
    · rw [min_eq_left h', min_eq_left (by linarith)]
    · rw [min_eq_right h', min_eq_right (by linarith)]

/-- **C83 is false of negative limits**: a missing cell counts as zero and stays above the limit. -/
theorem C83_limit_false {x : Tri K} {cap : K} (h0 : cap < 0) {i c o d : Nat} (h : x.values.get i c o d = .nan) :
    ∃ m, x.minimum (Arr.scalar (.fin cap)) = .ok m ∧ (x.values.get i c o d).amt = 0 ∧
      (m.values.get i c o d).amt ≠ min 0 cap := by
  refine ⟨_, ufunc_scalar _ x _, by rw [h]; rfl, ?_⟩
  show (Num.least (x.values.get i c o d) (.fin cap)).amt ≠ _
  rw [h, Num.least_nan, min_eq_right h0.le]
  exact h0.ne'

/-- **C83 (two limits).**  Two limits one after the other are the lower one. -/
theorem C83_twice {x : Tri K} (hx : Regular x) {a b : K} (ha : 0 ≤ a) (hb : 0 ≤ b) :
    ∃ m n, x.minimum (Arr.scalar (.fin a)) = .ok m ∧ m.minimum (Arr.scalar (.fin b)) = .ok n ∧
      EachAmount (min · (min a b)) x n := by
  obtain ⟨m, em, -, -, ⟨p0, p1, p2, p3⟩, rm, cm⟩ := C83_limit hx ha
  obtain ⟨n, en, -, -, -, -, cn⟩ := C83_limit rm hb
  refine ⟨m, n, em, en, ?_⟩
  intro i hi c hc o ho d hd
  rw [cn i (by omega) c (by omega) o (by omega) d (by omega), cm i hi c hc o ho d hd]
  exact min_assoc _ _ _

/-- No amount is negative. -/
def NonNeg (x : Tri K) : Prop :=
  ∀ i < x.values.d0, ∀ c < x.values.d1, ∀ o < x.values.d2, ∀ d < x.values.d3, 0 ≤ (x.values.get i c o d).amt

/-- **C83 (two triangles), partial: amounts that are not negative, on common axes.**  `x.minimum(y)` has the lower of the two
amounts in every cell. -/
theorem C83_minimum_partial {x y : Tri K} (h : SameAxes x y) (hx : Regular x) (hy : Regular y) (px : NonNeg x)
    (py : NonNeg y) :
    ∃ m, x.minimum y.values = .ok m ∧ SameAxes m x ∧ Regular m ∧ CellAmounts min x y m := by
  obtain ⟨s0, s1, s2, s3⟩ := h.shape hx.wf hy.wf
  refine ⟨_, ufunc_same _ (h.shape hx.wf hy.wf), sameAxes_refl x,
    regular_cells hx _ ?_, ?_⟩
  · intro i hi c hc o ho d hd
    rcases Num.noInf_cases (hx.finite i hi c hc o ho d hd) with e | ⟨a, e⟩
    · rw [e, Num.least_nan]; exact ⟨trivial, fun _ => rfl⟩
    · rcases Num.noInf_cases (hy.finite i (by omega) c (by omega) o (by omega) d (by omega)) with e' | ⟨b, e'⟩
      · rw [e, e', Num.least_nan']; exact ⟨trivial, fun _ => rfl⟩
      · rw [e, e', Num.least_fin]; exact ⟨trivial, fun h => by simp at h⟩
  · intro i hi c hc o ho d hd
    have p := px i hi c hc o ho d hd
    have q := py i (by omega) c (by omega) o (by omega) d (by omega)
    show (Num.least (x.values.get i c o d) (y.values.get i c o d)).amt = _
    rcases Num.noInf_cases (hx.finite i hi c hc o ho d hd) with e | ⟨a, e⟩
    · rw [e, Num.least_nan]
      show (0 : K) = min 0 _
      rw [min_eq_left q]
    · rcases Num.noInf_cases (hy.finite i (by omega) c (by omega) o (by omega) d (by omega)) with e' | ⟨b, e'⟩
      · rw [e] at p
        rw [e, e', Num.least_nan']
        show (0 : K) = min a 0
        exact (min_eq_right p).symm
      · rw [e, e', Num.least_fin]; rfl

/-- The same cells are missing. -/
def SameMissing (x y : Tri K) : Prop :=
  ∀ i < x.values.d0, ∀ c < x.values.d1, ∀ o < x.values.d2, ∀ d < x.values.d3,
    (x.values.get i c o d = .nan ↔ y.values.get i c o d = .nan)

/-- **C83 (maximum), partial: the same cells are missing.**  `x.maximum(y)` and `x.minimum(y)` have the higher and the lower
amount of every cell, and together they are `x + y`. -/
theorem C83_maximum_partial {x y : Tri K} (h : SameAxes x y) (hx : Regular x) (hy : Regular y) (hm : SameMissing x y) :
    ∃ m n s r, x.minimum y.values = .ok m ∧ x.maximum y.values = .ok n ∧ CellAmounts min x y m ∧
      CellAmounts max x y n ∧ m.add n = .ok s ∧ x.add y = .ok r ∧ SameAmounts s.values r.values := by
  obtain ⟨s0, s1, s2, s3⟩ := h.shape hx.wf hy.wf
  have cell : ∀ i < x.values.d0, ∀ c < x.values.d1, ∀ o < x.values.d2, ∀ d < x.values.d3,
      (x.values.get i c o d = .nan ∧ y.values.get i c o d = .nan) ∨
      ∃ a b, x.values.get i c o d = .fin a ∧ y.values.get i c o d = .fin b := by
    intro i hi c hc o ho d hd
    have := hm i hi c hc o ho d hd
    rcases Num.noInf_cases (hx.finite i hi c hc o ho d hd) with e | ⟨a, e⟩
    · exact Or.inl ⟨e, this.mp e⟩
    · rcases Num.noInf_cases (hy.finite i (by omega) c (by omega) o (by omega) d (by omega)) with e' | ⟨b, e'⟩
      · rw [this.mpr e'] at e; simp at e
      · exact Or.inr ⟨a, b, e, e'⟩
  have one : ∀ (f : Num K → Num K → Num K) (g : K → K → K), (∀ b, f .nan b = .nan) → g 0 0 = 0 →
      (∀ a b, f (.fin a) (.fin b) = .fin (g a b)) →
      ∃ m, x.ufunc f y.values = .ok m ∧ SameAxes m x ∧ Arr.SameShape m.values x.values ∧ Regular m ∧
        CellAmounts g x y m := by
    intro f g fn g0 ff
    refine ⟨_, ufunc_same _ (h.shape hx.wf hy.wf), sameAxes_refl x,
      ⟨rfl, rfl, rfl, rfl⟩, regular_cells hx _ ?_, ?_⟩
    · intro i hi c hc o ho d hd
      rcases cell i hi c hc o ho d hd with ⟨e, e'⟩ | ⟨a, b, e, e'⟩
      · rw [e, fn]; exact ⟨trivial, fun _ => rfl⟩
      · rw [e, e', ff]; exact ⟨trivial, fun h => by simp at h⟩
    · intro i hi c hc o ho d hd
      show (f (x.values.get i c o d) (y.values.get i c o d)).amt = _
      rcases cell i hi c hc o ho d hd with ⟨e, e'⟩ | ⟨a, b, e, e'⟩
      · rw [e, e', fn]; exact g0.symm
      · rw [e, e', ff]; rfl
  obtain ⟨m, em, am, ⟨m0, m1, m2, m3⟩, rm, cm⟩ := one Num.least min Num.least_nan (min_self 0) Num.least_fin
  obtain ⟨n, en, an, ⟨n0, n1, n2, n3⟩, rn, cn⟩ := one Num.greatest max Num.greatest_nan (max_self 0) Num.greatest_fin
  obtain ⟨s, es, -, -, ⟨t0, t1, t2, t3⟩, -, cs⟩ := C09_add (am.trans an.symm) rm rn
  obtain ⟨r, er, -, -, ⟨r0, r1, r2, r3⟩, -, cr⟩ := C09_add h hx hy
  refine ⟨m, n, s, r, em, en, cm, cn, es, er, ⟨⟨by omega, by omega, by omega, by omega⟩, ?_⟩⟩
  intro i hi c hc o ho d hd
  rw [cs i (by omega) c (by omega) o (by omega) d (by omega),
    cr i (by omega) c (by omega) o (by omega) d (by omega),
    cm i (by omega) c (by omega) o (by omega) d (by omega),
    cn i (by omega) c (by omega) o (by omega) d (by omega)]
  exact min_add_max _ _

/-- Two origins and two ages, with one amount that is zero and therefore missing. -/
private def zeroFirst : Tri ℚ :=
  { Ex.tri3 (some true) Ex.cum3 with
    values := ⟨1, 1, 3, 3, fun _ _ o d => if o = 0 ∧ d = 0 then .nan else Ex.cum3 o d⟩ }

private def withRows (rows : List (List String)) (f : Nat → ℚ) : Tri ℚ :=
  { Ex.tri3 (some true) Ex.cum3 with
    kdims := rows
    keyLabels := ["lob"]
    values := ⟨rows.length, 1, 3, 3, fun i _ o d => Ex.cum3 o d * .fin (f i)⟩ }

/-- **C83 is false of `maximum` and zeros**: an amount of zero is stored as missing and stays missing below any floor. -/
theorem C83_maximum_false : ∃ x m : Tri ℚ, WF x ∧ x.maximum (Arr.scalar (.fin 5)) = .ok m ∧
    x.nanTri 0 0 = 1 ∧ (x.values.get 0 0 0 0).amt = 0 ∧ (m.values.get 0 0 0 0).amt ≠ max 0 5 := by
  refine ⟨zeroFirst, _, ⟨rfl, rfl, rfl, rfl⟩, rfl, ?_, ?_, ?_⟩ <;> decide +kernel

/-- **C83 is false of triangles with other labels**, which arithmetic would align: the array of the other triangle
is taken as it is.  With more rows than the triangle has, the result has more rows than labels. -/
theorem C83_shape_false : ∃ x y m : Tri ℚ, WF x ∧ WF y ∧ x.minimum y.values = .ok m ∧ ¬ WF m := by
  refine ⟨withRows [["a"]] fun _ => 1, withRows [["a"], ["b"]] fun i => i + 1, _, ⟨rfl, rfl, rfl, rfl⟩,
    ⟨rfl, rfl, rfl, rfl⟩, rfl, ?_⟩
  intro h
  have : (2 : Nat) = 1 := h.1
  omega

/-- **C83 is false of rows in another order**: the minimum of a triangle and the same triangle with its rows in another order is
not that triangle. -/
theorem C83_order_false : ∃ x y m : Tri ℚ, WF x ∧ WF y ∧ x.kdims.Nodup ∧ y.kdims = x.kdims.reverse ∧
    (∀ i < 2, y.values.get (1 - i) 0 0 0 = x.values.get i 0 0 0) ∧ x.minimum y.values = .ok m ∧
    m.kdims = x.kdims ∧ (m.values.get 1 0 0 0).amt ≠ (x.values.get 1 0 0 0).amt := by
  refine ⟨withRows [["a"], ["b"]] fun i => i + 1, withRows [["b"], ["a"]] fun i => 2 - i, _, ⟨rfl, rfl, rfl, rfl⟩,
    ⟨rfl, rfl, rfl, rfl⟩, by decide, rfl, by decide +kernel, rfl, rfl, by decide +kernel⟩

/-- A limit of 120 on the example triangle. -/
example : ∃ m : Tri ℚ, (Ex.tri3 (some true) Ex.cum3).minimum (Arr.scalar (.fin 120)) = .ok m ∧
    m.values.get 0 0 0 0 = .fin 100 ∧ m.values.get 0 0 0 1 = .fin 120 ∧ m.values.get 0 0 2 2 = .nan := by
  refine ⟨_, rfl, ?_, ?_, ?_⟩ <;> decide +kernel

end Tri
end CL
