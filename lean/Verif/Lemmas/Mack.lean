import Verif.Model.Mack
import Verif.Lemmas.FullRun

set_option linter.unusedSectionVars false

/-! # The Mack recursion on arrays -/

namespace CL
namespace Arr
variable {K : Type} [Field K] [LinearOrder K] [IsStrictOrderedRing K]

/-- The shape of an array. -/
def Dims (a : Arr K) (I C O D : Nat) : Prop := a.d0 = I ∧ a.d1 = C ∧ a.d2 = O ∧ a.d3 = D

/-- The first three axes can be broadcast to the lengths given; there are `D` columns. -/
def Up (a : Arr K) (I C O D : Nat) : Prop :=
  (a.d0 = I ∨ a.d0 = 1) ∧ (a.d1 = C ∨ a.d1 = 1) ∧ (a.d2 = O ∨ a.d2 = 1) ∧ a.d3 = D

theorem Dims.up {a : Arr K} {I C O D : Nat} (h : a.Dims I C O D) : a.Up I C O D :=
  ⟨Or.inl h.1, Or.inl h.2.1, Or.inl h.2.2.1, h.2.2.2⟩

/-- A cell of an array broadcast to the lengths given. -/
def lift (a : Arr K) (I C O i c o d : Nat) : Num K :=
  a.get (bix a.d0 I i) (bix a.d1 C c) (bix a.d2 O o) d

theorem Dims.lift {a : Arr K} {I C O D : Nat} (h : a.Dims I C O D) (i c o d : Nat) :
    a.lift I C O i c o d = a.get i c o d := by
  unfold Arr.lift
  rw [h.1, h.2.1, h.2.2.1, bix_self, bix_self, bix_self]

theorem bdim_up {m n : Nat} (h : m = n ∨ m = 1) : bdim m n = some n := by
  unfold bdim
  rcases h with h | h
  · rw [if_pos h, h]
  · subst h
    split_ifs <;> simp_all

/-- Two arrays with the same number of columns, of which the second one has the full shape. -/
theorem zip_up (f : Num K → Num K → Num K) {a b : Arr K} {I C O D : Nat} (ha : a.Up I C O D)
    (hb : b.Dims I C O D) : ∃ r, zip f a b = .ok r ∧ r.Dims I C O D ∧
      ∀ i c o d, r.get i c o d = f (a.lift I C O i c o d) (b.get i c o d) := by
  obtain ⟨a0, a1, a2, a3⟩ := ha
  obtain ⟨b0, b1, b2, b3⟩ := hb
  unfold zip
  rw [b0, b1, b2, b3, a3, bdim_up a0, bdim_up a1, bdim_up a2, bdim_up (Or.inl rfl)]
  refine ⟨_, rfl, ⟨rfl, rfl, rfl, rfl⟩, ?_⟩
  intro i c o d
  unfold lift
  simp only [bix_self]

theorem zip_up' (f : Num K → Num K → Num K) {a b : Arr K} {I C O D : Nat} (ha : a.Dims I C O D)
    (hb : b.Up I C O D) : ∃ r, zip f a b = .ok r ∧ r.Dims I C O D ∧
      ∀ i c o d, r.get i c o d = f (a.get i c o d) (b.lift I C O i c o d) := by
  obtain ⟨a0, a1, a2, a3⟩ := ha
  obtain ⟨b0, b1, b2, b3⟩ := hb
  rw [zip_fits f (a := a) (b := b) ⟨by rw [a0]; exact b0, by rw [a1]; exact b1, by rw [a2]; exact b2,
    Or.inl (by rw [a3, b3])⟩]
  refine ⟨_, rfl, ⟨a0, a1, a2, a3⟩, ?_⟩
  intro i c o d
  unfold lift
  simp only [a0, a1, a2, a3, b3, bix_self]

theorem sliceD_of {a : Arr K} {start stop : Option Int} {x y : Nat}
    (h : PySlice.indices ⟨start, stop, none⟩ a.d3 = .ok ((x : Int), (y : Int), 1)) :
    ∃ r, a.sliceD start stop = .ok r ∧ r.d0 = a.d0 ∧ r.d1 = a.d1 ∧ r.d2 = a.d2 ∧ r.d3 = y - x ∧
      ∀ i c o d, d < y - x → r.get i c o d = a.get i c o (x + d) := by
  have hp : PySlice.positions ⟨start, stop, none⟩ a.d3 = .ok ((List.range (y - x)).map (x + ·)) := by
    unfold PySlice.positions
    rw [h]
    simp only [pyRange_one, List.map_map]
    rw [show ((y : Int) - x).toNat = y - x by omega]
    congr 1
  unfold sliceD
  rw [hp]
  refine ⟨_, rfl, rfl, rfl, rfl, by simp, ?_⟩
  intro i c o d hd
  show a.get i c o (((List.range (y - x)).map (x + ·)).getD d 0) = _
  rw [List.getD_eq_getElem _ _ (by simpa using hd)]
  simp

theorem sliceD_range (a : Arr K) {x y : Nat} (hx : x ≤ y) (hy : y ≤ a.d3) :
    ∃ r, a.sliceD (some x) (some y) = .ok r ∧ r.d0 = a.d0 ∧ r.d1 = a.d1 ∧ r.d2 = a.d2 ∧ r.d3 = y - x ∧
      ∀ i c o d, d < y - x → r.get i c o d = a.get i c o (x + d) := by
  refine sliceD_of ?_
  unfold PySlice.indices
  simp
  omega

theorem sliceD_upto (a : Arr K) {y : Nat} (hy : y ≤ a.d3) :
    ∃ r, a.sliceD none (some y) = .ok r ∧ r.d0 = a.d0 ∧ r.d1 = a.d1 ∧ r.d2 = a.d2 ∧ r.d3 = y ∧
      ∀ i c o d, d < y → r.get i c o d = a.get i c o d := by
  have := sliceD_of (a := a) (start := none) (stop := some (y : Int)) (x := 0) (y := y) (by
    unfold PySlice.indices
    simp
    omega)
  simpa using this

theorem sliceD_neg (a : Arr K) {x : Nat} (hx : x + 1 < a.d3) :
    ∃ r, a.sliceD (some ((x : Int) - a.d3)) (some ((x : Int) - a.d3 + 1)) = .ok r ∧ r.d0 = a.d0 ∧
      r.d1 = a.d1 ∧ r.d2 = a.d2 ∧ r.d3 = 1 ∧ ∀ i c o, r.get i c o 0 = a.get i c o x := by
  obtain ⟨r, h1, h2, h3, h4, h5, h6⟩ := sliceD_of (a := a) (start := some ((x : Int) - a.d3))
    (stop := some ((x : Int) - a.d3 + 1)) (x := x) (y := x + 1) (by
      unfold PySlice.indices
      simp only [Option.getD_none]
      rw [if_neg (by decide), if_pos (show (x : Int) - a.d3 < 0 by omega),
        if_pos (show (x : Int) - a.d3 + 1 < 0 by omega)]
      simp
      omega)
  refine ⟨r, h1, h2, h3, h4, by rw [h5]; omega, fun i c o => h6 i c o 0 (by omega)⟩

/-- The slice `a[..., -1:0]` has no column. -/
theorem sliceD_none (a : Arr K) (h : 1 ≤ a.d3) :
    ∃ r, a.sliceD (some (-1)) (some 0) = .ok r ∧ r.d0 = a.d0 ∧ r.d1 = a.d1 ∧ r.d2 = a.d2 ∧ r.d3 = 0 := by
  obtain ⟨r, h1, h2, h3, h4, h5, -⟩ := sliceD_of (a := a) (start := some (-1)) (stop := some 0)
    (x := a.d3 - 1) (y := 0) (by
      unfold PySlice.indices
      simp only [Option.getD_none]
      rw [if_neg (by decide), if_pos (show (-1 : Int) < 0 by decide), if_neg (show ¬ (0 : Int) < 0 by decide)]
      simp
      omega)
  exact ⟨r, h1, h2, h3, h4, by rw [h5]; omega⟩

/-- One column. -/
theorem sliceD_col (a : Arr K) {I C O D x : Nat} (ha : a.Up I C O D) (hx : x < D) :
    ∃ r, a.sliceD (some x) (some (x + 1)) = .ok r ∧ r.Up I C O 1 ∧
      (r.d0 = a.d0 ∧ r.d1 = a.d1 ∧ r.d2 = a.d2) ∧
      ∀ i c o, r.lift I C O i c o 0 = a.lift I C O i c o x := by
  obtain ⟨a0, a1, a2, a3⟩ := ha
  obtain ⟨r, h1, h2, h3, h4, h5, h6⟩ := sliceD_range a (x := x) (y := x + 1) (by omega) (by omega)
  refine ⟨r, by rw [← h1]; norm_num, ⟨by rw [h2]; exact a0, by rw [h3]; exact a1, by rw [h4]; exact a2,
    by rw [h5]; omega⟩, ⟨h2, h3, h4⟩, ?_⟩
  intro i c o
  unfold lift
  rw [h2, h3, h4, h6 _ _ _ 0 (by omega)]
  rfl

theorem sliceD_col' (a : Arr K) {I C O D x : Nat} (ha : a.Dims I C O D) (hx : x < D) :
    ∃ r, a.sliceD (some x) (some (x + 1)) = .ok r ∧ r.Dims I C O 1 ∧
      ∀ i c o, r.get i c o 0 = a.get i c o x := by
  obtain ⟨a0, a1, a2, a3⟩ := ha
  obtain ⟨r, h1, h2, h3, h4, h5, h6⟩ := sliceD_range a (x := x) (y := x + 1) (by omega) (by omega)
  exact ⟨r, by rw [← h1]; norm_num, ⟨by rw [h2, a0], by rw [h3, a1], by rw [h4, a2], by rw [h5]; omega⟩,
    fun i c o => h6 i c o 0 (by omega)⟩

theorem cat2_cols {a b : Arr K} {I C O D E : Nat} (ha : a.Dims I C O D) (hb : b.Dims I C O E) :
    ∃ r, cat2 .development a b = .ok r ∧ r.Dims I C O (D + E) ∧
      (∀ i c o d, d < D → r.get i c o d = a.get i c o d) ∧
      ∀ i c o d, r.get i c o (D + d) = b.get i c o d := by
  obtain ⟨a0, a1, a2, a3⟩ := ha
  obtain ⟨b0, b1, b2, b3⟩ := hb
  unfold cat2
  simp only
  rw [if_pos ⟨by rw [a0, b0], by rw [a1, b1], by rw [a2, b2]⟩]
  refine ⟨_, rfl, ⟨a0, a1, a2, by show a.d3 + b.d3 = _; rw [a3, b3]⟩, ?_, ?_⟩
  · intro i c o d hd
    show (if d < a.d3 then _ else _) = _
    rw [if_pos (by omega)]
  · intro i c o d
    show (if D + d < a.d3 then _ else _) = _
    rw [if_neg (by omega), a3, Nat.add_sub_cancel_left]

end Arr

theorem Num.npow_two {K : Type} [Field K] [LinearOrder K] [IsStrictOrderedRing K] (x : K) :
    (Num.fin x).npow 2 = .fin (x ^ 2) := by
  show Num.npow (.fin x) 1 * _ = _
  show Num.npow (.fin x) 0 * _ * _ = _
  rw [show Num.npow (Num.fin x) 0 = Num.fin 1 from rfl, Num.fin_mul_fin, Num.fin_mul_fin, one_mul, sq]

theorem Num.npow_fin {K : Type} [Field K] [LinearOrder K] [IsStrictOrderedRing K] (x : K) (k : Nat) :
    (Num.fin x).npow k = .fin (x ^ k) := by
  induction k with
  | zero => rw [pow_zero]; rfl
  | succ k ih =>
    show Num.npow (.fin x) k * _ = _
    rw [ih, Num.fin_mul_fin, pow_succ]

variable {K : Type} [Field K] [LinearOrder K] [IsStrictOrderedRing K]

/-- The recursion of the code on numbers: `T` are the terms added at each development, `L` the factors,
and `M` is zero where the risk is reset. -/
def quad (s : K → K) (T L M : Nat → K) : Nat → K
  | 0 => 0
  | d + 1 => s (T d ^ 2 + (L d * quad s T L M d) ^ 2) * M (d + 1)

namespace Arr

/-- The cells of `nans` as numbers. -/
def NansAre (nans : Option (Arr K)) (I C O D : Nat) (M : Nat → Nat → K) : Prop :=
  match nans with
  | none => ∀ o d, M o d = 1
  | some n => n.Up I C O (D + 1) ∧ ∀ i c o d, o < O → d ≤ D → n.lift I C O i c o d = .fin (M o d)

theorem mackStep_spec (s : K → K) {t1 ldf risk : Arr K} {nans : Option (Arr K)} {I C O D E x : Nat}
    (h1 : t1.Dims I C O D) (h2 : ldf.Up I C O E) (h3 : risk.Dims I C O (x + 1)) (hx : x < D) (hE : x < E)
    {T L : Nat → Nat → Nat → Nat → K} {M : Nat → Nat → K} {r : Nat → Nat → Nat → K}
    (c1 : ∀ i < I, ∀ c < C, ∀ o < O, t1.get i c o x = .fin (T i c o x))
    (c2 : ∀ i < I, ∀ c < C, ∀ o < O, ldf.lift I C O i c o x = .fin (L i c o x))
    (c3 : ∀ i < I, ∀ c < C, ∀ o < O, risk.get i c o x = .fin (r i c o))
    (hn : NansAre nans I C O D M) :
    ∃ z, mackStep s t1 ldf nans risk x = .ok z ∧ z.Dims I C O (x + 2) ∧
      (∀ i c o d, d < x + 1 → z.get i c o d = risk.get i c o d) ∧
      ∀ i < I, ∀ c < C, ∀ o < O, z.get i c o (x + 1) =
        .fin (s (T i c o x ^ 2 + (L i c o x * r i c o) ^ 2) * M o (x + 1)) := by
  obtain ⟨a, ha, ad, ac⟩ := sliceD_col' t1 h1 hx
  obtain ⟨l, hl, ld, -, lc⟩ := sliceD_col ldf h2 hE
  obtain ⟨k, hk, kd, kc⟩ := sliceD_col' risk h3 (x := x) (by omega)
  obtain ⟨b, hb, bd, bc⟩ := zip_up (· * ·) ld kd
  obtain ⟨v, hv, vd, vc⟩ := zip_up' (· + ·) (a := a.map fun x => x.npow 2) (b := b.map fun x => x.npow 2)
    (show Dims _ I C O 1 from ad) (show Up _ I C O 1 from bd.up)
  have hnn : ∀ x y : K, ¬ x ^ 2 + y ^ 2 < 0 := fun x y => not_lt.2 (add_nonneg (sq_nonneg _) (sq_nonneg _))
  have vcell : ∀ i < I, ∀ c < C, ∀ o < O, v.get i c o 0 =
      .fin (T i c o x ^ 2 + (L i c o x * r i c o) ^ 2) := by
    intro i hi c hc o ho
    rw [vc, Dims.lift (a := b.map fun x => x.npow 2) (show Dims _ I C O 1 from bd)]
    show (a.get i c o 0).npow 2 + (b.get i c o 0).npow 2 = _
    rw [ac, bc, lc, kc, c1 i hi c hc o ho, c2 i hi c hc o ho, c3 i hi c hc o ho, Num.fin_mul_fin,
      Num.npow_two, Num.npow_two, Num.fin_add_fin]
  obtain ⟨w, hw, wd, wc⟩ : ∃ w, mackMask nans (v.map (Num.sqrt s)) x = .ok w ∧ w.Dims I C O 1 ∧
      ∀ i < I, ∀ c < C, ∀ o < O, w.get i c o 0 =
        .fin (s (T i c o x ^ 2 + (L i c o x * r i c o) ^ 2) * M o (x + 1)) := by
    have sq : ∀ i < I, ∀ c < C, ∀ o < O, (v.map (Num.sqrt s)).get i c o 0 =
        .fin (s (T i c o x ^ 2 + (L i c o x * r i c o) ^ 2)) := by
      intro i hi c hc o ho
      show Num.sqrt s (v.get i c o 0) = _
      rw [vcell i hi c hc o ho]
      unfold Num.sqrt
      simp only
      rw [if_neg (hnn _ _)]
    match nans, hn with
    | none, hn =>
      refine ⟨_, rfl, vd, ?_⟩
      intro i hi c hc o ho
      rw [sq i hi c hc o ho, hn, mul_one]
    | some n, hn =>
      obtain ⟨m, hm, md, -, mc⟩ := sliceD_col n hn.1 (x := x + 1) (by omega)
      have hm' : n.sliceD (some ((x : Int) + 1)) (some ((x : Int) + 2)) = .ok m := by
        rw [← hm]; push_cast; rw [add_assoc]; norm_num
      obtain ⟨w, hw, wd, wc⟩ := zip_up' (· * ·) (a := v.map (Num.sqrt s)) (show Dims _ I C O 1 from vd) md
      refine ⟨w, ?_, wd, ?_⟩
      · simp only [mackMask, hm', bind, Except.bind]
        exact hw
      · intro i hi c hc o ho
        rw [wc, sq i hi c hc o ho, mc, hn.2 i c o (x + 1) ho (by omega), Num.fin_mul_fin]
  obtain ⟨z, hz, zd, z1, z2⟩ := cat2_cols h3 (b := w.map Num.nanToNum) (show Dims _ I C O 1 from wd)
  refine ⟨z, ?_, zd, z1, ?_⟩
  · unfold mackStep
    simp only [ha, hl, hk, hb, hv, hw, bind, Except.bind]
    exact hz
  · intro i hi c hc o ho
    have := z2 i c o 0
    rw [Nat.add_zero] at this
    rw [this]
    show (w.get i c o 0).nanToNum = _
    rw [wc i hi c hc o ho]
    rfl

/-- The first `x` rounds of the loop compute the recursion on numbers. -/
theorem mackLoop_upto (s : K → K) {t1 ldf risk : Arr K} {nans : Option (Arr K)} {I C O D E : Nat}
    (h1 : t1.Dims I C O D) (h2 : ldf.Up I C O E) (h3 : risk.Dims I C O 1)
    {T L : Nat → Nat → Nat → Nat → K} {M : Nat → Nat → K}
    (c1 : ∀ i < I, ∀ c < C, ∀ o < O, ∀ d < D, t1.get i c o d = .fin (T i c o d))
    (c2 : ∀ i < I, ∀ c < C, ∀ o < O, ∀ d < E, ldf.lift I C O i c o d = .fin (L i c o d))
    (c3 : ∀ i < I, ∀ c < C, ∀ o < O, risk.get i c o 0 = .fin 0)
    (hn : NansAre nans I C O D M) : ∀ x ≤ D, x ≤ E →
    ∃ z, (List.range x).foldlM (mackStep s t1 ldf nans) risk = .ok z ∧ z.Dims I C O (x + 1) ∧
      ∀ i < I, ∀ c < C, ∀ o < O, ∀ d < x + 1,
        z.get i c o d = .fin (quad s (T i c o) (L i c o) (M o) d) := by
  intro x
  induction x with
  | zero =>
    intro _ _
    refine ⟨risk, rfl, h3, ?_⟩
    intro i hi c hc o ho d hd
    obtain rfl : d = 0 := by omega
    exact c3 i hi c hc o ho
  | succ x ih =>
    intro hx hE
    obtain ⟨y, hy, yd, yc⟩ := ih (by omega) (by omega)
    obtain ⟨z, hz, zd, z1, z2⟩ := mackStep_spec s h1 h2 yd (x := x) (by omega) (by omega)
      (fun i hi c hc o ho => c1 i hi c hc o ho x (by omega))
      (fun i hi c hc o ho => c2 i hi c hc o ho x (by omega))
      (fun i hi c hc o ho => yc i hi c hc o ho x (by omega)) hn
    refine ⟨z, ?_, zd, ?_⟩
    · rw [List.range_succ, List.foldlM_append, hy]
      simp only [List.foldlM_cons, List.foldlM_nil, bind, Except.bind]
      rw [hz]
      rfl
    · intro i hi c hc o ho d hd
      by_cases hd' : d < x + 1
      · rw [z1 i c o d hd', yc i hi c hc o ho d hd']
      · obtain rfl : d = x + 1 := by omega
        rw [z2 i hi c hc o ho]
        rfl

/-- The loop computes the recursion on numbers. -/
theorem mackLoop_spec (s : K → K) {t1 ldf risk : Arr K} {nans : Option (Arr K)} {I C O D : Nat}
    (h1 : t1.Dims I C O D) (h2 : ldf.Up I C O D) (h3 : risk.Dims I C O 1)
    {T L : Nat → Nat → Nat → Nat → K} {M : Nat → Nat → K}
    (c1 : ∀ i < I, ∀ c < C, ∀ o < O, ∀ d < D, t1.get i c o d = .fin (T i c o d))
    (c2 : ∀ i < I, ∀ c < C, ∀ o < O, ∀ d < D, ldf.lift I C O i c o d = .fin (L i c o d))
    (c3 : ∀ i < I, ∀ c < C, ∀ o < O, risk.get i c o 0 = .fin 0)
    (hn : NansAre nans I C O D M) :
    ∃ z, mackLoop s t1 ldf nans risk = .ok z ∧ z.Dims I C O (D + 1) ∧
      ∀ i < I, ∀ c < C, ∀ o < O, ∀ d < D + 1,
        z.get i c o d = .fin (quad s (T i c o) (L i c o) (M o) d) := by
  unfold mackLoop
  rw [h1.2.2.2]
  exact mackLoop_upto s h1 h2 h3 c1 c2 c3 hn D le_rfl le_rfl

/-- A slice after the end has no column. -/
theorem sliceD_past (a : Arr K) {x : Nat} (hx : a.d3 ≤ x) :
    ∃ r, a.sliceD (some x) (some (x + 1)) = .ok r ∧ r.d0 = a.d0 ∧ r.d1 = a.d1 ∧ r.d2 = a.d2 ∧ r.d3 = 0 := by
  obtain ⟨r, h1, h2, h3, h4, h5, -⟩ := sliceD_of (a := a) (start := some (x : Int)) (stop := some ((x : Int) + 1))
    (x := a.d3) (y := a.d3) (by
      unfold PySlice.indices
      simp
      omega)
  exact ⟨r, h1, h2, h3, h4, by rw [h5]; omega⟩

theorem zip_shape (f : Num K → Num K → Num K) {a b : Arr K} {I C O x y w : Nat} (ha : a.Up I C O x)
    (hb : b.Up I C O y) (h : bdim x y = some w) (hd : (a.d0 = I ∧ a.d1 = C ∧ a.d2 = O) ∨
      (b.d0 = I ∧ b.d1 = C ∧ b.d2 = O)) : ∃ r, zip f a b = .ok r ∧ r.Dims I C O w := by
  obtain ⟨a0, a1, a2, a3⟩ := ha
  obtain ⟨b0, b1, b2, b3⟩ := hb
  have e : bdim a.d0 b.d0 = some I ∧ bdim a.d1 b.d1 = some C ∧ bdim a.d2 b.d2 = some O := by
    rcases hd with ⟨e0, e1, e2⟩ | ⟨e0, e1, e2⟩
    · rw [e0, e1, e2]
      exact ⟨bdim_fits b0, bdim_fits b1, bdim_fits b2⟩
    · rw [e0, e1, e2]
      exact ⟨bdim_up a0, bdim_up a1, bdim_up a2⟩
  unfold zip
  rw [e.1, e.2.1, e.2.2, a3, b3, h]
  exact ⟨_, rfl, rfl, rfl, rfl, rfl⟩

/-- Without a factor, the round adds no column. -/
theorem mackStep_past (s : K → K) {t1 ldf risk n : Arr K} {I C O D E x : Nat}
    (h1 : t1.Dims I C O D) (h2 : ldf.Up I C O E) (h3 : risk.Dims I C O (x + 1)) (hx : x < D) (hE : E ≤ x)
    (hn : n.Up I C O (D + 1)) :
    ∃ z, mackStep s t1 ldf (some n) risk x = .ok z ∧ z.Dims I C O (x + 1) ∧
      ∀ i c o d, d < x + 1 → z.get i c o d = risk.get i c o d := by
  obtain ⟨a, ha, ad, ac⟩ := sliceD_col' t1 h1 hx
  obtain ⟨l, hl, l0, l1, l2, l3⟩ := sliceD_past ldf (x := x) (by rw [h2.2.2.2]; exact hE)
  obtain ⟨k, hk, kd, kc⟩ := sliceD_col' risk h3 (x := x) (by omega)
  obtain ⟨b, hb, bd⟩ := zip_shape (· * ·) (a := l) (b := k) (I := I) (C := C) (O := O) (x := 0) (y := 1) (w := 0)
    ⟨by rw [l0]; exact h2.1, by rw [l1]; exact h2.2.1, by rw [l2]; exact h2.2.2.1, l3⟩ kd.up rfl
    (Or.inr ⟨kd.1, kd.2.1, kd.2.2.1⟩)
  obtain ⟨v, hv, vd⟩ := zip_shape (· + ·) (a := a.map fun x => x.npow 2) (b := b.map fun x => x.npow 2)
    (I := I) (C := C) (O := O) (x := 1) (y := 0) (w := 0) (show Up _ I C O 1 from ad.up)
    (show Up _ I C O 0 from bd.up) rfl (Or.inl ⟨ad.1, ad.2.1, ad.2.2.1⟩)
  obtain ⟨m, hm, md, -, -⟩ := sliceD_col n hn (x := x + 1) (by omega)
  have hm' : n.sliceD (some ((x : Int) + 1)) (some ((x : Int) + 2)) = .ok m := by
    rw [← hm]; push_cast; rw [add_assoc]; norm_num
  obtain ⟨w, hw, wd⟩ := zip_shape (· * ·) (a := v.map (Num.sqrt s)) (b := m)
    (I := I) (C := C) (O := O) (x := 0) (y := 1) (w := 0) (show Up _ I C O 0 from vd.up)
    md rfl (Or.inl ⟨vd.1, vd.2.1, vd.2.2.1⟩)
  obtain ⟨z, hz, zd, z1, -⟩ := cat2_cols h3 (b := w.map Num.nanToNum) (show Dims _ I C O 0 from wd)
  refine ⟨z, ?_, zd, z1⟩
  unfold mackStep
  simp only [ha, hl, hk, hb, hv, mackMask, hm', hw, bind, Except.bind]
  exact hz

end Arr
end CL
