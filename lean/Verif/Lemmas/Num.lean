import Verif.Model.Num

namespace CL
namespace Num

variable {K : Type} [Field K] [LinearOrder K] [IsStrictOrderedRing K]

theorem zero_def : (0 : Num K) = fin 0 := rfl
theorem one_def : (1 : Num K) = fin 1 := rfl

@[simp] theorem nan_add (x : Num K) : nan + x = nan := by cases x <;> rfl
@[simp] theorem add_nan (x : Num K) : x + nan = nan := by cases x <;> rfl
@[simp] theorem fin_add_fin (a b : K) : fin a + fin b = fin (a + b) := rfl
@[simp] theorem nan_mul (x : Num K) : nan * x = nan := by cases x <;> rfl
@[simp] theorem mul_nan (x : Num K) : x * nan = nan := by cases x <;> rfl
@[simp] theorem fin_mul_fin (a b : K) : fin a * fin b = fin (a * b) := rfl
@[simp] theorem neg_fin (a : K) : -(fin a) = fin (-a) := rfl
@[simp] theorem neg_nan : -(nan : Num K) = nan := rfl
@[simp] theorem nan_sub (x : Num K) : nan - x = nan := by cases x <;> rfl
@[simp] theorem sub_nan (x : Num K) : x - nan = nan := by cases x <;> rfl
@[simp] theorem fin_sub_fin (a b : K) : fin a - fin b = fin (a - b) := by
  show add (fin a) (neg (fin b)) = _
  simp [add, neg, sub_eq_add_neg]
@[simp] theorem nan_div (x : Num K) : nan / x = nan := by cases x <;> rfl
@[simp] theorem div_nan (x : Num K) : x / nan = nan := by cases x <;> rfl
theorem fin_div_fin (a b : K) : fin a / fin b =
    if b = 0 then (if a = 0 then nan else if 0 < a then pinf else ninf) else fin (a / b) := rfl
theorem fin_div_fin_of_ne (a : K) {b : K} (h : b ≠ 0) : fin a / fin b = fin (a / b) := by
  rw [fin_div_fin, if_neg h]

/-- Exact addition with NaN and infinities is a commutative monoid, so sums do not depend on
the order numpy uses. -/
instance : AddCommMonoid (Num K) where
  add_assoc a b c := by
    cases a <;> cases b <;> cases c <;> first | rfl | simp [add_assoc]
  zero_add a := by cases a <;> first | rfl | (simp [zero_def])
  add_zero a := by cases a <;> first | rfl | (simp [zero_def])
  add_comm a b := by
    cases a <;> cases b <;> first | rfl | simp [add_comm]
  nsmul := nsmulRec

theorem mul_comm' (a b : Num K) : a * b = b * a := by
  cases a <;> cases b <;> first | rfl | simp [mul_comm]

theorem pinf_mul_fin (b : K) : pinf * fin b = infMul true b := rfl
theorem ninf_mul_fin (b : K) : ninf * fin b = infMul false b := rfl
theorem fin_mul_pinf (b : K) : fin b * pinf = infMul true b := rfl
theorem fin_mul_ninf (b : K) : fin b * ninf = infMul false b := rfl
theorem pinf_mul_pinf : (pinf : Num K) * pinf = pinf := rfl
theorem ninf_mul_ninf : (ninf : Num K) * ninf = pinf := rfl
theorem pinf_mul_ninf : (pinf : Num K) * ninf = ninf := rfl
theorem ninf_mul_pinf : (ninf : Num K) * pinf = ninf := rfl

private theorem infMul_mul_fin (p : Bool) (a b : K) : infMul p a * fin b = infMul p (a * b) := by
  rcases lt_trichotomy a 0 with ha | ha | ha
  · rcases lt_trichotomy b 0 with hb | hb | hb
    · cases p <;> simp [infMul, ha.ne, hb.ne, not_lt.2 ha.le, not_lt.2 hb.le,
        pinf_mul_fin, ninf_mul_fin, mul_pos_of_neg_of_neg ha hb]
    · subst hb; cases p <;> simp [infMul, ha.ne, not_lt.2 ha.le, pinf_mul_fin, ninf_mul_fin]
    · have := mul_neg_of_neg_of_pos ha hb
      cases p <;> simp [infMul, ha.ne, hb.ne', not_lt.2 ha.le, hb, not_lt.2 this.le,
        pinf_mul_fin, ninf_mul_fin]
  · subst ha; simp [infMul]
  · rcases lt_trichotomy b 0 with hb | hb | hb
    · have := mul_neg_of_pos_of_neg ha hb
      cases p <;> simp [infMul, ha.ne', hb.ne, not_lt.2 hb.le, ha, not_lt.2 this.le,
        pinf_mul_fin, ninf_mul_fin]
    · subst hb; cases p <;> simp [infMul, ha.ne', ha, pinf_mul_fin, ninf_mul_fin]
    · cases p <;> simp [infMul, ha.ne', hb.ne', ha, hb, pinf_mul_fin, ninf_mul_fin]

private theorem infMul_mul_pinf (p : Bool) (a : K) :
    infMul p a * pinf = infMul p a := by
  unfold infMul; split_ifs <;> cases p <;> simp_all <;> rfl

private theorem infMul_mul_ninf (p : Bool) (a : K) :
    infMul p a * ninf = infMul (!p) a := by
  unfold infMul; split_ifs <;> cases p <;> simp_all <;> rfl

private theorem mul_assoc' (a b c : Num K) : a * b * c = a * (b * c) := by
  cases a with
  | nan => simp
  | fin a =>
    cases b with
    | nan => simp
    | fin b =>
      cases c with
      | nan => simp
      | fin c => simp [mul_assoc]
      | pinf =>
        simp only [fin_mul_fin, fin_mul_pinf]
        rw [mul_comm' (fin a), infMul_mul_fin, mul_comm a b]
      | ninf =>
        simp only [fin_mul_fin, fin_mul_ninf]
        rw [mul_comm' (fin a), infMul_mul_fin, mul_comm a b]
    | pinf =>
      cases c with
      | nan => simp
      | fin c =>
        simp only [fin_mul_pinf, pinf_mul_fin]
        rw [mul_comm' (fin a), infMul_mul_fin, infMul_mul_fin, mul_comm a c]
      | pinf => simp only [fin_mul_pinf, pinf_mul_pinf, infMul_mul_pinf]
      | ninf => simp only [fin_mul_pinf, pinf_mul_ninf, infMul_mul_ninf, fin_mul_ninf]; rfl
    | ninf =>
      cases c with
      | nan => simp
      | fin c =>
        simp only [fin_mul_ninf, ninf_mul_fin]
        rw [mul_comm' (fin a), infMul_mul_fin, infMul_mul_fin, mul_comm a c]
      | pinf => simp only [fin_mul_ninf, ninf_mul_pinf, infMul_mul_pinf]
      | ninf => simp only [fin_mul_ninf, ninf_mul_ninf, infMul_mul_ninf, fin_mul_pinf]; rfl
  | pinf =>
    cases b with
    | nan => simp
    | fin b =>
      cases c with
      | nan => simp
      | fin c => simp only [pinf_mul_fin, fin_mul_fin, infMul_mul_fin]
      | pinf =>
        simp only [pinf_mul_fin, fin_mul_pinf, infMul_mul_pinf]
        rw [mul_comm' pinf, infMul_mul_pinf]
      | ninf =>
        simp only [pinf_mul_fin, fin_mul_ninf, infMul_mul_ninf]
        rw [mul_comm' pinf, infMul_mul_pinf]; rfl
    | pinf =>
      cases c with
      | nan => simp
      | fin c =>
        simp only [pinf_mul_pinf, pinf_mul_fin]
        rw [mul_comm' pinf, infMul_mul_pinf]
      | pinf => rfl
      | ninf => rfl
    | ninf =>
      cases c with
      | nan => simp
      | fin c =>
        simp only [pinf_mul_ninf, ninf_mul_fin]
        rw [mul_comm' pinf, infMul_mul_pinf]
      | pinf => rfl
      | ninf => rfl
  | ninf =>
    cases b with
    | nan => simp
    | fin b =>
      cases c with
      | nan => simp
      | fin c => simp only [ninf_mul_fin, fin_mul_fin, infMul_mul_fin]
      | pinf =>
        simp only [ninf_mul_fin, fin_mul_pinf, infMul_mul_pinf]
        rw [mul_comm' ninf, infMul_mul_ninf]; rfl
      | ninf =>
        simp only [ninf_mul_fin, fin_mul_ninf, infMul_mul_ninf]
        rw [mul_comm' ninf, infMul_mul_ninf]
    | pinf =>
      cases c with
      | nan => simp
      | fin c =>
        simp only [ninf_mul_pinf, pinf_mul_fin, ninf_mul_fin]
        rw [mul_comm' ninf, infMul_mul_ninf]; rfl
      | pinf => rfl
      | ninf => rfl
    | ninf =>
      cases c with
      | nan => simp
      | fin c =>
        simp only [ninf_mul_ninf, ninf_mul_fin, pinf_mul_fin]
        rw [mul_comm' ninf, infMul_mul_ninf]; rfl
      | pinf => rfl
      | ninf => rfl

/-- Exact multiplication with NaN and infinities is a commutative monoid. -/
instance : CommMonoid (Num K) where
  mul_assoc := mul_assoc'
  one_mul a := by cases a <;> simp [one_def, fin_mul_pinf, fin_mul_ninf, infMul]
  mul_one a := by cases a <;> simp [one_def, pinf_mul_fin, ninf_mul_fin, infMul]
  mul_comm := mul_comm'
  npow := npowRec

/-- `fin` as an additive homomorphism. -/
def finHom : K →+ Num K where
  toFun := fin
  map_zero' := rfl
  map_add' _ _ := rfl

/-- `fin` as a multiplicative homomorphism. -/
def finMulHom : K →* Num K where
  toFun := fin
  map_one' := rfl
  map_mul' _ _ := rfl

theorem sum_fin {ι : Type} (s : Finset ι) (f : ι → K) :
    ∑ i ∈ s, (fin (f i) : Num K) = fin (∑ i ∈ s, f i) :=
  (map_sum (finHom (K := K)) f s).symm

theorem prod_fin {ι : Type} (s : Finset ι) (f : ι → K) :
    ∏ i ∈ s, (fin (f i) : Num K) = fin (∏ i ∈ s, f i) :=
  (map_prod (finMulHom (K := K)) f s).symm

@[simp] theorem nanToNum_fin (a : K) : nanToNum (fin a) = fin a := rfl
@[simp] theorem nanToNum_nan : nanToNum (nan : Num K) = fin 0 := rfl
@[simp] theorem numToNan_nan : numToNan (nan : Num K) = nan := rfl
@[simp] theorem numToNan_fin_zero : numToNan (fin (0 : K)) = nan := by simp [numToNan]
theorem numToNan_fin (a : K) : numToNan (fin a) = if a = 0 then nan else fin a := rfl
theorem numToNan_fin_of_ne {a : K} (h : a ≠ 0) : numToNan (fin a) = fin a := by
  simp [numToNan, h]
@[simp] theorem amt_fin (a : K) : amt (fin a) = a := rfl
@[simp] theorem amt_nan : amt (nan : Num K) = 0 := rfl
@[simp] theorem noInf_fin (a : K) : NoInf (fin a) := trivial
@[simp] theorem noInf_nan : NoInf (nan : Num K) := trivial

theorem nanToNum_eq {x : Num K} (h : NoInf x) : nanToNum x = fin (amt x) := by
  cases x <;> first | rfl | exact h.elim

theorem nan0_eq {x : Num K} (h : NoInf x) : nan0 x = fin (amt x) := by
  cases x <;> first | rfl | exact h.elim

@[simp] theorem amt_numToNan (x : Num K) : amt (numToNan x) = amt x := by
  cases x with
  | fin a => by_cases h : a = 0 <;> simp [numToNan, h]
  | _ => rfl

theorem noInf_numToNan {x : Num K} (h : NoInf x) : NoInf (numToNan x) := by
  cases x with
  | fin a => by_cases h : a = 0 <;> simp [numToNan, h]
  | _ => exact h

@[simp] theorem numToNan_numToNan (x : Num K) : numToNan (numToNan x) = numToNan x := by
  cases x with
  | fin a => by_cases h : a = 0 <;> simp [numToNan, h]
  | _ => rfl

@[simp] theorem nanToNum_isFin (x : Num K) : ∃ a, nanToNum x = fin a := by
  cases x <;> exact ⟨_, rfl⟩

theorem noInf_nanToNum (x : Num K) : NoInf (nanToNum x) := by cases x <;> trivial

theorem numToNan_fin_amt {x : Num K} (h : NoInf x) : numToNan (fin (amt x)) = numToNan x := by
  cases x <;> first | rfl | simp | exact h.elim

theorem noInf_cases {x : Num K} (h : NoInf x) : x = nan ∨ ∃ a, x = fin a := by
  cases x <;> first | exact Or.inl rfl | exact Or.inr ⟨_, rfl⟩ | exact h.elim

theorem noInf_add {x y : Num K} (hx : NoInf x) (hy : NoInf y) : NoInf (x + y) := by
  rcases noInf_cases hx with rfl | ⟨a, rfl⟩ <;> rcases noInf_cases hy with rfl | ⟨b, rfl⟩ <;> simp

theorem noInf_sub {x y : Num K} (hx : NoInf x) (hy : NoInf y) : NoInf (x - y) := by
  rcases noInf_cases hx with rfl | ⟨a, rfl⟩ <;> rcases noInf_cases hy with rfl | ⟨b, rfl⟩ <;> simp

theorem noInf_mul {x y : Num K} (hx : NoInf x) (hy : NoInf y) : NoInf (x * y) := by
  rcases noInf_cases hx with rfl | ⟨a, rfl⟩ <;> rcases noInf_cases hy with rfl | ⟨b, rfl⟩ <;> simp

theorem noInf_sum {ι : Type} (s : Finset ι) (f : ι → Num K) (h : ∀ i ∈ s, NoInf (f i)) :
    NoInf (∑ i ∈ s, f i) := by
  classical
  induction s using Finset.induction_on with
  | empty => simp [zero_def]
  | insert a s ha ih =>
    rw [Finset.sum_insert ha]
    exact noInf_add (h a (by simp)) (ih fun i hi => h i (by simp [hi]))

/-- Sum of cells without NaN: the sum of the amounts. -/
theorem sum_nanToNum {ι : Type} (s : Finset ι) (f : ι → Num K) (h : ∀ i ∈ s, NoInf (f i)) :
    ∑ i ∈ s, nanToNum (f i) = fin (∑ i ∈ s, amt (f i)) := by
  rw [← sum_fin]
  exact Finset.sum_congr rfl fun i hi => nanToNum_eq (h i hi)

theorem sum_nan0 {ι : Type} (s : Finset ι) (f : ι → Num K) (h : ∀ i ∈ s, NoInf (f i)) :
    ∑ i ∈ s, nan0 (f i) = fin (∑ i ∈ s, amt (f i)) := by
  rw [← sum_fin]
  exact Finset.sum_congr rfl fun i hi => nan0_eq (h i hi)

theorem amt_eq_iff_numToNan {x y : Num K} (hx : NoInf x) (hy : NoInf y) :
    numToNan x = numToNan y ↔ amt x = amt y := by
  constructor
  · intro h
    have := congrArg amt h
    simpa using this
  · intro h
    rw [← numToNan_fin_amt hx, ← numToNan_fin_amt hy, h]

theorem fin_inj {a b : K} : (fin a : Num K) = fin b ↔ a = b := by
  constructor
  · intro h; exact Num.fin.inj h
  · rintro rfl; rfl

end Num
end CL
