import Verif.Lemmas.TailStats
import Verif.Props.C37
import Verif.Props.C56
import Verif.Lemmas.Full

set_option linter.unusedSectionVars false

/-! # C69: `sigma_` and `std_err_` of the tail

The statistics of the tail are read off the log-linear trend of those of the ages at the age `k` at which the
log-linear trend of the factors less one equals the tail less one. -/

namespace CL
namespace Tail
open Reg

/-- `a + b k` is the least-squares line through the points `(k, l (k - 1))`, for `k` from 1 to `n`. -/
def LeastSquares (n : Nat) (l : Nat → ℝ) (a b : ℝ) : Prop :=
  ∀ a' b', ∑ k ∈ Finset.range n, (l k - (a + b * ((k : ℝ) + 1))) ^ 2 ≤
    ∑ k ∈ Finset.range n, (l k - (a' + b' * ((k : ℝ) + 1))) ^ 2

/-- The least-squares line is unique. -/
theorem LeastSquares.unique {n : Nat} (hn : 2 ≤ n) {l : Nat → ℝ} {a b a' b' : ℝ} (h : LeastSquares n l a b)
    (h' : LeastSquares n l a' b') : a' = a ∧ b' = b :=
  Dev.line_unique (S := Finset.range n) (x := fun k => (k : ℝ) + 1) (k1 := 0) (k2 := 1)
    (Finset.mem_range.mpr (by omega)) (Finset.mem_range.mpr (by omega)) (by norm_num) h h'

/-- A row without missing values. -/
theorem full_row {n : Nat} {y : Nat → Num ℝ} {l : Nat → ℝ} (h : ∀ k < n, y k = .fin (l k)) :
    Row n y (Finset.range n) l :=
  ⟨fun _ hk => Finset.mem_range.mp hk, fun k hk => h k (Finset.mem_range.mp hk),
    fun _ hk hn => absurd (Finset.mem_range.mpr hk) hn⟩

/-- Formulas of the regression line give the least-squares line. -/
theorem fitted {n : Nat} (hn : 2 ≤ n) {y : Nat → Num ℝ} {l : Nat → ℝ} (h : ∀ k < n, y k = .fin (l k)) {a b : ℝ}
    (hb : lineSlope n y = .fin b) (ha : lineIntercept n y = .fin a) : LeastSquares n l a b := by
  intro a' b'
  have e := C29_line_partial (n := n) (w := fun _ => (1 : Num ℝ)) (x := fun j : Nat => .fin ((j : ℝ) + 1)) (y := y)
    (fun j hj => Or.inr ⟨rfl, ⟨_, rfl⟩, _, h j hj⟩) hb ha a' b'
  have hs : ones n (fun _ => (1 : Num ℝ)) = Finset.range n := by
    unfold ones
    ext k
    simp
  unfold lineError at e
  rw [hs] at e
  have ec : ∀ α β : ℝ, ∑ j ∈ Finset.range n, ((y j).amt - (α + β * (Num.fin ((j : ℝ) + 1)).amt)) ^ 2 =
      ∑ k ∈ Finset.range n, (l k - (α + β * ((k : ℝ) + 1))) ^ 2 := fun α β =>
    Finset.sum_congr rfl fun k hk => by rw [h k (Finset.mem_range.mp hk), Num.amt_fin, Num.amt_fin]
  rw [ec, ec] at e
  exact e

/-- The least-squares line through the values is not flat. -/
def Trend (n : Nat) (l : Nat → ℝ) : Prop := ∀ a, ¬ LeastSquares n l a 0

theorem ageSum_ne {n : Nat} {l : Nat → ℝ} (hn : 2 ≤ n) (h : Trend n l) :
    (∑ k ∈ Finset.range n, ((k : ℝ) + 1) * l k) * (Finset.range n).card ≠ ageSum n * ∑ k ∈ Finset.range n, l k := by
  intro e
  have hn0 : (n : ℝ) ≠ 0 := by exact_mod_cast (by omega : n ≠ 0)
  rw [Finset.card_range] at e
  set m := (∑ k ∈ Finset.range n, l k) / n with hm
  refine h m fun a' b' => ?_
  have h1 : ∑ k ∈ Finset.range n, (l k - m) = 0 := by
    rw [Finset.sum_sub_distrib, Finset.sum_const, nsmul_eq_mul, Finset.card_range, hm]
    field_simp
    ring
  have h2 : ∑ k ∈ Finset.range n, (l k - m) * ((k : ℝ) + 1) = 0 := by
    have : ∀ k ∈ Finset.range n, (l k - m) * ((k : ℝ) + 1) = ((k : ℝ) + 1) * l k - m * ((k : ℝ) + 1) :=
      fun k _ => by ring
    rw [Finset.sum_congr rfl this, Finset.sum_sub_distrib, ← Finset.mul_sum]
    show _ - m * ageSum n = 0
    rw [hm]
    field_simp
    linarith
  have key : ∑ k ∈ Finset.range n, (l k - (a' + b' * ((k : ℝ) + 1))) ^ 2 =
      ∑ k ∈ Finset.range n, (l k - (m + 0 * ((k : ℝ) + 1))) ^ 2 +
        (2 * (m - a') * ∑ k ∈ Finset.range n, (l k - m)) - 2 * b' * ∑ k ∈ Finset.range n, (l k - m) * ((k : ℝ) + 1) +
        ∑ k ∈ Finset.range n, (m - (a' + b' * ((k : ℝ) + 1))) ^ 2 := by
    rw [Finset.mul_sum, Finset.mul_sum, ← Finset.sum_add_distrib, ← Finset.sum_sub_distrib, ← Finset.sum_add_distrib]
    exact Finset.sum_congr rfl fun k _ => by ring
  rw [key, h1, h2, mul_zero, mul_zero, add_zero, sub_zero]
  exact le_add_of_nonneg_right (Finset.sum_nonneg fun _ _ => sq_nonneg _)

/-- The least-squares line is fitted to a row without missing values, unless it is flat. -/
theorem trend_line {n : Nat} (hn : 2 ≤ n) {y : Nat → Num ℝ} {l : Nat → ℝ} (h : ∀ k < n, y k = .fin (l k))
    (ht : Trend n l) : ∃ a b : ℝ, b ≠ 0 ∧ lineSlope n y = .fin b ∧ lineIntercept n y = .fin a ∧ LeastSquares n l a b := by
  obtain ⟨a, b, hb, e1, e2, -⟩ := (full_row h).line hn ⟨0, Finset.mem_range.mpr (by omega)⟩ (ageSum_ne hn ht)
  exact ⟨a, b, hb, e1, e2, fitted hn h e1 e2⟩

/-- The tail of a pattern. -/
structure TailOf (f g : Tri ℝ) (m : Nat) (τ : Nat → Nat → ℝ) : Prop where
  d0 : g.values.d0 = f.values.d0
  d1 : g.values.d1 = f.values.d1
  prod : ∀ i < f.values.d0, ∀ c < f.values.d1, tailProd g m i c = .fin (τ i c)
  cdf : ∀ i < f.values.d0, ∀ c < f.values.d1, g.incrToCum.values.get i c 0 (g.values.d3 - 1 - m) = .fin (τ i c)
  pos0 : 1 ≤ f.values.d0
  pos1 : 1 ≤ f.values.d1

theorem tailOf {t f g : Tri ℝ} (h : LinkPattern t f) (hi : 1 ≤ t.kdims.length) (hc : 1 ≤ t.vdims.length) {p : Nat}
    {τ : Nat → Nat → ℝ} (hg : HasTail f g (t.ddims.length - 1) t.dgrain p fun i c _ => τ i c) :
    TailOf f g (addedPeriods p t.dgrain) τ := by
  obtain ⟨hl, hp⟩ := h.length
  have gd0 : g.values.d0 = f.values.d0 := by rw [hg.wf.1, h.wf.1, hg.index.1]
  have gd1 : g.values.d1 = f.values.d1 := by rw [hg.wf.2.1, h.wf.2.1, hg.columns]
  have gd2 : 0 < f.values.d2 := by rw [h.wf.2.2.1, h.origin]; omega
  obtain ⟨last, -, e4⟩ := hg.ages
  have gl : g.ddims.length = f.ddims.length + (addedPeriods p t.dgrain + 1) := by rw [e4]; simp
  have g3 : g.values.d3 = g.ddims.length := hg.wf.2.2.2
  obtain ⟨hpat, hult⟩ := hg.pattern h
  obtain ⟨hcum, hcdf⟩ := Tri.cdf_full hpat
  have lk : 1 ≤ f.values.d0 ∧ ∀ i < f.values.d0, i < t.kdims.length ∧
      (if f.kdims.length = 1 then 0 else i) = i := by
    rw [h.wf.1]
    rcases h.index with e | e
    · rw [e]
      exact ⟨hi, fun i hi' => ⟨hi', by split_ifs <;> omega⟩⟩
    · rw [e]
      exact ⟨le_rfl, fun i hi' => ⟨by omega, by rw [if_pos rfl]; omega⟩⟩
  have lv : 1 ≤ f.values.d1 ∧ ∀ i < f.values.d1, i < t.vdims.length ∧
      (if f.vdims.length = 1 then 0 else i) = i := by
    rw [h.wf.2.1]
    rcases h.columns with e | e
    · rw [e]
      exact ⟨hc, fun i hi' => ⟨hi', by split_ifs <;> omega⟩⟩
    · rw [e]
      exact ⟨le_rfl, fun i hi' => ⟨by omega, by rw [if_pos rfl]; omega⟩⟩
  refine ⟨gd0, gd1, ?_, ?_, lk.1, lv.1⟩
  · intro i hi' c hc'
    obtain ⟨x, hx, hpr⟩ := hg.tail i hi' c hc' 0 gd2
    unfold tailProd
    have e : g.values.d3 - (addedPeriods p t.dgrain + 1) = t.ddims.length - 1 := by omega
    rw [e, ← hpr, ← Num.prod_fin]
    refine Finset.prod_congr rfl fun d hd => ?_
    rw [Finset.mem_Ico] at hd
    exact (hx d hd.1 hd.2).2
  · intro i hi' c hc'
    have e : g.values.d3 - 1 - addedPeriods p t.dgrain = t.ddims.length - 1 := by omega
    have h1 := (hcdf i c (t.ddims.length - 1) (lk.2 i hi').1 (lv.2 c hc').1 (by omega)).1
    rw [hult i (lk.2 i hi').1 c (lv.2 c hc').1 _ (by omega), Finset.Ico_self, Finset.prod_empty, one_mul,
      (lk.2 i hi').2, (lv.2 c hc').2] at h1
    rw [hcum, e]
    unfold Tri.C54.only at h1
    rw [hg.index.1, (lk.2 i hi').2, hg.columns, (lv.2 c hc').2] at h1
    exact h1

theorem TailOf.noTail_iff {f g : Tri ℝ} {m : Nat} {τ : Nat → Nat → ℝ} (h : TailOf f g m τ) :
    NoTail g m ↔ ∑ i ∈ Finset.range f.values.d0, ∑ c ∈ Finset.range f.values.d1, τ i c =
      ((f.values.d0 * f.values.d1 : Nat) : ℝ) := by
  unfold NoTail
  have hne : ((f.values.d0 * f.values.d1 : Nat) : ℝ) ≠ 0 := by
    have := Nat.mul_pos h.pos0 h.pos1
    exact_mod_cast this.ne'
  rw [h.d0, h.d1]
  have e : ∑ i ∈ Finset.range f.values.d0, ∑ c ∈ Finset.range f.values.d1,
      g.incrToCum.values.get i c 0 (g.values.d3 - 1 - m) =
      .fin (∑ i ∈ Finset.range f.values.d0, ∑ c ∈ Finset.range f.values.d1, τ i c) := by
    rw [← Num.sum_fin]
    refine Finset.sum_congr rfl fun i hi => ?_
    rw [← Num.sum_fin]
    exact Finset.sum_congr rfl fun c hc => h.cdf i (Finset.mem_range.mp hi) c (Finset.mem_range.mp hc)
  rw [e, Num.fin_div_fin_of_ne _ hne]
  constructor
  · intro h
    injection h with h
    exact (div_eq_one_iff_eq hne).1 h
  · intro h
    rw [h, div_self hne]

/-- With tails above one there is a tail. -/
theorem TailOf.above {f g : Tri ℝ} {m : Nat} {τ : Nat → Nat → ℝ} (h : TailOf f g m τ)
    (hτ : ∀ i < f.values.d0, ∀ c < f.values.d1, 1 < τ i c) : AboveOne g m ∧ ¬ NoTail g m := by
  refine ⟨⟨?_, ?_⟩, ?_⟩
  · rw [h.d0, h.d1]
    intro i hi c hc
    rw [h.prod i hi c hc]
    rfl
  · rw [h.d0, h.d1]
    refine ⟨0, h.pos0, 0, h.pos1, ?_⟩
    rw [h.prod 0 h.pos0 0 h.pos1]
    simp [Num.ltb, hτ 0 h.pos0 0 h.pos1]
  · rw [h.noTail_iff]
    refine ne_of_gt ?_
    have e : ((f.values.d0 * f.values.d1 : Nat) : ℝ) =
        ∑ i ∈ Finset.range f.values.d0, ∑ c ∈ Finset.range f.values.d1, (1 : ℝ) := by simp
    rw [e]
    refine Finset.sum_lt_sum_of_nonempty ⟨0, Finset.mem_range.mpr h.pos0⟩ fun i hi => ?_
    exact Finset.sum_lt_sum_of_nonempty ⟨0, Finset.mem_range.mpr h.pos1⟩ fun c hc =>
      hτ i (Finset.mem_range.mp hi) c (Finset.mem_range.mp hc)

/-- With tails of one there is none. -/
theorem TailOf.none {f g : Tri ℝ} {m : Nat} {τ : Nat → Nat → ℝ} (h : TailOf f g m τ)
    (hτ : ∀ i < f.values.d0, ∀ c < f.values.d1, τ i c = 1) : ¬ AboveOne g m ∧ NoTail g m := by
  refine ⟨?_, ?_⟩
  · rintro ⟨-, i, hi, c, hc, h1⟩
    rw [h.d0] at hi
    rw [h.d1] at hc
    rw [h.prod i hi c hc, hτ i hi c hc] at h1
    simp [Num.ltb] at h1
  · rw [h.noTail_iff]
    have e : ∀ i ∈ Finset.range f.values.d0, ∑ c ∈ Finset.range f.values.d1, τ i c =
        ∑ c ∈ Finset.range f.values.d1, (1 : ℝ) := fun i hi =>
      Finset.sum_congr rfl fun c hc => hτ i (Finset.mem_range.mp hi) c (Finset.mem_range.mp hc)
    rw [Finset.sum_congr rfl e]
    simp

/-- The age of the tail on the trend of the factors. -/
theorem timePeriod_eq {f g : Tri ℝ} {m i c : Nat} (hn : 2 ≤ f.values.d3) {F : Nat → ℝ}
    (hF : ∀ k < f.values.d3, 1 < F k ∧ f.values.get i c 0 k = .fin (F k))
    (ht : Trend f.values.d3 fun k => Real.log (F k - 1)) {τ : ℝ} (hτ : 1 < τ)
    (e : (AboveOne g m ∧ tailProd g m i c = .fin τ) ∨ (¬ AboveOne g m ∧ τ = 1001 / 1000)) :
    ∃ A B k : ℝ, B ≠ 0 ∧ LeastSquares f.values.d3 (fun k => Real.log (F k - 1)) A B ∧
      A + B * k = Real.log (τ - 1) ∧ timePeriod f g m i c = .fin k := by
  obtain ⟨A, B, hB, e1, e2, hl⟩ := trend_line hn (y := fun k => logExcess (f.values.get i c 0 k))
    (l := fun k => Real.log (F k - 1)) (fun k hk => by
      rw [(hF k hk).2, logExcess_gt (hF k hk).1]) ht
  refine ⟨A, B, (Real.log (τ - 1) - A) / B, hB, hl, by field_simp; ring, ?_⟩
  unfold timePeriod
  have e0 : (fun x : Num ℝ => (log (x - 1) - Num.fin A) / Num.fin B) (.fin τ) =
      .fin ((Real.log (τ - 1) - A) / B) := by
    beta_reduce
    rw [Num.one_def, Num.fin_sub_fin, log_pos (by linarith), Num.fin_sub_fin, Num.fin_div_fin_of_ne _ hB]
  simp only [e1, e2]
  rcases e with ⟨h1, h2⟩ | ⟨h1, h2⟩
  · rw [if_pos h1, h2]
    exact e0
  · rw [if_neg h1, ← h2]
    exact e0

theorem exp_fin (x : ℝ) : exp (.fin x) = .fin (Real.exp x) := rfl

/-- **C69**, with a tail.  Partial: every factor is above one, the trends are not flat, the statistics are positive;
otherwise see `C69_mixed_false`, `C69_no_factor_false` and `C69_flat_false`. -/
theorem C69_tail_partial {f g : Tri ℝ} {m : Nat} {τ : Nat → Nat → ℝ} (h : TailOf f g m τ)
    (hτ : ∀ i < f.values.d0, ∀ c < f.values.d1, 1 < τ i c) (hn : 2 ≤ f.values.d3) {i c : Nat} (hi : i < f.values.d0)
    (hc : c < f.values.d1) {F : Nat → ℝ} (hF : ∀ k < f.values.d3, 1 < F k ∧ f.values.get i c 0 k = .fin (F k))
    (ht : Trend f.values.d3 fun k => Real.log (F k - 1)) {s e : Arr ℝ} (s3 : s.d3 = f.values.d3)
    (e3 : e.d3 = f.values.d3) {v u : Nat → ℝ} (hv : ∀ k < f.values.d3, 0 < v k ∧ s.get i c 0 k = .fin (v k))
    (hu : ∀ k < f.values.d3, 0 < u k ∧ e.get i c 0 k = .fin (u k)) (tv : Trend f.values.d3 fun k => Real.log (v k))
    (tu : Trend f.values.d3 fun k => Real.log (u k)) :
    ∃ A B k, LeastSquares f.values.d3 (fun k => Real.log (F k - 1)) A B ∧ B ≠ 0 ∧ A + B * k = Real.log (τ i c - 1) ∧
      (∃ α β, LeastSquares f.values.d3 (fun k => Real.log (v k)) α β ∧
        (tailSigma f g m s).get i c 0 f.values.d3 = .fin (Real.exp (α + β * k))) ∧
      (∃ α β, LeastSquares f.values.d3 (fun k => Real.log (u k)) α β ∧
        (tailStdErr f g m e).get i c 0 f.values.d3 = .fin (Real.exp (α + β * k))) ∧
      (tailSigma f g m s).d3 = f.values.d3 + 1 ∧ (tailStdErr f g m e).d3 = f.values.d3 + 1 ∧
      ∀ d < f.values.d3, (tailSigma f g m s).get i c 0 d = .fin (v d) ∧
        (tailStdErr f g m e).get i c 0 d = .fin (u d) := by
  obtain ⟨ha, hno⟩ := h.above hτ
  obtain ⟨A, B, k, hB, hl, hk, hp⟩ := timePeriod_eq (g := g) (m := m) hn hF ht (hτ i hi c hc)
    (Or.inl ⟨ha, h.prod i hi c hc⟩)
  obtain ⟨α, β, -, a1, a2, a3⟩ := trend_line hn (y := fun k => log (s.get i c 0 k))
    (l := fun k => Real.log (v k)) (fun k hk => by
      rw [(hv k hk).2, log_pos (hv k hk).1]) tv
  obtain ⟨α', β', -, b1, b2, b3⟩ := trend_line hn (y := fun k => log ((e.get i c 0 k).numToNan))
    (l := fun k => Real.log (u k)) (fun k hk => by
      rw [(hu k hk).2, Num.numToNan_fin, if_neg (hu k hk).1.ne', log_pos (hu k hk).1]) tu
  refine ⟨A, B, k, hl, hB, hk, ⟨α, β, a3, ?_⟩, ⟨α', β', b3, ?_⟩, ?_, ?_, ?_⟩
  · unfold tailSigma tailStat
    simp only [if_neg hno, s3, lt_irrefl, if_false]
    rw [hp, a1, a2, Num.fin_mul_fin, Num.fin_add_fin, exp_fin]
    congr 2
    ring
  · unfold tailStdErr tailStat
    simp only [if_neg hno, e3, lt_irrefl, if_false]
    rw [hp, b1, b2, Num.fin_mul_fin, Num.fin_add_fin, exp_fin]
    congr 2
    ring
  · show s.d3 + 1 = _
    rw [s3]
  · show e.d3 + 1 = _
    rw [e3]
  · intro d hd
    unfold tailSigma tailStdErr
    simp only [s3, e3, if_pos hd]
    exact ⟨(hv d hd).2, (hu d hd).2⟩

/-- **C69**, tails of one: the statistics of the tail are zero.  Partial: as for `C69_tail_partial`. -/
theorem C69_one_partial {f g : Tri ℝ} {m : Nat} {τ : Nat → Nat → ℝ} (h : TailOf f g m τ)
    (hτ : ∀ i < f.values.d0, ∀ c < f.values.d1, τ i c = 1) (hn : 2 ≤ f.values.d3) {i c : Nat}
    {F : Nat → ℝ} (hF : ∀ k < f.values.d3, 1 < F k ∧ f.values.get i c 0 k = .fin (F k))
    (ht : Trend f.values.d3 fun k => Real.log (F k - 1)) {s e : Arr ℝ} (s3 : s.d3 = f.values.d3)
    (e3 : e.d3 = f.values.d3) {v u : Nat → ℝ} (hv : ∀ k < f.values.d3, 0 < v k ∧ s.get i c 0 k = .fin (v k))
    (hu : ∀ k < f.values.d3, 0 < u k ∧ e.get i c 0 k = .fin (u k)) (tv : Trend f.values.d3 fun k => Real.log (v k))
    (tu : Trend f.values.d3 fun k => Real.log (u k)) :
    (tailSigma f g m s).get i c 0 f.values.d3 = .fin 0 ∧ (tailStdErr f g m e).get i c 0 f.values.d3 = .fin 0 := by
  obtain ⟨ha, hno⟩ := h.none hτ
  obtain ⟨A, B, k, hB, hl, hk, hp⟩ := timePeriod_eq (g := g) (m := m) (τ := 1001 / 1000) hn hF ht (by norm_num)
    (Or.inr ⟨ha, rfl⟩)
  obtain ⟨α, β, -, a1, a2, a3⟩ := trend_line hn (y := fun k => log (s.get i c 0 k))
    (l := fun k => Real.log (v k)) (fun k hk => by
      rw [(hv k hk).2, log_pos (hv k hk).1]) tv
  obtain ⟨α', β', -, b1, b2, b3⟩ := trend_line hn (y := fun k => log ((e.get i c 0 k).numToNan))
    (l := fun k => Real.log (u k)) (fun k hk => by
      rw [(hu k hk).2, Num.numToNan_fin, if_neg (hu k hk).1.ne', log_pos (hu k hk).1]) tu
  constructor
  · unfold tailSigma tailStat
    simp only [if_pos hno, s3, lt_irrefl, if_false]
    rw [hp, a1, a2, Num.fin_mul_fin, Num.fin_add_fin, exp_fin, Num.zero_def, Num.fin_mul_fin, mul_zero]
  · unfold tailStdErr tailStat
    simp only [if_pos hno, e3, lt_irrefl, if_false]
    rw [hp, b1, b2, Num.fin_mul_fin, Num.fin_add_fin, exp_fin, Num.zero_def, Num.fin_mul_fin, mul_zero]

/-- The trend of the factors is missing: so are the statistics of the tail. -/
theorem stat_missing {f g : Tri ℝ} {m i c : Nat}
    (h : lineSlope f.values.d3 (fun k => logExcess (f.values.get i c 0 k)) = .nan) (n : Nat) (x : Nat → Num ℝ) :
    tailStat f g m i c n x = .nan := by
  have hp : timePeriod f g m i c = .nan := by
    unfold timePeriod
    simp only [h, Num.div_nan]
  unfold tailStat
  simp only [hp, Num.nan_mul, Num.nan_add]
  split_ifs
  · exact Num.nan_mul _
  · rfl

/-- **C69** is false when no factor is above one: the statistics of the tail are NaN, with and without a tail. -/
theorem C69_no_factor_false {f g : Tri ℝ} {m i c : Nat} (hn : 1 ≤ f.values.d3)
    (hF : ∀ k < f.values.d3, ∃ x ≤ 1, f.values.get i c 0 k = .fin x) {s e : Arr ℝ} (s3 : s.d3 = f.values.d3)
    (e3 : e.d3 = f.values.d3) :
    (tailSigma f g m s).get i c 0 f.values.d3 = .nan ∧ (tailStdErr f g m e).get i c 0 f.values.d3 = .nan := by
  have hrow : Row f.values.d3 (fun k => logExcess (f.values.get i c 0 k)) ∅ (fun _ => 0) :=
    ⟨fun k hk => absurd hk (Finset.notMem_empty k), fun k hk => absurd hk (Finset.notMem_empty k), fun k hk _ => by
      obtain ⟨x, hx, ex⟩ := hF k hk
      rw [ex, logExcess_le hx]⟩
  have h := (hrow.empty hn).1
  unfold tailSigma tailStdErr
  simp only [s3, e3, lt_irrefl, if_false]
  exact ⟨stat_missing h _ _, stat_missing h _ _⟩

/-- **C69** is false of a triangle of two ages: the statistics of the tail are NaN. -/
theorem C69_two_ages_false {f g : Tri ℝ} {m i c : Nat} (hn : f.values.d3 = 1) {x : ℝ}
    (hF : f.values.get i c 0 0 = .fin x) {s e : Arr ℝ} (s3 : s.d3 = 1) (e3 : e.d3 = 1) :
    (tailSigma f g m s).get i c 0 1 = .nan ∧ (tailStdErr f g m e).get i c 0 1 = .nan := by
  have h : lineSlope f.values.d3 (fun k => logExcess (f.values.get i c 0 k)) = .nan := by
    rw [hn]
    by_cases h1 : 1 < x
    · have hrow : Row 1 (fun k => logExcess (f.values.get i c 0 k)) (Finset.range 1) (fun _ => Real.log (x - 1)) :=
        full_row fun k hk => by
          have : k = 0 := by omega
          subst this
          rw [hF, logExcess_gt h1]
      refine (hrow.flat le_rfl ⟨0, by simp⟩ ?_).1
      simp [ageSum]
    · have hrow : Row 1 (fun k => logExcess (f.values.get i c 0 k)) ∅ (fun _ => 0) :=
        ⟨fun k hk => absurd hk (Finset.notMem_empty k), fun k hk => absurd hk (Finset.notMem_empty k), fun k hk _ => by
          have : k = 0 := by omega
          subst this
          rw [hF, logExcess_le (not_lt.mp h1)]⟩
      exact (hrow.empty le_rfl).1
  unfold tailSigma tailStdErr
  simp only [s3, e3, lt_irrefl, if_false]
  exact ⟨stat_missing h _ _, stat_missing h _ _⟩

/-- **C69** is false when all ages have the same sigma: that of the tail is not this number, but NaN. -/
theorem C69_flat_false {f g : Tri ℝ} {m i c : Nat} {s : Arr ℝ} (hn : 1 ≤ s.d3) {v : ℝ} (hv : 0 < v)
    (hs : ∀ k < s.d3, s.get i c 0 k = .fin v) : (tailSigma f g m s).get i c 0 s.d3 = .nan := by
  have hrow : Row s.d3 (fun k => log (s.get i c 0 k)) (Finset.range s.d3) (fun _ => Real.log v) :=
    full_row fun k hk => by rw [hs k hk, log_pos hv]
  have h := hrow.flat hn ⟨0, Finset.mem_range.mpr (by omega)⟩ (by
    rw [← Finset.sum_mul, Finset.sum_const, nsmul_eq_mul]
    show ageSum s.d3 * Real.log v * _ = _
    ring)
  unfold tailSigma tailStat
  simp only [lt_irrefl, if_false, h.1, h.2, Num.mul_nan, Num.add_nan]
  split_ifs
  · exact Num.nan_mul _
  · rfl

/-- **C69** is false when only some factors are above one: a factor of one is missing, but its age keeps its weight.
With factors 2, 3/2 and 1, sigmas 4, 2 and 1 and a tail of 5/4, the trend of the factors above one (`2 - k` as a power
of 2) puts the tail at age 3, where the trend of the sigmas is 1; the code puts it at age -1 and its sigma is 16. -/
theorem C69_mixed_false {f g : Tri ℝ} {m i c : Nat} (h : TailOf f g m fun _ _ => 5 / 4) (hi : i < f.values.d0)
    (hc : c < f.values.d1) (h3 : f.values.d3 = 3) (f0 : f.values.get i c 0 0 = .fin 2)
    (f1 : f.values.get i c 0 1 = .fin (3 / 2)) (f2 : f.values.get i c 0 2 = .fin 1) {s : Arr ℝ} (s3 : s.d3 = 3)
    (s0 : s.get i c 0 0 = .fin 4) (s1 : s.get i c 0 1 = .fin 2) (s2 : s.get i c 0 2 = .fin 1) :
    timePeriod f g m i c = .fin (-1) ∧ (tailSigma f g m s).get i c 0 3 = .fin 16 ∧
      ∃ A B α β : ℝ, A + B * 1 = Real.log (2 - 1) ∧ A + B * 2 = Real.log (3 / 2 - 1) ∧
        A + B * 3 = Real.log (5 / 4 - 1) ∧ α + β * 1 = Real.log 4 ∧ α + β * 2 = Real.log 2 ∧ α + β * 3 = Real.log 1 ∧
        Real.exp (α + β * 3) = 1 := by
  have l4 : Real.log 4 = 2 * Real.log 2 := by
    rw [show (4 : ℝ) = 2 ^ 2 by norm_num, Real.log_pow]
    norm_num
  have l12 : Real.log (3 / 2 - 1) = - Real.log 2 := by
    rw [show (3 / 2 - 1 : ℝ) = 2⁻¹ by norm_num, Real.log_inv]
  have l14 : Real.log (5 / 4 - 1) = - (2 * Real.log 2) := by
    rw [show (5 / 4 - 1 : ℝ) = 4⁻¹ by norm_num, Real.log_inv, l4]
  have l1 : Real.log (2 - 1) = 0 := by
    rw [show (2 - 1 : ℝ) = 1 by norm_num, Real.log_one]
  have hpos : 0 < Real.log 2 := Real.log_pos (by norm_num)
  obtain ⟨ha, hno⟩ := h.above fun _ _ _ _ => by norm_num
  have age : ageSum 3 = 6 := by
    unfold ageSum
    norm_num [Finset.sum_range_succ]
  have spr : ageSpread 3 = 2 := by
    unfold ageSpread
    rw [age]
    norm_num [Finset.sum_range_succ]
  have hrow : Row 3 (fun k => logExcess (f.values.get i c 0 k)) {0, 1} (fun k => if k = 0 then 0 else - Real.log 2) := by
    refine ⟨fun k hk => ?_, fun k hk => ?_, fun k hk hn => ?_⟩
    · simp at hk
      omega
    · simp at hk
      rcases hk with rfl | rfl
      · rw [f0, logExcess_gt (by norm_num), l1]
        rfl
      · rw [f1, logExcess_gt (by norm_num), l12]
        rfl
    · simp at hn
      have : k = 2 := by omega
      subst this
      rw [f2, logExcess_le le_rfl]
  obtain ⟨a, b, -, e1, e2, e3, e4⟩ := hrow.line (by omega) ⟨0, by simp⟩ (by
    rw [age]
    simp
    intro hcon
    linarith)
  have hb : b = Real.log 2 / 2 := by
    rw [e3, age, spr]
    simp
    ring
  have ha' : a = - (3 / 2 * Real.log 2) := by
    rw [e4, age, hb]
    simp
    ring
  have hp : timePeriod f g m i c = .fin (-1) := by
    unfold timePeriod
    simp only [h3, e1, e2, if_pos ha]
    rw [h.prod i hi c hc, Num.one_def, Num.fin_sub_fin, log_pos (by norm_num), Num.fin_sub_fin, hb,
      Num.fin_div_fin_of_ne _ (by positivity), l14, ha']
    congr 1
    field_simp
    ring
  have srow : Row 3 (fun k => log (s.get i c 0 k)) (Finset.range 3) (fun k => (2 - k) * Real.log 2) := by
    refine full_row fun k hk => ?_
    interval_cases k
    · rw [s0, log_pos (by norm_num), l4]
      norm_num
    · rw [s1, log_pos (by norm_num)]
      norm_num
    · rw [s2, log_pos (by norm_num), Real.log_one]
      norm_num
  obtain ⟨α, β, -, g1, g2, g3, g4⟩ := srow.line (by omega) ⟨0, by simp⟩ (by
    rw [age]
    simp [Finset.sum_range_succ]
    intro hcon
    linarith)
  have hβ : β = - Real.log 2 := by
    rw [g3, age, spr]
    simp [Finset.sum_range_succ]
    ring
  have hα : α = 3 * Real.log 2 := by
    rw [g4, age, hβ]
    simp [Finset.sum_range_succ]
    ring
  refine ⟨hp, ?_, Real.log 2, - Real.log 2, 3 * Real.log 2, - Real.log 2, ?_, ?_, ?_, ?_, ?_, ?_, ?_⟩
  · unfold tailSigma tailStat
    simp only [if_neg hno, s3, lt_irrefl, if_false]
    rw [hp, g1, g2, Num.fin_mul_fin, Num.fin_add_fin, exp_fin, hβ, hα]
    have : -1 * -Real.log 2 + 3 * Real.log 2 = Real.log 16 := by
      rw [show (16 : ℝ) = 2 ^ 4 by norm_num, Real.log_pow]
      push_cast
      ring
    rw [this, Real.exp_log (by norm_num)]
  · rw [l1]; ring
  · rw [l12]; ring
  · rw [l14]; ring
  · rw [l4]; ring
  · ring
  · rw [Real.log_one]; ring
  · rw [show 3 * Real.log 2 + -Real.log 2 * 3 = 0 by ring, Real.exp_zero]

/-- **C69** for `Development` and `TailConstant`.  Partial: as for `C69_tail_partial`; all link ratios are used, and
amounts are positive. -/
theorem C69_constant_partial {t : Tri ℝ} {a : Int} {n D q : Nat} (h : Tri.Standard t a n D q) (hp : Work.Positive t n D q)
    {P : Dev.Params ℝ} (hd : P.NoDrop) (hn : ∀ d, P.nPeriods d < 1) (m : Munich.Interp) (hD : 3 ≤ D) (p : Nat)
    (hr : tailLength t (D - 1) p ≤ 1000) {tail decay : ℝ} (h0 : 0 ≤ decay) (h1 : decay ≤ 1) (ht : 1 < tail) :
    ∃ f s e g, Dev.fitStats t P m false = .ok (f, s, e) ∧ constant t f tail decay none p = .ok g ∧
      ∀ i < t.kdims.length, ∀ c < t.vdims.length, ∀ F v u : Nat → ℝ,
        (∀ k < D - 1, F k = Dev.average t i c k (Work.pairs n D q k) (P.average k)) →
        (∀ k < D - 1, 1 < F k) → Trend (D - 1) (fun k => Real.log (F k - 1)) →
        (∀ k < D - 1, 0 < v k ∧ s.values.get i c 0 k = .fin (v k)) → Trend (D - 1) (fun k => Real.log (v k)) →
        (∀ k < D - 1, 0 < u k ∧ e.values.get i c 0 k = .fin (u k)) → Trend (D - 1) (fun k => Real.log (u k)) →
        ∃ A B k, LeastSquares (D - 1) (fun k => Real.log (F k - 1)) A B ∧ B ≠ 0 ∧ A + B * k = Real.log (tail - 1) ∧
          (∃ α β, LeastSquares (D - 1) (fun k => Real.log (v k)) α β ∧
            (tailSigma f g (addedPeriods p t.dgrain) s.values).get i c 0 (D - 1) = .fin (Real.exp (α + β * k))) ∧
          ∃ α β, LeastSquares (D - 1) (fun k => Real.log (u k)) α β ∧
            (tailStdErr f g (addedPeriods p t.dgrain) e.values).get i c 0 (D - 1) = .fin (Real.exp (α + β * k)) := by
  obtain ⟨w, f, s, e, hw, hf, hfs, s1, e1, -, -, s2, e2, s3, e3, hs, he⟩ := Dev.stats_run h hd hn m false
  obtain ⟨f', hf', hlp, hlen, hage⟩ := Work.C56_development h hp hd hn
  rw [hf] at hf'
  injection hf' with hf'
  subst hf'
  have lD := h.lenD
  obtain ⟨hl, -⟩ := hlp.length
  have hsolv : Solvable decay tail := by
    refine ⟨by linarith, ?_⟩
    exact add_nonneg (sq_nonneg _) (mul_nonneg (mul_nonneg (by norm_num) (Finset.sum_nonneg fun _ _ => sq_nonneg _))
      (Real.log_nonneg ht.le))
  obtain ⟨g, hg, hgt⟩ := C37_tail_partial (age := none) (k := D - 1) h.isVal hlp.wf hl (by omega)
    (Or.inl ⟨Or.inl rfl, by rw [lD]; omega⟩) (by omega) p hr h0 h1 (Or.inr hsolv)
  have hto : TailOf f g (addedPeriods p t.dgrain) fun _ _ => tail :=
    tailOf hlp h.index_pos h.columns_pos (by rw [lD]; exact hgt)
  refine ⟨f, s, e, g, hfs, hg, ?_⟩
  intro i hi c hc F v u hF hF1 tF hv tv hu tu
  obtain ⟨lr, hlr, -⟩ := h.linkRatio
  obtain ⟨f', hf', k1, k2, -⟩ := Dev.C28_fit h.regular hd hn hlr
  rw [hf] at hf'
  injection hf' with hf'
  subst hf'
  have f0 : f.values.d0 = t.kdims.length := by rw [hlp.wf.1, k1]
  have f1 : f.values.d1 = t.vdims.length := by rw [hlp.wf.2.1, k2]
  have f3 : f.values.d3 = D - 1 := by rw [hlp.wf.2.2.2]; omega
  have t3 : t.values.d3 = D := by rw [h.wf.2.2.2, lD]
  have sd : s.values.d3 = D - 1 := by rw [hs, ← t3]; rfl
  have ed : e.values.d3 = D - 1 := by rw [he, ← t3]; rfl
  rw [← f3] at hF hF1 tF hv tv hu tu ⊢
  obtain ⟨A, B, k, r1, r2, r3, r4, r5, -⟩ := C69_tail_partial hto (fun _ _ _ _ => ht) (by omega)
    (i := i) (c := c) (by omega) (by omega) (F := F) (fun k hk => ⟨hF1 k hk, by
      obtain ⟨x, -, hx⟩ := hlp.factors i (by omega) c (by omega) k hk
      have e0 := hage i hi c hc k (by omega)
      rw [← hF k hk] at e0
      unfold Tri.ageFactor at e0
      rw [k1, k2] at e0
      have i0 : (if t.kdims.length = 1 then 0 else i) = i := by split_ifs <;> omega
      have c0 : (if t.vdims.length = 1 then 0 else c) = c := by split_ifs <;> omega
      rw [i0, c0, hx] at e0
      rw [hx, ← e0]
      rfl⟩) tF (sd.trans f3.symm) (ed.trans f3.symm) hv hu tv tu
  exact ⟨A, B, k, r1, r2, r3, r4, r5⟩

/-- Values on a line. -/
theorem leastSquares_of {n : Nat} {l : Nat → ℝ} {a b : ℝ} (h : ∀ k < n, l k = a + b * ((k : ℝ) + 1)) :
    LeastSquares n l a b := by
  intro a' b'
  have : ∑ k ∈ Finset.range n, (l k - (a + b * ((k : ℝ) + 1))) ^ 2 = 0 :=
    Finset.sum_eq_zero fun k hk => by rw [h k (Finset.mem_range.mp hk), sub_self, zero_pow two_ne_zero]
  rw [this]
  exact Finset.sum_nonneg fun _ _ => sq_nonneg _

theorem trend_of {n : Nat} (hn : 2 ≤ n) {l : Nat → ℝ} {a b : ℝ} (h : LeastSquares n l a b) (hb : b ≠ 0) : Trend n l :=
  fun _ h' => hb (h.unique hn h').2.symm

namespace C69

/-- Amounts 2, 2, 2, 3 / 2, 6, 18 / 2, 10 / 5: link ratios 1, 3 and 5, then 1 and 3, then 3/2. -/
noncomputable def tri : Tri ℝ where
  kdims := [["Total"]]
  keyLabels := ["Total"]
  vdims := ["paid"]
  odims := [24240, 24252, 24264, 24276]
  ddims := [12, 24, 36, 48]
  isVal := false
  ograin := .Y
  dgrain := .Y
  vd := 24287
  isCum := some true
  isPattern := false
  isAdditive := none
  values := ⟨1, 1, 4, 4, fun _ _ o d => match o, d with
    | 0, 0 => .fin 2 | 0, 1 => .fin 2 | 0, 2 => .fin 2 | 0, 3 => .fin 3
    | 1, 0 => .fin 2 | 1, 1 => .fin 6 | 1, 2 => .fin 18
    | 2, 0 => .fin 2 | 2, 1 => .fin 10
    | 3, 0 => .fin 5
    | _, _ => .nan⟩

theorem standard : Tri.Standard tri 24240 4 4 1 where
  wf := ⟨rfl, rfl, rfl, rfl⟩
  finite := by
    intro i hi c hc o ho d hd
    replace ho : o < 4 := ho
    replace hd : d < 4 := hd
    interval_cases o <;> interval_cases d <;> trivial
  isVal := rfl
  cumulative := by decide
  noPattern := rfl
  multiplicative := rfl
  index_pos := le_rfl
  columns_pos := le_rfl
  two_origins := by decide
  period := le_rfl
  recent := by decide
  odims := rfl
  ddims := rfl
  vd := rfl
  short := by decide
  early := by decide
  known := by
    intro i hi c hc o ho d hd hlt
    interval_cases o <;> interval_cases d <;> first | rfl | omega

theorem positive : Work.Positive tri 4 4 1 := by
  intro i hi c hc o ho d hd hle
  interval_cases o <;> interval_cases d <;>
    first
    | omega
    | exact ⟨_, by norm_num, rfl⟩

noncomputable def simple : Dev.Params ℝ where
  average := fun _ => .simple

theorem pairs0 : Work.pairs 4 4 1 0 = {0, 1, 2} := by decide
theorem pairs1 : Work.pairs 4 4 1 1 = {0, 1} := by decide
theorem pairs2 : Work.pairs 4 4 1 2 = {0} := by decide

theorem card0 : (({0, 1, 2} : Finset Nat).card : ℝ) = 3 := by norm_num
theorem card1 : (({0, 1} : Finset Nat).card : ℝ) = 2 := by norm_num

theorem average0 : Dev.average tri 0 0 0 (Work.pairs 4 4 1 0) .simple = 3 := by
  unfold Dev.average
  rw [pairs0]
  simp only [Finset.sum_insert, Finset.sum_singleton, Finset.mem_insert, Finset.mem_singleton, not_or,
    (by decide : (0 : Nat) ≠ 1 ∧ (0 : Nat) ≠ 2), (by decide : (1 : Nat) ≠ 2), not_false_iff, and_self, card0]
  show ((2 : ℝ) / 2 + (6 / 2 + 10 / 2)) / 3 = 3
  norm_num

theorem average1 : Dev.average tri 0 0 1 (Work.pairs 4 4 1 1) .simple = 2 := by
  unfold Dev.average
  rw [pairs1]
  simp only [Finset.sum_pair (by decide : (0 : Nat) ≠ 1), card1]
  show ((2 : ℝ) / 2 + 18 / 6) / 2 = 2
  norm_num

theorem average2 : Dev.average tri 0 0 2 (Work.pairs 4 4 1 2) .simple = 3 / 2 := by
  unfold Dev.average
  rw [pairs2]
  simp only [Finset.sum_singleton, Finset.card_singleton]
  show ((3 : ℝ) / 2) / ((1 : Nat) : ℝ) = 3 / 2
  norm_num

theorem variance0 : Dev.variance tri 0 0 0 (Work.pairs 4 4 1 0) .simple = 4 := by
  unfold Dev.variance
  rw [average0, pairs0]
  simp only [Finset.sum_insert, Finset.sum_singleton, Finset.mem_insert, Finset.mem_singleton, not_or,
    (by decide : (0 : Nat) ≠ 1 ∧ (0 : Nat) ≠ 2), (by decide : (1 : Nat) ≠ 2), not_false_iff, and_self, card0]
  show ((2 : ℝ) ^ 0 * (2 / 2 - 3) ^ 2 + (2 ^ 0 * (6 / 2 - 3) ^ 2 + 2 ^ 0 * (10 / 2 - 3) ^ 2)) / (3 - 1) = 4
  norm_num

theorem variance1 : Dev.variance tri 0 0 1 (Work.pairs 4 4 1 1) .simple = 2 := by
  unfold Dev.variance
  rw [average1, pairs1]
  simp only [Finset.sum_pair (by decide : (0 : Nat) ≠ 1), card1]
  show ((2 : ℝ) ^ 0 * (2 / 2 - 2) ^ 2 + 6 ^ 0 * (18 / 6 - 2) ^ 2) / (2 - 1) = 2
  norm_num

theorem mass0 : Dev.mass tri 0 0 0 (Work.pairs 4 4 1 0) .simple = 3 := by
  unfold Dev.mass
  rw [pairs0]
  norm_num [Avg.exponent]

theorem mass1 : Dev.mass tri 0 0 1 (Work.pairs 4 4 1 1) .simple = 2 := by
  unfold Dev.mass
  rw [pairs1]
  norm_num [Avg.exponent]

theorem mass2 : Dev.mass tri 0 0 2 (Work.pairs 4 4 1 2) .simple = 1 := by
  unfold Dev.mass
  rw [pairs2]
  norm_num [Avg.exponent]

/-- The logarithms of the sigmas 2, the root of 2, and 1. -/
theorem logs : Real.log (Real.sqrt 2) = Real.log 2 / 2 := Real.log_sqrt (by norm_num)

end C69

/-- Simple averages of 3, 2 and 3/2: less one, these are 2, 1 and 1/2, so a tail of 5/4 has age 4.  The sigmas are 2,
the root of 2 and (by Mack's rule) 1; that of age 4 is the root of 1/2. -/
example : ∃ f s e g, Dev.fitStats C69.tri C69.simple .mack false = .ok (f, s, e) ∧
    constant C69.tri f (5 / 4) (1 / 2) none 12 = .ok g ∧
    (tailSigma f g 1 s.values).get 0 0 0 3 = .fin (Real.exp (- (Real.log 2 / 2))) := by
  have hd : C69.simple.NoDrop := ⟨rfl, rfl, rfl, rfl, rfl, rfl⟩
  have hn : ∀ d, C69.simple.nPeriods d < 1 := fun d => by show (-1 : Int) < 1; decide
  obtain ⟨f, s, e, g, hr, hg, hcell⟩ := C69_constant_partial C69.standard C69.positive hd hn .mack (by decide) 12
    (by decide) (tail := 5 / 4) (decay := 1 / 2) (by norm_num) (by norm_num) (by norm_num)
  refine ⟨f, s, e, g, hr, hg, ?_⟩
  obtain ⟨f', s', e', -, hr', -, -, -, -, -, -, hst⟩ := Dev.C68_plain_partial C69.standard C69.positive hd hn .mack
  rw [hr] at hr'
  obtain ⟨rfl, rfl, rfl⟩ : f = f' ∧ s = s' ∧ e = e' := by
    injection hr' with hr'
    injection hr' with h1 h2
    injection h2 with h2 h3
    exact ⟨h1, h2, h3⟩
  have v0 : Dev.variance C69.tri 0 0 0 (Work.pairs 4 4 1 0) (C69.simple.average 0) = 4 := C69.variance0
  have v1 : Dev.variance C69.tri 0 0 1 (Work.pairs 4 4 1 1) (C69.simple.average 1) = 2 := C69.variance1
  have m0 : Dev.mass C69.tri 0 0 0 (Work.pairs 4 4 1 0) (C69.simple.average 0) = 3 := C69.mass0
  have m1 : Dev.mass C69.tri 0 0 1 (Work.pairs 4 4 1 1) (C69.simple.average 1) = 2 := C69.mass1
  have m2 : Dev.mass C69.tri 0 0 2 (Work.pairs 4 4 1 2) (C69.simple.average 2) = 1 := C69.mass2
  have r4 : Real.sqrt 4 = 2 := by
    rw [show (4 : ℝ) = 2 ^ 2 by norm_num, Real.sqrt_sq (by norm_num)]
  have c0 := hst 0 (by decide) 0 (by decide) 0 (by decide)
  have c1 := hst 0 (by decide) 0 (by decide) 1 (by decide)
  have c2 := hst 0 (by decide) 0 (by decide) 2 (by decide)
  rw [v0, m0] at c0
  rw [v1, m1] at c1
  rw [m2] at c2
  have s0 : s.values.get 0 0 0 0 = .fin 2 := by rw [c0.1 (by decide) (by norm_num), r4]
  have s1 : s.values.get 0 0 0 1 = .fin (Real.sqrt 2) := c1.1 (by decide) (by norm_num)
  have s2 : s.values.get 0 0 0 2 = .fin 1 := by
    rw [Dev.C68_mack_partial C69.standard C69.positive hd hn hr (i := 0) (c := 0) (d := 2) (by decide) (by decide) le_rfl
      (by decide) (by decide) (by decide) (u := Real.sqrt 2) (v := 2) (by positivity) two_pos
      (by rw [Real.sq_sqrt (by norm_num)]; exact v1) (by rw [v0]; norm_num), Real.sq_sqrt (by norm_num)]
    have h1 : (1 : ℝ) ≤ Real.sqrt 2 := Real.le_sqrt_of_sq_le (by norm_num)
    rw [div_self two_ne_zero, min_eq_left (le_min (by norm_num) h1)]
  have e0 : e.values.get 0 0 0 0 = .fin (Real.sqrt (4 / 3)) := c0.2.1 (by decide)
  have e1 : e.values.get 0 0 0 1 = .fin 1 := by
    rw [c1.2.1 (by decide), div_self two_ne_zero, Real.sqrt_one]
  have e2 : e.values.get 0 0 0 2 = .fin 1 := by
    rw [c2.2.2.1 (by decide) 1 (by norm_num) s2]
    norm_num
  have hpos : 0 < Real.log 2 := Real.log_pos (by norm_num)
  have lF : LeastSquares 3 (fun k : Nat => Real.log (((if k = 0 then 3 else if k = 1 then 2 else 3 / 2 : ℝ)) - 1))
      (2 * Real.log 2) (- Real.log 2) := by
    refine leastSquares_of fun k hk => ?_
    interval_cases k
    · simp only [if_pos]
      rw [show (3 - 1 : ℝ) = 2 by norm_num]
      push_cast
      ring
    · simp only [one_ne_zero, if_false, if_true]
      rw [show (2 - 1 : ℝ) = 1 by norm_num, Real.log_one]
      push_cast
      ring
    · simp only [OfNat.ofNat_ne_zero, OfNat.ofNat_ne_one, if_false]
      rw [show (3 / 2 - 1 : ℝ) = 2⁻¹ by norm_num, Real.log_inv]
      push_cast
      ring
  have lv : LeastSquares 3 (fun k : Nat => Real.log (if k = 0 then 2 else if k = 1 then Real.sqrt 2 else 1 : ℝ))
      (3 / 2 * Real.log 2) (- (Real.log 2 / 2)) := by
    refine leastSquares_of fun k hk => ?_
    interval_cases k
    · simp only [if_pos]
      push_cast
      ring
    · simp only [one_ne_zero, if_false, if_true]
      rw [C69.logs]
      push_cast
      ring
    · simp only [OfNat.ofNat_ne_zero, OfNat.ofNat_ne_one, if_false]
      rw [Real.log_one]
      push_cast
      ring
  have lu : Trend 3 (fun k : Nat => Real.log (if k = 0 then Real.sqrt (4 / 3) else 1 : ℝ)) := by
    have hx : 0 < Real.log (Real.sqrt (4 / 3)) := by
      rw [Real.log_sqrt (by norm_num)]
      have := Real.log_pos (show (1 : ℝ) < 4 / 3 by norm_num)
      linarith
    generalize Real.sqrt (4 / 3) = y at hx ⊢
    intro a ha
    have h2 := ha (a + Real.log y) (- (Real.log y / 2))
    simp only [Finset.sum_range_succ, Finset.sum_range_zero, if_true, one_ne_zero, OfNat.ofNat_ne_zero, if_false,
      Real.log_one] at h2
    push_cast at h2
    nlinarith
  obtain ⟨A, B, k, r1, hB, r2, ⟨α, β, r3, r5⟩, -⟩ := hcell 0 (by decide) 0 (by decide)
    (fun k => if k = 0 then 3 else if k = 1 then 2 else 3 / 2)
    (fun k => if k = 0 then 2 else if k = 1 then Real.sqrt 2 else 1)
    (fun k => if k = 0 then Real.sqrt (4 / 3) else 1)
    (fun k hk => by
      interval_cases k
      · exact C69.average0.symm
      · exact C69.average1.symm
      · exact C69.average2.symm)
    (fun k hk => by
      interval_cases k <;> norm_num)
    (trend_of (by omega) lF (by linarith))
    (fun k hk => by
      interval_cases k
      · exact ⟨two_pos, s0⟩
      · exact ⟨by positivity, s1⟩
      · exact ⟨one_pos, s2⟩)
    (trend_of (by omega) lv (by linarith))
    (fun k hk => by
      interval_cases k
      · exact ⟨by positivity, e0⟩
      · exact ⟨one_pos, e1⟩
      · exact ⟨one_pos, e2⟩)
    lu
  obtain ⟨rfl, rfl⟩ := lF.unique (by omega) r1
  obtain ⟨rfl, rfl⟩ := lv.unique (by omega) r3
  rw [show (5 / 4 - 1 : ℝ) = 4⁻¹ by norm_num, Real.log_inv, show (4 : ℝ) = 2 ^ 2 by norm_num, Real.log_pow] at r2
  have hk : k = 4 := by
    have : Real.log 2 * (k - 4) = 0 := by push_cast at r2; linarith
    rcases mul_eq_zero.1 this with h | h
    · exact absurd h hpos.ne'
    · linarith
  have h1 : addedPeriods 12 C69.tri.dgrain = 1 := by decide
  rw [h1, hk] at r5
  refine r5.trans ?_
  congr 2
  ring

end Tail
end CL
