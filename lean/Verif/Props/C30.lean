import Verif.Props.C28
import Verif.Lemmas.Weights
import Mathlib.Algebra.BigOperators.Ring.Finset
import Mathlib.Algebra.Order.BigOperators.Group.Finset
import Mathlib.Algebra.Order.Field.Basic
import Mathlib.Tactic.Linarith
import Mathlib.Tactic.Ring
import Mathlib.Tactic.FieldSimp

set_option linter.unusedSectionVars false

/-! # C30: bounds and scaling of fitted factors -/

namespace CL
namespace Dev
variable {K : Type} [Field K] [LinearOrder K] [IsStrictOrderedRing K]

/-- Origins of an age that take part in the average with nonnegative weights `s`. -/
def used (n : Nat) (s x y : Nat → Num K) : Finset Nat :=
  (Finset.range n).filter fun j => 0 < (s j).amt ∧ 0 < (x j).amt ∧ 0 < (y j).amt

private theorem between {s : Finset Nat} (hs : s.Nonempty) {d r : Nat → K} (hd : ∀ j ∈ s, 0 < d j)
    {lo hi : K} (h : ∀ j ∈ s, lo ≤ r j ∧ r j ≤ hi) :
    lo ≤ (∑ j ∈ s, d j * r j) / ∑ j ∈ s, d j ∧ (∑ j ∈ s, d j * r j) / ∑ j ∈ s, d j ≤ hi := by
  have hp : 0 < ∑ j ∈ s, d j := Finset.sum_pos hd hs
  rw [le_div_iff₀ hp, div_le_iff₀ hp, Finset.mul_sum, Finset.mul_sum]
  constructor
  · apply Finset.sum_le_sum
    intro j hj
    have := mul_le_mul_of_nonneg_left (h j hj).1 (hd j hj).le
    linarith [mul_comm (d j) lo]
  · apply Finset.sum_le_sum
    intro j hj
    have := mul_le_mul_of_nonneg_left (h j hj).2 (hd j hj).le
    linarith [mul_comm (d j) hi]

/-- **C30**, one age: nonnegative amounts and weights (not only 0 and 1), at least one origin that
takes part.  The factor is a number between any bounds of the link ratios that take part. -/
theorem C30_bounds (v : Avg) {n : Nat} {s x y : Nat → Num K} (hs : ∀ j < n, (s j).NoInf)
    (hx : ∀ j < n, (x j).NoInf) (hy : ∀ j < n, (y j).NoInf) (hs0 : ∀ j < n, 0 ≤ (s j).amt)
    (hx0 : ∀ j < n, 0 ≤ (x j).amt) (hy0 : ∀ j < n, 0 ≤ (y j).amt) (hne : (used n s x y).Nonempty)
    {lo hi : K} (h : ∀ j ∈ used n s x y, lo ≤ (y j).amt / (x j).amt ∧ (y j).amt / (x j).amt ≤ hi) :
    ∃ f : K, factor v n s (fun j => (x j).numToNan) (fun j => (y j).numToNan) = .fin f ∧
      lo ≤ f ∧ f ≤ hi ∧ 0 < f := by
  rw [factor_eq v n hs (fun j hj => clean_numToNan (hx j hj))
    (fun j hj => clean_numToNan (hy j hj))]
  simp only [Num.amt_numToNan]
  have e : ∀ g : Nat → K, (∀ j < n, (s j).amt = 0 → g j = 0) →
      (∑ j ∈ Finset.range n, if (x j).amt ≠ 0 ∧ (y j).amt ≠ 0 then g j else 0) =
        ∑ j ∈ used n s x y, g j := by
    intro g hg
    unfold used
    rw [Finset.sum_filter]
    apply Finset.sum_congr rfl
    intro j hj
    have hj : j < n := by simpa using hj
    by_cases h1 : (x j).amt = 0
    · simp [h1]
    by_cases h2 : (y j).amt = 0
    · simp [h2]
    by_cases h3 : (s j).amt = 0
    · simp [h3, hg j hj h3]
    rw [if_pos ⟨h1, h2⟩, if_pos ⟨lt_of_le_of_ne (hs0 j hj) (Ne.symm h3),
      lt_of_le_of_ne (hx0 j hj) (Ne.symm h1), lt_of_le_of_ne (hy0 j hj) (Ne.symm h2)⟩]
  have hmem : ∀ j ∈ used n s x y, 0 < (s j).amt ∧ 0 < (x j).amt ∧ 0 < (y j).amt := fun j hj =>
    (Finset.mem_filter.1 hj).2
  have hd : ∀ j ∈ used n s x y, 0 < denom v (s j).amt (x j).amt := by
    intro j hj
    obtain ⟨h1, h2, h3⟩ := hmem j hj
    cases v <;> simp only [denom] <;> positivity
  have hn : ∀ j ∈ used n s x y, numer v (s j).amt (x j).amt (y j).amt =
      denom v (s j).amt (x j).amt * ((y j).amt / (x j).amt) := by
    intro j hj
    obtain ⟨h1, h2, h3⟩ := hmem j hj
    have := h2.ne'
    cases v <;> simp only [numer, denom] <;> field_simp
  rw [e _ (by intro j _ h0; rw [h0]; cases v <;> simp [numer]),
    e _ (by intro j _ h0; rw [h0]; cases v <;> simp [denom]), Finset.sum_congr rfl hn]
  have hpos : 0 < (∑ j ∈ used n s x y, denom v (s j).amt (x j).amt * ((y j).amt / (x j).amt)) /
      ∑ j ∈ used n s x y, denom v (s j).amt (x j).amt := by
    apply div_pos (Finset.sum_pos _ hne) (Finset.sum_pos hd hne)
    intro j hj
    obtain ⟨h1, h2, h3⟩ := hmem j hj
    exact mul_pos (hd j hj) (div_pos h3 h2)
  refine ⟨_, ?_, (between hne hd h).1, (between hne hd h).2, hpos⟩
  simp [Num.numToNan, hpos.ne']

/-- **C30**, scaling, one age: multiplying both columns by a nonzero number leaves the factor
unchanged, whatever the weights. -/
theorem C30_scale (v : Avg) {n : Nat} {s x y : Nat → Num K} (hs : ∀ j < n, (s j).NoInf)
    (hx : ∀ j < n, (x j).NoInf) (hy : ∀ j < n, (y j).NoInf) {k : K} (hk : k ≠ 0) :
    factor v n s (fun j => (.fin k * x j : Num K).numToNan) (fun j => (.fin k * y j : Num K).numToNan)
      = factor v n s (fun j => (x j).numToNan) (fun j => (y j).numToNan) := by
  have ni : ∀ {z : Num K}, z.NoInf → (Num.fin k * z).NoInf := by
    intro z hz
    rcases Num.noInf_cases hz with rfl | ⟨a, rfl⟩ <;> trivial
  have am : ∀ {z : Num K}, z.NoInf → (Num.fin k * z).amt = k * z.amt := by
    intro z hz
    rcases Num.noInf_cases hz with rfl | ⟨a, rfl⟩ <;> simp [Num.amt]
  rw [factor_eq v n hs (fun j hj => clean_numToNan (ni (hx j hj)))
      (fun j hj => clean_numToNan (ni (hy j hj))),
    factor_eq v n hs (fun j hj => clean_numToNan (hx j hj))
      (fun j hj => clean_numToNan (hy j hj))]
  simp only [Num.amt_numToNan]
  congr 2
  obtain ⟨m, hm, h1, h2⟩ : ∃ m : K, m ≠ 0 ∧
      (∀ p a b : K, numer v p (k * a) (k * b) = m * numer v p a b) ∧
      (∀ p a : K, denom v p (k * a) = m * denom v p a) := by
    cases v
    · exact ⟨k * k, mul_ne_zero hk hk, by intros; simp only [numer]; ring,
        by intros; simp only [denom]; ring⟩
    · exact ⟨k, hk, by intros; simp only [numer]; ring, by intros; simp only [denom]; ring⟩
    · exact ⟨1, one_ne_zero, by intros; simp only [numer]; rw [mul_div_mul_left _ _ hk, one_mul],
        by intros; simp only [denom]; ring⟩
  rw [← mul_div_mul_left (∑ j ∈ Finset.range n, if (x j).amt ≠ 0 ∧ (y j).amt ≠ 0 then
      numer v (s j).amt (x j).amt (y j).amt else 0) _ hm, Finset.mul_sum, Finset.mul_sum]
  congr 1
  · apply Finset.sum_congr rfl
    intro j hj
    have hj : j < n := by simpa using hj
    rw [am (hx j hj), am (hy j hj), h1]
    simp only [ne_eq, mul_eq_zero, hk, false_or, mul_ite, mul_zero]
  · apply Finset.sum_congr rfl
    intro j hj
    have hj : j < n := by simpa using hj
    rw [am (hx j hj), am (hy j hj), h2]
    simp only [ne_eq, mul_eq_zero, hk, false_or, mul_ite, mul_zero]

/-- The triangle in other units. -/
def scaled (k : K) (t : Tri K) : Tri K := { t with values := t.values.map fun x => .fin k * x }

/-- **C30**, the fit: a triangle in other units has the same factors. -/
theorem C30_fit_scale {t : Tri K} (h : Tri.Regular t) {p : Params K} (hp : p.NoDrop)
    (hn : ∀ d, p.nPeriods d < 1) {k : K} (hk : k ≠ 0) {lr lr' : Tri K}
    (hl : t.linkRatio = .ok lr) (hl' : (scaled k t).linkRatio = .ok lr') :
    ∃ u u', fit t p = .ok u ∧ fit (scaled k t) p = .ok u' ∧
      ∀ i < t.values.d0, ∀ c < t.values.d1, ∀ d, d + 1 < t.values.d3 →
        u'.values.get i c 0 d = u.values.get i c 0 d := by
  have cell : ∀ {z : Num K}, z.NoInf → (Num.fin k * z).NoInf ∧ (Num.fin k * z).amt = k * z.amt := by
    intro z hz
    rcases Num.noInf_cases hz with rfl | ⟨a, rfl⟩
    · exact ⟨trivial, by simp [Num.amt]⟩
    · exact ⟨trivial, by simp [Num.amt]⟩
  have hreg : Tri.Regular (scaled k t) := by
    refine ⟨h.wf, h.ordered, ?_, ?_⟩
    · intro i hi c hc o ho d hd
      exact (cell (h.finite i hi c hc o ho d hd)).1
    · intro i hi c hc o ho d hd hv
      show Num.fin k * t.values.get i c o d = _
      rw [h.known i hi c hc o ho d hd hv]; simp
  obtain ⟨u, hu, -, -, -, -, -, -, hv⟩ := C28_fit h hp hn hl
  obtain ⟨u', hu', -, -, -, -, -, -, hv'⟩ := C28_fit hreg hp hn hl'
  refine ⟨u, u', hu, hu', ?_⟩
  intro i hi c hc d hd
  rw [hv i hi c hc d hd, hv' i hi c hc d hd]
  congr 2
  have am : ∀ o < t.values.d2, ∀ e < t.values.d3, amount (scaled k t) i c o e = k * amount t i c o e :=
    fun o ho e he => (cell (h.finite i hi c hc o ho e he)).2
  have hinc : included (scaled k t) (fun _ _ _ _ => 1) i c d = included t (fun _ _ _ _ => 1) i c d := by
    unfold included
    apply Finset.filter_congr
    intro o ho
    have ho : o < t.values.d2 := by simpa [scaled, Arr.map] using ho
    rw [am o ho d (by omega), am o ho (d + 1) hd]
    simp [hk]
  rw [hinc]
  set s := included t (fun _ _ _ _ => 1) i c d
  have hs : ∀ o ∈ s, o < t.values.d2 := fun o ho => by
    have := (Finset.mem_filter.1 ho).1; simpa using this
  have am0 : ∀ o ∈ s, amount (scaled k t) i c o d = k * amount t i c o d := fun o ho =>
    am o (hs o ho) d (by omega)
  have am1 : ∀ o ∈ s, amount (scaled k t) i c o (d + 1) = k * amount t i c o (d + 1) := fun o ho =>
    am o (hs o ho) (d + 1) hd
  cases p.average d
  · simp only [average]
    have e1 : ∀ o ∈ s, amount (scaled k t) i c o d * amount (scaled k t) i c o (d + 1) =
        k ^ 2 * (amount t i c o d * amount t i c o (d + 1)) := by
      intro o ho; rw [am0 o ho, am1 o ho]; ring
    have e2 : ∀ o ∈ s, amount (scaled k t) i c o d ^ 2 = k ^ 2 * amount t i c o d ^ 2 := by
      intro o ho; rw [am0 o ho]; ring
    rw [Finset.sum_congr rfl e1, Finset.sum_congr rfl e2, ← Finset.mul_sum, ← Finset.mul_sum]
    exact mul_div_mul_left _ _ (pow_ne_zero 2 hk)
  · simp only [average]
    rw [Finset.sum_congr rfl am1, Finset.sum_congr rfl am0, ← Finset.mul_sum, ← Finset.mul_sum]
    exact mul_div_mul_left _ _ hk
  · simp only [average]
    congr 1
    apply Finset.sum_congr rfl
    intro o ho
    rw [am0 o ho, am1 o ho, mul_div_mul_left _ _ hk]

/-- **C30**, the fit, for all parameters: every factor of an age lies between any bounds of the
link ratios with positive weight, when there is one. -/
theorem C30_fit_bounds {t u : Tri K} (h : Tri.Finite t) {p : Params K} {w : Arr K}
    (hw : weights t p = .ok w) (hu : fit t p = .ok u) {i c d : Nat} (hi : i < t.values.d0)
    (hc : c < t.values.d1) (hd : d + 1 < t.values.d3)
    (h0 : ∀ o < t.values.d2, ∀ e < t.values.d3, 0 ≤ amount t i c o e)
    {s : Finset Nat} (hs : s = included t (fun i c o d => (w.get i c o d).amt) i c d)
    (hne : s.Nonempty) {lo hi' : K}
    (hb : ∀ o ∈ s, lo ≤ amount t i c o (d + 1) / amount t i c o d ∧
      amount t i c o (d + 1) / amount t i c o d ≤ hi') :
    ∃ f : K, u.values.get i c 0 d = .fin f ∧ lo ≤ f ∧ f ≤ hi' ∧ 0 < f := by
  have z := weights_zeroOne (by omega) hw
  have hval : u.values = ldfArr t p w := fit_values hw hu
  rw [hval]
  have amt01 : ∀ o, (w.get i c o d).amt = 0 ∨ (w.get i c o d).amt = 1 := by
    intro o
    rcases z i c o d with e | e | e <;> rw [e] <;> simp [Num.zero_def, Num.one_def]
  have es : used t.values.d2 (fun o => w.get i c o d) (fun o => t.values.get i c o d)
      (fun o => t.values.get i c o (d + 1)) = s := by
    rw [hs]
    unfold used included
    apply Finset.filter_congr
    intro o ho
    have ho : o < t.values.d2 := by simpa using ho
    have p1 := h0 o ho d (by omega)
    have p2 := h0 o ho (d + 1) hd
    constructor
    · rintro ⟨a1, a2, a3⟩; exact ⟨a2.ne', a3.ne', a1.ne'⟩
    · rintro ⟨a1, a2, a3⟩
      refine ⟨?_, lt_of_le_of_ne p1 (Ne.symm a1), lt_of_le_of_ne p2 (Ne.symm a2)⟩
      rcases amt01 o with e | e
      · exact absurd e a3
      · rw [e]; exact one_pos
  refine C30_bounds (p.average d) ?_ ?_ ?_ ?_ ?_ ?_ (by rw [es]; exact hne) ?_
  · intro o _
    rcases z i c o d with e | e | e <;> rw [e] <;> trivial
  · intro o ho; exact h i hi c hc o ho d (by omega)
  · intro o ho; exact h i hi c hc o ho (d + 1) hd
  · intro o _
    rcases amt01 o with e | e <;> rw [e] <;> simp
  · intro o ho; exact h0 o ho d (by omega)
  · intro o ho; exact h0 o ho (d + 1) hd
  · rw [es]; exact hb

example : ∃ u u' : Tri ℚ, fit (Ex.tri3 (some true) Ex.cum3) {} = .ok u ∧
    fit (scaled 7 (Ex.tri3 (some true) Ex.cum3)) {} = .ok u' ∧
    u.values.get 0 0 0 0 = u'.values.get 0 0 0 0 ∧ u.values.get 0 0 0 0 = .fin (53 / 35) :=
  ⟨_, _, rfl, rfl, by decide +kernel⟩

end Dev
end CL
