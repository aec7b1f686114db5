import Verif.Model.Tails
import Verif.Spec.Methods
import Verif.Props.C33
import Mathlib.Algebra.Order.Ring.GeomSum

set_option linter.unusedSectionVars false

/-! # C37: a constant tail multiplies out to the requested tail factor -/

namespace CL
namespace Tail

section
variable {K : Type} [Field K] [LinearOrder K] [IsStrictOrderedRing K]

/-- The tail is attached at position `k` of the ages of `t`: the last age without an attachment age,
the first age not below it otherwise. -/
def AttachedAt (t : Tri K) (age : Option Int) (k : Nat) : Prop :=
  ((age = none ∨ age = some 0) ∧ k + 1 = t.ddims.length) ∨
    ∃ a, age = some a ∧ a ≠ 0 ∧ (∃ h : k < t.ddims.length, a ≤ t.ddims[k]) ∧
      ∀ j (h : j < t.ddims.length), j < k → t.ddims[j] < a

/-- Months covered by the projection period, in periods of the grain. -/
def addedPeriods (p : Nat) (g : Grain) : Nat := p / 12 * (12 / g.months)

/-- `g` is the pattern `f` with a tail attached at position `k`: more ages at the distance of the
grain, unchanged factors before `k`, and factors multiplying to `tail i c o` from `k` on. -/
structure HasTail (f g : Tri K) (k : Nat) (grain : Grain) (p : Nat) (tail : Nat → Nat → Nat → K) :
    Prop where
  wf : Tri.WF g
  index : g.kdims = f.kdims ∧ g.keyLabels = f.keyLabels
  columns : g.vdims = f.vdims
  origins : g.odims = f.odims
  grains : g.ograin = f.ograin ∧ g.dgrain = f.dgrain
  flags : g.isVal = f.isVal ∧ g.isCum = f.isCum ∧ g.isPattern = f.isPattern ∧
    g.isAdditive = f.isAdditive ∧ g.vd = f.vd
  ages : ∃ last, f.ddims.getLast? = some last ∧
    g.ddims = f.ddims ++ (List.range (addedPeriods p grain + 1)).map fun j : Nat =>
      last + (j + 1) * (grain.months : Int)
  before : ∀ i c o d, d < k → g.values.get i c o d = f.values.get i c o d
  tail : ∀ i < f.values.d0, ∀ c < f.values.d1, ∀ o < f.values.d2, ∃ x : Nat → K,
    (∀ d, k ≤ d → d < g.values.d3 → x d ≠ 0 ∧ g.values.get i c o d = .fin (x d)) ∧
    ∏ d ∈ Finset.Ico k g.values.d3, x d = tail i c o

theorem attachIdx_eq {t : Tri K} {age : Option Int} {k : Nat} (h : AttachedAt t age k) :
    attachIdx t age = .ok k := by
  rcases h with ⟨h | h, hk⟩ | ⟨a, rfl, ha, ⟨hk, h1⟩, h2⟩
  · subst h
    show Except.ok (t.ddims.length - 1) = _
    congr 1; omega
  · subst h
    show Except.ok (t.ddims.length - 1) = _
    congr 1; omega
  · have : t.ddims.findIdx? (fun d => decide (a ≤ d)) = some k := by
      rw [List.findIdx?_eq_some_iff_getElem]
      refine ⟨hk, by simpa using h1, ?_⟩
      intro j hj
      have := h2 j (by omega) hj
      simp only [decide_eq_true_eq, not_le]
      exact this
    unfold attachIdx
    split
    · simp_all
    · simp_all
    · rename_i a' _ e
      injection e with e
      subst e
      rw [this]

theorem avePeriod_eq (p : Nat) (g : Grain) : avePeriod p g = (addedPeriods p g, g.months) := by
  cases g <;> simp [avePeriod, addedPeriods, Grain.months, Nat.mul_comm]

/-- The factors of the tail. -/
def tailFactor (s decay tail : K) (r j : Nat) : K :=
  let e : Nat → K := fun j => if tail = 1 then 1 else 1 + s * decay ^ j
  if j + 1 < r then e j else tail / ∏ k ∈ Finset.range (r - 1), e k

theorem decayed_eq {seed : Num K} {s decay tail : K} (hs : tail = 1 ∨ seed = .fin s) {r : Nat}
    (hne : tail = 1 ∨ ∀ j < r - 1, 1 + s * decay ^ j ≠ 0) (j : Nat) :
    decayed seed decay tail r j = .fin (tailFactor s decay tail r j) := by
  have hl : ∀ j, (if tail = 1 then (1 : Num K) + 0 * .fin (decay ^ j)
      else 1 + seed * .fin (decay ^ j)) = .fin (if tail = 1 then 1 else 1 + s * decay ^ j) := by
    intro j
    split_ifs with h
    · simp [Num.one_def, Num.zero_def]
    · rcases hs with hs | hs
      · exact absurd hs h
      · rw [hs]; simp [Num.one_def]
  unfold decayed tailFactor
  simp only [hl, Num.prod_fin]
  by_cases h1 : j + 1 < r
  · rw [if_pos h1, if_pos h1]
  · rw [if_neg h1, if_neg h1, Num.fin_div_fin_of_ne]
    rw [Finset.prod_ne_zero_iff]
    intro k hk
    split_ifs with h2
    · exact one_ne_zero
    · rcases hne with h | h
      · exact absurd h h2
      · exact h k (by simpa using hk)

theorem tailFactor_prod {s decay tail : K} {r : Nat} (hr : 1 ≤ r)
    (hne : tail = 1 ∨ ∀ j < r - 1, 1 + s * decay ^ j ≠ 0) :
    ∏ j ∈ Finset.range r, tailFactor s decay tail r j = tail := by
  obtain ⟨m, rfl⟩ : ∃ m, r = m + 1 := ⟨r - 1, by omega⟩
  rw [Finset.prod_range_succ]
  have e1 : ∏ j ∈ Finset.range m, tailFactor s decay tail (m + 1) j =
      ∏ j ∈ Finset.range m, if tail = 1 then 1 else 1 + s * decay ^ j := by
    apply Finset.prod_congr rfl
    intro j hj
    have : j + 1 < m + 1 := by have := Finset.mem_range.1 hj; omega
    unfold tailFactor
    rw [if_pos this]
  have e2 : tailFactor s decay tail (m + 1) m =
      tail / ∏ j ∈ Finset.range m, if tail = 1 then 1 else 1 + s * decay ^ j := by
    unfold tailFactor
    rw [if_neg (by omega)]
    rfl
  rw [e1, e2, mul_div_cancel₀]
  rw [Finset.prod_ne_zero_iff]
  intro j hj
  split_ifs with h2
  · exact one_ne_zero
  · rcases hne with h | h
    · exact absurd h h2
    · exact h j (by simpa using hj)

theorem tailFactor_ne_zero {s decay tail : K} (ht : tail ≠ 0) {r : Nat}
    (hne : tail = 1 ∨ ∀ j < r - 1, 1 + s * decay ^ j ≠ 0) {j : Nat} : tailFactor s decay tail r j ≠ 0 := by
  have h : ∀ j < r - 1, (if tail = 1 then (1 : K) else 1 + s * decay ^ j) ≠ 0 := by
    intro j hj
    split_ifs with h2
    · exact one_ne_zero
    · rcases hne with h | h
      · exact absurd h h2
      · exact h j hj
  unfold tailFactor
  simp only
  split_ifs with h1
  · exact one_ne_zero
  · have := h j (by omega)
    rwa [if_neg (by assumption)] at this
  · exact div_ne_zero ht (by simp)
  · apply div_ne_zero ht
    rw [Finset.prod_ne_zero_iff]
    intro k hk
    have := h k (by simpa using hk)
    rwa [if_neg (by assumption)] at this

/-- The number of factors from the attachment age on. -/
def tailLength (t : Tri K) (k p : Nat) : Nat := t.ddims.length + addedPeriods p t.dgrain - k

theorem nanToNum_mul_zero (x : Num K) : x.nanToNum * 0 + 1 = 1 := by
  cases x <;> simp [Num.nanToNum, Num.zero_def, Num.one_def]

/-- The result of the fit: the factors from the attachment age on are `tailFactor`. -/
theorem constantSeed_eq {t f : Tri K} {age : Option Int} {k : Nat} (hv : t.isVal = false)
    (wf : Tri.WF f) (hlen : f.ddims.length + 1 = t.ddims.length) (hpos : 1 ≤ f.ddims.length)
    (ha : AttachedAt t age k) (hk : 1 ≤ k) (p : Nat) {seed : Num K} {s tail decay : K} (ht : tail ≠ 0)
    (hr : tailLength t k p ≤ 1000) (hs : tail = 1 ∨ seed = .fin s)
    (hne : tail = 1 ∨ ∀ j < tailLength t k p - 1, 1 + s * decay ^ j ≠ 0) :
    ∃ g, constantSeed t f seed tail decay age p = .ok g ∧ HasTail f g k t.dgrain p (fun _ _ _ => tail) ∧
      g.values.d3 = k + tailLength t k p ∧
      ∀ i c o, ∀ j < tailLength t k p,
        g.values.get i c o (k + j) = .fin (tailFactor s decay tail (tailLength t k p) j) := by
  obtain ⟨w0, w1, w2, w3⟩ := wf
  have hkl : k + 1 ≤ t.ddims.length := by
    rcases ha with ⟨-, h⟩ | ⟨a, -, -, ⟨h, -⟩, -⟩ <;> omega
  set last := f.ddims.getLast (by intro h; rw [h] at hpos; simp at hpos) with hlast
  have el : f.ddims.getLast? = some last := List.getLast?_eq_some_getLast _
  set q := addedPeriods p t.dgrain with hq
  have hR : tailLength t k p = f.values.d3 + (q + 1) - k := by unfold tailLength; omega
  set R := tailLength t k p with hRdef
  have hR1 : 1 ≤ R := by omega
  have hcell : ∀ d, (decayed seed decay tail R d) = .fin (tailFactor s decay tail R d) :=
    decayed_eq hs hne
  have hrun : constantSeed t f seed tail decay age p = .ok { f with
      ddims := f.ddims ++ (List.range (q + 1)).map fun j : Nat =>
        ((j + 1) * t.dgrain.months + last : Int)
      values := { f.values with
        d3 := f.values.d3 + (q + 1)
        get := fun i c o d => if d < k then (if d < f.values.d3 then f.values.get i c o d else 1)
          else .fin (tailFactor s decay tail R (d - k)) } } := by
    unfold constantSeed extend
    rw [hv, el, avePeriod_eq]
    simp only [Bool.false_eq_true, if_false, bind, Except.bind, attachIdx_eq ha]
    unfold applyDecay
    have hk0 : k ≠ 0 := by omega
    have e1 : f.values.d3 + (q + 1) - k = R := hR.symm
    have e2 : f.values.d3 + (q + 1) - R = k := by omega
    simp only [ne_eq, hk0, not_false_eq_true, if_true, ← hq, e1, e2]
    rw [if_neg (by omega), if_neg (by omega)]
    simp only [nanToNum_mul_zero, hcell, one_mul]
  refine ⟨_, hrun, ⟨⟨w0, w1, w2, ?_⟩, ⟨rfl, rfl⟩, rfl, rfl, ⟨rfl, rfl⟩, ⟨rfl, rfl, rfl, rfl, rfl⟩, ?_, ?_, ?_⟩,
    ?_, ?_⟩
  · show f.values.d3 + (q + 1) = (f.ddims ++ _).length
    rw [List.length_append, List.length_map, List.length_range, w3]
  · refine ⟨last, el, ?_⟩
    show f.ddims ++ _ = _
    congr 1
    apply List.map_congr_left
    intro j _
    ring
  · intro i c o d hd
    show (if d < k then (if d < f.values.d3 then f.values.get i c o d else 1) else _) = _
    rw [if_pos hd, if_pos (by omega)]
  · intro i _ c _ o _
    refine ⟨fun d => tailFactor s decay tail R (d - k), ?_, ?_⟩
    · intro d h1 h2
      refine ⟨tailFactor_ne_zero ht hne, ?_⟩
      show (if d < k then _ else _) = _
      rw [if_neg (by omega)]
    · show ∏ d ∈ Finset.Ico k (f.values.d3 + (q + 1)), _ = _
      rw [Finset.prod_Ico_eq_prod_range, ← hR]
      simp only [Nat.add_sub_cancel_left]
      exact tailFactor_prod hR1 hne
  · show f.values.d3 + (q + 1) = _
    omega
  · intro i c o j hj
    show (if k + j < k then _ else _) = _
    rw [if_neg (by omega), Nat.add_sub_cancel_left]

/-- An attachment age after the last age of the triangle is rejected. -/
theorem C37_late_attachment {t f : Tri K} {a : Int} (hv : t.isVal = false) (hpos : 1 ≤ f.ddims.length)
    (ha : ∀ d ∈ t.ddims, d < a) (h0 : a ≠ 0) (seed : Num K) (tail decay : K) (p : Nat) :
    constantSeed t f seed tail decay (some a) p = .error .valueError := by
  have el : ∃ last, f.ddims.getLast? = some last :=
    ⟨_, List.getLast?_eq_some_getLast (by intro h; rw [h] at hpos; simp at hpos)⟩
  obtain ⟨last, el⟩ := el
  have : t.ddims.findIdx? (fun d => decide (a ≤ d)) = none := by
    rw [List.findIdx?_eq_none_iff]
    intro d hd
    have := ha d hd
    simp only [decide_eq_false_iff_not, not_le]
    exact this
  have hat : attachIdx t (some a) = .error .valueError := by
    unfold attachIdx
    split
    · simp_all
    · simp_all
    · rename_i a' _ e
      injection e with e
      subst e
      rw [this]
  unfold constantSeed extend
  rw [hv, el]
  simp only [Bool.false_eq_true, if_false, bind, Except.bind, hat]

end

/-! ### The seed factor -/

theorem sums (N : Nat) (hN : 1 ≤ N) {d : ℝ} (h0 : 0 ≤ d) :
    1 ≤ ∑ k ∈ Finset.range N, (d ^ k) ^ 2 ∧ 1 ≤ ∑ k ∈ Finset.range N, d ^ k := by
  obtain ⟨m, rfl⟩ : ∃ m, N = m + 1 := ⟨N - 1, by omega⟩
  constructor
  · rw [Finset.sum_range_succ']
    have : 0 ≤ ∑ k ∈ Finset.range m, (d ^ (k + 1)) ^ 2 := Finset.sum_nonneg fun _ _ => by positivity
    simpa using this
  · rw [Finset.sum_range_succ']
    have : 0 ≤ ∑ k ∈ Finset.range m, d ^ (k + 1) := Finset.sum_nonneg fun _ _ => by positivity
    simpa using this

theorem sum_lt (N : Nat) (hN : 1 ≤ N) {d : ℝ} (h0 : 0 ≤ d) (h1 : d ≤ 1) :
    ∑ k ∈ Finset.range N, d ^ k < 2 * ∑ k ∈ Finset.range N, (d ^ k) ^ 2 := by
  obtain ⟨hA, hB⟩ := sums N hN h0
  set A := ∑ k ∈ Finset.range N, (d ^ k) ^ 2 with hAd
  set B := ∑ k ∈ Finset.range N, d ^ k with hBd
  rcases h1.lt_or_eq with h | h
  · have e1 : B * (1 - d) = 1 - d ^ N := geom_sum_mul_neg d N
    have e2 : A * (1 - d ^ 2) = 1 - (d ^ 2) ^ N := by
      rw [← geom_sum_mul_neg (d ^ 2) N, hAd]
      congr 1
      apply Finset.sum_congr rfl
      intro k _
      rw [← pow_mul, ← pow_mul, Nat.mul_comm]
    have e3 : (d ^ 2) ^ N = d ^ N * d ^ N := by rw [← pow_mul, Nat.mul_comm, pow_mul]; ring
    have hd : 0 < 1 - d := by linarith
    have e4 : A * (1 + d) = B * (1 + d ^ N) := by
      apply mul_right_cancel₀ hd.ne'
      calc A * (1 + d) * (1 - d) = A * (1 - d ^ 2) := by ring
        _ = (1 - d ^ N) * (1 + d ^ N) := by rw [e2, e3]; ring
        _ = B * (1 + d ^ N) * (1 - d) := by rw [← e1]; ring
    have hn : 0 ≤ d ^ N := by positivity
    nlinarith
  · subst h
    have : A = B := by
      rw [hAd, hBd]; simp
    linarith

/-- The quadratic of the seed factor can be solved. -/
def Solvable (decay tail : ℝ) : Prop :=
  0 < tail ∧ 0 ≤ (∑ k ∈ Finset.range 1000, decay ^ k) ^ 2 +
    4 * (∑ k ∈ Finset.range 1000, (decay ^ k) ^ 2) * Real.log tail

/-- The seed factor. -/
noncomputable def seedReal (decay tail : ℝ) : ℝ :=
  (-(∑ k ∈ Finset.range 1000, decay ^ k) + Real.sqrt ((∑ k ∈ Finset.range 1000, decay ^ k) ^ 2 +
    4 * (∑ k ∈ Finset.range 1000, (decay ^ k) ^ 2) * Real.log tail)) /
    (2 * ∑ k ∈ Finset.range 1000, (decay ^ k) ^ 2)

theorem initialLdf_eq {decay tail : ℝ} (h0 : 0 ≤ decay) (h : Solvable decay tail) :
    initialLdf decay tail = .fin (seedReal decay tail) := by
  obtain ⟨hA, hB⟩ := sums 1000 (by omega) h0
  unfold initialLdf seedReal
  obtain ⟨h1, h2⟩ := h
  generalize (∑ k ∈ Finset.range 1000, (decay ^ k) ^ 2) = A at *
  generalize (∑ k ∈ Finset.range 1000, decay ^ k) = B at *
  have e1 : log (.fin tail) = .fin (Real.log tail) := by
    unfold log
    simp only
    rw [if_neg (by linarith), if_neg h1.ne']
  have e2 : B ^ 2 - 4 * A * (0 - Real.log tail) = B ^ 2 + 4 * A * Real.log tail := by ring
  simp only [e1, Num.zero_def, Num.fin_sub_fin, Num.fin_mul_fin, e2]
  have e3 : sqrt (.fin (B ^ 2 + 4 * A * Real.log tail)) =
      .fin (Real.sqrt (B ^ 2 + 4 * A * Real.log tail)) := by
    unfold sqrt
    simp only
    rw [if_neg (by linarith)]
  rw [e3, Num.fin_add_fin, Num.fin_div_fin_of_ne _ (by positivity)]

theorem seedReal_gt {decay tail : ℝ} (h0 : 0 ≤ decay) (h1 : decay ≤ 1) : -1 < seedReal decay tail := by
  obtain ⟨hA, hB⟩ := sums 1000 (by omega) h0
  have hlt := sum_lt 1000 (by omega) h0 h1
  unfold seedReal
  generalize (∑ k ∈ Finset.range 1000, (decay ^ k) ^ 2) = A at *
  generalize (∑ k ∈ Finset.range 1000, decay ^ k) = B at *
  have := Real.sqrt_nonneg (B ^ 2 + 4 * A * Real.log tail)
  rw [lt_div_iff₀ (by positivity)]
  linarith

theorem seedReal_pos {decay tail : ℝ} (h0 : 0 ≤ decay) (h1 : decay ≤ 1) (j : Nat) :
    0 < 1 + seedReal decay tail * decay ^ j := by
  have hs := seedReal_gt (tail := tail) h0 h1
  have hd : decay ^ j ≤ 1 := pow_le_one₀ h0 h1
  have hd0 : 0 ≤ decay ^ j := by positivity
  by_cases hz : 0 ≤ seedReal decay tail
  · have := mul_nonneg hz hd0
    linarith
  · nlinarith

/-- For a tail of at least one the seed factor solves `A s² + B s = log tail` and is not negative. -/
theorem seedReal_spec {decay tail : ℝ} (h0 : 0 ≤ decay) (ht : 1 ≤ tail) :
    Solvable decay tail ∧ 0 ≤ seedReal decay tail ∧
      seedReal decay tail * (∑ k ∈ Finset.range 1000, decay ^ k) ≤ Real.log tail := by
  obtain ⟨hA, hB⟩ := sums 1000 (by omega) h0
  have hl := Real.log_nonneg ht
  unfold Solvable seedReal
  generalize (∑ k ∈ Finset.range 1000, (decay ^ k) ^ 2) = A at *
  generalize (∑ k ∈ Finset.range 1000, decay ^ k) = B at *
  have hal : 0 ≤ 4 * A * Real.log tail := by positivity
  have hd : 0 ≤ B ^ 2 + 4 * A * Real.log tail := by positivity
  have hsq := Real.sq_sqrt hd
  have hge : B ≤ Real.sqrt (B ^ 2 + 4 * A * Real.log tail) := by
    apply Real.le_sqrt_of_sq_le
    linarith
  set S := Real.sqrt (B ^ 2 + 4 * A * Real.log tail) with hS
  refine ⟨⟨by linarith, hd⟩, by apply div_nonneg <;> linarith, ?_⟩
  have e : Real.log tail = A * ((-B + S) / (2 * A)) ^ 2 + ((-B + S) / (2 * A)) * B := by
    have hA0 : A ≠ 0 := by positivity
    have : 4 * A * Real.log tail = S ^ 2 - B ^ 2 := by linarith
    have e2 : Real.log tail = (S ^ 2 - B ^ 2) / (4 * A) := by
      rw [eq_div_iff (by positivity)]; linarith
    rw [e2]
    field_simp
    ring
  have : 0 ≤ A * ((-B + S) / (2 * A)) ^ 2 := by positivity
  linarith

/-- **C37** (partial: the attachment age must not be the first age, see `C37_first_age_false`; at most
1000 factors from the attachment age on, see `C37_long_false`; the quadratic for the seed factor must
be solvable, see `C37_small_tail_false`; decay between 0 and 1). -/
theorem C37_tail_partial {t f : Tri ℝ} {age : Option Int} {k : Nat} (hv : t.isVal = false)
    (wf : Tri.WF f) (hlen : f.ddims.length + 1 = t.ddims.length) (hpos : 1 ≤ f.ddims.length)
    (ha : AttachedAt t age k) (hk : 1 ≤ k) (p : Nat) (hr : tailLength t k p ≤ 1000) {tail decay : ℝ}
    (h0 : 0 ≤ decay) (h1 : decay ≤ 1) (ht : tail = 1 ∨ Solvable decay tail) :
    ∃ g, constant t f tail decay age p = .ok g ∧ HasTail f g k t.dgrain p fun _ _ _ => tail := by
  have ht0 : tail ≠ 0 := by
    rcases ht with h | h
    · rw [h]; exact one_ne_zero
    · exact h.1.ne'
  obtain ⟨g, h2, h3, -⟩ := constantSeed_eq hv wf hlen hpos ha hk p (seed := initialLdf decay tail)
    (s := seedReal decay tail) (decay := decay) ht0 hr
    (ht.imp id fun h => initialLdf_eq h0 h) (Or.inr fun j _ => (seedReal_pos h0 h1 j).ne')
  exact ⟨g, h2, h3⟩

theorem prod_le_tail {decay tail : ℝ} (h0 : 0 ≤ decay) (ht : 1 ≤ tail) {m : Nat} (hm : m ≤ 1000) :
    0 < ∏ j ∈ Finset.range m, (1 + seedReal decay tail * decay ^ j) ∧
    ∏ j ∈ Finset.range m, (1 + seedReal decay tail * decay ^ j) ≤ tail := by
  obtain ⟨-, hs, hB⟩ := seedReal_spec h0 ht
  set s := seedReal decay tail with hsd
  have hpos : ∀ j, 0 < 1 + s * decay ^ j := fun j => by positivity
  have hp : 0 < ∏ j ∈ Finset.range m, (1 + s * decay ^ j) := Finset.prod_pos fun j _ => hpos j
  refine ⟨hp, ?_⟩
  have hle : ∑ j ∈ Finset.range m, decay ^ j ≤ ∑ j ∈ Finset.range 1000, decay ^ j :=
    Finset.sum_le_sum_of_subset_of_nonneg (Finset.range_mono hm) fun _ _ _ => by positivity
  have hlog : Real.log (∏ j ∈ Finset.range m, (1 + s * decay ^ j)) ≤ Real.log tail := by
    rw [Real.log_prod fun j _ => (hpos j).ne']
    calc ∑ j ∈ Finset.range m, Real.log (1 + s * decay ^ j)
        ≤ ∑ j ∈ Finset.range m, s * decay ^ j := by
          apply Finset.sum_le_sum
          intro j _
          have := Real.log_le_sub_one_of_pos (hpos j)
          linarith
      _ = s * ∑ j ∈ Finset.range m, decay ^ j := by rw [Finset.mul_sum]
      _ ≤ s * ∑ j ∈ Finset.range 1000, decay ^ j := mul_le_mul_of_nonneg_left hle hs
      _ ≤ Real.log tail := hB
  exact (Real.log_le_log_iff hp (by linarith)).1 hlog

/-- A tail of at least one is made of factors of at least one. -/
theorem C37_factors_partial {t f : Tri ℝ} {age : Option Int} {k : Nat} (hv : t.isVal = false)
    (wf : Tri.WF f) (hlen : f.ddims.length + 1 = t.ddims.length) (hpos : 1 ≤ f.ddims.length)
    (ha : AttachedAt t age k) (hk : 1 ≤ k) (p : Nat) (hr : tailLength t k p ≤ 1000) {tail decay : ℝ}
    (h0 : 0 ≤ decay) (ht : 1 ≤ tail) :
    ∃ g, constant t f tail decay age p = .ok g ∧ HasTail f g k t.dgrain p (fun _ _ _ => tail) ∧
      ∀ i c o d, k ≤ d → d < g.values.d3 → ∃ x, 1 ≤ x ∧ g.values.get i c o d = .fin x := by
  obtain ⟨hsol, hs, -⟩ := seedReal_spec h0 ht
  have hge : ∀ j, 1 ≤ 1 + seedReal decay tail * decay ^ j := fun j => by
    have : 0 ≤ seedReal decay tail * decay ^ j := by positivity
    linarith
  obtain ⟨g, h2, h3, h4, h5⟩ := constantSeed_eq hv wf hlen hpos ha hk p
    (seed := initialLdf decay tail) (s := seedReal decay tail) (tail := tail) (decay := decay)
    (by linarith) hr (Or.inr (initialLdf_eq h0 hsol))
    (Or.inr fun j _ => by have := hge j; linarith)
  refine ⟨g, h2, h3, ?_⟩
  intro i c o d hd1 hd2
  have e : d = k + (d - k) := by omega
  refine ⟨_, ?_, by rw [e]; exact h5 i c o (d - k) (by omega)⟩
  unfold tailFactor
  simp only
  by_cases h1 : tail = 1
  · simp [h1]
  · simp only [if_neg h1]
    split_ifs
    · exact hge _
    · obtain ⟨hp, hle⟩ := prod_le_tail (m := tailLength t k p - 1) h0 ht (by omega)
      rw [le_div_iff₀ hp]
      linarith

/-- `f` is a pattern for `t` as fitted by a development estimator: one row of nonzero factors, one for
each age of `t` but the last, which is one period after the one before. -/
structure LinkPattern {K : Type} [Field K] [LinearOrder K] [IsStrictOrderedRing K] (t f : Tri K) :
    Prop where
  wf : Tri.WF f
  pattern : f.isPattern = true
  incremental : f.isCum ≠ some true
  multiplicative : f.isAdditive = none
  ages : f.isVal = t.isVal
  ograin : t.ograin = f.ograin
  dgrain : t.dgrain = f.dgrain
  keyLabels : t.keyLabels = f.keyLabels
  index : f.kdims = t.kdims ∨ f.kdims.length = 1
  columns : f.vdims = t.vdims ∨ f.vdims.length = 1
  origin : f.odims.length = 1
  developments : ∃ last, f.ddims.getLast? = some last ∧
    t.ddims = f.ddims ++ [last + (t.dgrain.months : Int)]
  factors : ∀ i < f.values.d0, ∀ c < f.values.d1, ∀ j < f.values.d3,
    ∃ x, x ≠ 0 ∧ f.values.get i c 0 j = .fin x

section
variable {K : Type} [Field K] [LinearOrder K] [IsStrictOrderedRing K]

theorem LinkPattern.length {t f : Tri K} (h : LinkPattern t f) :
    f.ddims.length + 1 = t.ddims.length ∧ 1 ≤ f.ddims.length := by
  obtain ⟨last, h1, h2⟩ := h.developments
  refine ⟨by rw [h2]; simp, ?_⟩
  cases hf : f.ddims with
  | nil => rw [hf] at h1; cases h1
  | cons => simp

/-- With the tail attached at the last age of `t` the result is a complete pattern for `t`; its
age-to-ultimate factors are those of `f` times the tail. -/
theorem HasTail.pattern {t f g : Tri K} (h : LinkPattern t f) {p : Nat}
    {tail : Nat → Nat → Nat → K} (hg : HasTail f g (t.ddims.length - 1) t.dgrain p tail) :
    Tri.PatternFor t g ∧ ∀ i < t.kdims.length, ∀ c < t.vdims.length, ∀ d < t.ddims.length,
      g.toUlt i c d = (∏ j ∈ Finset.Ico d (t.ddims.length - 1), f.ageFactor i c j) *
        tail (if f.kdims.length = 1 then 0 else i) (if f.vdims.length = 1 then 0 else c) 0 := by
  obtain ⟨hl, hp⟩ := h.length
  obtain ⟨last, e1, e2⟩ := h.developments
  obtain ⟨last', e3, e4⟩ := hg.ages
  rw [e1] at e3
  injection e3 with e3
  subst e3
  have g3 : g.values.d3 = g.ddims.length := hg.wf.2.2.2
  have gl : g.ddims.length = f.ddims.length + (addedPeriods p t.dgrain + 1) := by rw [e4]; simp
  have f3 := h.wf.2.2.2
  have gd0 : g.values.d0 = f.values.d0 := by rw [hg.wf.1, h.wf.1, hg.index.1]
  have gd1 : g.values.d1 = f.values.d1 := by rw [hg.wf.2.1, h.wf.2.1, hg.columns]
  have gd2 : 0 < f.values.d2 := by rw [h.wf.2.2.1, h.origin]; omega
  refine ⟨⟨hg.wf, ?_, ?_, ?_, ?_, ?_, ?_, ?_, ?_, ?_, ?_, ?_, ?_⟩, ?_⟩
  · rw [hg.flags.2.2.1]; exact h.pattern
  · rw [hg.flags.2.1]; exact h.incremental
  · rw [hg.flags.2.2.2.1]; exact h.multiplicative
  · rw [hg.flags.1]; exact h.ages
  · rw [hg.grains.1]; exact h.ograin
  · rw [hg.grains.2]; exact h.dgrain
  · rw [hg.index.2]; exact h.keyLabels
  · rw [hg.index.1]; exact h.index
  · rw [hg.columns]; exact h.columns
  · rw [hg.origins]; exact h.origin
  · rw [e4, List.range_succ_eq_map, List.map_cons]
    have e5 : ((((0 : Nat) : Int) + 1) * (t.dgrain.months : Int)) = (t.dgrain.months : Int) := by simp
    rw [e5]
    generalize (List.map _ (List.map Nat.succ _)) = rest
    rw [show f.ddims ++ (last + (t.dgrain.months : Int)) :: rest =
      (f.ddims ++ [last + (t.dgrain.months : Int)]) ++ rest by simp, ← e2, List.take_left]
  · intro i hi c hc j hj
    by_cases hjk : j < t.ddims.length - 1
    · rw [hg.before i c 0 j hjk]
      exact h.factors i (by omega) c (by omega) j (by omega)
    · obtain ⟨x, h1, -⟩ := hg.tail i (by omega) c (by omega) 0 gd2
      exact ⟨x j, h1 j (by omega) hj⟩
  · intro i hi c hc d hd
    unfold Tri.toUlt
    rw [← Finset.prod_Ico_consecutive _ (show d ≤ t.ddims.length - 1 by omega)
      (show t.ddims.length - 1 ≤ g.ddims.length by omega)]
    congr 1
    · apply Finset.prod_congr rfl
      intro j hj
      unfold Tri.ageFactor
      rw [hg.before _ _ _ _ (Finset.mem_Ico.1 hj).2, hg.index.1, hg.columns]
    · have i0 : (if g.kdims.length = 1 then 0 else i) < f.values.d0 := by
        rw [hg.index.1, h.wf.1]
        split_ifs with q
        · omega
        · rcases h.index with q' | q'
          · rw [q']; exact hi
          · exact absurd q' q
      have c0 : (if g.vdims.length = 1 then 0 else c) < f.values.d1 := by
        rw [hg.columns, h.wf.2.1]
        split_ifs with q
        · omega
        · rcases h.columns with q' | q'
          · rw [q']; exact hc
          · exact absurd q' q
      obtain ⟨x, h1, h2⟩ := hg.tail _ i0 _ c0 0 gd2
      rw [g3] at h1 h2
      rw [hg.index.1, hg.columns] at h2
      rw [← h2]
      apply Finset.prod_congr rfl
      intro j hj
      obtain ⟨j1, j2⟩ := Finset.mem_Ico.1 hj
      unfold Tri.ageFactor
      rw [(h1 j j1 j2).2, Num.amt_fin]

end

/-- Development, constant tail and chain ladder in sequence: each ultimate is the latest amount times
the remaining factors times the tail, whatever the decay and the projection period. -/
theorem C37_chainladder_partial {t f l : Tri ℝ} (ht : Tri.CumTri t) (hf : LinkPattern t f)
    (hl : t.latestDiagonal = .ok (.tri l)) (p : Nat) (hp : addedPeriods p t.dgrain < 1000)
    {tail decay : ℝ} (h0 : 0 ≤ decay) (h1 : decay ≤ 1) (htl : tail = 1 ∨ Solvable decay tail) :
    ∃ g u rows, constant t f tail decay none p = .ok g ∧ t.chainladder g none = .ok u ∧
      Tri.UltimateOf t u rows fun i c o d => (t.values.get i c o d).amt *
        ((∏ j ∈ Finset.Ico d (t.ddims.length - 1), f.ageFactor i c j) * tail) := by
  obtain ⟨hlen, hpos⟩ := hf.length
  have h2 := ht.ages_two
  obtain ⟨g, e1, e2⟩ := C37_tail_partial ht.ages hf.wf hlen hpos (age := none)
    (k := t.ddims.length - 1) (Or.inl ⟨Or.inl rfl, by omega⟩) (by omega) p
    (by unfold tailLength; omega) h0 h1 htl
  obtain ⟨hpat, hult⟩ := e2.pattern hf
  obtain ⟨u, rows, e3, -, e4⟩ := Tri.C33_ultimate_partial ht hpat hl
  refine ⟨g, u, rows, e1, e3, ⟨e4.rows_inc, e4.mem_rows, e4.wf, e4.index, e4.columns, e4.origins,
    e4.grains, e4.development, e4.date, e4.cumulative, ?_⟩⟩
  intro i c o d hi hc ho hd hv
  rw [e4.cells i c o d hi hc ho hd hv, hult i (by rw [← ht.wf.1]; exact hi) c
    (by rw [← ht.wf.2.1]; exact hc) d hd]

namespace C37
/-- Factors 3/2 and 11/10 at ages 12 and 24. -/
noncomputable def pat : Tri ℝ where
  kdims := [["Total"]]
  keyLabels := ["Total"]
  vdims := ["paid"]
  odims := [24240]
  ddims := [12, 24]
  isVal := false
  ograin := .Y
  dgrain := .Y
  vd := ultVal
  isCum := some false
  isPattern := true
  isAdditive := none
  values := ⟨1, 1, 1, 2, fun _ _ _ d => .fin ([3 / 2, 11 / 10].getD d 1)⟩

/-- Amounts 100, 150, 165 / 110, 168 / 120. -/
noncomputable def tri : Tri ℝ where
  kdims := [["Total"]]
  keyLabels := ["Total"]
  vdims := ["paid"]
  odims := [24240, 24252, 24264]
  ddims := [12, 24, 36]
  isVal := false
  ograin := .Y
  dgrain := .Y
  vd := 24275
  isCum := some true
  isPattern := false
  isAdditive := none
  values := ⟨1, 1, 3, 3, fun _ _ o d => match o, d with
    | 0, 0 => .fin 100 | 0, 1 => .fin 150 | 0, 2 => .fin 165
    | 1, 0 => .fin 110 | 1, 1 => .fin 168
    | 2, 0 => .fin 120
    | _, _ => .nan⟩

theorem wf_pat : Tri.WF pat := ⟨rfl, rfl, rfl, rfl⟩

/-- A tail of 105 per cent, decay one half, two years of projection: three factors of at least one that
multiply to 1.05. -/
example : ∃ g, constant tri pat (105 / 100) (1 / 2) none 24 = .ok g ∧ g.ddims = [12, 24, 36, 48, 60] ∧
    g.values.get 0 0 0 0 = .fin (3 / 2) ∧ g.values.get 0 0 0 1 = .fin (11 / 10) ∧
    ∃ x y z : ℝ, g.values.get 0 0 0 2 = .fin x ∧ g.values.get 0 0 0 3 = .fin y ∧
      g.values.get 0 0 0 4 = .fin z ∧ x * y * z = 105 / 100 ∧ 1 ≤ x := by
  obtain ⟨g, h1, h2, h3⟩ := C37_factors_partial (t := tri) (f := pat) rfl wf_pat rfl (by decide)
    (age := none) (k := 2) (Or.inl ⟨Or.inl rfl, rfl⟩) (by decide) 24 (by decide) (tail := 105 / 100)
    (decay := 1 / 2) (by norm_num) (by norm_num)
  obtain ⟨last, e1, e2⟩ := h2.ages
  have e1' : some (24 : Int) = some last := e1
  injection e1' with e1'
  subst e1'
  have e2' : g.ddims = [12, 24, 36, 48, 60] := e2
  have g3 : g.values.d3 = 5 := by rw [h2.wf.2.2.2, e2']; rfl
  obtain ⟨x, h4, h5⟩ := h2.tail 0 (by decide) 0 (by decide) 0 (by decide)
  rw [g3] at h4 h5
  refine ⟨g, h1, e2', ?_, ?_, x 2, x 3, x 4, (h4 2 (by omega) (by omega)).2,
    (h4 3 (by omega) (by omega)).2, (h4 4 (by omega) (by omega)).2, ?_, ?_⟩
  · rw [h2.before 0 0 0 0 (by omega)]; rfl
  · rw [h2.before 0 0 0 1 (by omega)]; rfl
  · rw [← h5]
    simp [Finset.prod_Ico_succ_top]
  · obtain ⟨y, y1, y2⟩ := h3 0 0 0 2 le_rfl (by omega)
    rw [(h4 2 (by omega) (by omega)).2] at y2
    injection y2 with y2
    rw [y2]; exact y1

end C37

/-- **C37 is false for the first age**: attached at age 12, position 0 of the ages, the tail replaces
only the factors after age 36 and the factors from age 12 on multiply to `3/2 * 11/10 * 1`. -/
theorem C37_first_age_false :
    AttachedAt C37.tri (some 12) 0 ∧ ∃ g, constant C37.tri C37.pat 1 (1 / 2) (some 12) 12 = .ok g ∧
      ¬ HasTail C37.pat g 0 C37.tri.dgrain 12 fun _ _ _ => 1 := by
  refine ⟨Or.inr ⟨12, rfl, by decide, ⟨by decide, by decide⟩, fun j _ h => absurd h (by omega)⟩, ?_⟩
  have hr : constant C37.tri C37.pat 1 (1 / 2) (some 12) 12 = .ok { C37.pat with
      ddims := [12, 24, 36, 48]
      values := { C37.pat.values with
        d3 := 4
        get := fun i c o d => if d < 2 then (if d < 2 then C37.pat.values.get i c o d else 1)
          else (((if d < 2 then C37.pat.values.get i c o d else 1).nanToNum * 0 + 1) *
            decayed (initialLdf (1 / 2) 1) (1 / 2) 1 2 (d - 2)) } } := rfl
  refine ⟨_, hr, ?_⟩
  intro h
  obtain ⟨x, h1, h2⟩ := h.tail 0 (by decide) 0 (by decide) 0 (by decide)
  have h1' : ∀ d, 0 ≤ d → d < 4 → x d ≠ 0 ∧ (if d < 2 then (if d < 2 then C37.pat.values.get 0 0 0 d else 1)
          else (((if d < 2 then C37.pat.values.get 0 0 0 d else 1).nanToNum * 0 + 1) *
            decayed (initialLdf (1 / 2) 1) (1 / 2) 1 2 (d - 2))) = .fin (x d) := h1
  have h2' : ∏ d ∈ Finset.Ico 0 4, x d = 1 := h2
  have hdec : ∀ d, decayed (initialLdf (1 / 2 : ℝ) 1) (1 / 2) 1 2 d =
      .fin (tailFactor 0 (1 / 2) 1 2 d) := decayed_eq (Or.inl rfl) (Or.inl rfl)
  have hone : ∀ d, tailFactor (0 : ℝ) (1 / 2) 1 2 d = 1 := by
    intro d
    unfold tailFactor
    simp
  have x0 : x 0 = 3 / 2 := by
    have := (h1' 0 (by omega) (by omega)).2
    have e : (Num.fin (3 / 2 : ℝ)) = .fin (x 0) := this
    injection e with e
    exact e.symm
  have x1 : x 1 = 11 / 10 := by
    have := (h1' 1 (by omega) (by omega)).2
    have e : (Num.fin (11 / 10 : ℝ)) = .fin (x 1) := this
    injection e with e
    exact e.symm
  have x2 : ∀ d, 2 ≤ d → d < 4 → x d = 1 := by
    intro d hd hd4
    have := (h1' d (by omega) hd4).2
    rw [if_neg (by omega), nanToNum_mul_zero, hdec, hone, one_mul] at this
    injection this with e
    exact e.symm
  rw [Finset.prod_Ico_eq_prod_range] at h2'
  simp only [Finset.prod_range_succ, Nat.zero_add, Finset.prod_range_zero, Nat.sub_zero, x0, x1,
    x2 2 le_rfl (by omega), x2 3 (by omega) (by omega)] at h2'
  norm_num at h2'

/-- **C37 is false for small tails**: without decay the seed factor for a tail of one half is the square
root of a negative number, and the factors of the tail are missing. -/
theorem C37_small_tail_false :
    ∃ g, constant C37.tri C37.pat (1 / 2) 0 none 12 = .ok g ∧ g.values.get 0 0 0 2 = .nan := by
  have hA : ∑ k ∈ Finset.range 1000, ((0 : ℝ) ^ k) ^ 2 = 1 := by
    rw [Finset.sum_eq_single 0]
    · simp
    · intro k _ hk; simp [hk]
    · simp
  have hB : ∑ k ∈ Finset.range 1000, (0 : ℝ) ^ k = 1 := by
    rw [Finset.sum_eq_single 0]
    · simp
    · intro k _ hk; simp [hk]
    · simp
  have hlog : Real.log (1 / 2) < -1 / 4 := by
    rw [Real.log_lt_iff_lt_exp (by norm_num)]
    have := Real.add_one_le_exp (-1 / 4 : ℝ)
    linarith
  have hseed : initialLdf 0 (1 / 2) = .nan := by
    unfold initialLdf
    simp only [hA, hB]
    have e1 : log (.fin (1 / 2 : ℝ)) = .fin (Real.log (1 / 2)) := by
      unfold log
      simp only
      rw [if_neg (by norm_num), if_neg (by norm_num)]
    rw [e1]
    simp only [Num.zero_def, Num.fin_sub_fin, Num.fin_mul_fin]
    have e2 : sqrt (.fin ((1 : ℝ) ^ 2 - 4 * 1 * (0 - Real.log (1 / 2)))) = .nan := by
      unfold sqrt
      simp only
      rw [if_pos (by linarith)]
    rw [e2]
    simp
  have hr : constant C37.tri C37.pat (1 / 2) 0 none 12 = .ok { C37.pat with
      ddims := [12, 24, 36, 48]
      values := { C37.pat.values with
        d3 := 4
        get := fun i c o d => if d < 2 then (if d < 2 then C37.pat.values.get i c o d else 1)
          else (((if d < 2 then C37.pat.values.get i c o d else 1).nanToNum * 0 + 1) *
            decayed (initialLdf 0 (1 / 2)) 0 (1 / 2) 2 (d - 2)) } } := rfl
  refine ⟨_, hr, ?_⟩
  show (_ * decayed (initialLdf 0 (1 / 2)) 0 (1 / 2) 2 0 : Num ℝ) = .nan
  have : decayed (initialLdf 0 (1 / 2)) 0 (1 / 2) 2 0 = (.nan : Num ℝ) := by
    unfold decayed
    rw [hseed]
    simp only
    rw [if_pos (by omega), if_neg (by norm_num)]
    simp
  rw [this]
  simp

/-- **C37 is false for more than 1000 factors**: a projection of 1000 years is an error. -/
theorem C37_long_false : constant C37.tri C37.pat 1 (1 / 2) none 12000 = .error .valueError := by
  unfold constant constantSeed
  rw [if_neg (by decide)]
  have e1 : extend C37.tri.dgrain 12000 C37.pat = .ok { C37.pat with
      ddims := C37.pat.ddims ++ (List.range 1001).map fun j : Nat => ((j + 1) * (12 : Nat) + 24 : Int)
      values := { C37.pat.values with
        d3 := 2 + 1001
        get := fun i c o d => if d < C37.pat.values.d3 then C37.pat.values.get i c o d else 1 } } := rfl
  rw [e1]
  rfl

end Tail
end CL
