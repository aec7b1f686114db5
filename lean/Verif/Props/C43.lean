import Verif.Lemmas.Spearman
import Verif.Lemmas.Coherent
import Verif.Props.C42

set_option linter.unusedSectionVars false

/-! # C43: the development correlation test -/

namespace CL
variable {K : Type} [Field K] [LinearOrder K] [IsStrictOrderedRing K]

/-- Spearman's rank correlation of two lists of `m` numbers; tied numbers share the average of
their ranks. -/
def spearman (m : ℕ) (x y : ℕ → K) : K :=
  1 - 6 * (∑ o ∈ Finset.range m, (Corr.rankOf m x o - Corr.rankOf m y o) ^ 2) / ((m : K) ^ 3 - m)

private theorem den_pos {m : ℕ} (hm : 2 ≤ m) : (0 : K) < (m : K) ^ 3 - m := by
  have h : (2 : K) ≤ m := by exact_mod_cast hm
  nlinarith [mul_self_nonneg ((m : K) - 1)]

/-- **C43 (range).** The coefficient lies between -1 and 1, for any two lists of any length. -/
theorem C43_range {m : ℕ} (hm : 2 ≤ m) (x y : ℕ → K) : -1 ≤ spearman m x y ∧ spearman m x y ≤ 1 := by
  have hd := den_pos (K := K) hm
  have hx := Corr.sum_sq_le m x
  have hy := Corr.sum_sq_le m y
  have h0 : 0 ≤ ∑ o ∈ Finset.range m, (Corr.rankOf m x o - Corr.rankOf m y o) ^ 2 :=
    Finset.sum_nonneg fun o _ => sq_nonneg _
  have h1 : ∑ o ∈ Finset.range m, (Corr.rankOf m x o - Corr.rankOf m y o) ^ 2 ≤
      2 * ∑ o ∈ Finset.range m, (Corr.rankOf m x o - ((m : K) + 1) / 2) ^ 2 +
      2 * ∑ o ∈ Finset.range m, (Corr.rankOf m y o - ((m : K) + 1) / 2) ^ 2 := by
    rw [Finset.mul_sum, Finset.mul_sum, ← Finset.sum_add_distrib]
    refine Finset.sum_le_sum fun o _ => ?_
    nlinarith [sq_nonneg ((Corr.rankOf m x o - ((m : K) + 1) / 2) +
      (Corr.rankOf m y o - ((m : K) + 1) / 2))]
  unfold spearman
  constructor
  · rw [neg_le_sub_iff_le_add, div_le_iff₀ hd]
    linarith
  · have : 0 ≤ 6 * (∑ o ∈ Finset.range m, (Corr.rankOf m x o - Corr.rankOf m y o) ^ 2) /
        ((m : K) ^ 3 - m) := div_nonneg (by linarith) hd.le
    linarith

/-- **C43 (identical rankings).** The coefficient is 1 exactly when the two lists order the origins
in the same way. -/
theorem C43_one_iff {m : ℕ} (hm : 2 ≤ m) (x y : ℕ → K) : spearman m x y = 1 ↔
    ∀ o < m, ∀ o' < m, (x o < x o' ↔ y o < y o') := by
  have hd := den_pos (K := K) hm
  have key : spearman m x y = 1 ↔ ∀ o < m, Corr.rankOf m x o = Corr.rankOf m y o := by
    unfold spearman
    rw [sub_eq_self, div_eq_zero_iff, or_iff_left hd.ne', mul_eq_zero,
      or_iff_right (by norm_num), Finset.sum_eq_zero_iff_of_nonneg fun o _ => sq_nonneg _]
    simp only [Finset.mem_range, ne_eq, OfNat.ofNat_ne_zero, not_false_eq_true, pow_eq_zero_iff,
      sub_eq_zero]
  rw [key]
  constructor
  · intro h o ho o' ho'
    rw [← Corr.rankOf_lt_iff (x := x) ho ho', ← Corr.rankOf_lt_iff (x := y) ho ho', h o ho, h o' ho']
  · intro h o ho
    unfold Corr.rankOf
    have e1 : ((Finset.range m).filter fun o' => x o' < x o) =
        (Finset.range m).filter fun o' => y o' < y o :=
      Finset.filter_congr fun o' ho' => h o' (Finset.mem_range.1 ho') o ho
    have e2 : ((Finset.range m).filter fun o' => x o' = x o) =
        (Finset.range m).filter fun o' => y o' = y o :=
      Finset.filter_congr fun o' ho' => by
        have h1 := h o' (Finset.mem_range.1 ho') o ho
        have h2 := h o ho o' (Finset.mem_range.1 ho')
        constructor
        · intro e
          exact le_antisymm (not_lt.1 fun hl => (lt_irrefl _ (e ▸ h2.2 hl)))
            (not_lt.1 fun hl => (lt_irrefl _ (e ▸ h1.2 hl)))
        · intro e
          exact le_antisymm (not_lt.1 fun hl => (lt_irrefl _ (e ▸ h2.1 hl)))
            (not_lt.1 fun hl => (lt_irrefl _ (e ▸ h1.1 hl)))
    rw [e1, e2]

/-- **C43 (what it is).** Without ties the coefficient is the ordinary correlation of the ranks:
their covariance divided by the variance that both have. -/
theorem C43_pearson {m : ℕ} (hm : 2 ≤ m) {x y : ℕ → K}
    (hx : ∀ a < m, ∀ b < m, x a = x b → a = b) (hy : ∀ a < m, ∀ b < m, y a = y b → a = b) :
    let μ : K := ((m : K) + 1) / 2
    spearman m x y = (∑ o ∈ Finset.range m, (Corr.rankOf m x o - μ) * (Corr.rankOf m y o - μ)) /
      (∑ o ∈ Finset.range m, (Corr.rankOf m x o - μ) ^ 2) ∧
    ∑ o ∈ Finset.range m, (Corr.rankOf m x o - μ) ^ 2 =
      ∑ o ∈ Finset.range m, (Corr.rankOf m y o - μ) ^ 2 := by
  intro μ
  have hd := den_pos (K := K) hm
  have h1 := Corr.sum_sq_distinct hx
  have h2 := Corr.sum_sq_distinct hy
  have h3 : ∑ o ∈ Finset.range m, (Corr.rankOf m x o - Corr.rankOf m y o) ^ 2 =
      ∑ o ∈ Finset.range m, (Corr.rankOf m x o - μ) ^ 2 +
      ∑ o ∈ Finset.range m, (Corr.rankOf m y o - μ) ^ 2 -
      2 * ∑ o ∈ Finset.range m, (Corr.rankOf m x o - μ) * (Corr.rankOf m y o - μ) := by
    rw [Finset.mul_sum, ← Finset.sum_add_distrib, ← Finset.sum_sub_distrib]
    exact Finset.sum_congr rfl fun o _ => by ring
  change 12 * ∑ o ∈ Finset.range m, (Corr.rankOf m x o - μ) ^ 2 = _ at h1
  change 12 * ∑ o ∈ Finset.range m, (Corr.rankOf m y o - μ) ^ 2 = _ at h2
  set A := ∑ o ∈ Finset.range m, (Corr.rankOf m x o - μ) ^ 2
  set B := ∑ o ∈ Finset.range m, (Corr.rankOf m y o - μ) ^ 2
  set C := ∑ o ∈ Finset.range m, (Corr.rankOf m x o - μ) * (Corr.rankOf m y o - μ)
  have hA : 0 < A := by linarith
  refine ⟨?_, by linarith⟩
  have hB : B = A := by linarith
  unfold spearman
  rw [h3, hB, ← h1]
  field_simp
  ring

namespace Corr

/-- The ranks of a column of which the first `m` cells are known. -/
theorem ranks_first {N m : ℕ} {f : ℕ → Num K} {x : ℕ → K} (hm : m ≤ N)
    (h : ∀ o < N, f o = if o < m then .fin (x o) else .nan) {o : ℕ} (ho : o < N) :
    ranks N f o = if o < m then .fin (rankOf m x o) else .nan := by
  rw [ranks_congr h ho, ranks_eq (by intro o; split_ifs <;> trivial)]
  by_cases hom : o < m
  · simp only [hom, if_true, reduceCtorEq, if_false]
    have e1 : below N (fun o => if o < m then Num.fin (x o) else .nan) o =
        ((Finset.range m).filter fun o' => x o' < x o).card := by
      unfold below
      congr 1
      ext o'
      simp only [Finset.mem_filter, Finset.mem_range, hom, if_true, Num.amt_fin]
      by_cases h' : o' < m
      · simp [h', show o' < N by omega]
      · simp [h']
    have e2 : equalTo N (fun o => if o < m then Num.fin (x o) else .nan) o =
        ((Finset.range m).filter fun o' => x o' = x o).card := by
      unfold equalTo
      congr 1
      ext o'
      simp only [Finset.mem_filter, Finset.mem_range, hom, if_true, Num.amt_fin]
      by_cases h' : o' < m
      · simp [h', show o' < N by omega]
      · simp [h']
    rw [e1, e2]
    rfl
  · simp [hom]

end Corr

/-- The link ratio of origin `o` from age `d`. -/
def linkOf (t : Tri K) (i c d o : ℕ) : K := (t.values.get i c o (d + 1)).amt / (t.values.get i c o d).amt

/-- Every amount known by the valuation date is there and is not zero. -/
def FullTriangle (t : Tri K) (n : ℕ) : Prop :=
  ∀ i < t.kdims.length, ∀ c < t.vdims.length, ∀ o d, o + d < n → (t.values.get i c o d).amt ≠ 0

private theorem numToNan_ne_zero (x : Num K) : x.numToNan ≠ .fin 0 := by
  cases x with
  | fin a =>
    by_cases ha : a = 0
    · subst ha; simp [Num.numToNan]
    · rw [Num.numToNan_fin_of_ne ha]; simpa using ha
  | _ => simp [Num.numToNan]

private theorem sq_cell (x : K) : (Num.fin x).numToNan.nanToNum.npow 2 = .fin (x ^ 2) := by
  by_cases hx : x = 0
  · subst hx; simp [Num.numToNan, Num.nanToNum, Num.npow]
  · rw [Num.numToNan_fin_of_ne hx]; simp [Num.nanToNum, Num.npow, pow_two]

/-- **C43, partial: triangles with as many ages as origins, none of whose amounts is missing.**
`T_k` is Spearman's coefficient of the link ratios from two consecutive ages, over the origins that
have both; the test statistic is the average of the coefficients, weighted by the number of pairs
less one. -/
theorem C43_value_partial {t : Tri K} {a : Int} {n : ℕ} (h : Tri.Standard t a n n 1) (hn : 4 ≤ n)
    (full : FullTriangle t n) {p : K} (hp : 0 ≤ p ∧ p ≤ 1) :
    ∃ r, Corr.developmentTest t p = .ok r ∧ r.pairs = n - 3 ∧
      (∀ i < t.kdims.length, ∀ c < t.vdims.length, ∀ j < n - 3,
        r.t i c j = .fin (spearman (n - 2 - j) (linkOf t i c (j + 1)) (linkOf t i c j))) ∧
      (∀ i < t.kdims.length, ∀ c < t.vdims.length, r.expectation i c = .fin
        ((∑ j ∈ Finset.range (n - 3), ((n - 3 - j : ℕ) : K) *
          spearman (n - 2 - j) (linkOf t i c (j + 1)) (linkOf t i c j)) /
        ∑ j ∈ Finset.range (n - 3), ((n - 3 - j : ℕ) : K))) := by
  have hlr : Tri.linkRows n n 1 = n - 1 := by unfold Tri.linkRows; rw [if_neg (by omega)]
  have hlr' : Tri.linkRows (n - 1) (n - 1) 1 = n - 2 := by
    unfold Tri.linkRows; rw [if_neg (by omega)]; omega
  have nz : Tri.NoZeros t := by
    intro i hi c hc o ho d hd e
    rw [h.wf.1] at hi
    rw [h.wf.2.1] at hc
    rw [h.wf.2.2.1, h.lenO] at ho
    rw [h.wf.2.2.2, h.lenD] at hd
    by_cases hod : o + d < n
    · exact full i hi c hc o d hod (by rw [e]; rfl)
    · have := h.known i hi c hc o ho d hd (by omega)
      rw [e] at this
      cases this
  obtain ⟨l1, hl1, g1, k1, v1, -, -, c1⟩ := h.linkGrid (by omega) nz (by rw [hlr]; omega)
  obtain ⟨u, hu, su, ku, vu, -, -, cu⟩ := h.before (by rw [hlr]; omega)
  rw [hlr] at g1 c1 su cu
  have nzu : Tri.NoZeros u := by
    intro i hi c hc o ho d hd e
    rw [su.wf.1, ku] at hi
    rw [su.wf.2.1, vu] at hc
    rw [su.wf.2.2.1, su.lenO] at ho
    rw [su.wf.2.2.2, su.lenD] at hd
    rw [cu i hi c hc o ho d hd] at e
    split_ifs at e
    exact numToNan_ne_zero _ e
  obtain ⟨l2, hl2, g2, k2, v2, -, -, c2⟩ := su.linkGrid (by omega) nzu (by rw [hlr']; omega)
  rw [hlr'] at g2 c2
  have hO : ∀ i < t.kdims.length, ∀ c < t.vdims.length, ∀ o < n - 1, ∀ d < n - 1,
      l1.values.get i c o d = if o < n - 1 - d then .fin (linkOf t i c d o) else .nan := by
    intro i hi c hc o ho d hd
    rw [c1 i hi c hc o ho d hd]
    unfold Tri.ratio linkOf
    split_ifs with h1 h2 h2
    · rfl
    · exact absurd (by rw [h.known i hi c hc o (by omega) (d + 1) (by omega) (by omega)]; rfl) h1.2
    · exact absurd ⟨full i hi c hc o d (by omega), full i hi c hc o (d + 1) (by omega)⟩ h1
    · rfl
  have hU : ∀ i < t.kdims.length, ∀ c < t.vdims.length, ∀ o < n - 2, ∀ d < n - 2,
      l2.values.get i c o d = if o < n - 2 - d then .fin (linkOf t i c d o) else .nan := by
    intro i hi c hc o ho d hd
    rw [c2 i (by rw [ku]; exact hi) c (by rw [vu]; exact hc) o ho d (by omega),
      cu i hi c hc o (by omega) d (by omega), cu i hi c hc o (by omega) (d + 1) (by omega)]
    unfold Tri.ratio linkOf
    by_cases hlt : o < n - 2 - d
    · have e1 : 1 * o + d + 1 < n := by omega
      have e2 : 1 * o + (d + 1) + 1 < n := by omega
      rw [if_pos e1, if_pos e2, if_pos hlt, Num.amt_numToNan, Num.amt_numToNan,
        if_pos ⟨full i hi c hc o d (by omega), full i hi c hc o (d + 1) (by omega)⟩]
    · rw [if_neg hlt, if_neg]
      rintro ⟨-, h2⟩
      exact h2 (by rw [if_neg (by omega)]; rfl)
  have s1 : l1.values.d0 = t.kdims.length ∧ l1.values.d1 = t.vdims.length ∧ l1.values.d2 = n - 1 ∧
      l1.values.d3 = n - 1 :=
    ⟨by rw [g1.wf.1, k1], by rw [g1.wf.2.1, v1], by rw [g1.wf.2.2.1, g1.lenO],
      by rw [g1.wf.2.2.2, g1.lenD]⟩
  have s2 : l2.values.d0 = t.kdims.length ∧ l2.values.d1 = t.vdims.length ∧ l2.values.d2 = n - 2 ∧
      l2.values.d3 = n - 2 :=
    ⟨by rw [g2.wf.1, k2, ku], by rw [g2.wf.2.1, v2, vu], by rw [g2.wf.2.2.1, g2.lenO],
      by rw [g2.wf.2.2.2, g2.lenD]; omega⟩
  have r1 : ∀ i < t.kdims.length, ∀ c < t.vdims.length, ∀ o < n - 2, ∀ d < n - 2,
      (Corr.marks Corr.ranks l1.values).get i c o (d + 1) =
        if o < n - 2 - d then .fin (Corr.rankOf (n - 2 - d) (linkOf t i c (d + 1)) o) else .nan := by
    intro i hi c hc o ho d hd
    show Corr.ranks l1.values.d2 (fun o => l1.values.get i c o (d + 1)) o = _
    rw [s1.2.2.1]
    refine Corr.ranks_first (by omega) (fun o ho => ?_) (by omega)
    rw [hO i hi c hc o ho (d + 1) (by omega), show n - 1 - (d + 1) = n - 2 - d by omega]
  have r2 : ∀ i < t.kdims.length, ∀ c < t.vdims.length, ∀ o < n - 2, ∀ d < n - 2,
      (Corr.marks Corr.ranks l2.values).get i c o d =
        if o < n - 2 - d then .fin (Corr.rankOf (n - 2 - d) (linkOf t i c d) o) else .nan := by
    intro i hi c hc o ho d hd
    show Corr.ranks l2.values.d2 (fun o => l2.values.get i c o d) o = _
    rw [s2.2.2.1]
    exact Corr.ranks_first (by omega) (fun o ho => hU i hi c hc o ho d hd) (by omega)
  set m2 : Tri K := { l2 with values := Corr.marks Corr.ranks l2.values } with hm2
  set m1 : Tri K := { m2 with values := ⟨(Corr.marks Corr.ranks l1.values).d0,
    (Corr.marks Corr.ranks l1.values).d1,
    min m2.values.d2 (Corr.marks Corr.ranks l1.values).d2,
    (Corr.marks Corr.ranks l1.values).d3 - 1, fun i c o d =>
      (Corr.marks Corr.ranks l1.values).get i c o (d + 1)⟩ } with hm1
  have w2 : Tri.WF m2 := g2.wf
  have w1 : Tri.WF m1 := by
    refine ⟨?_, ?_, ?_, ?_⟩
    · show l1.values.d0 = l2.kdims.length
      rw [s1.1, k2, ku]
    · show l1.values.d1 = l2.vdims.length
      rw [s1.2.1, v2, vu]
    · show min l2.values.d2 l1.values.d2 = l2.odims.length
      rw [s1.2.2.1, s2.2.2.1, g2.lenO]; exact min_eq_left (by omega)
    · show l1.values.d3 - 1 = l2.ddims.length
      rw [s1.2.2.2, g2.lenD]
  have hvalid : Corr.validateCritical p = .ok () := by
    unfold Corr.validateCritical; rw [if_pos hp]
  obtain ⟨diff, hsub, hd2, hd3, hdc⟩ : ∃ diff, m1.sub m2 = .ok diff ∧ diff.values.d2 = n - 2 ∧
      diff.values.d3 = n - 2 ∧
      ∀ i < t.kdims.length, ∀ c < t.vdims.length, ∀ o < n - 2, ∀ d < n - 2,
        diff.values.get i c o d = (Num.fin (if o < n - 2 - d then
          (Corr.rankOf (n - 2 - d) (linkOf t i c (d + 1)) o -
            Corr.rankOf (n - 2 - d) (linkOf t i c d) o) else 0)).numToNan := by
    refine ⟨_, Tri.sub_same (x := m1) (y := m2) ⟨rfl, rfl, rfl, rfl, rfl, rfl, rfl, rfl⟩ w1 w2,
      ?_, ?_, ?_⟩
    · show min l2.values.d2 l1.values.d2 = _
      rw [s1.2.2.1, s2.2.2.1]; omega
    · show l1.values.d3 - 1 = _
      rw [s1.2.2.2]; rfl
    · have hmax : max m1.vd m2.vd = l2.vd := max_self _
      intro i hi c hc o ho d hd
      show (((m1.values.get i c o d).nanToNum - (m2.values.get i c o d).nanToNum) *
        (Tri.nanTri { m1 with vd := max m1.vd m2.vd } o d).nanToNum).numToNan = _
      have e1 : m1.values.get i c o d = _ := r1 i hi c hc o ho d hd
      have e2 : m2.values.get i c o d = _ := r2 i hi c hc o ho d hd
      rw [e1, e2]
      by_cases hlt : o < n - 2 - d
      · have hv : Tri.nanTri { m1 with vd := max m1.vd m2.vd } o d = 1 := by
          rcases Tri.nanTri_eq { m1 with vd := max m1.vd m2.vd } o d with e | ⟨-, e⟩
          · exact e
          · exfalso
            rw [hmax] at e
            have e' : l2.valuation o d > l2.vd := e
            exact absurd e' (by
              rw [gt_iff_lt, g2.valuation_gt (by omega) (by omega)]
              omega)
        simp only [hlt, if_true, hv, Num.nanToNum, Num.one_def, Num.fin_sub_fin, Num.fin_mul_fin,
          _root_.mul_one]
      · simp only [hlt, if_false, Num.nanToNum]
        rcases Tri.nanTri_eq { m1 with vd := max m1.vd m2.vd } o d with e | ⟨e, -⟩ <;> rw [e] <;>
          simp
  obtain ⟨w, hw, hw3, hwc⟩ : ∃ w : Tri K, (Corr.powNat diff 2).sum .origin = .tri w ∧
      w.values.d3 = n - 2 ∧ ∀ i < t.kdims.length, ∀ c < t.vdims.length, ∀ d < n - 2,
        w.values.get i c 0 d = (Num.fin (∑ o ∈ Finset.range (n - 2 - d),
          (Corr.rankOf (n - 2 - d) (linkOf t i c (d + 1)) o -
            Corr.rankOf (n - 2 - d) (linkOf t i c d) o) ^ 2)).numToNan := by
    refine ⟨(Corr.powNat diff 2).sumKeep .origin, ?_, ?_, ?_⟩
    · unfold Tri.sum Tri.toAgg
      rw [if_neg]
      rintro ⟨-, -, -, e⟩
      have e' : diff.values.d3 = 1 := e
      omega
    · exact hd3
    · intro i hi c hc d hd
      show (∑ o ∈ Finset.range diff.values.d2,
        ((diff.values.get i c o d).nanToNum.npow 2).nan0).numToNan = _
      have e : ∀ o ∈ Finset.range (n - 2), ((diff.values.get i c o d).nanToNum.npow 2).nan0 =
          .fin (if o < n - 2 - d then (Corr.rankOf (n - 2 - d) (linkOf t i c (d + 1)) o -
            Corr.rankOf (n - 2 - d) (linkOf t i c d) o) ^ 2 else 0) := by
        intro o ho
        rw [hdc i hi c hc o (Finset.mem_range.1 ho) d hd, sq_cell]
        split_ifs <;> simp [Num.nan0]
      rw [hd2, Finset.sum_congr rfl e, Num.sum_fin, ← Finset.sum_filter]
      have e2 : ((Finset.range (n - 2)).filter fun o => o < n - 2 - d) = Finset.range (n - 2 - d) := by
        ext o; simp only [Finset.mem_filter, Finset.mem_range]; omega
      rw [e2]
  have hlen : t.ddims.length = n := h.lenD
  have hrun : Corr.developmentTest t p =
      .ok (Corr.devStats { w.values with d3 := w.values.d3 - 1 } n) := by
    unfold Corr.developmentTest
    simp only [bind, Except.bind, hvalid, hl1, hu, hl2]
    rw [hsub]
    simp only [hw]
    rw [if_neg (by rw [hlen]; omega), hlen]
  have hT : ∀ i < t.kdims.length, ∀ c < t.vdims.length, ∀ j < n - 3,
      (Corr.devStats { w.values with d3 := w.values.d3 - 1 } n).t i c j =
        .fin (spearman (n - 2 - j) (linkOf t i c (j + 1)) (linkOf t i c j)) := by
    intro i hi c hc j hj
    show 1 - .fin 6 * (w.values.get i c 0 j).nanToNum /
      .fin ((((n : Int) - (j + 2)) ^ 3 - n + (j + 2) : Int) : K) = _
    have hm : ((((n : Int) - (j + 2)) ^ 3 - n + (j + 2) : Int) : K) =
        (((n - 2 - j : ℕ) : K)) ^ 3 - ((n - 2 - j : ℕ) : K) := by
      have : ((n - 2 - j : ℕ) : K) = (n : K) - (j + 2) := by
        rw [Nat.cast_sub (by omega), Nat.cast_sub (by omega)]; push_cast; ring
      rw [this]; push_cast; ring
    rw [hwc i hi c hc j (by omega), hm]
    have hz : ∀ x : K, (Num.fin x).numToNan.nanToNum = .fin x := by
      intro x
      by_cases hx : x = 0
      · subst hx; simp [Num.numToNan, Num.nanToNum]
      · rw [Num.numToNan_fin_of_ne hx]; rfl
    have hden := (den_pos (K := K) (m := n - 2 - j) (by omega)).ne'
    rw [hz, Num.fin_mul_fin, Num.fin_div_fin_of_ne _ hden, Num.one_def, Num.fin_sub_fin]
    rfl
  have hwt : ∀ j < n - 3, (Corr.devStats { w.values with d3 := w.values.d3 - 1 } n).weights j =
      ((n - 3 - j : ℕ) : K) := by
    intro j hj
    show (((n : Int) - (j + 2) - 1 : Int) : K) = _
    rw [Nat.cast_sub (by omega), Nat.cast_sub (by omega)]; push_cast; ring
  have hp3 : (Corr.devStats { w.values with d3 := w.values.d3 - 1 } n).pairs = n - 3 := by
    show w.values.d3 - 1 = _
    omega
  refine ⟨_, hrun, hp3, hT, ?_⟩
  intro i hi c hc
  set r := Corr.devStats { w.values with d3 := w.values.d3 - 1 } n with hr
  have hE : r.expectation i c = (∑ j ∈ Finset.range r.pairs,
      (.fin (r.weights j) * r.t i c j).nanToNum) / .fin (∑ j ∈ Finset.range r.pairs, r.weights j) := rfl
  have hpos : (0 : K) < ∑ j ∈ Finset.range (n - 3), ((n - 3 - j : ℕ) : K) :=
    Finset.sum_pos (fun j hj => by
      have := Finset.mem_range.1 hj
      exact_mod_cast (by omega : 0 < n - 3 - j)) ⟨0, Finset.mem_range.2 (by omega)⟩
  rw [hE, hp3]
  have e1 : ∀ j ∈ Finset.range (n - 3), (.fin (r.weights j) * r.t i c j).nanToNum =
      .fin (((n - 3 - j : ℕ) : K) * spearman (n - 2 - j) (linkOf t i c (j + 1)) (linkOf t i c j)) := by
    intro j hj
    have hj' := Finset.mem_range.1 hj
    rw [hT i hi c hc j hj', hwt j hj', Num.fin_mul_fin]
    rfl
  have e2 : ∀ j ∈ Finset.range (n - 3), r.weights j = ((n - 3 - j : ℕ) : K) :=
    fun j hj => hwt j (Finset.mem_range.1 hj)
  rw [Finset.sum_congr rfl e1, Finset.sum_congr rfl e2, Num.sum_fin, Num.fin_div_fin_of_ne _ hpos.ne']

/-- **C43 (test statistic), partial like the above.** The test statistic lies between -1 and 1. -/
theorem C43_statistic_partial {t : Tri K} {a : Int} {n : ℕ} (h : Tri.Standard t a n n 1) (hn : 4 ≤ n)
    (full : FullTriangle t n) {p : K} (hp : 0 ≤ p ∧ p ≤ 1) :
    ∃ r, Corr.developmentTest t p = .ok r ∧
      ∀ i < t.kdims.length, ∀ c < t.vdims.length, ∃ T : K, r.expectation i c = .fin T ∧
        -1 ≤ T ∧ T ≤ 1 := by
  obtain ⟨r, hr, -, -, hE⟩ := C43_value_partial h hn full hp
  refine ⟨r, hr, fun i hi c hc => ⟨_, hE i hi c hc, ?_⟩⟩
  have hpos : (0 : K) < ∑ j ∈ Finset.range (n - 3), ((n - 3 - j : ℕ) : K) :=
    Finset.sum_pos (fun j hj => by
      have := Finset.mem_range.1 hj
      exact_mod_cast (by omega : 0 < n - 3 - j)) ⟨0, Finset.mem_range.2 (by omega)⟩
  have hr : ∀ j ∈ Finset.range (n - 3),
      -1 ≤ spearman (n - 2 - j) (linkOf t i c (j + 1)) (linkOf t i c j) ∧
        spearman (n - 2 - j) (linkOf t i c (j + 1)) (linkOf t i c j) ≤ 1 := fun j hj =>
    C43_range (by have := Finset.mem_range.1 hj; omega) _ _
  rw [le_div_iff₀ hpos, div_le_iff₀ hpos, one_mul, neg_one_mul, ← Finset.sum_neg_distrib]
  constructor
  · refine Finset.sum_le_sum fun j hj => ?_
    have h0 : (0 : K) ≤ ((n - 3 - j : ℕ) : K) := Nat.cast_nonneg _
    nlinarith [(hr j hj).1]
  · refine Finset.sum_le_sum fun j hj => ?_
    have h0 : (0 : K) ≤ ((n - 3 - j : ℕ) : K) := Nat.cast_nonneg _
    nlinarith [(hr j hj).2]

/-- **C43 (variance).** The variance of the test statistic is the one of a weighted average of
independent coefficients, a coefficient of `m + 1` pairs having the variance `1 / m` and the weight
`m`. -/
theorem C43_variance {t : Tri K} {p : K} {r : Corr.DevTest K} (hr : Corr.developmentTest t p = .ok r)
    (hn : 4 ≤ t.ddims.length) :
    r.variance = (∑ j ∈ Finset.range (t.ddims.length - 3), ((j + 1 : ℕ) : K) ^ 2 * (1 / ((j + 1 : ℕ) : K))) /
      (∑ j ∈ Finset.range (t.ddims.length - 3), ((j + 1 : ℕ) : K)) ^ 2 := by
  have hv : r.variance = 2 / (((t.ddims.length : K) - 2) * ((t.ddims.length : K) - 3)) := by
    unfold Corr.developmentTest at hr
    obtain ⟨_, -, hr⟩ := bind_ok hr
    obtain ⟨m1, -, hr⟩ := bind_ok hr
    obtain ⟨t', -, hr⟩ := bind_ok hr
    obtain ⟨lr, -, hr⟩ := bind_ok hr
    obtain ⟨diff, -, hr⟩ := bind_ok hr
    split at hr
    · cases hr
    · split at hr
      · cases hr
      · cases hr
        rfl
  obtain ⟨m, hm⟩ : ∃ m, t.ddims.length = m + 4 := ⟨t.ddims.length - 4, by omega⟩
  rw [hv, hm, show m + 4 - 3 = m + 1 by omega]
  have h1 : ∑ j ∈ Finset.range (m + 1), ((j + 1 : ℕ) : K) ^ 2 * (1 / ((j + 1 : ℕ) : K)) =
      ∑ j ∈ Finset.range (m + 1), ((j + 1 : ℕ) : K) := Finset.sum_congr rfl fun j _ => by
    have : ((j + 1 : ℕ) : K) ≠ 0 := by exact_mod_cast Nat.succ_ne_zero j
    field_simp
  have h2 : ∀ m : ℕ, ∑ j ∈ Finset.range (m + 1), ((j + 1 : ℕ) : K) = ((m : K) + 1) * (m + 2) / 2 := by
    intro m
    induction m with
    | zero => simp
    | succ m ih =>
      rw [Finset.sum_range_succ, ih]
      push_cast
      ring
  rw [h1, h2]
  have hm0 : (0 : K) ≤ m := Nat.cast_nonneg m
  have e1 : ((m : K) + 1) ≠ 0 := by positivity
  have e2 : ((m : K) + 2) ≠ 0 := by positivity
  push_cast
  rw [show (m : K) + 4 - 2 = m + 2 by ring, show (m : K) + 4 - 3 = m + 1 by ring]
  field_simp

/-- **C43 (verdict).** The independence of the factors is rejected exactly when the statistic is
further from zero than the quantile, for any quantile function that is symmetric around 1/2. -/
theorem C43_verdict (ppf sqrt : K → K) (hppf : ∀ x, ppf (1 - x) = -ppf x) (r : Corr.DevTest K) (p : K)
    (i c : ℕ) {T : K} (hT : r.expectation i c = .fin T) :
    r.critical ppf sqrt p i c = true ↔ ppf (1 - p / 2) * sqrt r.variance < |T| := by
  unfold Corr.DevTest.critical
  rw [hT, Bool.or_eq_true]
  have h1 : ppf (1 / 2 - (1 - p) / 2) = -ppf (1 - p / 2) := by
    rw [hppf, neg_neg]; congr 1; ring
  have h2 : (1 / 2 + (1 - p) / 2 : K) = 1 - p / 2 := by ring
  rw [h1, h2]
  simp only [Num.ltb, decide_eq_true_eq]
  rw [lt_abs, neg_mul, lt_neg, or_comm]

/-- **C43 (critical level).** A level outside `[0, 1]` is rejected. -/
theorem C43_rejects (t : Tri K) {p : K} (hp : p < 0 ∨ 1 < p) :
    Corr.developmentTest t p = .error .valueError := by
  unfold Corr.developmentTest Corr.validateCritical
  rw [if_neg]
  · rfl
  · rintro ⟨h1, h2⟩
    rcases hp with h | h
    · exact absurd h1 (not_le.2 h)
    · exact absurd h2 (not_le.2 h)

/-- A triangle with four origins and ages; the first amount of the second origin is missing. -/
def C43gap : Tri ℚ where
  kdims := [["Total"]]
  keyLabels := ["Total"]
  vdims := ["values"]
  odims := [12 * 2019, 12 * 2020, 12 * 2021, 12 * 2022]
  ddims := [12, 24, 36, 48]
  isVal := false
  ograin := .Y
  dgrain := .Y
  vd := 12 * 2022 + 11
  isCum := some true
  isPattern := false
  isAdditive := none
  values := ⟨1, 1, 4, 4, fun _ _ o d =>
    match o, d with
    | 0, 0 => .fin 100 | 0, 1 => .fin 110 | 0, 2 => .fin 120 | 0, 3 => .fin 130
    | 1, 1 => .fin 100 | 1, 2 => .fin 200
    | 2, 0 => .fin 100 | 2, 1 => .fin 130
    | 3, 0 => .fin 100
    | _, _ => .nan⟩

/-- The same triangle with all its amounts. -/
def C43ex : Tri ℚ := { C43gap with
  values := { C43gap.values with
    get := fun i c o d => if o = 1 ∧ d = 0 then .fin 95 else C43gap.values.get i c o d } }

theorem C43gap_standard : Tri.Standard C43gap 24228 4 4 1 := by
  refine ⟨⟨by decide, ?_, rfl, by decide, by decide, by decide, by decide, by decide, by decide,
    by decide, by decide, by decide, by decide, ?_⟩, by decide, rfl, rfl⟩
  · intro i hi c hc o ho d hd
    have ho : o < 4 := ho
    have hd : d < 4 := hd
    interval_cases o <;> interval_cases d <;> trivial
  · intro i hi c hc o ho d hd hlt
    interval_cases o <;> interval_cases d <;> first | rfl | (exfalso; omega)

theorem C43ex_standard : Tri.Standard C43ex 24228 4 4 1 := by
  refine ⟨⟨by decide, ?_, rfl, by decide, by decide, by decide, by decide, by decide, by decide,
    by decide, by decide, by decide, by decide, ?_⟩, by decide, rfl, rfl⟩
  · intro i hi c hc o ho d hd
    have ho : o < 4 := ho
    have hd : d < 4 := hd
    interval_cases o <;> interval_cases d <;> trivial
  · intro i hi c hc o ho d hd hlt
    interval_cases o <;> interval_cases d <;> first | rfl | (exfalso; omega)

/-- **C43, false of the code.** When an amount is missing a `T_k` can be -3, because an absent rank
is taken as rank zero; the coefficients are then not between -1 and 1. -/
theorem C43_range_false : ∃ (t : Tri ℚ) (r : Corr.DevTest ℚ), Tri.Standard t 24228 4 4 1 ∧
    Corr.developmentTest t (1 / 2) = .ok r ∧ r.pairs = 1 ∧ r.t 0 0 0 = .fin (-3) ∧
    r.expectation 0 0 = .fin (-3) := by
  have hex : ∃ r, Corr.developmentTest C43gap (1 / 2) = .ok r ∧
      decide (r.pairs = 1 ∧ r.t 0 0 0 = .fin (-3) ∧ r.expectation 0 0 = .fin (-3)) = true :=
    ok_of _ (by decide +kernel)
  obtain ⟨r, hr, hlt⟩ := hex
  exact ⟨C43gap, r, C43gap_standard, hr, of_decide_eq_true hlt⟩

/-- Three origins with six ages: the ratios from the first and the second age are in opposite
order. -/
def C43long : Tri ℚ where
  kdims := [["Total"]]
  keyLabels := ["Total"]
  vdims := ["values"]
  odims := [12 * 2017, 12 * 2018, 12 * 2019]
  ddims := [12, 24, 36, 48, 60, 72]
  isVal := false
  ograin := .Y
  dgrain := .Y
  vd := 12 * 2022 + 11
  isCum := some true
  isPattern := false
  isAdditive := none
  values := ⟨1, 1, 3, 6, fun _ _ o d =>
    match o, d with
    | 0, 0 => .fin 100 | 0, 1 => .fin 110 | 0, 2 => .fin 220
    | 1, 0 => .fin 100 | 1, 1 => .fin 120 | 1, 2 => .fin 180
    | 2, 0 => .fin 100 | 2, 1 => .fin 130 | 2, 2 => .fin 143
    | 1, 5 => .nan | 2, 4 => .nan | 2, 5 => .nan
    | _, _ => .fin 300⟩

theorem C43long_standard : Tri.Standard C43long 24204 3 6 1 := by
  refine ⟨⟨by decide, ?_, rfl, by decide, by decide, by decide, by decide, by decide, by decide,
    by decide, by decide, by decide, by decide, ?_⟩, by decide, rfl, rfl⟩
  · intro i hi c hc o ho d hd
    have ho : o < 3 := ho
    have hd : d < 6 := hd
    interval_cases o <;> interval_cases d <;> trivial
  · intro i hi c hc o ho d hd hlt
    interval_cases o <;> interval_cases d <;> first | rfl | (exfalso; omega)

/-- **C43, false of the code.** With more ages than origins the formula is divided by the number of
ages instead of the number of origins compared: two exactly opposite rankings get the coefficient
1/5, while Spearman's coefficient of them is -1. -/
theorem C43_pairs_false : ∃ (t : Tri ℚ) (r : Corr.DevTest ℚ), Tri.Standard t 24204 3 6 1 ∧
    Corr.developmentTest t (1 / 2) = .ok r ∧ r.t 0 0 0 = .fin (1 / 5) ∧
    spearman 3 (linkOf t 0 0 1) (linkOf t 0 0 0) = -1 := by
  have hex : ∃ r, Corr.developmentTest C43long (1 / 2) = .ok r ∧
      decide (r.t 0 0 0 = .fin (1 / 5)) = true :=
    ok_of _ (by decide +kernel)
  obtain ⟨r, hr, hlt⟩ := hex
  exact ⟨C43long, r, C43long_standard, hr, of_decide_eq_true hlt, by decide +kernel⟩

/-- The full triangle: two pairs of ratios in opposite order. -/
example : ∃ r, Corr.developmentTest C43ex (1 / 2) = .ok r ∧
    decide (r.pairs = 1 ∧ r.t 0 0 0 = .fin (-1) ∧ r.expectation 0 0 = .fin (-1)) = true :=
  ok_of _ (by decide +kernel)

example : FullTriangle C43ex 4 := by
  intro i hi c hc o d hlt
  have ho : o < 4 := by omega
  have hd : d < 4 := by omega
  interval_cases o <;> interval_cases d <;>
    first | (exfalso; omega) | simp [C43ex, C43gap, Num.amt]

/-- Three numbers ranked 1, 2, 3 and 1, 3, 2. -/
example : spearman 3 (fun o => [(10 : ℚ), 20, 30].getD o 0) (fun o => [(5 : ℚ), 9, 8].getD o 0) =
    1 / 2 := by decide +kernel

end CL
