import Verif.Lemmas.Binom
import Verif.Lemmas.Median
import Verif.Lemmas.LinkGrid
import Verif.Props.C07
import Verif.Spec.Examples
import Mathlib.Algebra.Order.Floor.Ring
import Mathlib.Data.Rat.Floor
import Mathlib.Tactic.IntervalCases

set_option linter.unusedSectionVars false

/-! # C42: the valuation correlation test -/

namespace CL
variable {K : Type} [Field K] [LinearOrder K] [IsStrictOrderedRing K]

/-- The average of `g L` over all ways to split `n` ratios into large and small ones, `L` being the
number of large ones. -/
def fairMean (n : ℕ) (g : ℕ → K) : K := (∑ s ∈ (Finset.range n).powerset, g s.card) / 2 ^ n

/-- The smaller group, when `l` of `n` are large. -/
def smaller (n l : ℕ) : K := ((min l (n - l) : ℕ) : K)

theorem fairMean_eq (n : ℕ) (g : ℕ → K) :
    fairMean n g = (∑ k ∈ Finset.range (n + 1), (n.choose k : K) * g k) / 2 ^ n := by
  unfold fairMean
  rw [Finset.sum_powerset_apply_card, Finset.card_range]
  simp only [nsmul_eq_mul]

/-- **C42 (mean).** `z_expectation` is the exact mean of `min(L, S)` for a fair split. -/
theorem C42_expectation (n : ℕ) : (Corr.zMean n : K) = fairMean n (smaller n) := by
  have hp : (2 : K) ^ n ≠ 0 := by positivity
  rw [fairMean_eq]
  unfold smaller Corr.zMean
  rw [Corr.moment1]
  field_simp

/-- **C42 (variance).** `z_variance` is the exact variance of `min(L, S)` for a fair split. -/
theorem C42_variance (n : ℕ) : (Corr.zVar n : K) =
    fairMean n fun l => (smaller n l - fairMean n (smaller n)) ^ 2 := by
  have hp : (2 : K) ^ n ≠ 0 := by positivity
  have h0 := C42_expectation (K := K) n
  set μ := fairMean n (smaller n : ℕ → K) with hμ
  have h1 := Corr.moment1 (K := K) n
  have h2 := Corr.moment2 (K := K) n
  have h3 : ∑ k ∈ Finset.range (n + 1), (n.choose k : K) = 2 ^ n := by
    exact_mod_cast Nat.sum_range_choose n
  rw [fairMean_eq, eq_div_iff hp]
  have e : ∀ k, (n.choose k : K) * (smaller n k - μ) ^ 2 =
      (n.choose k : K) * (((min k (n - k) : ℕ) : K) * (((min k (n - k) : ℕ) : K) - 1)) +
      (1 - 2 * μ) * ((n.choose k : K) * ((min k (n - k) : ℕ) : K)) + μ ^ 2 * (n.choose k : K) := by
    intro k; unfold smaller; ring
  rw [Finset.sum_congr rfl fun k _ => e k, Finset.sum_add_distrib, Finset.sum_add_distrib,
    ← Finset.mul_sum, ← Finset.mul_sum, h1, h2, h3]
  have hm : (n : K) * 2 ^ n / 2 - Corr.zComb n * n = μ * 2 ^ n := by
    rw [← h0]; unfold Corr.zMean; field_simp
  rw [hm]
  unfold Corr.zVar
  rw [h0]
  field_simp
  ring

/-- **C42 (p-value).** The probability that `z_critical` compares with the critical level is the exact
probability that a fair split has a smaller group of at most `z`. -/
theorem C42_probability (z n : ℕ) : (Corr.pZlower z n : K) =
    fairMean n fun l => if min l (n - l) ≤ z then 1 else 0 := by
  have hp : (0 : K) < 2 ^ n := by positivity
  rw [fairMean_eq]
  unfold Corr.pZlower
  have hall : ∑ k ∈ Finset.range (n + 1), (n.choose k : K) = 2 ^ n := by
    exact_mod_cast Nat.sum_range_choose n
  have sub : ∀ m, z < m → (∑ k ∈ Finset.range m, (n.choose k : K) * (if k ≤ z then 1 else 0)) =
      ∑ k ∈ Finset.range (z + 1), (n.choose k : K) := by
    intro m hm
    rw [show m = (z + 1) + (m - (z + 1)) by omega, Finset.sum_range_add]
    have h2 : ∑ k ∈ Finset.range (m - (z + 1)), (n.choose (z + 1 + k) : K) *
        (if z + 1 + k ≤ z then 1 else 0) = 0 := by
      refine Finset.sum_eq_zero fun k _ => ?_
      rw [if_neg (by omega), mul_zero]
    rw [h2, add_zero]
    refine Finset.sum_congr rfl fun k hk => ?_
    rw [if_pos (by have := Finset.mem_range.1 hk; omega), mul_one]
  by_cases hz : n ≤ 2 * z + 1
  · -- every split qualifies
    have e1 : ∑ k ∈ Finset.range (n + 1), (n.choose k : K) *
        (if min k (n - k) ≤ z then 1 else 0) = 2 ^ n := by
      rw [← hall]
      refine Finset.sum_congr rfl fun k hk => ?_
      rw [if_pos (by have := Finset.mem_range.1 hk; omega), mul_one]
    rw [e1, div_self hp.ne', min_eq_left]
    rw [mul_div_assoc', le_div_iff₀ hp, one_mul]
    -- at least half of the splits have at most `z` large ones
    have h1 : (2 : K) ^ n ≤ 2 * ∑ k ∈ Finset.range (n / 2 + 1), (n.choose k : K) := by
      rcases Nat.even_or_odd' n with ⟨m, rfl | rfl⟩
      · have hs := Corr.half_even (K := K) m
        have e2 : (2 : K) ^ (2 * m) = 4 ^ m := by rw [pow_mul]; norm_num
        rw [e2, ← hs, show 2 * m / 2 = m by omega, Finset.sum_range_succ]
        have : (0 : K) ≤ ((2 * m).choose m : K) := Nat.cast_nonneg _
        linarith
      · have hs := Corr.half_odd (K := K) m
        have e2 : (2 : K) ^ (2 * m + 1) = 2 * 4 ^ m := by rw [pow_succ, pow_mul]; norm_num; ring
        rw [e2, show (2 * m + 1) / 2 = m by omega, hs]
    have h2 : ∑ k ∈ Finset.range (n / 2 + 1), (n.choose k : K) ≤
        ∑ k ∈ Finset.range (z + 1), (n.choose k : K) := by
      refine Finset.sum_le_sum_of_subset_of_nonneg ?_ fun k _ _ => Nat.cast_nonneg _
      intro k hk
      rw [Finset.mem_range] at hk ⊢
      omega
    linarith
  · have hz' : 2 * z + 1 < n := not_le.1 hz
    have e1 : ∑ k ∈ Finset.range (n + 1), (n.choose k : K) *
        (if min k (n - k) ≤ z then 1 else 0) = 2 * ∑ k ∈ Finset.range (z + 1), (n.choose k : K) := by
      rcases Nat.even_or_odd' n with ⟨m, rfl | rfl⟩
      · rw [Corr.fold_even m (fun j => if j ≤ z then (1 : K) else 0), sub m (by omega),
          if_neg (by omega), mul_zero, add_zero]
      · rw [Corr.fold_odd m (fun j => if j ≤ z then (1 : K) else 0), sub (m + 1) (by omega)]
    rw [e1, mul_div_assoc', min_eq_right]
    rw [← e1, div_le_one hp, ← hall]
    refine Finset.sum_le_sum fun k _ => ?_
    split_ifs
    · rw [mul_one]
    · rw [mul_zero]; exact Nat.cast_nonneg _

namespace Corr

/-- The sum of a column of marks is the number of marks that are set. -/
theorem sum_marks (n : ℕ) (g : ℕ → Num K) (b : ℕ → Prop) [DecidablePred b]
    (h : ∀ o < n, (b o ∧ g o = 1) ∨ (¬ b o ∧ (g o = .nan ∨ g o = .fin 0))) :
    ∑ o ∈ Finset.range n, (g o).nan0 = .fin (((Finset.range n).filter b).card : K) := by
  induction n with
  | zero =>
    simp only [Finset.range_zero, Finset.sum_empty, Finset.filter_empty, Finset.card_empty,
      Nat.cast_zero]
    rfl
  | succ n ih =>
    rw [Finset.sum_range_succ, ih fun o ho => h o (by omega), Finset.range_add_one,
      Finset.filter_insert]
    rcases h n (by omega) with ⟨hb, hg⟩ | ⟨hb, hg⟩
    · rw [if_pos hb, Finset.card_insert_of_notMem (by simp), hg]
      show Num.fin (_ + 1) = _
      push_cast; rfl
    · rw [if_neg hb]
      have : (g n).nan0 = .fin 0 := by rcases hg with hg | hg <;> rw [hg] <;> rfl
      rw [this]
      show Num.fin (_ + 0) = _
      rw [add_zero]

/-- Counting marks by calendar period on a regular grid. -/
theorem counts_grid {lr : Tri K} {a : Int} {n D q : ℕ} (h : Tri.Grid lr a n D q)
    (hq : Dev.valOffset lr.dgrain lr.ograin = some q) (hl : Tri.Later lr) (hD : 2 ≤ D)
    (mark : ℕ → (ℕ → Num K) → ℕ → Num K)
    (b : ℕ → (ℕ → Num K) → ℕ → Prop) [∀ n f, DecidablePred (b n f)]
    (hm : ∀ (f : ℕ → Num K) (o : ℕ), (∀ o, (f o).NoInf) → o < n →
      (f o = .nan ∧ mark n f o = .nan) ∨
      (f o ≠ .nan ∧ mark n f o = Num.ofBool (decide (b n f o)))) 
    (hc : ∀ (f g : ℕ → Num K) (o : ℕ), (∀ o < n, f o = g o) → o < n → mark n f o = mark n g o)
    (hcb : ∀ (f g : ℕ → Num K) (o : ℕ), (∀ o < n, f o = g o) → o < n → (b n f o ↔ b n g o)) :
    ∃ s, counts lr (marks mark lr.values) = .ok s ∧ s.d0 = lr.kdims.length ∧
      s.d1 = lr.vdims.length ∧ s.d3 = D ∧
      ∀ i < lr.kdims.length, ∀ c < lr.vdims.length, ∀ k < D, s.get i c 0 k =
        .fin (((Finset.range n).filter fun o => q * o ≤ k ∧
          lr.values.get i c o (k - q * o) ≠ .nan ∧
          b n (fun o' => lr.values.get i c o' (k - q * o)) o).card : K) := by
  have hd2 : lr.values.d2 = n := by rw [h.wf.2.2.1, h.lenO]
  -- what a mark looks like
  have hmk : ∀ i < lr.kdims.length, ∀ c < lr.vdims.length, ∀ o < n, ∀ d < D,
      (lr.values.get i c o d = .nan ∧ (marks mark lr.values).get i c o d = .nan) ∨
      (lr.values.get i c o d ≠ .nan ∧ (marks mark lr.values).get i c o d =
        Num.ofBool (decide (b n (fun o' => lr.values.get i c o' d) o))) := by
    intro i hi c hc' o ho d hd
    set f : ℕ → Num K := fun o' => if o' < n then lr.values.get i c o' d else .nan with hf
    have hfe : ∀ o < n, f o = lr.values.get i c o d := fun o ho => if_pos ho
    have hfn : ∀ o, (f o).NoInf := by
      intro o
      by_cases ho : o < n
      · rw [hfe o ho]
        exact h.finite i (by rw [h.wf.1]; exact hi) c (by rw [h.wf.2.1]; exact hc') o
          (by rw [hd2]; exact ho) d (by rw [h.wf.2.2.2, h.lenD]; exact hd)
      · rw [hf]; simp only [if_neg ho]; trivial
    have e1 : (marks mark lr.values).get i c o d = mark n f o := by
      show mark lr.values.d2 (fun o => lr.values.get i c o d) o = _
      rw [hd2]
      exact hc _ _ o (fun o ho => (hfe o ho).symm) ho
    have e2 : decide (b n f o) = decide (b n (fun o' => lr.values.get i c o' d) o) :=
      decide_eq_decide.2 (hcb f (fun o' => lr.values.get i c o' d) o hfe ho)
    rw [e1, ← hfe o ho, ← e2]
    exact hm f o hfn ho
  have hg : Tri.Grid ({ lr with values := marks mark lr.values } : Tri K) a n D q := by
    refine ⟨h.wf, ?_, h.isVal, h.index_pos, h.columns_pos, h.two_origins, h.period, h.recent, h.odims,
      h.ddims, h.vd, h.short, h.early, ?_⟩
    · intro i hi c hc' o ho d hd
      have := hmk i (by rw [← h.wf.1]; exact hi) c (by rw [← h.wf.2.1]; exact hc') o
        (by rw [← hd2]; exact ho) d (by rw [← h.lenD, ← h.wf.2.2.2]; exact hd)
      show ((marks mark lr.values).get i c o d).NoInf
      rcases this with ⟨-, e⟩ | ⟨-, e⟩ <;> rw [e]
      · trivial
      · unfold Num.ofBool; split_ifs <;> trivial
    · intro i hi c hc' o ho d hd hlt
      rcases hmk i hi c hc' o ho d hd with ⟨-, e⟩ | ⟨hx, -⟩
      · exact e
      · exact absurd (h.known i hi c hc' o ho d hd hlt) hx
  have hl' : Tri.Later ({ lr with values := marks mark lr.values } : Tri K) := by
    obtain ⟨i, hi, c, hc', o, ho, d, hd, hne, hx⟩ := hl
    refine ⟨i, hi, c, hc', o, ho, d, hd, hne, ?_⟩
    rcases hmk i hi c hc' o (by rw [← h.lenO]; exact ho) d (by rw [← h.lenD]; exact hd) with
      ⟨e, -⟩ | ⟨-, e⟩
    · exact absurd e hx
    · show (marks mark lr.values).get i c o d ≠ .nan
      rw [e]; unfold Num.ofBool; split_ifs <;> simp
  have hdv := hg.devToVal_eq hq hl'
  refine ⟨(((Tri.Grid.byVal ({ lr with values := marks mark lr.values } : Tri K) D q).sumKeep
      .origin).values.map Num.nanToNum), ?_, ?_⟩
  · unfold counts
    rw [hdv]
    simp only [bind, Except.bind]
    unfold Tri.sum Tri.toAgg
    rw [if_neg]
    rintro ⟨-, -, -, h3⟩
    have h4 : D = 1 := h3
    omega
  · refine ⟨h.wf.1, h.wf.2.1, rfl, ?_⟩
    intro i hi c hc' k hk
    show (∑ o ∈ Finset.range lr.values.d2,
      (if 0 ≤ (k : Int) - o * q * 1 ∧ (k : Int) - o * q * 1 < lr.values.d3 then
        (marks mark lr.values).get i c o ((k : Int) - o * q * 1).toNat else Num.nan).nan0
      ).numToNan.nanToNum = _
    rw [hd2, sum_marks n _ (fun o => q * o ≤ k ∧ lr.values.get i c o (k - q * o) ≠ .nan ∧
          b n (fun o' => lr.values.get i c o' (k - q * o)) o)]
    · by_cases h0 : (((Finset.range n).filter fun o => q * o ≤ k ∧
          lr.values.get i c o (k - q * o) ≠ .nan ∧
          b n (fun o' => lr.values.get i c o' (k - q * o)) o).card : K) = 0
      · rw [h0]; simp [Num.nanToNum]
      · rw [Num.numToNan_fin_of_ne h0]; rfl
    · intro o ho
      have e3 : lr.values.d3 = D := by rw [h.wf.2.2.2, h.lenD]
      by_cases hle : q * o ≤ k
      · have e : (k : Int) - o * q * 1 = ((k - q * o : ℕ) : Int) := by
          rw [Nat.cast_sub hle]; push_cast; ring
        rw [e, if_pos ⟨by omega, by rw [e3]; omega⟩, Int.toNat_natCast]
        rcases hmk i hi c hc' o ho (k - q * o) (by omega) with ⟨e1, e2⟩ | ⟨e1, e2⟩
        · right; exact ⟨fun hh => hh.2.1 e1, Or.inl e2⟩
        · by_cases hb : b n (fun o' => lr.values.get i c o' (k - q * o)) o
          · left; refine ⟨⟨hle, e1, hb⟩, ?_⟩
            rw [e2, decide_eq_true hb]; rfl
          · right; refine ⟨fun hh => hb hh.2.2, Or.inr ?_⟩
            rw [e2, decide_eq_false hb]; rfl
      · right
        refine ⟨fun hh => hle hh.1, Or.inl (if_neg ?_)⟩
        rintro ⟨h1, -⟩
        have : ((q * o : ℕ) : Int) ≤ k := by push_cast; linarith
        exact hle (by exact_mod_cast this)

theorem avgRank_congr {n : ℕ} {f g : ℕ → Num K} (h : ∀ o < n, f o = g o) {o : ℕ} (ho : o < n) :
    avgRank n f o = avgRank n g o := by
  unfold avgRank
  rw [h o ho]
  have e1 : ((List.range n).filter fun o' => (f o').ltb (g o)) =
      (List.range n).filter fun o' => (g o').ltb (g o) :=
    List.filter_congr fun o' ho' => by rw [h o' (List.mem_range.1 ho')]
  have e2 : ((List.range n).filter fun o' => (f o').eqb (g o)) =
      (List.range n).filter fun o' => (g o').eqb (g o) :=
    List.filter_congr fun o' ho' => by rw [h o' (List.mem_range.1 ho')]
  rw [e1, e2]

theorem ranks_congr {n : ℕ} {f g : ℕ → Num K} (h : ∀ o < n, f o = g o) {o : ℕ} (ho : o < n) :
    ranks n f o = ranks n g o := by
  unfold ranks
  rw [avgRank_congr h ho, h o ho]

theorem nanmedian_congr {n : ℕ} {f g : ℕ → Num K} (h : ∀ o < n, f o = g o) :
    nanmedian n f = nanmedian n g := by
  have e : finVals n f = finVals n g := by
    unfold finVals
    exact List.filterMap_congr fun o ho => by rw [h o (List.mem_range.1 ho)]
  show (if (finVals n f).insertionSort (· ≤ ·) = [] then _ else _) =
    (if (finVals n g).insertionSort (· ≤ ·) = [] then _ else _)
  have e1 : ∀ m : List K → Num K, m ((finVals n f).insertionSort (· ≤ ·)) =
      m ((finVals n g).insertionSort (· ≤ ·)) := fun m => by rw [e]
  exact e1 fun l => if l = [] then .nan
    else .fin ((l.getD ((l.length - 1) / 2) 0 + l.getD (l.length / 2) 0) / 2)

theorem isLarge_congr {n : ℕ} {f g : ℕ → Num K} (h : ∀ o < n, f o = g o) {o : ℕ} (ho : o < n) :
    isLarge n f o = isLarge n g o := by
  unfold isLarge
  rw [nanmedian_congr (fun o ho => ranks_congr h ho), ranks_congr h ho, h o ho]

theorem isSmall_congr {n : ℕ} {f g : ℕ → Num K} (h : ∀ o < n, f o = g o) {o : ℕ} (ho : o < n) :
    isSmall n f o = isSmall n g o := by
  unfold isSmall
  rw [nanmedian_congr (fun o ho => ranks_congr h ho), ranks_congr h ho, h o ho]

theorem known_congr {n : ℕ} {f g : ℕ → Num K} (h : ∀ o < n, f o = g o) : known n f = known n g := by
  unfold known
  congr 1
  exact Finset.filter_congr fun o ho => by rw [h o (Finset.mem_range.1 ho)]

theorem below_congr {n : ℕ} {f g : ℕ → Num K} (h : ∀ o < n, f o = g o) {o : ℕ} (ho : o < n) :
    below n f o = below n g o := by
  unfold below
  congr 1
  exact Finset.filter_congr fun o' ho' => by rw [h o' (Finset.mem_range.1 ho'), h o ho]

theorem above_congr {n : ℕ} {f g : ℕ → Num K} (h : ∀ o < n, f o = g o) {o : ℕ} (ho : o < n) :
    above n f o = above n g o := by
  unfold above
  congr 1
  exact Finset.filter_congr fun o' ho' => by rw [h o' (Finset.mem_range.1 ho'), h o ho]

end Corr

/-- The link ratio of origin `o` from age `d` to the next one. -/
def linkAt (t : Tri K) (i c d o : ℕ) : Num K :=
  Tri.ratio (t.values.get i c o d) (t.values.get i c o (d + 1))

/-- **C42 (what is counted), partial: regular triangles without stored zeros, with more than one
calendar period of ratios.**  The calendar period `k` contains the ratio of origin `o` from age
`k - q * o`.  `L` counts the ratios of the period for which at least half of the known ratios of the
same age are smaller, and `S` those for which at least half are larger. -/
theorem C42_counts_partial [FloorSemiring K] {t : Tri K} {a : Int} {n D q : ℕ}
    (h : Tri.Standard t a n D q)
    (hn : 1 < q * (n - 1)) (nz : Tri.NoZeros t) (h2 : 2 ≤ Tri.linkRows n D q)
    (hq : Dev.valOffset t.dgrain t.ograin = some q)
    (later : ∃ i < t.kdims.length, ∃ c < t.vdims.length, ∃ o < Tri.linkRows n D q, ∃ d < D - 1,
      o ≠ 0 ∧ linkAt t i c d o ≠ .nan) {p : K} (hp : 0 ≤ p ∧ p ≤ 1) :
    ∃ r, Corr.valuationTest t p = .ok r ∧ r.periods = D - 1 ∧
      ∀ i < t.kdims.length, ∀ c < t.vdims.length, ∀ k < D - 1,
        r.large i c k = ((Finset.range (Tri.linkRows n D q)).filter fun o => q * o ≤ k ∧
          linkAt t i c (k - q * o) o ≠ .nan ∧
          Corr.known (Tri.linkRows n D q) (linkAt t i c (k - q * o)) ≤
            2 * Corr.below (Tri.linkRows n D q) (linkAt t i c (k - q * o)) o).card ∧
        r.small i c k = ((Finset.range (Tri.linkRows n D q)).filter fun o => q * o ≤ k ∧
          linkAt t i c (k - q * o) o ≠ .nan ∧
          Corr.known (Tri.linkRows n D q) (linkAt t i c (k - q * o)) ≤
            2 * Corr.above (Tri.linkRows n D q) (linkAt t i c (k - q * o)) o).card := by
  obtain ⟨lr, hlr, hg, hk, hv, hog, hdg, hcell⟩ := h.linkGrid hn nz h2
  have hrec := h.recent
  have hl : Tri.Later lr := by
    obtain ⟨i, hi, c, hc, o, ho, d, hd, hne, hx⟩ := later
    refine ⟨i, by rw [hk]; exact hi, c, by rw [hv]; exact hc, o, by rw [hg.lenO]; exact ho, d,
      by rw [hg.lenD]; exact hd, hne, ?_⟩
    rw [hcell i hi c hc o ho d hd]
    exact hx
  have hq' : Dev.valOffset lr.dgrain lr.ograin = some q := by rw [hdg, hog]; exact hq
  set n' := Tri.linkRows n D q with hn'
  obtain ⟨s, hs, s0, s1, s3, hsc⟩ := Corr.counts_grid hg hq' hl (by omega) Corr.isSmall
    (fun n f o => Corr.known n f ≤ 2 * Corr.above n f o)
    (fun f o hf ho => by
      rw [Corr.isSmall_eq hf ho]
      by_cases hx : f o = .nan
      · exact Or.inl ⟨hx, by rw [if_pos hx]⟩
      · exact Or.inr ⟨hx, by rw [if_neg hx]⟩)
    (fun f g o hfg ho => Corr.isSmall_congr hfg ho)
    (fun f g o hfg ho => by rw [Corr.known_congr hfg, Corr.above_congr hfg ho])
  obtain ⟨l, hl', l0, l1, l3, hlc⟩ := Corr.counts_grid hg hq' hl (by omega) Corr.isLarge
    (fun n f o => Corr.known n f ≤ 2 * Corr.below n f o)
    (fun f o hf ho => by
      rw [Corr.isLarge_eq hf ho]
      by_cases hx : f o = .nan
      · exact Or.inl ⟨hx, by rw [if_pos hx]⟩
      · exact Or.inr ⟨hx, by rw [if_neg hx]⟩)
    (fun f g o hfg ho => Corr.isLarge_congr hfg ho)
    (fun f g o hfg ho => by rw [Corr.known_congr hfg, Corr.below_congr hfg ho])
  refine ⟨⟨s.d0, s.d1, s.d3, fun i c k => Corr.natOf (l.get i c 0 k),
    fun i c k => Corr.natOf (s.get i c 0 k)⟩, ?_, s3, ?_⟩
  · unfold Corr.valuationTest Corr.validateCritical
    rw [if_pos hp, hlr]
    simp only [bind, Except.bind]
    rw [hs, hl']
  · intro i hi c hc k hk'
    have hcol : ∀ d < D - 1, ∀ o < n', lr.values.get i c o d = linkAt t i c d o :=
      fun d hd o ho => hcell i hi c hc o ho d hd
    constructor
    · show Corr.natOf (l.get i c 0 k) = _
      rw [hlc i (by rw [hk]; exact hi) c (by rw [hv]; exact hc) k hk']
      show ⌊(_ : K)⌋₊ = _
      rw [Nat.floor_natCast]
      congr 1
      refine Finset.filter_congr fun o ho => ?_
      have ho' := Finset.mem_range.1 ho
      rw [hcol _ (by omega) o ho', Corr.known_congr (hcol (k - q * o) (by omega)),
        Corr.below_congr (hcol (k - q * o) (by omega)) ho']
    · show Corr.natOf (s.get i c 0 k) = _
      rw [hsc i (by rw [hk]; exact hi) c (by rw [hv]; exact hc) k hk']
      show ⌊(_ : K)⌋₊ = _
      rw [Nat.floor_natCast]
      congr 1
      refine Finset.filter_congr fun o ho => ?_
      have ho' := Finset.mem_range.1 ho
      rw [hcol _ (by omega) o ho', Corr.known_congr (hcol (k - q * o) (by omega)),
        Corr.above_congr (hcol (k - q * o) (by omega)) ho']

/-- A critical level outside `[0, 1]` is rejected. -/
theorem C42_rejects [FloorSemiring K] (t : Tri K) {p : K} (hp : p < 0 ∨ 1 < p) :
    Corr.valuationTest t p = .error .valueError := by
  unfold Corr.valuationTest Corr.validateCritical
  rw [if_neg]
  · rfl
  · rintro ⟨h1, h2⟩
    rcases hp with hp | hp
    · exact absurd h1 (not_le.2 hp)
    · exact absurd h2 (not_le.2 hp)

/-- With `total=True`, `z_critical` is false whatever the data: the code compares the total variance
with an interval around itself. -/
theorem C42_total_never_critical (ppf sqrt : K → K) (hppf : ∀ x, x ≤ 1 / 2 → ppf x ≤ 0)
    (hsqrt : ∀ x, 0 ≤ sqrt x) (r : Corr.ValTest K) {p : K} (hp : p ≤ 1) (i c : ℕ) :
    r.totalCritical ppf sqrt p i c = false := by
  have h1 : ppf (1 / 2 - (1 - p) / 2) * sqrt (r.totalVariance i c) ≤ 0 :=
    mul_nonpos_of_nonpos_of_nonneg (hppf _ (by linarith)) (hsqrt _)
  unfold Corr.ValTest.totalCritical Corr.ValTest.range
  simp only [gt_iff_lt, Bool.or_eq_false_iff, decide_eq_false_iff_not, not_lt]
  constructor <;> linarith

/-- Ratios of a triangle with five origins; the ones of the last calendar period are all large. -/
def C42ex : Tri ℚ where
  kdims := [["Total"]]
  keyLabels := ["Total"]
  vdims := ["values"]
  odims := [12 * 2018, 12 * 2019, 12 * 2020, 12 * 2021, 12 * 2022]
  ddims := [12, 24, 36, 48, 60]
  isVal := false
  ograin := .Y
  dgrain := .Y
  vd := 12 * 2022 + 11
  isCum := some true
  isPattern := false
  isAdditive := none
  values := ⟨1, 1, 5, 5, fun _ _ o d =>
    match o, d with
    | 0, 0 => .fin 100 | 0, 1 => .fin 110 | 0, 2 => .fin 121 | 0, 3 => .fin 133 | 0, 4 => .fin 266
    | 1, 0 => .fin 100 | 1, 1 => .fin 120 | 1, 2 => .fin 144 | 1, 3 => .fin 288
    | 2, 0 => .fin 100 | 2, 1 => .fin 130 | 2, 2 => .fin 260
    | 3, 0 => .fin 100 | 3, 1 => .fin 200
    | 4, 0 => .fin 100
    | _, _ => .nan⟩

theorem C42ex_standard : Tri.Standard C42ex 24216 5 5 1 := by
  refine ⟨⟨by decide, ?_, rfl, by decide, by decide, by decide, by decide, by decide, by decide,
    by decide, by decide, by decide, by decide, ?_⟩, by decide, rfl, rfl⟩
  · intro i hi c hc o ho d hd
    have ho : o < 5 := ho
    have hd : d < 5 := hd
    interval_cases o <;> interval_cases d <;> trivial
  · intro i hi c hc o ho d hd hlt
    interval_cases o <;> interval_cases d <;> first | rfl | (exfalso; omega)

/-- **C42 (total), false of the code.**  A triangle whose total `Z` is outside the interval of width
zero around its expectation that the critical level 1 gives, and still `z_critical` is false. -/
theorem C42_total_false : ∃ (t : Tri ℚ) (r : Corr.ValTest ℚ), Tri.Standard t 24216 5 5 1 ∧
    Corr.valuationTest t 1 = .ok r ∧
    ∀ ppf sqrt : ℚ → ℚ, ppf (1 / 2) = 0 →
      (r.totalZ 0 0 < r.totalExpectation 0 0 + ppf (1 / 2) * sqrt (r.totalVariance 0 0)) ∧
      r.totalCritical ppf sqrt 1 0 0 = false := by
  have hex : ∃ r, Corr.valuationTest C42ex 1 = .ok r ∧
      decide (r.totalZ 0 0 < r.totalExpectation 0 0) = true := by
    exact ok_of _ (by decide +kernel)
  obtain ⟨r, hr, hlt⟩ := hex
  refine ⟨C42ex, r, C42ex_standard, hr, fun ppf sqrt h0 => ⟨?_, ?_⟩⟩
  · rw [h0, zero_mul, add_zero]; exact of_decide_eq_true hlt
  · unfold Corr.ValTest.totalCritical Corr.ValTest.range
    norm_num [h0]

/-- Six ratios: the mean and variance of the smaller group. -/
example : (Corr.zMean 6 : ℚ) = 33 / 16 ∧ (Corr.zVar 6 : ℚ) = 159 / 256 ∧
    (Corr.pZlower 1 6 : ℚ) = 7 / 32 := by
  refine ⟨?_, ?_, ?_⟩ <;> decide +kernel

/-- The counts of the example: in the last calendar period three ratios are large and none is small;
the single ratio of the oldest age is neither. -/
example : ∃ r, Corr.valuationTest C42ex (1 / 10) = .ok r ∧
    decide (r.large 0 0 3 = 3 ∧ r.small 0 0 3 = 0 ∧ r.large 0 0 1 = 0 ∧ r.small 0 0 1 = 2) = true :=
  ok_of _ (by decide +kernel)

end CL
