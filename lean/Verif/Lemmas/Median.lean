import Verif.Model.Correlation
import Verif.Lemmas.Rank
import Mathlib.Data.List.Count
import Mathlib.Data.List.GetD

set_option linter.unusedSectionVars false

/-! # Ranks and medians -/

namespace CL
namespace Corr
variable {K : Type} [Field K] [LinearOrder K] [IsStrictOrderedRing K]

theorem countP_lt_iff {l : List K} (h : l.Pairwise (· ≤ ·)) (e : K) {j : Nat} (hj : j < l.length) :
    l[j] < e ↔ j < l.countP (· < e) := by
  induction l generalizing j with
  | nil => simp at hj
  | cons x l ih =>
    rw [List.pairwise_cons] at h
    rw [List.countP_cons]
    by_cases hx : x < e
    · simp only [hx, decide_true, if_true]
      cases j with
      | zero => simpa using hx
      | succ j =>
        rw [List.getElem_cons_succ, ih h.2 (by simpa using hj)]; omega
    · have h0 : l.countP (· < e) = 0 := by
        rw [List.countP_eq_zero]
        intro y hy
        simp only [decide_eq_true_eq, not_lt]
        exact le_trans (not_lt.1 hx) (h.1 y hy)
      simp only [h0, hx, decide_false]
      cases j with
      | zero => simpa using not_lt.1 hx
      | succ j =>
        rw [List.getElem_cons_succ, ih h.2 (by simpa using hj), h0]; simp

theorem le_countP_gt {l : List K} (h : l.Pairwise (· ≤ ·)) (e : K) {j : Nat} (hj : j < l.length) :
    l[j] ≤ e ↔ j < l.countP (· ≤ e) := by
  induction l generalizing j with
  | nil => simp at hj
  | cons x l ih =>
    rw [List.pairwise_cons] at h
    rw [List.countP_cons]
    by_cases hx : x ≤ e
    · simp only [hx, decide_true, if_true]
      cases j with
      | zero => simpa using hx
      | succ j =>
        rw [List.getElem_cons_succ, ih h.2 (by simpa using hj)]; omega
    · have h0 : l.countP (· ≤ e) = 0 := by
        rw [List.countP_eq_zero]
        intro y hy
        simp only [decide_eq_true_eq, not_le]
        exact lt_of_lt_of_le (not_le.1 hx) (h.1 y hy)
      simp only [h0, hx, decide_false]
      cases j with
      | zero => simpa using not_le.1 hx
      | succ j =>
        rw [List.getElem_cons_succ, ih h.2 (by simpa using hj), h0]; simp

/-- The middle of a sorted list lies below a member exactly when at least half of the list does. -/
theorem middle_lt {l : List K} (h : l.Pairwise (· ≤ ·)) {e : K} (he : e ∈ l) :
    (l.getD ((l.length - 1) / 2) 0 + l.getD (l.length / 2) 0) / 2 < e ↔
      l.length ≤ 2 * l.countP (· < e) := by
  obtain ⟨i, hi, rfl⟩ := List.getElem_of_mem he
  set e := l[i] with hee
  have hN : 0 < l.length := by omega
  have g1 : (l.length - 1) / 2 < l.length := by omega
  have g2 : l.length / 2 < l.length := by omega
  rw [List.getD_eq_getElem _ _ g1, List.getD_eq_getElem _ _ g2, div_lt_iff₀ (by norm_num)]
  have hmono : l[(l.length - 1) / 2] ≤ l[l.length / 2] := by
    rcases (show (l.length - 1) / 2 ≤ l.length / 2 by omega).eq_or_lt with hh | hh
    · simp only [hh]; exact le_rfl
    · exact List.pairwise_iff_getElem.1 h _ _ g1 g2 hh
  have c1 := countP_lt_iff h e g1
  have c2 := countP_lt_iff h e g2
  constructor
  · intro hlt
    have : l[(l.length - 1) / 2] < e := by
      by_contra hc
      have := not_lt.1 hc
      linarith
    have h1 := c1.1 this
    rcases Nat.even_or_odd' l.length with ⟨k, hk | hk⟩
    · omega
    · omega
  · intro hle
    have h1 : l[(l.length - 1) / 2] < e := c1.2 (by omega)
    by_cases hb : l.length / 2 < l.countP (· < e)
    · have := c2.2 hb; linarith
    · have hic : ¬ i < l.countP (· < e) := by
        rw [← countP_lt_iff h e hi]; exact lt_irrefl _
      have : l[l.length / 2] ≤ e := by
        rcases (show l.length / 2 ≤ i by omega).eq_or_lt with hh | hh
        · simp only [hh]; exact le_of_eq hee.symm
        · exact List.pairwise_iff_getElem.1 h _ _ g2 hi hh
      linarith

/-- The middle of a sorted list lies above a member exactly when at least half of the list does. -/
theorem lt_middle {l : List K} (h : l.Pairwise (· ≤ ·)) {e : K} (he : e ∈ l) :
    e < (l.getD ((l.length - 1) / 2) 0 + l.getD (l.length / 2) 0) / 2 ↔
      l.length ≤ 2 * l.countP (e < ·) := by
  obtain ⟨i, hi, rfl⟩ := List.getElem_of_mem he
  set e := l[i] with hee
  have hN : 0 < l.length := by omega
  have g1 : (l.length - 1) / 2 < l.length := by omega
  have g2 : l.length / 2 < l.length := by omega
  rw [List.getD_eq_getElem _ _ g1, List.getD_eq_getElem _ _ g2, lt_div_iff₀ (by norm_num)]
  have hcount : l.countP (· ≤ e) + l.countP (e < ·) = l.length := by
    rw [List.length_eq_countP_add_countP (p := fun x => decide (x ≤ e))]
    congr 1
    refine List.countP_congr fun x _ => ?_
    simp
  have hmono : l[(l.length - 1) / 2] ≤ l[l.length / 2] := by
    rcases (show (l.length - 1) / 2 ≤ l.length / 2 by omega).eq_or_lt with hh | hh
    · simp only [hh]; exact le_rfl
    · exact List.pairwise_iff_getElem.1 h _ _ g1 g2 hh
  have c1 := le_countP_gt h e g1
  have c2 := le_countP_gt h e g2
  constructor
  · intro hlt
    have : ¬ l[l.length / 2] ≤ e := by
      intro hc
      linarith
    have h1 := mt c2.2 this
    omega
  · intro hle
    have h1 : e < l[l.length / 2] := not_le.1 fun hc => by have := c2.1 hc; omega
    by_cases hb : (l.length - 1) / 2 < l.countP (· ≤ e)
    · have hic : i < l.countP (· ≤ e) := (le_countP_gt h e hi).1 le_rfl
      have : e ≤ l[(l.length - 1) / 2] := by
        rcases (show i ≤ (l.length - 1) / 2 by omega).eq_or_lt with hh | hh
        · simp only [← hh]; exact le_of_eq hee
        · exact List.pairwise_iff_getElem.1 h _ _ hi g1 hh
      linarith
    · have := not_le.1 (mt c1.1 hb); linarith

/-- The values of a column that are numbers. -/
def finVals (n : Nat) (f : Nat → Num K) : List K :=
  (List.range n).filterMap fun o => match f o with
    | .fin a => some a
    | _ => none

theorem mem_finVals {n : Nat} {f : Nat → Num K} {a : K} :
    a ∈ finVals n f ↔ ∃ o < n, f o = .fin a := by
  unfold finVals
  rw [List.mem_filterMap]
  constructor
  · rintro ⟨o, ho, h⟩
    refine ⟨o, List.mem_range.1 ho, ?_⟩
    cases hf : f o <;> rw [hf] at h <;> simp_all
  · rintro ⟨o, ho, h⟩
    exact ⟨o, List.mem_range.2 ho, by rw [h]⟩

theorem countP_finVals (n : Nat) (f : Nat → Num K) (p : K → Bool) :
    (finVals n f).countP p = ((List.range n).filter fun o => match f o with
      | .fin a => p a
      | _ => false).length := by
  unfold finVals
  rw [List.countP_filterMap, List.countP_eq_length_filter]
  congr 2
  funext o
  cases f o <;> simp

theorem nanmedian_eq (n : Nat) (f : Nat → Num K) {e : K} (he : e ∈ finVals n f) :
    ∃ m, nanmedian n f = .fin m ∧
      (m < e ↔ (finVals n f).length ≤ 2 * (finVals n f).countP (· < e)) ∧
      (e < m ↔ (finVals n f).length ≤ 2 * (finVals n f).countP (e < ·)) := by
  set l := (finVals n f).insertionSort (· ≤ ·) with hl
  have hp : l.Perm (finVals n f) := List.perm_insertionSort _ _
  have hs : l.Pairwise (· ≤ ·) := List.pairwise_insertionSort _ _
  have he' : e ∈ l := hp.mem_iff.2 he
  refine ⟨(l.getD ((l.length - 1) / 2) 0 + l.getD (l.length / 2) 0) / 2, ?_, ?_, ?_⟩
  · show (if l = [] then _ else _) = _
    rw [if_neg (List.ne_nil_of_mem he')]
    rfl
  · rw [middle_lt hs he', hp.length_eq, hp.countP_eq]
  · rw [lt_middle hs he', hp.length_eq, hp.countP_eq]

/-- How many known entries of a column there are, and how many of them are smaller or larger than
entry `o`. -/
def known (n : Nat) (f : Nat → Num K) : Nat := ((Finset.range n).filter fun o => f o ≠ .nan).card
@[inherit_doc known]
def below (n : Nat) (f : Nat → Num K) (o : Nat) : Nat :=
  ((Finset.range n).filter fun o' => f o' ≠ .nan ∧ (f o').amt < (f o).amt).card
@[inherit_doc known]
def above (n : Nat) (f : Nat → Num K) (o : Nat) : Nat :=
  ((Finset.range n).filter fun o' => f o' ≠ .nan ∧ (f o).amt < (f o').amt).card

/-- How many known entries equal entry `o`. -/
def equalTo (n : Nat) (f : Nat → Num K) (o : Nat) : Nat :=
  ((Finset.range n).filter fun o' => f o' ≠ .nan ∧ (f o').amt = (f o).amt).card

theorem ranks_eq {n : Nat} {f : Nat → Num K} (hf : ∀ o, (f o).NoInf) (o : Nat) :
    ranks n f o = if f o = .nan then .nan
      else .fin ((below n f o : K) + ((equalTo n f o : K) + 1) / 2) := by
  unfold ranks avgRank
  rcases Num.noInf_cases (hf o) with h | ⟨a, h⟩
  · simp [h]
  · rw [h]
    simp only [Num.isNan, Bool.false_eq_true, if_false, reduceCtorEq]
    have e1 : ((List.range n).filter fun o' => (f o').ltb (.fin a)).length = below n f o := by
      rw [Dev.filter_length]
      unfold below
      congr 1
      refine Finset.filter_congr fun o' _ => ?_
      rw [h]
      rcases Num.noInf_cases (hf o') with h' | ⟨b, h'⟩ <;> rw [h'] <;> simp [Num.ltb]
    have e2 : ((List.range n).filter fun o' => (f o').eqb (.fin a)).length = equalTo n f o := by
      rw [Dev.filter_length]
      unfold equalTo
      congr 1
      refine Finset.filter_congr fun o' _ => ?_
      rw [h]
      rcases Num.noInf_cases (hf o') with h' | ⟨b, h'⟩ <;> rw [h'] <;> simp [Num.eqb]
    rw [e1, e2]
    have : (Num.fin a * 0 + 1 : Num K) = 1 := by
      show Num.fin (a * 0 + 1) = Num.fin 1
      simp
    rw [this, _root_.mul_one]

/-- The number behind the rank of a known entry. -/
def rankVal (n : Nat) (f : Nat → Num K) (o : Nat) : K :=
  (below n f o : K) + ((equalTo n f o : K) + 1) / 2

theorem rankVal_lt {n : Nat} {f : Nat → Num K} {o o' : Nat} (ho : o < n) (h : f o ≠ .nan)
    (hlt : (f o).amt < (f o').amt) : rankVal n f o < rankVal n f o' := by
  have h1 : below n f o + equalTo n f o ≤ below n f o' := by
    unfold below equalTo
    rw [← Finset.card_union_of_disjoint]
    · refine Finset.card_le_card fun x hx => ?_
      rw [Finset.mem_union, Finset.mem_filter, Finset.mem_filter] at hx
      rw [Finset.mem_filter]
      rcases hx with ⟨h1, h2, h3⟩ | ⟨h1, h2, h3⟩
      · exact ⟨h1, h2, lt_trans h3 hlt⟩
      · exact ⟨h1, h2, by rw [h3]; exact hlt⟩
    · rw [Finset.disjoint_filter]
      rintro x - ⟨-, h1⟩ ⟨-, h2⟩
      rw [h2] at h1
      exact lt_irrefl _ h1
  have h2 : 1 ≤ equalTo n f o := by
    unfold equalTo
    rw [Nat.one_le_iff_ne_zero, Ne, Finset.card_eq_zero, ← Ne, ← Finset.nonempty_iff_ne_empty]
    exact ⟨o, Finset.mem_filter.2 ⟨Finset.mem_range.2 ho, h, rfl⟩⟩
  unfold rankVal
  have h1' : (below n f o : K) + equalTo n f o ≤ below n f o' := by exact_mod_cast h1
  have h2' : (1 : K) ≤ equalTo n f o := by exact_mod_cast h2
  have h3 : (0 : K) ≤ equalTo n f o' := Nat.cast_nonneg _
  linarith

theorem rankVal_eq {n : Nat} {f : Nat → Num K} {o o' : Nat} (h : (f o).amt = (f o').amt) :
    rankVal n f o = rankVal n f o' := by
  unfold rankVal below equalTo
  rw [h]

theorem rankVal_lt_iff {n : Nat} {f : Nat → Num K} {o o' : Nat} (ho : o < n) (ho' : o' < n)
    (h : f o ≠ .nan) (h' : f o' ≠ .nan) :
    rankVal n f o < rankVal n f o' ↔ (f o).amt < (f o').amt := by
  rcases lt_trichotomy (f o).amt (f o').amt with hlt | heq | hgt
  · exact ⟨fun _ => hlt, fun _ => rankVal_lt ho h hlt⟩
  · rw [rankVal_eq heq, heq]; simp
  · have := rankVal_lt ho' h' hgt
    exact ⟨fun hh => absurd (lt_trans hh this) (lt_irrefl _), fun hh => absurd (lt_trans hh hgt) (lt_irrefl _)⟩

theorem medians {n : Nat} {f : Nat → Num K} (hf : ∀ o, (f o).NoInf) {o : Nat} (ho : o < n)
    (h : f o ≠ .nan) : ∃ m, nanmedian n (ranks n f) = .fin m ∧
      (m < rankVal n f o ↔ known n f ≤ 2 * below n f o) ∧
      (rankVal n f o < m ↔ known n f ≤ 2 * above n f o) := by
  have hr : ∀ o, f o ≠ .nan → ranks n f o = .fin (rankVal n f o) := fun o h => by
    rw [ranks_eq hf, if_neg h]; rfl
  have hn : ∀ o, f o = .nan → ranks n f o = .nan := fun o h => by rw [ranks_eq hf, if_pos h]
  obtain ⟨m, h1, h2, h3⟩ := nanmedian_eq n (ranks n f) (mem_finVals.2 ⟨o, ho, hr o h⟩)
  have hlen : (finVals n (ranks n f)).length = known n f := by
    have e := countP_finVals n (ranks n f) (fun _ => true)
    rw [List.countP_true] at e
    rw [e, Dev.filter_length]
    unfold known
    congr 1
    refine Finset.filter_congr fun o' _ => ?_
    by_cases h' : f o' = .nan
    · rw [hn o' h']; simp [h']
    · rw [hr o' h']; simp [h']
  have hb : (finVals n (ranks n f)).countP (· < rankVal n f o) = below n f o := by
    rw [countP_finVals, Dev.filter_length]
    unfold below
    congr 1
    refine Finset.filter_congr fun o' ho' => ?_
    by_cases h' : f o' = .nan
    · rw [hn o' h']; simp [h']
    · rw [hr o' h']; simp only [decide_eq_true_eq, ne_eq, h', not_false_eq_true, true_and]
      exact rankVal_lt_iff (Finset.mem_range.1 ho') ho h' h
  have ha : (finVals n (ranks n f)).countP (rankVal n f o < ·) = above n f o := by
    rw [countP_finVals, Dev.filter_length]
    unfold above
    congr 1
    refine Finset.filter_congr fun o' ho' => ?_
    by_cases h' : f o' = .nan
    · rw [hn o' h']; simp [h']
    · rw [hr o' h']; simp only [decide_eq_true_eq, ne_eq, h', not_false_eq_true, true_and]
      exact rankVal_lt_iff ho (Finset.mem_range.1 ho') h h'
  exact ⟨m, h1, by rw [h2, hlen, hb], by rw [h3, hlen, ha]⟩

/-- A ratio counts as large exactly when at least half of the known ratios of its age are smaller. -/
theorem isLarge_eq {n : Nat} {f : Nat → Num K} (hf : ∀ o, (f o).NoInf) {o : Nat} (ho : o < n) :
    isLarge n f o = if f o = .nan then .nan
      else Num.ofBool (decide (known n f ≤ 2 * below n f o)) := by
  unfold isLarge
  by_cases h : f o = .nan
  · rw [h]; simp
  · obtain ⟨m, h1, h2, h3⟩ := medians hf ho h
    obtain ⟨a, ha⟩ := (Num.noInf_cases (hf o)).resolve_left h
    rw [h1, ranks_eq hf, if_neg h, if_neg h]
    have e : (m < (below n f o : K) + ((equalTo n f o : K) + 1) / 2) = (m < rankVal n f o) := rfl
    simp only [Num.nanToNum, Num.ltb, e, h2]
    rw [ha]
    show Num.ofBool _ + Num.fin (a * 0) = _
    rw [mul_zero]
    exact _root_.add_zero (Num.ofBool _)

/-- A ratio counts as small exactly when at least half of the known ratios of its age are larger. -/
theorem isSmall_eq {n : Nat} {f : Nat → Num K} (hf : ∀ o, (f o).NoInf) {o : Nat} (ho : o < n) :
    isSmall n f o = if f o = .nan then .nan
      else Num.ofBool (decide (known n f ≤ 2 * above n f o)) := by
  unfold isSmall
  by_cases h : f o = .nan
  · rw [h]; simp
  · obtain ⟨m, h1, h2, h3⟩ := medians hf ho h
    obtain ⟨a, ha⟩ := (Num.noInf_cases (hf o)).resolve_left h
    rw [h1, ranks_eq hf, if_neg h, if_neg h]
    have e : ((below n f o : K) + ((equalTo n f o : K) + 1) / 2 < m) = (rankVal n f o < m) := rfl
    simp only [Num.nanToNum, Num.ltb, e, h3]
    rw [ha]
    show Num.ofBool _ + Num.fin (a * 0) = _
    rw [mul_zero]
    exact _root_.add_zero (Num.ofBool _)

end Corr
end CL
