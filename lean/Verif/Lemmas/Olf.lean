import Verif.Model.Olf
import Verif.Props.C05
import Mathlib.Algebra.Order.BigOperators.Ring.Finset
import Mathlib.Algebra.Order.BigOperators.Group.Finset

set_option linter.unusedSectionVars false

/-! # Lemmas on on-level factors -/

namespace CL
namespace Olf
open Cal
variable {K : Type} [Field K] [LinearOrder K] [IsStrictOrderedRing K]

/-- What a row of `table` holds when the levels are numbers between `lo` and `hi`. -/
theorem groupMean_bounds {x : Nat → Num K} {ps : Finset Nat} (hne : ps.Nonempty) {lo hi : K}
    (h : ∀ p ∈ ps, ∃ v, x p = .fin v ∧ lo ≤ v ∧ v ≤ hi) :
    ∃ v, groupMean x ps = .fin v ∧ lo ≤ v ∧ v ≤ hi := by
  have hf : (ps.filter fun p => (x p).isNan = false) = ps := by
    refine Finset.filter_true_of_mem ?_
    intro p hp
    obtain ⟨v, hv, -⟩ := h p hp
    rw [hv]; rfl
  have hc : (0 : K) < ps.card := by exact_mod_cast hne.card_pos
  have hs : ∑ p ∈ ps, (x p).nan0 = .fin (∑ p ∈ ps, (x p).amt) := by
    rw [← Num.sum_fin]
    refine Finset.sum_congr rfl ?_
    intro p hp
    obtain ⟨v, hv, -⟩ := h p hp
    rw [hv]; rfl
  refine ⟨(∑ p ∈ ps, (x p).amt) / ps.card, ?_, ?_, ?_⟩
  · unfold groupMean
    rw [hf, hs, Num.fin_div_fin_of_ne _ hc.ne']
  · rw [le_div_iff₀ hc, mul_comm, ← nsmul_eq_mul]
    refine Finset.card_nsmul_le_sum _ _ _ ?_
    intro p hp
    obtain ⟨v, hv, h1, -⟩ := h p hp
    rw [hv, Num.amt_fin]; exact h1
  · rw [div_le_iff₀ hc, mul_comm, ← nsmul_eq_mul]
    refine Finset.sum_le_card_nsmul _ _ _ ?_
    intro p hp
    obtain ⟨v, hv, -, h1⟩ := h p hp
    rw [hv, Num.amt_fin]; exact h1

theorem mean_bounds {w p : Nat} (hw : 1 ≤ w) (hp : w ≤ p + 1) {x : Nat → K} {lo hi : K}
    (h : ∀ j ≤ p, p + 1 ≤ j + w → lo ≤ x j ∧ x j ≤ hi) :
    ∃ v, rolling w x p = .fin v ∧ lo ≤ v ∧ v ≤ hi := by
  have hc : (0 : K) < w := by exact_mod_cast hw
  have card : (Finset.Ico (p + 1 - w) (p + 1)).card = w := by simp; omega
  refine ⟨_, if_neg (by omega), ?_, ?_⟩
  · rw [le_div_iff₀ hc, mul_comm, ← nsmul_eq_mul, ← card, card]
    have := Finset.card_nsmul_le_sum (Finset.Ico (p + 1 - w) (p + 1)) x lo (by
      intro j hj
      rw [Finset.mem_Ico] at hj
      exact (h j (by omega) (by omega)).1)
    rwa [card] at this
  · rw [div_le_iff₀ hc, mul_comm, ← nsmul_eq_mul]
    have := Finset.sum_le_card_nsmul (Finset.Ico (p + 1 - w) (p + 1)) x hi (by
      intro j hj
      rw [Finset.mem_Ico] at hj
      exact (h j (by omega) (by omega)).2)
    rwa [card] at this

theorem averaged_bounds {w p : Nat} (hw : 1 ≤ w) (hp : w ≤ p) {x : Nat → K} {lo hi : K}
    (h : ∀ j ≤ p, p ≤ j + w → lo ≤ x j ∧ x j ≤ hi) :
    ∃ v, averaged w x p = .fin v ∧ lo ≤ v ∧ v ≤ hi := by
  obtain ⟨a, ha, a1, a2⟩ := mean_bounds (p := p) hw (by omega) (x := x) (lo := lo) (hi := hi)
    fun j h1 h2 => h j h1 (by omega)
  obtain ⟨b, hb, b1, b2⟩ := mean_bounds (p := p - 1) hw (by omega) (x := x) (lo := lo) (hi := hi)
    fun j h1 h2 => h j (by omega) (by omega)
  refine ⟨(a + b) / 2, ?_, by linarith, by linarith⟩
  unfold averaged
  rw [ha, if_neg (by omega), hb, Num.fin_add_fin, Num.fin_div_fin_of_ne _ two_ne_zero]

/-- Levels at positions from `w` on. -/
theorem level_bounds {vertical : Bool} {w p : Nat} (hw : 1 ≤ w) (hp : w ≤ p) {r : List K} {lo hi : K}
    (h : ∀ j ≤ p, (if vertical then p ≤ j else p ≤ j + w) → lo ≤ cum r j ∧ cum r j ≤ hi) :
    ∃ v, level vertical w r p = .fin v ∧ lo ≤ v ∧ v ≤ hi := by
  unfold level
  cases vertical with
  | true =>
    obtain ⟨h1, h2⟩ := h p le_rfl (by simp)
    exact ⟨_, rfl, h1, h2⟩
  | false => exact averaged_bounds hw hp fun j h1 h2 => h j h1 (by simpa using h2)

theorem cum_succ (r : List K) (p : Nat) : cum r (p + 1) = cum r p * (1 + r.getD (p + 1) 0) :=
  Finset.prod_range_succ _ _

theorem cum_mono {r : List K} (h : ∀ p, 0 ≤ r.getD p 0) {p q : Nat} (hpq : p ≤ q) :
    1 ≤ cum r p ∧ cum r p ≤ cum r q := by
  have h0 : ∀ p, 1 ≤ cum r p := by
    intro p
    induction p with
    | zero => simp only [cum, zero_add, Finset.prod_range_one]; have := h 0; linarith
    | succ p ih => rw [cum_succ]; have := h (p + 1); nlinarith
  refine ⟨h0 p, ?_⟩
  obtain ⟨m, rfl⟩ := Nat.exists_eq_add_of_le hpq
  induction m with
  | zero => exact le_rfl
  | succ m ih =>
    refine (ih (by omega)).trans ?_
    rw [← Nat.add_assoc, cum_succ]
    have h1 := h0 (p + m)
    have h2 := h (p + m + 1)
    nlinarith

theorem cum_const {r : List K} {p q : Nat} (hpq : p ≤ q) (h : ∀ j, p < j → j ≤ q → r.getD j 0 = 0) :
    cum r q = cum r p := by
  obtain ⟨m, rfl⟩ := Nat.exists_eq_add_of_le hpq
  induction m with
  | zero => rfl
  | succ m ih =>
    rw [← Nat.add_assoc, cum_succ, h _ (by omega) (by omega), add_zero, mul_one]
    exact ih (by omega) fun j h1 h2 => h j h1 (by omega)

theorem cum_pos {r : List K} (h : ∀ p, -1 < r.getD p 0) (p : Nat) : 0 < cum r p :=
  Finset.prod_pos fun q _ => by have := h q; linarith

theorem prod_getD (r : List K) : ∏ j ∈ Finset.range r.length, (1 + r.getD j 0) = (r.map (1 + ·)).prod := by
  induction r with
  | nil => rfl
  | cons a r ih =>
    rw [List.length_cons, Finset.prod_range_succ', List.map_cons, List.prod_cons, ← ih, mul_comm]
    rfl

theorem prod_ite {idx : List Date} (h : idx.Nodup) (a : Date) (c : K) :
    (idx.map fun d => if d = a then c else 1).prod = if a ∈ idx then c else 1 := by
  induction idx with
  | nil => rfl
  | cons d l ih =>
    rw [List.nodup_cons] at h
    rw [List.map_cons, List.prod_cons, ih h.2]
    by_cases e : d = a
    · subst e
      rw [if_pos rfl, if_neg h.1, if_pos (by simp), mul_one]
    · rw [if_neg e, one_mul]
      have : (a ∈ d :: l) ↔ a ∈ l := by simp [Ne.symm e]
      simp only [this]

/-- The change found for a date. -/
def lookup (changes : List (Date × K)) (d : Date) : K :=
  ((changes.find? fun x => x.1 = d).map Prod.snd).getD 0

theorem lookup_cons (x : Date × K) (changes : List (Date × K)) (d : Date) :
    lookup (x :: changes) d = if x.1 = d then x.2 else lookup changes d := by
  unfold lookup
  rw [List.find?_cons]
  by_cases h : x.1 = d <;> simp [h]

theorem lookup_not_mem {changes : List (Date × K)} {d : Date} (h : d ∉ changes.map Prod.fst) :
    lookup changes d = 0 := by
  induction changes with
  | nil => rfl
  | cons x l ih =>
    rw [List.map_cons, List.mem_cons, not_or] at h
    rw [lookup_cons, if_neg (Ne.symm h.1), ih h.2]

/-- A change found is one of the list. -/
theorem lookup_cases (changes : List (Date × K)) (d : Date) :
    lookup changes d = 0 ∨ ∃ x ∈ changes, x.1 = d ∧ lookup changes d = x.2 := by
  induction changes with
  | nil => exact .inl rfl
  | cons x l ih =>
    rw [lookup_cons]
    by_cases h : x.1 = d
    · rw [if_pos h]; exact .inr ⟨x, by simp, h, rfl⟩
    · rw [if_neg h]
      rcases ih with ih | ⟨y, hy, h1, h2⟩
      · exact .inl ih
      · exact .inr ⟨y, by simp [hy], h1, h2⟩

theorem prod_lookup {idx : List Date} (hi : idx.Nodup) {changes : List (Date × K)}
    (h : (changes.map Prod.fst).Nodup) : (idx.map fun d => 1 + lookup changes d).prod =
      (changes.map fun x => if x.1 ∈ idx then 1 + x.2 else 1).prod := by
  induction changes with
  | nil => simp [lookup]
  | cons x l ih =>
    rw [List.map_cons, List.nodup_cons] at h
    rw [List.map_cons, List.prod_cons, ← ih h.2, ← prod_ite hi x.1 (1 + x.2), ← List.prod_map_mul]
    congr 1
    refine List.map_congr_left ?_
    intro d _
    rw [lookup_cons]
    by_cases e : x.1 = d
    · subst e
      rw [if_pos rfl, if_pos rfl, lookup_not_mem h.1, add_zero, mul_one]
    · rw [if_neg e, if_neg (Ne.symm e), one_mul]

theorem crl_eq {idx : List Date} (hi : idx.Nodup) (hn : 1 ≤ idx.length) {changes : List (Date × K)}
    (h : (changes.map Prod.fst).Nodup) :
    cum (idx.map (lookup changes)) (idx.length - 1) =
      (changes.map fun x => if x.1 ∈ idx then 1 + x.2 else 1).prod := by
  rw [← prod_lookup hi h]
  unfold cum
  rw [show idx.length - 1 + 1 = (idx.map (lookup changes)).length by simp; omega, prod_getD, List.map_map]
  rfl

theorem prod_le_total (idx : List Date) {changes : List (Date × K)} (h : ∀ x ∈ changes, 0 ≤ x.2) :
    (changes.map fun x => if x.1 ∈ idx then 1 + x.2 else 1).prod ≤ (changes.map fun x => 1 + x.2).prod ∧
      1 ≤ (changes.map fun x => if x.1 ∈ idx then 1 + x.2 else 1).prod := by
  induction changes with
  | nil => exact ⟨le_rfl, le_rfl⟩
  | cons x l ih =>
    obtain ⟨h1, h2⟩ := ih fun y hy => h y (by simp [hy])
    have hx := h x (by simp)
    rw [List.map_cons, List.map_cons, List.prod_cons, List.prod_cons]
    split_ifs <;> constructor <;> nlinarith

theorem reindex_eq (idx : List Date) {changes : List (Date × K)} (h : (changes.map Prod.fst).Nodup) :
    reindex idx changes = .ok (idx.map (lookup changes)) := if_pos h

theorem getD_lookup {idx : List Date} {changes : List (Date × K)} (p : Nat) :
    ((idx.map (lookup changes)).getD p 0 = 0 ∧ idx.length ≤ p) ∨
      (p < idx.length ∧ (idx.map (lookup changes)).getD p 0 = lookup changes (idx.getD p ⟨0, 0⟩)) := by
  rw [List.getD_eq_getElem?_getD, List.getD_eq_getElem?_getD]
  by_cases hp : p < idx.length
  · right; simp [hp]
  · left; simp [hp]; omega

theorem getD_cases {idx : List Date} {changes : List (Date × K)} (p : Nat) :
    (idx.map (lookup changes)).getD p 0 = 0 ∨ ∃ x ∈ changes, p < idx.length ∧ x.1 = idx.getD p ⟨0, 0⟩ ∧
      (idx.map (lookup changes)).getD p 0 = x.2 := by
  rcases getD_lookup (idx := idx) (changes := changes) p with h | ⟨h1, h2⟩
  · exact .inl h.1
  · rcases lookup_cases changes (idx.getD p ⟨0, 0⟩) with h | ⟨x, hx, h3, h4⟩
    · exact .inl (h2.trans h)
    · exact .inr ⟨x, hx, h1, h3, h2.trans h4⟩

theorem mem_members {g : Grain} {idx : List Date} {k l p : Nat} :
    p ∈ members g idx k l ↔ p < idx.length ∧ k ≤ p ∧ period g (idx.getD p ⟨0, 0⟩) = l := by
  simp [members]

theorem mem_periods {g : Grain} {idx : List Date} {k l : Nat} :
    l ∈ ((idx.drop k).map (period g)).dedup ↔ (members g idx k l).Nonempty := by
  rw [List.mem_dedup, List.mem_map]
  constructor
  · rintro ⟨d, hd, rfl⟩
    obtain ⟨j, hj, rfl⟩ := List.mem_iff_getElem.1 hd
    rw [List.length_drop] at hj
    refine ⟨k + j, mem_members.2 ⟨by omega, by omega, ?_⟩⟩
    rw [List.getElem_drop, List.getD_eq_getElem?_getD, List.getElem?_eq_getElem (by omega)]
    rfl
  · rintro ⟨p, hp⟩
    obtain ⟨h1, h2, h3⟩ := mem_members.1 hp
    refine ⟨idx.getD p ⟨0, 0⟩, ?_, h3⟩
    rw [List.getD_eq_getElem?_getD, List.getElem?_eq_getElem h1]
    refine List.mem_iff_getElem.2 ⟨p - k, by rw [List.length_drop]; omega, ?_⟩
    rw [List.getElem_drop]
    simp only [Option.getD_some]
    congr 1
    omega

/-- A row of a table whose levels are bounded. -/
theorem table_bounds {g : Grain} {idx : List Date} {k w : Nat} (hw : 1 ≤ w) (hk : w ≤ k) {vertical : Bool}
    {r : List K} {crl : K} {row : Nat × Num K}
    (hrow : row ∈ table g idx k crl (level vertical w r)) {lo hi : K} (hlo : 0 < lo)
    (h : ∀ p ∈ members g idx k row.1, ∀ j ≤ p, (if vertical then p ≤ j else p ≤ j + w) →
      lo ≤ cum r j ∧ cum r j ≤ hi) :
    ∃ v, row.2 = .fin (crl / v) ∧ lo ≤ v ∧ v ≤ hi := by
  unfold table at hrow
  obtain ⟨l, hl, rfl⟩ := List.mem_map.1 hrow
  obtain ⟨v, h1, h2, h3⟩ := groupMean_bounds (mem_periods.1 hl)
    (x := level vertical w r) (lo := lo) (hi := hi) (by
      intro p hp
      exact level_bounds hw (hk.trans (mem_members.1 hp).2.1) (h p hp))
  refine ⟨v, ?_, h2, h3⟩
  show (Num.fin crl : Num K) / groupMean _ _ = _
  rw [h1, Num.fin_div_fin_of_ne _ (by linarith)]

/-- A row of a table with nonnegative rate changes. -/
theorem table_row {g : Grain} {idx : List Date} (hi : idx.Nodup) {k w : Nat} (hw : 1 ≤ w) (hk : w ≤ k)
    {vertical : Bool} {changes : List (Date × K)} (hd : (changes.map Prod.fst).Nodup)
    (h0 : ∀ x ∈ changes, 0 ≤ x.2) {row : Nat × Num K}
    (hrow : row ∈ table g idx k (cum (idx.map (lookup changes)) (idx.length - 1))
      (level vertical w (idx.map (lookup changes)))) :
    ∃ f, row.2 = .fin f ∧ 1 ≤ f ∧ f ≤ (changes.map fun x => 1 + x.2).prod := by
  have hr : ∀ p, 0 ≤ (idx.map (lookup changes)).getD p 0 := by
    intro p
    rcases getD_cases (idx := idx) (changes := changes) p with h | ⟨x, hx, -, -, h⟩
    · rw [h]
    · rw [h]; exact h0 x hx
  obtain ⟨v, h1, h2, h3⟩ := table_bounds hw hk hrow (lo := 1)
    (hi := cum (idx.map (lookup changes)) (idx.length - 1)) one_pos (by
      intro p hp j hj _
      have := (mem_members.1 hp).1
      exact cum_mono hr (by omega))
  have hn : 1 ≤ idx.length := by
    by_contra hn
    have : idx = [] := List.length_eq_zero_iff.1 (by omega)
    subst this
    simp [table] at hrow
  have e := crl_eq hi hn hd
  obtain ⟨t1, t2⟩ := prod_le_total idx h0
  rw [← e] at t1 t2
  refine ⟨_, h1, ?_, ?_⟩
  · rw [le_div_iff₀ (by linarith)]; linarith
  · rw [div_le_iff₀ (by linarith)]
    nlinarith

/-- Labels of a table. -/
theorem table_labels (g : Grain) (idx : List Date) (k : Nat) (crl : K) (x : Nat → Num K) :
    (table g idx k crl x).map Prod.fst = ((idx.drop k).map (period g)).dedup := by
  unfold table
  rw [List.map_map]
  exact List.map_id _

theorem monthly_nodup (s e : Nat) : (dateIdx false s e).Nodup := by
  unfold dateIdx
  simp only [Bool.false_eq_true, if_false]
  refine List.Nodup.map ?_ List.nodup_range
  intro a b h
  simp only [Date.mk.injEq, and_true] at h
  omega

theorem monthly_getD {s e p : Nat} (h : p < e + 13 - s) :
    (dateIdx false s e).getD p ⟨0, 0⟩ = ⟨s - 12 + p, 1⟩ := by
  unfold dateIdx
  simp [List.getD_eq_getElem?_getD, h]

theorem monthly_length (s e : Nat) : (dateIdx false s e).length = e + 13 - s := by
  simp [dateIdx]

theorem period_mono {g : Grain} {a b : Date} (h : a.month ≤ b.month) : period g a ≤ period g b := by
  unfold period
  cases g <;> simp only <;> omega

theorem labels_sorted {g : Grain} {l : List Date} (h : l.Pairwise fun a b => a.month ≤ b.month) :
    ((l.map (period g)).dedup).Pairwise (· < ·) := by
  have h1 : (l.map (period g)).Pairwise (· ≤ ·) := by
    rw [List.pairwise_map]
    exact h.imp fun h => period_mono h
  have h2 := h1.sublist (List.dedup_sublist _)
  have h3 := List.nodup_dedup (l.map (period g))
  exact (h2.and h3).imp fun h => lt_of_le_of_ne h.1 h.2

theorem olf_monthly {g : Grain} (hg : g = .Y ∨ g = .M) (vertical : Bool) (s e : Nat)
    {changes : List (Date × K)} (hd : (changes.map Prod.fst).Nodup) :
    olf g false vertical s e changes = .ok (table g (dateIdx false s e) 12
      (cum ((dateIdx false s e).map (lookup changes)) ((dateIdx false s e).length - 1))
      (level vertical 12 ((dateIdx false s e).map (lookup changes)))) := by
  unfold olf
  dsimp only
  rw [reindex_eq _ hd]
  rcases hg with rfl | rfl <;> rfl

theorem monthly_drop {s e : Nat} (hs : 13 ≤ s) (he : s ≤ e) :
    (dateIdx false s e).drop 12 = (List.range (e + 1 - s)).map fun j => ⟨s + j, 1⟩ := by
  refine List.ext_getElem ?_ ?_
  · rw [List.length_drop, monthly_length]; simp; omega
  · intro j h1 h2
    have hj : j < e + 1 - s := by simpa using h2
    rw [List.getElem_drop]
    simp only [dateIdx, Bool.false_eq_true, if_false, List.getElem_map, List.getElem_range]
    congr 1
    omega

/-! ### Daily -/

theorem flatMap_days_length (a n : Nat) : ((List.range n).flatMap fun j => daysOf (a + j)).length =
    ∑ j ∈ Finset.range n, monthDays (a + j) := by
  induction n with
  | zero => rfl
  | succ n ih =>
    rw [List.range_succ, List.flatMap_append, List.length_append, ih, Finset.sum_range_succ]
    simp [daysOf]

theorem year_days {z : Nat} (h : isLeap z = false) :
    ∑ j ∈ Finset.range 12, monthDays (12 * z + j) = 365 := by
  have e : ∀ j, j < 12 → monthDays (12 * z + j) =
      match j with
      | 1 => 28
      | 3 | 5 | 8 | 10 => 30
      | _ => 31 := by
    intro j hj
    unfold monthDays
    have h1 : (12 * z + j) % 12 = j := by omega
    have h2 : (12 * z + j) / 12 = z := by omega
    rw [h1, h2, h]
    rfl
  rw [Finset.sum_congr rfl fun j hj => e j (Finset.mem_range.1 hj)]
  rfl

theorem december (z : Nat) : monthDays (12 * z + 11) = 31 := by
  unfold monthDays
  have h1 : (12 * z + 11) % 12 = 11 := by omega
  rw [h1]
  rfl

theorem january (z : Nat) : monthDays (12 * z) = 31 := by
  unfold monthDays
  have h1 : (12 * z) % 12 = 0 := by omega
  rw [h1]
  rfl

/-- The days from month `a` on, `n` months. -/
def span (a n : Nat) : List Date := (List.range n).flatMap fun j => daysOf (a + j)

theorem span_add (a m n : Nat) : span a (m + n) = span a m ++ span (a + m) n := by
  unfold span
  rw [List.range_add, List.flatMap_append, List.flatMap_map]
  congr 2
  funext j
  rw [Nat.add_assoc]

/-- The index when the start is the first of January. -/
theorem daily_eq {z e : Nat} (hz : 1 ≤ z) (he : 12 * (z + 1) ≤ e) :
    dateIdx true (12 * (z + 1)) e = ⟨12 * (z - 1) + 11, 31⟩ :: (span (12 * z) 12 ++
      span (12 * (z + 1)) (e + 1 - 12 * (z + 1))) := by
  have e1 : 12 * (z + 1) - 13 = 12 * (z - 1) + 11 := by omega
  have e2 : 12 * (z + 1) - 1 = 12 * z + 11 := by omega
  have e3 : 12 * (z + 1) - 12 = 12 * z := by omega
  unfold dateIdx firstDay
  simp only [if_true]
  rw [e1, e2, e3, december, december]
  have e4 : (daysOf (12 * (z - 1) + 11)).drop (min 31 31 - 1) = [⟨12 * (z - 1) + 11, 31⟩] := by
    unfold daysOf
    rw [december]
    rfl
  rw [e4]
  show _ :: span (12 * z) _ = _
  rw [show e + 13 - 12 * (z + 1) = 12 + (e + 1 - 12 * (z + 1)) by omega, span_add]
  rfl

theorem daily_drop {z e : Nat} (hz : 1 ≤ z) (hl : isLeap z = false) (he : 12 * (z + 1) ≤ e) :
    (dateIdx true (12 * (z + 1)) e).drop 366 = span (12 * (z + 1)) (e + 1 - 12 * (z + 1)) := by
  rw [daily_eq hz he, List.drop_succ_cons]
  refine List.drop_left' ?_
  unfold span
  rw [flatMap_days_length, year_days hl]

theorem mem_span {a n : Nat} {d : Date} :
    d ∈ span a n ↔ a ≤ d.month ∧ d.month < a + n ∧ 1 ≤ d.day ∧ d.day ≤ monthDays d.month := by
  unfold span daysOf
  simp only [List.mem_flatMap, List.mem_range, List.mem_map]
  constructor
  · rintro ⟨j, hj, k, hk, rfl⟩
    exact ⟨by simp, by simp [hj], by simp, by simp; omega⟩
  · rintro ⟨h1, h2, h3, h4⟩
    refine ⟨d.month - a, by omega, d.day - 1, ?_, ?_⟩
    · rw [show a + (d.month - a) = d.month by omega]; omega
    · cases d
      simp only [Date.mk.injEq] at *
      omega

theorem daysOf_nodup (m : Nat) : (daysOf m).Nodup := by
  unfold daysOf
  refine List.Nodup.map ?_ List.nodup_range
  intro a b h
  simp only [Date.mk.injEq, true_and] at h
  omega

theorem span_nodup (a n : Nat) : (span a n).Nodup := by
  induction n with
  | zero => exact List.nodup_nil
  | succ n ih =>
    rw [span_add]
    refine List.Nodup.append ih ?_ ?_
    · show ((List.range 1).flatMap _).Nodup
      simp only [List.range_one, List.flatMap_cons, List.flatMap_nil, List.append_nil]
      exact daysOf_nodup _
    · intro d h1 h2
      rw [mem_span] at h1 h2
      omega

theorem span_sorted (a n : Nat) : (span a n).Pairwise fun x y => x.month ≤ y.month := by
  induction n with
  | zero => exact List.Pairwise.nil
  | succ n ih =>
    rw [span_add, List.pairwise_append]
    refine ⟨ih, ?_, ?_⟩
    · refine List.Pairwise.imp_of_mem (R := fun _ _ => True) ?_ (List.pairwise_of_forall fun _ _ => trivial)
      intro x y hx hy _
      rw [mem_span] at hx hy
      omega
    · intro x hx y hy
      rw [mem_span] at hx hy
      omega

theorem daily_nodup {z e : Nat} (hz : 1 ≤ z) (he : 12 * (z + 1) ≤ e) :
    (dateIdx true (12 * (z + 1)) e).Nodup := by
  rw [daily_eq hz he, show 12 * (z + 1) = 12 * z + 12 by omega, ← span_add, List.nodup_cons]
  refine ⟨?_, span_nodup _ _⟩
  intro h
  rw [mem_span] at h
  simp only at h
  omega

/-- The rows of the two tables have the same periods. -/
theorem daily_labels {g : Grain} {z e : Nat} (hz : 1 ≤ z) (hl : isLeap z = false)
    (he : 12 * (z + 1) ≤ e) :
    (((dateIdx true (12 * (z + 1)) e).drop 367).map (period g)).dedup =
      (((dateIdx true (12 * (z + 1)) e).drop 366).map (period g)).dedup := by
  have e1 : (dateIdx true (12 * (z + 1)) e).drop 367 =
      ((dateIdx true (12 * (z + 1)) e).drop 366).drop 1 := by rw [List.drop_drop]
  rw [e1, daily_drop hz hl he]
  obtain ⟨n, hn⟩ : ∃ n, e + 1 - 12 * (z + 1) = 1 + n := ⟨e + 1 - 12 * (z + 1) - 1, by omega⟩
  rw [hn, span_add]
  have e2 : span (12 * (z + 1)) 1 = ⟨12 * (z + 1), 1⟩ :: ⟨12 * (z + 1), 2⟩ ::
      (List.range 29).map fun k => ⟨12 * (z + 1), k + 3⟩ := by
    show ((List.range 1).flatMap _) = _
    simp only [List.range_one, List.flatMap_cons, List.flatMap_nil, List.append_nil]
    unfold daysOf
    rw [Nat.add_zero, january]
    rfl
  rw [e2]
  simp only [List.cons_append, List.drop_succ_cons, List.drop_zero, List.map_cons]
  rw [List.dedup_cons_of_mem (a := period g ⟨12 * (z + 1), 1⟩)]
  have : period g ⟨12 * (z + 1), 1⟩ = period g ⟨12 * (z + 1), 2⟩ := by cases g <;> rfl
  rw [this]
  exact List.mem_cons_self

theorem olf_daily {g : Grain} (hg : g = .Y ∨ g = .M) (vertical : Bool) (s e : Nat)
    {changes : List (Date × K)} (hd : (changes.map Prod.fst).Nodup) :
    olf g true vertical s e changes = .ok ((table g (dateIdx true s e) 366
      (cum ((dateIdx true s e).map (lookup changes)) ((dateIdx true s e).length - 1))
      (level vertical 365 ((dateIdx true s e).map (lookup changes)))).mapIdx fun n row =>
        if isLeap (year g row.1) then (row.1, (((table g (dateIdx true s e) 367
          (cum ((dateIdx true s e).map (lookup changes)) ((dateIdx true s e).length - 1))
          (level vertical 366 ((dateIdx true s e).map (lookup changes))))[n]?).map Prod.snd).getD .nan)
        else row) := by
  unfold olf
  dsimp only
  rw [reindex_eq _ hd]
  rcases hg with rfl | rfl <;> rfl

/-- Position of a month. -/
theorem members_month {g : Grain} (hg : g = .Y ∨ g = .M) {s e l p : Nat} (hs : 13 ≤ s)
    (h : p ∈ members g (dateIdx false s e) 12 l) :
    ∃ m, p + s = m + 12 ∧ s ≤ m ∧ m ≤ e ∧ l = if g = .Y then m / 12 else m := by
  obtain ⟨h1, h2, h3⟩ := mem_members.1 h
  rw [monthly_length] at h1
  rw [monthly_getD h1] at h3
  refine ⟨s - 12 + p, by omega, by omega, by omega, ?_⟩
  rcases hg with rfl | rfl <;> exact h3.symm

/-- Labels of the daily rows. -/
theorem daily_rows {g : Grain} (hg : g = .Y ∨ g = .M) (vertical : Bool) (s e : Nat)
    {changes : List (Date × K)} (hd : (changes.map Prod.fst).Nodup) :
    ∃ rows, olf g true vertical s e changes = .ok rows ∧
      rows.map Prod.fst = (((dateIdx true s e).drop 366).map (period g)).dedup ∧
      ∀ n row, rows[n]? = some row → isLeap (year g row.1) = true →
        (((dateIdx true s e).drop 367).map (period g)).dedup.length ≤ n → row.2 = .nan := by
  refine ⟨_, olf_daily hg vertical s e hd, ?_, ?_⟩
  · rw [← table_labels g _ 366 (cum ((dateIdx true s e).map (lookup changes)) ((dateIdx true s e).length - 1))
      (level vertical 365 ((dateIdx true s e).map (lookup changes)))]
    generalize table (K := K) g (dateIdx true s e) 367 _ _ = T2
    generalize table (K := K) g (dateIdx true s e) 366 _ _ = T1
    refine List.ext_getElem (by simp) ?_
    intro i h1 h2
    rw [List.getElem_map, List.getElem_map, List.getElem_mapIdx]
    split_ifs <;> rfl
  · intro n row hn hleap hlen
    rw [List.getElem?_mapIdx] at hn
    obtain ⟨x, hx, rfl⟩ := Option.map_eq_some_iff.1 hn
    have hx1 : isLeap (year g x.1) = true := by
      revert hleap
      split_ifs with h
      · exact fun _ => h
      · exact fun h' => absurd h' h
    rw [if_pos hx1]
    rw [List.getElem?_eq_none]
    · rfl
    · rw [← List.length_map (f := Prod.fst), table_labels]
      exact hlen

theorem leap_days {z : Nat} (h : isLeap z = true) :
    ∑ j ∈ Finset.range 12, monthDays (12 * z + j) = 366 := by
  have e : ∀ j, j < 12 → monthDays (12 * z + j) =
      match j with
      | 1 => 29
      | 3 | 5 | 8 | 10 => 30
      | _ => 31 := by
    intro j hj
    unfold monthDays
    have h1 : (12 * z + j) % 12 = j := by omega
    have h2 : (12 * z + j) / 12 = z := by omega
    rw [h1, h2, h]
    rfl
  rw [Finset.sum_congr rfl fun j hj => e j (Finset.mem_range.1 hj)]
  rfl

/-- The periods of the two tables when the start follows a leap year. -/
theorem daily_leap {z e : Nat} (hz : 1 ≤ z) (hl : isLeap z = true) (he : 12 * (z + 1) ≤ e) :
    (((dateIdx true (12 * (z + 1)) e).drop 367).map (period .Y)).dedup.Pairwise (· < ·) ∧
    (∀ l, l ∈ (((dateIdx true (12 * (z + 1)) e).drop 367).map (period .Y)).dedup ↔
      z + 1 ≤ l ∧ l ≤ e / 12) ∧
    (((dateIdx true (12 * (z + 1)) e).drop 366).map (period .Y)).dedup.Pairwise (· < ·) ∧
    ∀ l, l ∈ (((dateIdx true (12 * (z + 1)) e).drop 366).map (period .Y)).dedup ↔ z ≤ l ∧ l ≤ e / 12 := by
  have hlen : (span (12 * z) 12).length = 366 := by
    unfold span
    rw [flatMap_days_length, leap_days hl]
  have d1 : (dateIdx true (12 * (z + 1)) e).drop 367 = span (12 * (z + 1)) (e + 1 - 12 * (z + 1)) := by
    rw [daily_eq hz he, List.drop_succ_cons]
    exact List.drop_left' hlen
  have d2 : (dateIdx true (12 * (z + 1)) e).drop 366 = (span (12 * z) 12).drop 365 ++
      span (12 * (z + 1)) (e + 1 - 12 * (z + 1)) := by
    rw [daily_eq hz he, List.drop_succ_cons]
    exact List.drop_append_of_le_length (by omega)
  have hmem : ∀ l, l ∈ ((span (12 * (z + 1)) (e + 1 - 12 * (z + 1))).map (period .Y)) ↔
      z + 1 ≤ l ∧ l ≤ e / 12 := by
    intro l
    rw [List.mem_map]
    constructor
    · rintro ⟨d, hd, rfl⟩
      rw [mem_span] at hd
      show z + 1 ≤ d.month / 12 ∧ d.month / 12 ≤ e / 12
      omega
    · rintro ⟨h1, h2⟩
      refine ⟨⟨12 * l, 1⟩, ?_, ?_⟩
      · rw [mem_span]
        simp only
        rw [january]
        omega
      · show 12 * l / 12 = l
        omega
  refine ⟨?_, ?_, ?_, ?_⟩
  · rw [d1]; exact labels_sorted (span_sorted _ _)
  · intro l; rw [d1, List.mem_dedup, hmem]
  · rw [d2]
    refine labels_sorted ?_
    rw [List.pairwise_append]
    refine ⟨(span_sorted _ _).sublist (List.drop_sublist _ _), span_sorted _ _, ?_⟩
    intro x hx y hy
    have hx := List.mem_of_mem_drop hx
    rw [mem_span] at hx hy
    omega
  · intro l
    rw [d2, List.mem_dedup, List.map_append, List.mem_append, hmem]
    have h0 : (span (12 * z) 12).drop 365 ≠ [] := by
      intro h
      have := congrArg List.length h
      rw [List.length_drop, hlen] at this
      simp at this
    have h1 : ∀ d ∈ (span (12 * z) 12).drop 365, period .Y d = z := by
      intro d hd
      have hd := List.mem_of_mem_drop hd
      rw [mem_span] at hd
      show d.month / 12 = z
      omega
    constructor
    · rintro (h | h)
      · obtain ⟨d, hd, rfl⟩ := List.mem_map.1 h
        rw [h1 d hd]
        omega
      · omega
    · intro h
      by_cases hzl : l = z
      · left
        obtain ⟨d, hd⟩ := List.exists_mem_of_ne_nil _ h0
        exact List.mem_map.2 ⟨d, hd, (h1 d hd).trans hzl.symm⟩
      · right; omega

end Olf
end CL
