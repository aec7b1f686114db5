import Verif.Lemmas.Olf
import Verif.Spec.Examples

set_option linter.unusedSectionVars false

/-! # C50: parallelogram on-level factors -/

namespace CL
namespace Olf
open Cal
variable {K : Type} [Field K] [LinearOrder K] [IsStrictOrderedRing K]

/-- **C50, monthly approximation**: there is one row for each period between the start and the end, in
order, and with nonnegative rate changes every factor is at least 1 and at most the total rate
change. -/
theorem C50_monthly {g : Grain} (hg : g = .Y ∨ g = .M) (vertical : Bool) {s e : Nat} (hs : 13 ≤ s)
    (he : s ≤ e) {changes : List (Date × K)} (hd : (changes.map Prod.fst).Nodup) :
    ∃ rows, olf g false vertical s e changes = .ok rows ∧
      (rows.map Prod.fst).Pairwise (· < ·) ∧
      (∀ l, l ∈ rows.map Prod.fst ↔ ∃ m, s ≤ m ∧ m ≤ e ∧ l = if g = .Y then m / 12 else m) ∧
      ((∀ x ∈ changes, 0 ≤ x.2) → ∀ row ∈ rows, ∃ f, row.2 = .fin f ∧ 1 ≤ f ∧
        f ≤ (changes.map fun x => 1 + x.2).prod) := by
  refine ⟨_, olf_monthly hg vertical s e hd, ?_, ?_, ?_⟩
  · rw [table_labels, monthly_drop hs he]
    refine labels_sorted ?_
    rw [List.pairwise_map]
    exact List.pairwise_lt_range.imp fun h => by simp only; omega
  · intro l
    rw [table_labels, monthly_drop hs he, List.mem_dedup, List.map_map, List.mem_map]
    constructor
    · rintro ⟨j, hj, rfl⟩
      rw [List.mem_range] at hj
      refine ⟨s + j, by omega, by omega, ?_⟩
      rcases hg with rfl | rfl <;> rfl
    · rintro ⟨m, h1, h2, rfl⟩
      refine ⟨m - s, by rw [List.mem_range]; omega, ?_⟩
      rw [Function.comp, show s + (m - s) = m by omega]
      rcases hg with rfl | rfl <;> rfl
  · intro h0 row hrow
    exact table_row (monthly_nodup s e) (by omega) le_rfl hd h0 hrow

/-- **C50, without rate changes** every factor is 1. -/
theorem C50_unchanged {g : Grain} (hg : g = .Y ∨ g = .M) (vertical : Bool) {s e : Nat} (hs : 13 ≤ s)
    (he : s ≤ e) {changes : List (Date × K)} (hd : (changes.map Prod.fst).Nodup)
    (h0 : ∀ x ∈ changes, x.2 = 0) :
    ∃ rows, olf g false vertical s e changes = .ok rows ∧ ∀ row ∈ rows, row.2 = .fin 1 := by
  obtain ⟨rows, h1, -, -, h2⟩ := C50_monthly hg vertical hs he hd
  refine ⟨rows, h1, ?_⟩
  intro row hrow
  obtain ⟨f, h3, h4, h5⟩ := h2 (fun x hx => (h0 x hx).ge) row hrow
  have : (changes.map fun x => 1 + x.2).prod = 1 := by
    refine List.prod_eq_one ?_
    intro y hy
    obtain ⟨x, hx, rfl⟩ := List.mem_map.1 hy
    rw [h0 x hx, add_zero]
  rw [this] at h5
  rw [h3, le_antisymm h5 h4]

/-- **C50, current level**: with the monthly approximation, a period has factor 1 if no rate change
was less than a year before the start of a month of it, or, with vertical lines, after it. -/
theorem C50_current {g : Grain} (hg : g = .Y ∨ g = .M) (vertical : Bool) {s e : Nat} (hs : 13 ≤ s)
    {changes : List (Date × K)} (hd : (changes.map Prod.fst).Nodup)
    (h1 : ∀ x ∈ changes, -1 < x.2) {l : Nat}
    (hcur : ∀ m, s ≤ m → m ≤ e → (l = if g = .Y then m / 12 else m) → ∀ x ∈ changes, x.2 ≠ 0 →
      x.1.month + (if vertical then 0 else 12) ≤ m) :
    ∃ rows, olf g false vertical s e changes = .ok rows ∧ ∀ row ∈ rows, row.1 = l → row.2 = .fin 1 := by
  refine ⟨_, olf_monthly hg vertical s e hd, ?_⟩
  rintro row hrow rfl
  set r := (dateIdx false s e).map (lookup changes) with hrdef
  have hpos : ∀ p, -1 < r.getD p 0 := by
    intro p
    rcases getD_cases (idx := dateIdx false s e) (changes := changes) p with h | ⟨x, hx, -, -, h⟩
    · rw [h]; norm_num
    · rw [h]; exact h1 x hx
  have hc := cum_pos hpos ((dateIdx false s e).length - 1)
  obtain ⟨v, h2, h3, h4⟩ := table_bounds (by omega) le_rfl hrow hc (hi := cum r ((dateIdx false s e).length - 1)) (by
    intro p hp j hj hjp
    have hp1 := (mem_members.1 hp).1
    obtain ⟨m, hm, h5, h6, h7⟩ := members_month hg hs hp
    have : cum r ((dateIdx false s e).length - 1) = cum r j := by
      refine cum_const (by omega) ?_
      intro q hq hq2
      by_contra hne
      rcases getD_cases (idx := dateIdx false s e) (changes := changes) q with h | ⟨x, hx, hql, hxd, h⟩
      · exact hne h
      · rw [monthly_length] at hql
        rw [monthly_getD hql] at hxd
        have h8 := hcur m h5 h6 h7 x hx (by rw [← h]; exact hne)
        rw [hxd] at h8
        cases vertical <;> simp at h8 hjp <;> omega
    rw [this]
    exact ⟨le_rfl, le_rfl⟩)
  rw [h2, le_antisymm h4 h3, div_self hc.ne']

/-- **C50, old level**: with the monthly approximation, a period that ended before all rate changes has
the total rate change as its factor, if the changes are on first days of months of the time looked
at.  What is missing: other days (`C50_midmonth_false`). -/
theorem C50_before_partial {g : Grain} (hg : g = .Y ∨ g = .M) (vertical : Bool) {s e : Nat} (hs : 13 ≤ s)
    (he : s ≤ e) {changes : List (Date × K)} (hd : (changes.map Prod.fst).Nodup)
    (hday : ∀ x ∈ changes, x.1.day = 1 ∧ x.1.month ≤ e) {l : Nat}
    (hbef : ∀ m, s ≤ m → m ≤ e → (l = if g = .Y then m / 12 else m) → ∀ x ∈ changes, m < x.1.month) :
    ∃ rows, olf g false vertical s e changes = .ok rows ∧
      ∀ row ∈ rows, row.1 = l → row.2 = .fin (changes.map fun x => 1 + x.2).prod := by
  refine ⟨_, olf_monthly hg vertical s e hd, ?_⟩
  rintro row hrow rfl
  have hne : (members g (dateIdx false s e) 12 row.1).Nonempty := by
    rw [← mem_periods, ← table_labels g _ 12 (cum ((dateIdx false s e).map (lookup changes))
      ((dateIdx false s e).length - 1)) (level vertical 12 ((dateIdx false s e).map (lookup changes)))]
    exact List.mem_map_of_mem hrow
  obtain ⟨p0, hp0⟩ := hne
  obtain ⟨m0, hm0, a1, a2, a3⟩ := members_month hg hs hp0
  set r := (dateIdx false s e).map (lookup changes) with hrdef
  obtain ⟨v, h2, h3, h4⟩ := table_bounds (by omega) le_rfl hrow (lo := 1) (hi := 1) one_pos (by
    intro p hp j hj _
    obtain ⟨m, hm, h5, h6, h7⟩ := members_month hg hs hp
    have hz : ∀ q ≤ p, r.getD q 0 = 0 := by
      intro q hq
      rcases getD_cases (idx := dateIdx false s e) (changes := changes) q with h | ⟨x, hx, hql, hxd, h⟩
      · exact h
      · rw [monthly_length] at hql
        rw [monthly_getD hql] at hxd
        have h8 := hbef m h5 h6 h7 x hx
        rw [hxd] at h8
        simp only at h8
        omega
    have : cum r j = 1 := by
      rw [cum_const (Nat.zero_le j) fun q _ hq => hz q (by omega)]
      unfold cum
      rw [zero_add, Finset.prod_range_one, hz 0 (Nat.zero_le p), add_zero]
    rw [this]
    exact ⟨le_rfl, le_rfl⟩)
  rw [h2, le_antisymm h4 h3, div_one, hrdef, crl_eq (monthly_nodup s e) (by rw [monthly_length]; omega) hd]
  congr 2
  refine List.map_congr_left ?_
  intro x hx
  rw [if_pos]
  obtain ⟨d1, d2⟩ := hday x hx
  have := hbef m0 a1 a2 a3 x hx
  unfold dateIdx
  simp only [Bool.false_eq_true, if_false, List.mem_map, List.mem_range]
  refine ⟨x.1.month - (s - 12), by omega, ?_⟩
  obtain ⟨⟨m, d⟩, y⟩ := x
  simp only at d1 this ⊢
  subst d1
  congr 1
  omega

/-- **C50, daily approximation** from the first of January after a year without 29 February: the same as
for the monthly one.  What is missing: other starts (`C50_daily_rows_false`, `C50_daily_nan_false`). -/
theorem C50_daily_partial {g : Grain} (hg : g = .Y ∨ g = .M) (vertical : Bool) {z e : Nat} (hz : 1 ≤ z)
    (hl : isLeap z = false) (he : 12 * (z + 1) ≤ e) {changes : List (Date × K)}
    (hd : (changes.map Prod.fst).Nodup) :
    ∃ rows, olf g true vertical (12 * (z + 1)) e changes = .ok rows ∧
      (rows.map Prod.fst).Pairwise (· < ·) ∧
      (∀ l, l ∈ rows.map Prod.fst ↔ ∃ m, 12 * (z + 1) ≤ m ∧ m ≤ e ∧ l = if g = .Y then m / 12 else m) ∧
      ((∀ x ∈ changes, 0 ≤ x.2) → ∀ row ∈ rows, ∃ f, row.2 = .fin f ∧ 1 ≤ f ∧
        f ≤ (changes.map fun x => 1 + x.2).prod) := by
  have hlab : ∀ (l : List (Nat × Num K)) (F : Nat → Nat × Num K → Nat × Num K),
      (∀ n x, (F n x).1 = x.1) → (l.mapIdx F).map Prod.fst = l.map Prod.fst := by
    intro l F hF
    refine List.ext_getElem (by simp) ?_
    intro i h1 h2
    simp [hF]
  refine ⟨_, olf_daily hg vertical _ e hd, ?_, ?_, ?_⟩
  · rw [hlab]
    · rw [table_labels, daily_drop hz hl he]
      exact labels_sorted (span_sorted _ _)
    · intro n x
      split_ifs <;> rfl
  · intro l
    rw [hlab]
    · rw [table_labels, daily_drop hz hl he, List.mem_dedup, List.mem_map]
      constructor
      · rintro ⟨d, hdm, rfl⟩
        rw [mem_span] at hdm
        refine ⟨d.month, by omega, by omega, ?_⟩
        rcases hg with rfl | rfl <;> rfl
      · rintro ⟨m, h1, h2, rfl⟩
        refine ⟨⟨m, 1⟩, ?_, ?_⟩
        · rw [mem_span]
          refine ⟨h1, by simp only; omega, le_rfl, ?_⟩
          simp only
          unfold monthDays
          split
          · split <;> omega
          all_goals omega
        · rcases hg with rfl | rfl <;> rfl
    · intro n x
      split_ifs <;> rfl
  · intro h0 row hrow
    obtain ⟨n, hn, rfl⟩ := List.mem_iff_getElem.1 hrow
    rw [List.getElem_mapIdx]
    rw [List.length_mapIdx] at hn
    have key : ∀ k w, 1 ≤ w → w ≤ k → ∀ row ∈ table g (dateIdx true (12 * (z + 1)) e) k
        (cum ((dateIdx true (12 * (z + 1)) e).map (lookup changes)) ((dateIdx true (12 * (z + 1)) e).length - 1))
        (level vertical w ((dateIdx true (12 * (z + 1)) e).map (lookup changes))),
        ∃ f, row.2 = .fin f ∧ 1 ≤ f ∧ f ≤ (changes.map fun x => 1 + x.2).prod :=
      fun k w hw hk row hrow => table_row (daily_nodup hz he) hw hk hd h0 hrow
    have k1 := key 366 365 (by omega) (by omega)
    have k2 := key 367 366 (by omega) (by omega)
    have hlen := congrArg List.length (daily_labels (g := g) hz hl he)
    rw [← table_labels g _ 367 (cum ((dateIdx true (12 * (z + 1)) e).map (lookup changes))
      ((dateIdx true (12 * (z + 1)) e).length - 1))
      (level vertical 366 ((dateIdx true (12 * (z + 1)) e).map (lookup changes))),
      ← table_labels g _ 366 (cum ((dateIdx true (12 * (z + 1)) e).map (lookup changes))
      ((dateIdx true (12 * (z + 1)) e).length - 1))
      (level vertical 365 ((dateIdx true (12 * (z + 1)) e).map (lookup changes))),
      List.length_map, List.length_map] at hlen
    clear key hrow
    generalize table (K := K) g (dateIdx true (12 * (z + 1)) e) 367 _ _ = T2 at *
    generalize table (K := K) g (dateIdx true (12 * (z + 1)) e) 366 _ _ = T1 at *
    split_ifs with hleap
    · have h2 : n < T2.length := by rw [hlen]; simpa using hn
      rw [List.getElem?_eq_getElem h2]
      exact k2 T2[n] (List.getElem_mem h2)
    · exact k1 _ (List.getElem_mem _)

/-- A rise of a fifth on 1 July 2020: 2019 has factor 6/5, 2020 has 48/41 (an eighth of the year at the
new level), 2022 has 1. -/
example : ∃ rows, olf (K := ℚ) .Y false false (12 * 2019) (12 * 2022 + 11) [(⟨12 * 2020 + 6, 1⟩, 1 / 5)] = .ok rows ∧
    rows = [(2019, .fin (6 / 5)), (2020, .fin (48 / 41)), (2021, .fin (48 / 47)), (2022, .fin 1)] :=
  ok_of _ (by decide +kernel)

/-- **C50 is false of rate changes within a month**: with the monthly approximation a rise of a fifth on
15 July 2020 is ignored. -/
theorem C50_midmonth_false : ∃ rows, olf (K := ℚ) .Y false false (12 * 2019) (12 * 2022 + 11)
      [(⟨12 * 2020 + 6, 15⟩, 1 / 5)] = .ok rows ∧
    rows = [(2019, .fin 1), (2020, .fin 1), (2021, .fin 1), (2022, .fin 1)] :=
  ok_of _ (by decide +kernel)

/-- **C50 is false of quarters and half-years**: they raise. -/
theorem C50_grain_false (g : Grain) (hg : g = .Q ∨ g = .S) (daily vertical : Bool) (s e : Nat)
    (changes : List (Date × K)) : olf g daily vertical s e changes = .error .valueError := by
  unfold olf reindex
  rcases hg with rfl | rfl <;> dsimp only <;> by_cases h : (changes.map Prod.fst).Nodup <;>
    simp only [h, if_true, if_false] <;> rfl

/-- **C50 is false of the daily approximation** after a leap year: for every yearly table that
starts in the January after a leap year there is also a row for that leap year. -/
theorem C50_daily_rows_false {z e : Nat} (hz : 1 ≤ z) (hl : isLeap z = true) (he : 12 * (z + 1) ≤ e)
    (vertical : Bool) {changes : List (Date × K)} (hd : (changes.map Prod.fst).Nodup) :
    ∃ rows, olf .Y true vertical (12 * (z + 1)) e changes = .ok rows ∧ z ∈ rows.map Prod.fst := by
  obtain ⟨rows, h1, h2, -⟩ := daily_rows (.inl rfl) vertical (12 * (z + 1)) e hd
  refine ⟨rows, h1, ?_⟩
  rw [h2, (daily_leap hz hl he).2.2.2]
  omega

/-- **C50 is false of the daily approximation** after a leap year: for 2021 to 2024 the table of leap years
lacks a row and the factor of 2024 is NaN, though no rate changed. -/
theorem C50_daily_nan_false : ∃ rows, olf (K := ℚ) .Y true false (12 * 2021) (12 * 2024 + 11) [] = .ok rows ∧
    rows.map Prod.fst = [2020, 2021, 2022, 2023, 2024] ∧ (2024, .nan) ∈ rows := by
  obtain ⟨rows, h1, h2, h3⟩ := daily_rows (K := ℚ) (.inl rfl) false (12 * 2021) (12 * 2024 + 11) (changes := [])
    List.nodup_nil
  obtain ⟨a1, a2, a3, a4⟩ := daily_leap (z := 2020) (e := 12 * 2024 + 11) (by omega) (by decide) (by omega)
  have h4 : rows.map Prod.fst = [2020, 2021, 2022, 2023, 2024] := by
    rw [h2]
    refine Tri.pairwise_ext a3 (by decide) ?_
    intro l
    rw [a4]
    simp only [List.mem_cons, List.not_mem_nil, or_false]
    omega
  have h5 : ((((dateIdx true (12 * 2021) (12 * 2024 + 11)).drop 367).map (period .Y)).dedup) =
      [2021, 2022, 2023, 2024] := by
    refine Tri.pairwise_ext a1 (by decide) ?_
    intro l
    rw [a2]
    simp only [List.mem_cons, List.not_mem_nil, or_false]
    omega
  have hlen : rows.length = 5 := by rw [← List.length_map (f := Prod.fst), h4]; rfl
  have h6 : rows[4]? = some (rows[4]'(by omega)) := List.getElem?_eq_getElem (by omega)
  have h7 : (rows[4]'(by omega)).1 = 2024 := by
    have : (rows.map Prod.fst)[4]? = some 2024 := by rw [h4]; rfl
    rw [List.getElem?_map, h6] at this
    simpa using this
  have h8 := h3 4 _ h6 (by rw [h7]; decide) (by rw [h5]; decide)
  refine ⟨rows, h1, h4, ?_⟩
  have : ((2024, .nan) : Nat × Num ℚ) = rows[4]'(by omega) := Prod.ext h7.symm h8.symm
  rw [this]
  exact List.getElem_mem _

end Olf
end CL
