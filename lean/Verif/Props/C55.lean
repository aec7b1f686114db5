import Verif.Model.Groupby
import Mathlib.Data.List.Sort
import Mathlib.Tactic.Ring
import Mathlib.Tactic.IntervalCases

/-! # C55: the grain inferred from dates -/

namespace CL
namespace C55

/-- Consecutive entries of `l` differ by `k`. -/
theorem npDiff_all {k : Int} : ∀ {l : List Int}, (npDiff l).all (· == k) = true →
    ∀ a ∈ l, ∀ b ∈ l, k ∣ a - b
  | [], _ => by simp
  | [a], _ => by simp
  | a :: b :: l, h => by
    simp only [npDiff, List.all_cons, Bool.and_eq_true, beq_iff_eq] at h
    have ih := npDiff_all (l := b :: l) h.2
    have hab : k ∣ a - b := ⟨-1, by rw [← h.1]; ring⟩
    have key : ∀ x ∈ b :: l, k ∣ a - x := fun x hx => by
      have := ih b (by simp) x hx
      have e : a - x = (a - b) + (b - x) := by ring
      rw [e]; exact dvd_add hab this
    intro x hx y hy
    rcases List.mem_cons.mp hx with ex | hx'
    · rcases List.mem_cons.mp hy with ey | hy'
      · simp [ex, ey]
      · rw [ex]; exact key y hy'
    · rcases List.mem_cons.mp hy with ey | hy'
      · rw [ey]; exact (dvd_sub_comm).mp (key x hx')
      · exact ih x hx' y hy'

/-- The sorted calendar months of the dates. -/
def months (dates : List Int) : List Int :=
  ((dates.map (· % 12)).dedup).insertionSort (· ≤ ·)

theorem mem_months {dates : List Int} {a : Int} (h : a ∈ dates) : a % 12 ∈ months dates := by
  unfold months
  rw [List.mem_insertionSort, List.mem_dedup, List.mem_map]
  exact ⟨a, h, rfl⟩

theorem of_mem_months {dates : List Int} {m : Int} (h : m ∈ months dates) :
    ∃ a ∈ dates, m = a % 12 := by
  unfold months at h
  rw [List.mem_insertionSort, List.mem_dedup, List.mem_map] at h
  obtain ⟨a, ha, e⟩ := h
  exact ⟨a, ha, e.symm⟩

theorem months_sorted (dates : List Int) : (months dates).Pairwise (· < ·) := by
  have h1 : (months dates).Pairwise (· ≤ ·) := List.pairwise_insertionSort _ _
  have h2 : (months dates).Nodup :=
    (List.perm_insertionSort _ _).nodup_iff.mpr (List.nodup_dedup _)
  exact (List.pairwise_and_iff.mpr ⟨h1, h2⟩).imp fun h => lt_of_le_of_ne h.1 h.2

theorem lift_dvd {k : Int} (hk : k ∣ 12) {a b : Int} (h : k ∣ a % 12 - b % 12) : k ∣ a - b := by
  have e : a - b = 12 * (a / 12 - b / 12) + (a % 12 - b % 12) := by omega
  rw [e]
  exact dvd_add (Dvd.dvd.mul_right hk _) h

theorem length_one_eq {α : Type} {l : List α} (h : l.length = 1) {a b : α} (ha : a ∈ l) (hb : b ∈ l) :
    a = b := by
  obtain ⟨c, rfl⟩ := List.length_eq_one_iff.mp h
  rw [List.mem_singleton] at ha hb
  rw [ha, hb]

/-- The cases of the inference. -/
theorem getGrain_eq (dates : List Int) : getGrain dates =
    if dates.dedup.length = 1 then .Y
    else if (months dates).length = 1 then .Y
    else if (npDiff (months dates)).all (· == 6) then .S
    else if (npDiff (months dates)).all (· == 3) then .Q
    else .M := rfl

/-- **C55 (soundness).**  All dates lie a whole number of periods of the inferred grain apart. -/
theorem _root_.CL.C55_sound (dates : List Int) :
    ∀ a ∈ dates, ∀ b ∈ dates, ((getGrain dates).months : Int) ∣ a - b := by
  intro a ha b hb
  rw [getGrain_eq]
  split_ifs with h1 h2 h3 h4
  · have := length_one_eq h1 (List.mem_dedup.mpr ha) (List.mem_dedup.mpr hb)
    simp [this]
  · have := length_one_eq h2 (mem_months ha) (mem_months hb)
    exact lift_dvd (k := 12) dvd_rfl (by rw [this]; simp)
  · exact lift_dvd (k := 6) ⟨2, rfl⟩ (npDiff_all h3 _ (mem_months ha) _ (mem_months hb))
  · exact lift_dvd (k := 3) ⟨4, rfl⟩ (npDiff_all h4 _ (mem_months ha) _ (mem_months hb))
  · exact one_dvd _

theorem nodup_le_one {α : Type} {l : List α} (h : l.Nodup) (e : ∀ a ∈ l, ∀ b ∈ l, a = b) :
    l.length ≤ 1 := by
  match l, h, e with
  | [], _, _ => simp
  | [a], _, _ => simp
  | a :: b :: l, h, e =>
    have := e a (by simp) b (by simp)
    subst this
    simp at h

/-- Dates in a single calendar month are annual. -/
theorem _root_.CL.C55_annual {dates : List Int} (hne : dates ≠ [])
    (h : ∀ a ∈ dates, ∀ b ∈ dates, (12 : Int) ∣ a - b) : getGrain dates = .Y := by
  have hl : (months dates).length ≤ 1 := by
    refine nodup_le_one ((months_sorted dates).imp fun h => ne_of_lt h) ?_
    intro m hm n hn
    obtain ⟨a, ha, rfl⟩ := of_mem_months hm
    obtain ⟨b, hb, rfl⟩ := of_mem_months hn
    have := h a ha b hb
    omega
  obtain ⟨a, ha⟩ := List.exists_mem_of_ne_nil _ hne
  have hp : 0 < (months dates).length := List.length_pos_of_mem (mem_months ha)
  rw [getGrain_eq]
  have : (months dates).length = 1 := by omega
  split_ifs <;> rfl

/-- Conversely annual dates lie in a single calendar month. -/
theorem _root_.CL.C55_annual_iff {dates : List Int} (hne : dates ≠ []) :
    getGrain dates = .Y ↔ ∀ a ∈ dates, ∀ b ∈ dates, (12 : Int) ∣ a - b :=
  ⟨fun h => by have := C55_sound dates; rw [h] at this; exact this, C55_annual hne⟩

/-- The list has entries `a`, `a + k`, `a + 2k`, … -/
theorem npDiff_all_of {k : Int} : ∀ {l : List Int}, l.Pairwise (· < ·) →
    (∀ a ∈ l, ∀ b ∈ l, k ∣ a - b) → (∀ a ∈ l, ∀ b ∈ l, a < b → a + k ∈ l) → 0 < k →
    (npDiff l).all (· == k) = true
  | [], _, _, _, _ => rfl
  | [a], _, _, _, _ => rfl
  | a :: b :: l, hs, hd, hc, hk => by
    have hab : a < b := (List.pairwise_cons.mp hs).1 b (by simp)
    have hdv := hd b (by simp) a (by simp)
    have hm := hc a (by simp) b (by simp) hab
    have hbl : ∀ x ∈ l, b < x := (List.pairwise_cons.mp (List.pairwise_cons.mp hs).2).1
    have hge : a + k ≤ b := by
      have := Int.le_of_dvd (by omega) hdv
      omega
    have heq : b - a = k := by
      rcases List.mem_cons.mp hm with e | hm
      · omega
      · rcases List.mem_cons.mp hm with e | hm
        · omega
        · have := hbl _ hm
          omega
    simp only [npDiff, List.all_cons, Bool.and_eq_true, beq_iff_eq]
    refine ⟨heq, npDiff_all_of (List.pairwise_cons.mp hs).2
      (fun x hx y hy => hd x (List.mem_cons_of_mem _ hx) y (List.mem_cons_of_mem _ hy)) ?_ hk⟩
    intro x hx y hy hxy
    have := hc x (List.mem_cons_of_mem _ hx) y (List.mem_cons_of_mem _ hy) hxy
    rcases List.mem_cons.mp this with e | h
    · have : a < x := (List.pairwise_cons.mp hs).1 x hx
      omega
    · exact h

/-- Dates half years apart are semi-annual, unless they are all in the same calendar month. -/
theorem _root_.CL.C55_semiannual_iff {dates : List Int} :
    (getGrain dates = .Y ∨ getGrain dates = .S) ↔
      ∀ a ∈ dates, ∀ b ∈ dates, (6 : Int) ∣ a - b := by
  constructor
  · rintro (h | h)
    · have := C55_sound dates
      rw [h] at this
      intro a ha b hb
      have h12 : (12 : Int) ∣ a - b := this a ha b hb
      exact dvd_trans ⟨2, rfl⟩ h12
    · have := C55_sound dates
      rw [h] at this
      exact this
  · intro h
    rw [getGrain_eq]
    have : (npDiff (months dates)).all (· == 6) = true := by
      refine npDiff_all_of (months_sorted dates) ?_ ?_ (by norm_num)
      · intro m hm n hn
        obtain ⟨a, ha, rfl⟩ := of_mem_months hm
        obtain ⟨b, hb, rfl⟩ := of_mem_months hn
        have := h a ha b hb
        omega
      · intro m hm n hn hmn
        obtain ⟨a, ha, rfl⟩ := of_mem_months hm
        obtain ⟨b, hb, rfl⟩ := of_mem_months hn
        have := h a ha b hb
        have e : a % 12 + 6 = b % 12 := by omega
        rw [e]; exact hn
    rw [if_pos this]
    split_ifs <;> simp

/-- **C55 (partial: completeness for quarters needs every quarter between the first and the last
calendar month to occur, see `C55_gap_false`).**  Dates a whole number of quarters apart are
quarterly or coarser. -/
theorem _root_.CL.C55_quarterly_partial {dates : List Int}
    (h : ∀ a ∈ dates, ∀ b ∈ dates, (3 : Int) ∣ a - b)
    (full : ∀ a ∈ dates, ∀ b ∈ dates, a % 12 < b % 12 → ∃ c ∈ dates, c % 12 = a % 12 + 3) :
    getGrain dates = .Y ∨ getGrain dates = .S ∨ getGrain dates = .Q := by
  rw [getGrain_eq]
  have : (npDiff (months dates)).all (· == 3) = true := by
    refine npDiff_all_of (months_sorted dates) ?_ ?_ (by norm_num)
    · intro m hm n hn
      obtain ⟨a, ha, rfl⟩ := of_mem_months hm
      obtain ⟨b, hb, rfl⟩ := of_mem_months hn
      have := h a ha b hb
      omega
    · intro m hm n hn hmn
      obtain ⟨a, ha, rfl⟩ := of_mem_months hm
      obtain ⟨b, hb, rfl⟩ := of_mem_months hn
      obtain ⟨c, hc, e⟩ := full a ha b hb hmn
      rw [← e]; exact mem_months hc
  rw [if_pos this]
  split_ifs <;> simp

/-- **Completeness is false with a gap**: dates in January and October (months 0 and 9) are a whole
number of quarters apart, but the inferred grain is monthly. -/
theorem _root_.CL.C55_gap_false :
    ∃ dates : List Int, (∀ a ∈ dates, ∀ b ∈ dates, (3 : Int) ∣ a - b) ∧
      getGrain dates = .M :=
  ⟨[24240, 24249], by decide, by decide⟩

/-- Only the set of dates matters: order and repetitions do not. -/
theorem _root_.CL.C55_set {l l' : List Int} (h : ∀ a, a ∈ l ↔ a ∈ l') : getGrain l = getGrain l' := by
  have h1 : l.dedup.length = l'.dedup.length :=
    ((List.perm_ext_iff_of_nodup (List.nodup_dedup _) (List.nodup_dedup _)).mpr fun a => by
      rw [List.mem_dedup, List.mem_dedup, h]).length_eq
  have h2 : months l = months l' := by
    have hp : (months l).Perm (months l') := by
      refine (List.perm_ext_iff_of_nodup ((months_sorted l).imp fun h => ne_of_lt h)
        ((months_sorted l').imp fun h => ne_of_lt h)).mpr fun m => ⟨fun hm => ?_, fun hm => ?_⟩
      · obtain ⟨a, ha, rfl⟩ := of_mem_months hm
        exact mem_months ((h a).mp ha)
      · obtain ⟨a, ha, rfl⟩ := of_mem_months hm
        exact mem_months ((h a).mpr ha)
    exact hp.eq_of_pairwise' (r := (· < ·)) (months_sorted l) (months_sorted l')
  rw [getGrain_eq, getGrain_eq, h1, h2]

example : getGrain [24240, 24246, 24252] = .S := by decide
example : getGrain [24240, 24243, 24246, 24249] = .Q :=
  by decide
example : getGrain [24240, 24252, 24264] = .Y := C55_annual (by simp) (by decide)
example : getGrain [24240, 24246, 24247] = .M := by decide

end C55
end CL
