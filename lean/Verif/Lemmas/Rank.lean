import Verif.Model.Development
import Mathlib.Data.Finset.Card
import Mathlib.Data.Finset.Image

set_option linter.unusedSectionVars false

/-! # Ranks -/

namespace CL
namespace Dev
variable {K : Type} [Field K] [LinearOrder K] [IsStrictOrderedRing K]

theorem numLt_irrefl (a : Num K) : numLt a a = false := by
  cases a <;> simp [numLt, Num.ltb]

theorem numLt_trans {a b c : Num K} (h : numLt a b = true) (h' : numLt b c = true) :
    numLt a c = true := by
  cases a <;> cases b <;> cases c <;> simp_all [numLt, Num.ltb]
  exact lt_trans h h'

theorem numLt_eq {a b : Num K} (h : numLt a b = false) (h' : numLt b a = false) : a = b := by
  cases a <;> cases b <;> simp_all [numLt, Num.ltb]
  exact le_antisymm h' h

theorem before_irrefl (r x : Nat → Num K) (o : Nat) : before r x o o = false := by
  simp [before, numLt_irrefl]

theorem before_total (r x : Nat → Num K) {o o' : Nat} (h : o ≠ o') :
    before r x o o' = true ∨ before r x o' o = true := by
  unfold before
  cases h1 : numLt (r o) (r o') <;> cases h2 : numLt (r o') (r o) <;> simp
  cases h3 : numLt (x o) (x o') <;> cases h4 : numLt (x o') (x o) <;> simp
  omega

theorem before_iff (r x : Nat → Num K) (o o' : Nat) : before r x o o' = true ↔
    numLt (r o) (r o') = true ∨ (r o = r o' ∧ (numLt (x o) (x o') = true ∨ (x o = x o' ∧ o < o'))) := by
  have key : ∀ a b : Num K, numLt a b = true ∨ a = b ∨ numLt b a = true := by
    intro a b
    cases h1 : numLt a b <;> cases h2 : numLt b a <;> simp
    exact numLt_eq h1 h2
  have asym : ∀ {a b : Num K}, numLt a b = true → numLt b a = false := by
    intro a b h
    cases h2 : numLt b a
    · rfl
    · have := numLt_trans h h2
      rw [numLt_irrefl] at this; cases this
  unfold before
  rcases key (r o) (r o') with h | h | h
  · simp [h]
  · rcases key (x o) (x o') with h3 | h3 | h3
    · simp [h, h3, numLt_irrefl]
    · simp [h, h3, numLt_irrefl]
    · have := asym h3
      simp only [h, numLt_irrefl, h3, this]
      simp
      intro e; rw [e, numLt_irrefl] at h3; cases h3
  · have h4 := asym h
    simp only [h, h4]
    simp
    intro e; rw [e, numLt_irrefl] at h; cases h

theorem before_trans (r x : Nat → Num K) {a b c : Nat} (h : before r x a b = true)
    (h' : before r x b c = true) : before r x a c = true := by
  rw [before_iff] at *
  rcases h with h | ⟨h, g⟩ <;> rcases h' with h' | ⟨h', g'⟩
  · exact Or.inl (numLt_trans h h')
  · exact Or.inl (h' ▸ h)
  · exact Or.inl (h ▸ h')
  · refine Or.inr ⟨h.trans h', ?_⟩
    rcases g with g | ⟨g, k⟩ <;> rcases g' with g' | ⟨g', k'⟩
    · exact Or.inl (numLt_trans g g')
    · exact Or.inl (g' ▸ g)
    · exact Or.inl (g ▸ g')
    · exact Or.inr ⟨g.trans g', by omega⟩

theorem filter_length (n : Nat) (p : Nat → Bool) :
    ((List.range n).filter p).length = ((Finset.range n).filter fun o => p o = true).card := by
  induction n with
  | zero => rfl
  | succ n ih =>
    rw [List.range_succ, List.filter_append, List.length_append, ih, Finset.range_add_one,
      Finset.filter_insert]
    cases h : p n
    · simp [h]
    · rw [if_pos rfl, Finset.card_insert_of_notMem (by simp)]
      simp [h]

theorem rank_card (n : Nat) (r x : Nat → Num K) (o : Nat) :
    rank n r x o = ((Finset.range n).filter fun o' => before r x o' o = true).card :=
  filter_length _ _

theorem rank_lt {n : Nat} {r x : Nat → Num K} {a b : Nat} (ha : a < n)
    (h : before r x a b = true) : rank n r x a < rank n r x b := by
  rw [rank_card, rank_card]
  apply Finset.card_lt_card
  refine ⟨?_, ?_⟩
  · intro o ho
    simp only [Finset.mem_filter] at ho ⊢
    exact ⟨ho.1, before_trans r x ho.2 h⟩
  · intro hs
    have : a ∈ (Finset.range n).filter fun o' => before r x o' a = true :=
      hs (by simp [ha, h])
    simp [before_irrefl] at this

theorem before_of_rank {n : Nat} {r x : Nat → Num K} {a b : Nat} (hb : b < n)
    (h : rank n r x a < rank n r x b) : before r x a b = true := by
  rcases eq_or_ne a b with rfl | hne
  · omega
  · rcases before_total r x hne with h' | h'
    · exact h'
    · have := rank_lt hb h'; omega

theorem rank_inj {n : Nat} {r x : Nat → Num K} {a b : Nat} (ha : a < n) (hb : b < n)
    (h : rank n r x a = rank n r x b) : a = b := by
  by_contra hne
  rcases before_total r x hne with h' | h'
  · have := rank_lt ha h'; omega
  · have := rank_lt hb h'; omega

theorem rank_lt_card {n : Nat} (r x : Nat → Num K) {a : Nat} (ha : a < n) : rank n r x a < n := by
  rw [rank_card]
  have : ((Finset.range n).filter fun o' => before r x o' a = true).card < (Finset.range n).card := by
    apply Finset.card_lt_card
    refine ⟨Finset.filter_subset _ _, ?_⟩
    intro hs
    have := hs (Finset.mem_range.2 ha)
    simp [before_irrefl] at this
  simpa using this

/-- Exactly `j` of the positions have a rank below `j`. -/
theorem card_rank_lt {n : Nat} (r x : Nat → Num K) {j : Nat} (hj : j ≤ n) :
    ((Finset.range n).filter fun o => rank n r x o < j).card = j := by
  have himg : (Finset.range n).image (rank n r x) = Finset.range n := by
    apply Finset.eq_of_subset_of_card_le
    · intro k hk
      obtain ⟨o, ho, rfl⟩ := Finset.mem_image.1 hk
      exact Finset.mem_range.2 (rank_lt_card r x (Finset.mem_range.1 ho))
    · rw [Finset.card_image_of_injOn]
      intro a ha b hb e
      exact rank_inj (by simpa using ha) (by simpa using hb) e
  have h2 : ((Finset.range n).filter fun o => rank n r x o < j).image (rank n r x) =
      Finset.range j := by
    ext k
    simp only [Finset.mem_image, Finset.mem_filter, Finset.mem_range]
    constructor
    · rintro ⟨o, ⟨-, h⟩, rfl⟩; exact h
    · intro hk
      have : k ∈ (Finset.range n).image (rank n r x) := by
        rw [himg]; exact Finset.mem_range.2 (by omega)
      obtain ⟨o, ho, rfl⟩ := Finset.mem_image.1 this
      exact ⟨o, ⟨Finset.mem_range.1 ho, hk⟩, rfl⟩
  have h3 := congrArg Finset.card h2
  rw [Finset.card_image_of_injOn, Finset.card_range] at h3
  · exact h3
  · intro a ha b hb e
    simp only [Finset.coe_filter, Finset.mem_range, Set.mem_ofPred_eq] at ha hb
    exact rank_inj ha.1 hb.1 e

/-- Numbers come before missing ones: a position is a number exactly when its rank is below their
count. -/
theorem rank_lt_count {n : Nat} {r x : Nat → Num K} {o : Nat} (ho : o < n) :
    (r o).isNan = false ↔
      rank n r x o < ((Finset.range n).filter fun o => (r o).isNan = false).card := by
  set A := (Finset.range n).filter fun o => (r o).isNan = false with hA
  have h1 : ∀ o < n, (r o).isNan = false → rank n r x o < A.card := by
    intro o ho hr
    rw [rank_card]
    apply Finset.card_lt_card
    refine ⟨?_, ?_⟩
    · intro a ha
      simp only [hA, Finset.mem_filter] at ha ⊢
      refine ⟨ha.1, ?_⟩
      rcases (before_iff r x a o).1 ha.2 with h | ⟨h, -⟩
      · cases e : r a <;> rw [e] at h <;> simp_all [numLt, Num.isNan]
      · rw [h]; exact hr
    · intro hs
      have : o ∈ (Finset.range n).filter fun o' => before r x o' o = true :=
        hs (by simp [hA, ho, hr])
      simp [before_irrefl] at this
  refine ⟨h1 o ho, ?_⟩
  intro hlt
  by_contra hn
  have hle : A.card ≤ n := by
    have := Finset.card_filter_le (Finset.range n) fun o => (r o).isNan = false
    simpa using this
  have hsub : insert o A ⊆ (Finset.range n).filter fun o => rank n r x o < A.card := by
    intro a ha
    rcases Finset.mem_insert.1 ha with rfl | ha
    · simp [ho, hlt]
    · have := Finset.mem_filter.1 ha
      simp only [Finset.mem_filter]
      exact ⟨this.1, h1 a (by simpa using this.1) this.2⟩
  have := Finset.card_le_card hsub
  rw [card_rank_lt r x hle, Finset.card_insert_of_notMem (by simp [hA, hn])] at this
  omega

end Dev
end CL
