import Verif.Lemmas.Arith
import Verif.Lemmas.Filter

set_option linter.unusedSectionVars false

/-! # Union of axis labels -/

namespace CL

theorem unionSorted_mem {a b : List Int} {x : Int} : x ∈ unionSorted a b ↔ x ∈ a ∨ x ∈ b := by
  unfold unionSorted
  rw [List.mem_insertionSort, List.mem_dedup, List.mem_append]

theorem unionSorted_sorted (a b : List Int) : (unionSorted a b).Pairwise (· < ·) := by
  unfold unionSorted
  have h1 := List.pairwise_insertionSort (fun x y : Int => x ≤ y) ((a ++ b).dedup)
  have h2 : (((a ++ b).dedup).insertionSort (fun x y : Int => x ≤ y)).Nodup :=
    (List.perm_insertionSort _ _).nodup_iff.2 (List.nodup_dedup _)
  have h3 := h1.and h2
  refine h3.imp ?_
  intro x y ⟨h, h'⟩
  omega

theorem unionSorted_eq {a b l : List Int} (h : l.Pairwise (· < ·))
    (hm : ∀ x, x ∈ l ↔ x ∈ a ∨ x ∈ b) : unionSorted a b = l := by
  have hu := unionSorted_sorted a b
  have hp : (unionSorted a b).Perm l := by
    rw [List.perm_ext_iff_of_nodup (hu.imp fun h => ne_of_lt h) (h.imp fun h => ne_of_lt h)]
    intro x
    rw [hm, unionSorted_mem]
  exact hp.eq_of_pairwise (fun a b _ _ h1 h2 => absurd h1 (by omega)) hu h

/-- A sorted list whose labels have no label of the union between them is a block of it. -/
theorem block_of_convex : ∀ {u a : List Int}, u.Pairwise (· < ·) → a.Pairwise (· < ·) → a ≠ [] →
    (∀ x ∈ a, x ∈ u) → (∀ x ∈ u, ∀ p ∈ a, ∀ q ∈ a, p < x → x < q → x ∈ a) →
    ∃ pre post, u = pre ++ a ++ post ∧ (∀ x ∈ pre, x ∉ a) ∧ ∀ x ∈ post, x ∉ a
  | [], a, _, _, hne, hsub, _ => by
    obtain ⟨x, hx⟩ := List.exists_mem_of_ne_nil _ hne
    exact absurd (hsub x hx) (by simp)
  | x :: u, a, hu, ha, hne, hsub, hc => by
    obtain ⟨hxu, hu'⟩ := List.pairwise_cons.1 hu
    by_cases hx : x ∈ a
    · obtain ⟨y, a', rfl⟩ := List.exists_cons_of_ne_nil hne
      obtain ⟨hya, ha'⟩ := List.pairwise_cons.1 ha
      have hxy : y = x := by
        rcases List.mem_cons.1 hx with h | h
        · exact h.symm
        · rcases List.mem_cons.1 (hsub y (by simp)) with h' | h'
          · exact h'
          · have := hya x h
            have := hxu y h'
            omega
      subst hxy
      have hnot : ∀ z ∈ u, z ∉ [y] := by
        intro z hz hz'
        rw [List.mem_singleton] at hz'
        have := hxu z hz
        omega
      by_cases he : a' = []
      · subst he
        exact ⟨[], u, rfl, by simp, hnot⟩
      · have hsub' : ∀ z ∈ a', z ∈ u := by
          intro z hz
          rcases List.mem_cons.1 (hsub z (by simp [hz])) with h | h
          · have := hya z hz; omega
          · exact h
        obtain ⟨pre, post, h1, h2, h3⟩ := block_of_convex hu' ha' he hsub' (by
          intro z hz p hp q hq h4 h5
          rcases List.mem_cons.1 (hc z (by simp [hz]) p (by simp [hp]) q (by simp [hq]) h4 h5)
            with h | h
          · have := hxu z hz; omega
          · exact h)
        have hpre : pre = [] := by
          cases hp : pre with
          | nil => rfl
          | cons z pre' =>
            exfalso
            obtain ⟨q, a'', rfl⟩ := List.exists_cons_of_ne_nil he
            have hz : z ∈ u := by rw [h1, hp]; simp
            have hzq : z < q := by
              rw [h1, hp] at hu'
              simp only [List.cons_append, List.pairwise_cons] at hu'
              exact hu'.1 q (by simp)
            rcases List.mem_cons.1 (hc z (by simp [hz]) y (by simp) q (by simp) (hxu z hz) hzq)
              with h | h
            · have := hxu z hz; omega
            · exact h2 z (by rw [hp]; simp) h
        subst hpre
        refine ⟨[], post, by rw [h1]; simp, by simp, ?_⟩
        intro z hz hz'
        rcases List.mem_cons.1 hz' with h | h
        · have := hxu z (by rw [h1]; simp [hz]); omega
        · exact h3 z hz h
    · obtain ⟨pre, post, h1, h2, h3⟩ := block_of_convex hu' ha hne (by
        intro z hz
        rcases List.mem_cons.1 (hsub z hz) with h | h
        · subst h; exact absurd hz hx
        · exact h) (fun z hz p hp q hq h4 h5 => hc z (by simp [hz]) p hp q hq h4 h5)
      refine ⟨x :: pre, post, by rw [h1]; simp, ?_, h3⟩
      intro z hz
      rcases List.mem_cons.1 hz with rfl | h
      · exact hx
      · exact h2 z h

theorem findIdx_append_none {l m : List Int} {p : Int → Bool} (h : ∀ x ∈ l, p x = false) :
    (l ++ m).findIdx p = l.length + m.findIdx p := by
  induction l with
  | nil => simp
  | cons a l ih =>
    simp only [List.cons_append, List.findIdx_cons, h a (by simp), List.length_cons]
    rw [ih fun x hx => h x (by simp [hx])]
    simp; omega

theorem lowPos_block {pre a post : List Int} (hne : a ≠ []) (h : ∀ x ∈ pre, x ∉ a) :
    lowPos (pre ++ a ++ post) a = pre.length := by
  unfold lowPos
  rw [List.append_assoc, findIdx_append_none (by simpa using h)]
  obtain ⟨y, a', rfl⟩ := List.exists_cons_of_ne_nil hne
  simp [List.findIdx_cons]

theorem highPos_block {pre a post : List Int} (hne : a ≠ []) (h : ∀ x ∈ post, x ∉ a) :
    highPos (pre ++ a ++ post) a = pre.length + a.length := by
  unfold highPos
  rw [List.reverse_append, findIdx_append_none (by simpa using h), List.reverse_append]
  have : (a.reverse ++ pre.reverse).findIdx (fun x => a.contains x) = 0 := by
    have hne' : a.reverse ≠ [] := by simpa using hne
    obtain ⟨y, a', e⟩ := List.exists_cons_of_ne_nil hne'
    have hy : y ∈ a := by rw [← List.mem_reverse, e]; simp
    rw [e]
    simp [List.findIdx_cons, hy]
  rw [this]
  simp
  omega

namespace Tri
variable {K : Type} [Field K] [LinearOrder K] [IsStrictOrderedRing K]

/-- The amount of a triangle under given origin and development labels, 0 if it has none. -/
def amtAt (t : Tri K) (i c : Nat) (lo ld : Int) : K :=
  if lo ∈ t.odims ∧ ld ∈ t.ddims then
    (t.values.get i c (t.odims.idxOf lo) (t.ddims.idxOf ld)).amt
  else 0

end Tri

/-- Where a label of the union comes from. -/
theorem block_label {pre a post : List Int} (ha : a.Nodup) (h1 : ∀ x ∈ pre, x ∉ a)
    (h2 : ∀ x ∈ post, x ∉ a) {o : Nat} (ho : o < (pre ++ a ++ post).length) :
    ((pre.length ≤ o ∧ o < pre.length + a.length) ↔ (pre ++ a ++ post).getD o 0 ∈ a) ∧
    (pre.length ≤ o → o < pre.length + a.length →
      a.idxOf ((pre ++ a ++ post).getD o 0) = o - pre.length) := by
  have key : ∀ hlo : pre.length ≤ o, ∀ hhi : o < pre.length + a.length,
      (pre ++ a ++ post).getD o 0 = a[o - pre.length]'(by omega) := by
    intro hlo hhi
    rw [List.getD_eq_getElem _ _ ho, List.getElem_append_left (by simp; omega),
      List.getElem_append_right hlo]
  refine ⟨⟨fun ⟨hlo, hhi⟩ => ?_, fun h => ?_⟩, fun hlo hhi => ?_⟩
  · rw [key hlo hhi]; exact List.getElem_mem _
  · rw [List.getD_eq_getElem _ _ ho] at h
    refine ⟨?_, ?_⟩
    · by_contra hlt
      rw [List.getElem_append_left (by simp; omega), List.getElem_append_left (by omega)] at h
      exact h1 _ (List.getElem_mem _) h
    · by_contra hlt
      rw [List.getElem_append_right (by simp; omega)] at h
      exact h2 _ (List.getElem_mem _) h
  · rw [key hlo hhi]; exact ha.idxOf_getElem _ _

end CL
