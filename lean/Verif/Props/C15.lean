import Verif.Lemmas.Filter

set_option linter.unusedSectionVars false

/-! # C15: valuation filters -/

namespace CL
namespace Tri
variable {K : Type} [Field K] [LinearOrder K] [IsStrictOrderedRing K]

/-- **C15** (partial: at least two development columns, see `C15_single_development_false`).
Whenever `tri[P(tri.valuation)]` returns a triangle, it is the filtered triangle. -/
theorem C15_filter_partial {t u : Tri K} (wf : WF t) (ord : Ordered t) (dated : Dated t)
    (hd : 2 ≤ t.ddims.length) {P : Int → Bool} (h : t.getVal P = .ok u) :
    ∃ rows cols, FilterSpec t u (fun o d => P (t.valuation o d)) rows cols := by
  have hd3 : t.values.d3 > 1 := by rw [wf.2.2.2]; omega
  unfold getVal at h
  rw [if_pos hd3] at h
  by_cases hr : keyRows t.values.d2 t.values.d3 (fun o d => P (t.valuation o d)) = []
  · rw [filterMask_empty _ hr] at h; cases h
  · by_cases he : Even (keyRows t.values.d2 t.values.d3 (fun o d => P (t.valuation o d))) ∧
        Even (keyCols t.values.d2 t.values.d3 (fun o d => P (t.valuation o d)))
    · obtain ⟨u', h1, h2, -⟩ := filterMask_spec wf ord dated hr he.1 he.2
      rw [h1] at h
      injection h with h
      subst h
      exact ⟨_, _, h2⟩
    · rw [filterMask_uneven _ hr (keyRows_ne_nil.1 hr) he] at h; cases h

/-- Valuations do not decrease along origins and developments. -/
def Graded (t : Tri K) : Prop :=
  ∀ o o' d d', o ≤ o' → o' < t.odims.length → d ≤ d' → d' < t.ddims.length →
    t.valuation o d ≤ t.valuation o' d'

/-- A condition on valuations of the form "not after" / "not before" some date. -/
def HalfLine (P : Int → Bool) : Prop :=
  (∀ v w, v ≤ w → P w = true → P v = true) ∨ (∀ v w, v ≤ w → P v = true → P w = true)

private theorem rows_even {t : Tri K} (g : Graded t) {P : Int → Bool} (hp : HalfLine P) (wf : WF t) :
    Even (keyRows t.values.d2 t.values.d3 (fun o d => P (t.valuation o d))) := by
  refine even_of_convex (keyRows_pairwise _ _ _) ?_
  intro a ha b hb x hax hxb
  rw [mem_keyRows] at ha hb ⊢
  obtain ⟨-, d, hd, hk⟩ := ha
  obtain ⟨hb, e, he, hk'⟩ := hb
  have w2 := wf.2.2.1
  have w3 := wf.2.2.2
  refine ⟨by omega, ?_⟩
  rcases hp with hp | hp
  · exact ⟨e, he, hp _ _ (g x b e e (by omega) (by omega) le_rfl (by omega)) hk'⟩
  · exact ⟨d, hd, hp _ _ (g a x d d (by omega) (by omega) le_rfl (by omega)) hk⟩

private theorem cols_even {t : Tri K} (g : Graded t) {P : Int → Bool} (hp : HalfLine P) (wf : WF t) :
    Even (keyCols t.values.d2 t.values.d3 (fun o d => P (t.valuation o d))) := by
  refine even_of_convex (keyCols_pairwise _ _ _) ?_
  intro a ha b hb x hax hxb
  rw [mem_keyCols] at ha hb ⊢
  obtain ⟨-, o, ho, hk⟩ := ha
  obtain ⟨hb, e, he, hk'⟩ := hb
  have w2 := wf.2.2.1
  have w3 := wf.2.2.2
  refine ⟨by omega, ?_⟩
  rcases hp with hp | hp
  · exact ⟨e, he, hp _ _ (g e e x b le_rfl (by omega) (by omega) (by omega)) hk'⟩
  · exact ⟨o, ho, hp _ _ (g o o a x le_rfl (by omega) (by omega) (by omega)) hk⟩

/-- `<`, `<=`, `>`, `>=` filters on a triangle with ascending axes succeed as soon as one cell
satisfies them. -/
theorem C15_succeeds {t : Tri K} (wf : WF t) (ord : Ordered t) (dated : Dated t) (g : Graded t)
    (hd : 2 ≤ t.ddims.length) {P : Int → Bool} (hp : HalfLine P) {o d : Nat}
    (ho : o < t.odims.length) (hd' : d < t.ddims.length) (hk : P (t.valuation o d) = true) :
    ∃ u, t.getVal P = .ok u := by
  have hd3 : t.values.d3 > 1 := by rw [wf.2.2.2]; omega
  have hr : keyRows t.values.d2 t.values.d3 (fun o d => P (t.valuation o d)) ≠ [] :=
    List.ne_nil_of_mem (mem_keyRows.2 ⟨by rw [wf.2.2.1]; exact ho, d, by rw [wf.2.2.2]; exact hd', hk⟩)
  obtain ⟨u, h1, -⟩ := filterMask_spec wf ord dated hr (rows_even g hp wf) (cols_even g hp wf)
  refine ⟨u, ?_⟩
  unfold getVal
  rw [if_pos hd3, h1]

/-- If no cell satisfies the filter, or the remaining origins (developments) are not evenly spaced,
the filter raises instead of returning something else. -/
theorem C15_raises {t : Tri K} (wf : WF t) (hd : 2 ≤ t.ddims.length) {P : Int → Bool}
    (h : ∀ o d, o < t.odims.length → d < t.ddims.length → P (t.valuation o d) = false) :
    t.getVal P = .error .valueError := by
  have hd3 : t.values.d3 > 1 := by rw [wf.2.2.2]; omega
  unfold getVal
  rw [if_pos hd3, filterMask_empty]
  rw [List.eq_nil_iff_forall_not_mem]
  intro o ho
  obtain ⟨h1, d, h2, h3⟩ := mem_keyRows.1 ho
  rw [h o d (by rw [← wf.2.2.1]; exact h1) (by rw [← wf.2.2.2]; exact h2)] at h3
  cases h3

/-- Everything up to December 2021 of the 3 x 3 example: two origins, two developments. -/
example : ∃ u rows cols, (Ex.tri3 (some true) Ex.cum3).getVal (fun v => v ≤ 12 * 2021 + 11) = .ok u ∧
    FilterSpec (Ex.tri3 (some true) Ex.cum3) u
      (fun o d => ((Ex.tri3 (some true) Ex.cum3).valuation o d ≤ 12 * 2021 + 11 : Bool)) rows cols := by
  have pr := Ex.proper_tri3 (some true)
  obtain ⟨u, h⟩ := C15_succeeds pr.wf pr.ordered pr.dated
    (by
      have : ∀ o' < 3, ∀ o ≤ o', ∀ d' < 3, ∀ d ≤ d', (Ex.tri3 (some true) Ex.cum3).valuation o d ≤
          (Ex.tri3 (some true) Ex.cum3).valuation o' d' := by decide
      intro o o' d d' h1 h2 h3 h4
      exact this o' h2 o h1 d' h4 d h3)
    (by decide) (P := fun v => v ≤ 12 * 2021 + 11)
    (Or.inl fun v w h1 h2 => by simp at h2 ⊢; omega) (o := 0) (d := 0) (by decide) (by decide) (by decide)
  obtain ⟨rows, cols, h2⟩ := C15_filter_partial pr.wf pr.ordered pr.dated (by decide) h
  exact ⟨u, rows, cols, h, h2⟩

/-- **C15 is false with one development column**: the filter then only drops origins and the
valuation date stays later than every kept valuation. -/
theorem C15_single_development_false :
    ∃ (t u : Tri ℚ), WF t ∧ Ordered t ∧ Dated t ∧ t.ddims.length = 1 ∧
      t.getVal (fun v => v ≤ 12 * 2020 + 11) = .ok u ∧ u.odims = [12 * 2020] ∧
      u.valuation 0 0 = 12 * 2020 + 11 ∧ u.vd = 12 * 2022 + 11 :=
  ⟨{ Ex.tri3 (some true) Ex.cum3 with
      ddims := [12]
      values := { (Ex.tri3 (some true) Ex.cum3).values with d3 := 1 } }, _, by decide, by decide,
    by unfold Dated; decide, rfl, rfl, rfl, rfl, rfl⟩

end Tri
end CL
