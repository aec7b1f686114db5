import Verif.Lemmas.Weights

set_option linter.unusedSectionVars false

/-! # The weights of `drop` and `drop_valuation` for a triangle of factors -/

namespace CL
namespace Dev
variable {K : Type} [Field K] [LinearOrder K] [IsStrictOrderedRing K]
open Tri

theorem filter_label {l : List Int} (hn : l.Nodup) {a : Int} (ha : a ∈ l) :
    ((List.range l.length).filter fun k => decide (l.getD k 0 = a)) = [l.idxOf a] := by
  have hlt := List.idxOf_lt_length_of_mem ha
  apply List.Perm.eq_singleton
  rw [List.perm_ext_iff_of_nodup (List.nodup_range.filter _) (List.nodup_singleton _)]
  intro k
  rw [List.mem_filter, List.mem_range, List.mem_singleton, decide_eq_true_eq]
  constructor
  · rintro ⟨h1, h2⟩
    rw [List.getD_eq_getElem _ _ h1] at h2
    rw [← h2]
    exact (hn.idxOf_getElem k h1).symm
  · rintro rfl
    refine ⟨hlt, ?_⟩
    rw [List.getD_eq_getElem _ _ hlt]
    exact List.getElem_idxOf hlt

theorem matchesOf_eq {l : List Int} (hn : l.Nodup) : ∀ {items : List Int}, (∀ a ∈ items, a ∈ l) →
    matchesOf l items = items.map fun a => l.idxOf a
  | [], _ => rfl
  | a :: items, h => by
    have ih := matchesOf_eq hn (items := items) fun b hb => h b (by simp [hb])
    unfold matchesOf at ih ⊢
    rw [List.flatMap_cons, ih, filter_label hn (h a (by simp))]
    rfl

/-- `drop` with labels of the triangle. -/
theorem dropFunc_eq {f : Tri K} (ho : f.odims.Nodup) (hd : f.ddims.Nodup) {items : List (Int × Int)}
    (h : ∀ q ∈ items, q.1 ∈ f.odims ∧ q.2 ∈ f.ddims) :
    ∃ b, dropFunc f items = .ok b ∧ b.d0 = 1 ∧ b.d1 = 1 ∧ b.d2 = f.values.d2 ∧ b.d3 = f.values.d3 ∧
      ∀ o < f.odims.length, ∀ d < f.ddims.length,
        ((f.odims.getD o 0, f.ddims.getD d 0) ∈ items → b.get 0 0 o d = 0) ∧
        ((f.odims.getD o 0, f.ddims.getD d 0) ∉ items → b.get 0 0 o d = (f.nanTri o d).nanToNum) := by
  have e1 : matchesOf f.odims (items.map Prod.fst) = items.map fun q => f.odims.idxOf q.1 := by
    rw [matchesOf_eq ho (by
      intro a ha
      obtain ⟨q, hq, rfl⟩ := List.mem_map.mp ha
      exact (h q hq).1), List.map_map]
    rfl
  have e2 : matchesOf f.ddims (items.map Prod.snd) = items.map fun q => f.ddims.idxOf q.2 := by
    rw [matchesOf_eq hd (by
      intro a ha
      obtain ⟨q, hq, rfl⟩ := List.mem_map.mp ha
      exact (h q hq).2), List.map_map]
    rfl
  unfold dropFunc
  simp only [e1, e2, List.length_map]
  rw [if_neg (by simp)]
  refine ⟨_, rfl, rfl, rfl, rfl, rfl, ?_⟩
  intro o hoo d hdd
  have key : ((List.range (if items.length = 1 then items.length else items.length)).any fun k =>
      decide (o = (items.map fun q => f.odims.idxOf q.1).getD (if items.length = 1 then 0 else k) 0) &&
      decide (d = (items.map fun q => f.ddims.idxOf q.2).getD (if items.length = 1 then 0 else k) 0)) =
        true ↔ (f.odims.getD o 0, f.ddims.getD d 0) ∈ items := by
    rw [ite_self, List.any_eq_true]
    constructor
    · rintro ⟨k, hk, hb⟩
      rw [List.mem_range] at hk
      have hk0 : (if items.length = 1 then 0 else k) = k := by split_ifs <;> omega
      rw [hk0, Bool.and_eq_true, decide_eq_true_eq, decide_eq_true_eq,
        List.getD_eq_getElem _ _ (by simpa using hk), List.getD_eq_getElem _ _ (by simpa using hk),
        List.getElem_map, List.getElem_map] at hb
      obtain ⟨h1, h2⟩ := hb
      obtain ⟨m1, m2⟩ := h items[k] (List.getElem_mem hk)
      have g1 : f.odims.getD o 0 = items[k].1 := by
        rw [h1, List.getD_eq_getElem _ _ (List.idxOf_lt_length_of_mem m1)]
        exact List.getElem_idxOf _
      have g2 : f.ddims.getD d 0 = items[k].2 := by
        rw [h2, List.getD_eq_getElem _ _ (List.idxOf_lt_length_of_mem m2)]
        exact List.getElem_idxOf _
      rw [g1, g2]
      exact List.getElem_mem hk
    · intro hm
      obtain ⟨k, hk, e⟩ := List.getElem_of_mem hm
      refine ⟨k, List.mem_range.mpr hk, ?_⟩
      have hk0 : (if items.length = 1 then 0 else k) = k := by split_ifs <;> omega
      rw [hk0, Bool.and_eq_true, decide_eq_true_eq, decide_eq_true_eq,
        List.getD_eq_getElem _ _ (by simpa using hk), List.getD_eq_getElem _ _ (by simpa using hk),
        List.getElem_map, List.getElem_map, e]
      simp only
      rw [List.getD_eq_getElem _ _ hoo, List.getD_eq_getElem _ _ hdd, ho.idxOf_getElem o hoo,
        hd.idxOf_getElem d hdd]
      exact ⟨rfl, rfl⟩
  constructor
  · intro hm
    exact if_pos (key.mpr hm)
  · intro hm
    exact if_neg fun hk => hm (key.mp hk)

/-- `drop_valuation` with dates that leave a cell in every row and column, and a ratio in the first
triangle that is not zero. -/
theorem dropValuationFunc_eq {f : Tri K} (wf : WF f) (fin : Tri.Finite f) (h0 : 0 < f.values.d0)
    (h1 : 0 < f.values.d1) (h2 : 0 < f.values.d2) (h3 : 1 < f.values.d3) {vs : List Int}
    (hr : ∀ o < f.values.d2, ∃ d < f.values.d3, f.valuation o d ∉ vs)
    (hc : ∀ d < f.values.d3, ∃ o < f.values.d2, f.valuation o d ∉ vs)
    (hl : ∃ o < f.values.d2, ∃ d < f.values.d3, f.valuation o d ∉ vs ∧ (f.values.get 0 0 o d).amt ≠ 0) :
    ∃ b, dropValuationFunc f vs = .ok b ∧ b.d0 = 1 ∧ b.d1 = 1 ∧ b.d2 = f.values.d2 ∧
      b.d3 = f.values.d3 ∧ ∀ o < f.values.d2, ∀ d < f.values.d3,
        (f.valuation o d ∉ vs ∧ (f.values.get 0 0 o d).amt ≠ 0 → b.get 0 0 o d = 1) ∧
        (¬ (f.valuation o d ∉ vs ∧ (f.values.get 0 0 o d).amt ≠ 0) → b.get 0 0 o d = 0) := by
  have wf' := wf
  obtain ⟨w0, w1, w2, w3⟩ := wf'
  have e := pick_eq f [0] [0] (List.range f.values.d2) (List.range f.values.d3)
    (Or.inr (by intro e; have := congrArg List.length e; simp at this; omega))
  set v := (((f.picked [0] [0] (List.range f.values.d2) (List.range f.values.d3)
    f.vd).valuations.max?).elim f.vd fun a => min a f.vd) with hv
  set g := f.picked [0] [0] (List.range f.values.d2) (List.range f.values.d3) v with hg
  have el : f.iloc (.int 0) (.int 0) (.slc .all) (.slc .all) = .ok g := by
    rw [← e]
    exact iloc_of_sel (selS_nat f.values.d0 0 (by omega)).sel (selS_nat f.values.d1 0 (by omega)).sel
      (selS_all _) (selS_all _)
  have g2 : g.values.d2 = f.values.d2 := by show (List.range _).length = _; simp
  have g3 : g.values.d3 = f.values.d3 := by show (List.range _).length = _; simp
  have hod : g.odims = f.odims := by
    show (List.range f.values.d2).map (f.odims.getD · 0) = f.odims
    rw [w2]; exact map_getD_range _ _
  have hdd : g.ddims = f.ddims := by
    show (List.range f.values.d3).map (f.ddims.getD · 0) = f.ddims
    rw [w3]; exact map_getD_range _ _
  have gwf : WF g := by
    refine ⟨?_, ?_, by rw [g2, hod, w2], by rw [g3, hdd, w3]⟩
    · show 1 = ([0].map _).length; rfl
    · show 1 = ([0].map _).length; rfl
  have hget : ∀ o < f.values.d2, ∀ d < f.values.d3, g.values.get 0 0 o d = f.values.get 0 0 o d := by
    intro o ho d hd
    show f.values.get 0 0 ((List.range f.values.d2).getD o 0) ((List.range f.values.d3).getD d 0) = _
    rw [List.getD_eq_getElem _ _ (by simpa using ho), List.getD_eq_getElem _ _ (by simpa using hd),
      List.getElem_range, List.getElem_range]
  obtain ⟨u, hu, -, ⟨u0, u1, u2, u3⟩, -, -, -, -, -, hug⟩ := filterMask_full gwf
    (fun o d => !vs.contains (f.valuation o d))
    (by
      intro o ho
      obtain ⟨d, hd, hk⟩ := hr o (by rw [← g2]; exact ho)
      exact ⟨d, by rw [g3]; exact hd, by simp [hk]⟩)
    (by
      intro d hd
      obtain ⟨o, ho, hk⟩ := hc d (by rw [← g3]; exact hd)
      exact ⟨o, by rw [g2]; exact ho, by simp [hk]⟩)
    (by omega) (by omega)
  set b := u.values.map fun x => (x * 0 + 1).nanToNum with hb
  have b0 : b.d0 = 1 := by show u.values.d0 = 1; rw [u0]; rfl
  have b1 : b.d1 = 1 := by show u.values.d1 = 1; rw [u1]; rfl
  have b2 : b.d2 = f.values.d2 := by show u.values.d2 = _; rw [u2, g2]
  have b3 : b.d3 = f.values.d3 := by show u.values.d3 = _; rw [u3, g3]
  have cell : ∀ o < f.values.d2, ∀ d < f.values.d3,
      (f.valuation o d ∉ vs ∧ (f.values.get 0 0 o d).amt ≠ 0 → b.get 0 0 o d = 1) ∧
      (¬ (f.valuation o d ∉ vs ∧ (f.values.get 0 0 o d).amt ≠ 0) → b.get 0 0 o d = 0) := by
    intro o ho d hd
    have eb : b.get 0 0 o d = ((f.values.get 0 0 o d * Num.ofBool (!vs.contains (f.valuation o d))).numToNan
        * 0 + 1).nanToNum := by
      show (u.values.get 0 0 o d * 0 + 1).nanToNum = _
      rw [hug 0 (by show 0 < 1; omega) 0 (by show 0 < 1; omega) o (by omega) d (by omega),
        hget o ho d hd]
    rw [eb]
    by_cases hin : f.valuation o d ∈ vs
    · rcases Num.noInf_cases (fin 0 h0 0 h1 o ho d hd) with e | ⟨a, e⟩ <;> rw [e] <;>
        simp [hin, Num.ofBool, Num.zero_def, Num.one_def, Num.nanToNum]
    · rcases Num.noInf_cases (fin 0 h0 0 h1 o ho d hd) with e | ⟨a, e⟩
      · rw [e]; simp [hin, Num.zero_def, Num.nanToNum]
      · rw [e]
        by_cases ha : a = 0
        · subst ha; simp [hin, Num.ofBool, Num.zero_def, Num.one_def, Num.nanToNum]
        · simp [hin, ha, Num.ofBool, Num.zero_def, Num.one_def, Num.nanToNum, Num.numToNan]
  refine ⟨b, ?_, b0, b1, b2, b3, cell⟩
  unfold dropValuationFunc
  simp only [el, bind, Except.bind]
  rw [if_pos (by omega), hu]
  simp only
  rw [if_neg]
  · obtain ⟨z, hz⟩ : ∃ z, Arr.zip (· * ·) f.values b = .ok z := by
      unfold Arr.zip
      have c1 : ∀ m, Arr.bdim m 1 = some m := by
        intro m; unfold Arr.bdim; split_ifs <;> simp_all
      simp only [b0, b1, b2, b3, c1, Arr.bdim_self]
      exact ⟨_, rfl⟩
    rw [← hb, hz]
  · intro hall
    obtain ⟨o, ho, d, hd, hk⟩ := hl
    rw [List.all_eq_true] at hall
    have h4 := hall o (List.mem_range.mpr (by rw [← b2] at ho; exact ho))
    rw [List.all_eq_true] at h4
    have h5 := h4 d (List.mem_range.mpr (by rw [← b3] at hd; exact hd))
    rw [← hb, (cell o ho d hd).1 hk] at h5
    simp [Num.eqb, Num.one_def, Num.zero_def] at h5

end Dev
end CL
