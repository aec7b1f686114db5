import Verif.Model.Relabel
import Verif.Props.C80

set_option linter.unusedSectionVars false

/-! # C81: assignment of labels -/

namespace CL
namespace Tri
variable {K : Type} [Field K] [LinearOrder K] [IsStrictOrderedRing K]

/-- The column with a name, by `tri[[name]]`. -/
theorem getCols_one {t : Tri K} (wf : WF t) (h3 : 1 ≤ t.ddims.length) {name : String} (hm : name ∈ t.vdims) :
    ∃ w, t.getCols [name] = .ok w ∧ w.vdims = [name] ∧ w.kdims = t.kdims ∧ w.odims = t.odims ∧ w.ddims = t.ddims ∧
      ∀ i < t.kdims.length, ∀ o < t.odims.length, ∀ d < t.ddims.length,
        w.values.get i 0 o d = t.values.get i (t.vdims.idxOf name) o d := by
  obtain ⟨w0, w1, w2, w3⟩ := wf
  have hlt := List.idxOf_lt_length_of_mem hm
  have hs : Sel t.values.d1 (.lst ([t.vdims.idxOf name].map fun i : Nat => (i : Int))) [t.vdims.idxOf name] :=
    sel_positions (by simp) (by intro i hi; rw [List.mem_singleton] at hi; subst hi; rw [w1]; exact hlt)
      (List.nodup_singleton _)
  have hne : t.isVal = true ∨ List.range t.values.d3 ≠ [] := by
    right
    intro h
    have := congrArg List.length h
    rw [List.length_range, List.length_nil, w3] at this
    omega
  have hrun : t.getCols [name] = t.iloc (.slc .all)
      (.lst ([t.vdims.idxOf name].map fun i : Nat => (i : Int))) (.slc .all) (.slc .all) := by
    unfold getCols
    rw [if_pos (by simpa using hm)]
    rfl
  rw [iloc_of_sel (selS_all _).sel hs (selS_all _) (selS_all _), pick_eq _ _ _ _ _ hne] at hrun
  refine ⟨_, hrun, ?_, ?_, ?_, ?_, ?_⟩
  · show [t.vdims.getD (t.vdims.idxOf name) ""] = [name]
    rw [List.getD_eq_getElem _ _ hlt, List.getElem_idxOf]
  · show (List.range t.values.d0).map (t.kdims.getD · []) = t.kdims
    rw [w0]; exact map_getD_range _ _
  · show (List.range t.values.d2).map (t.odims.getD · 0) = t.odims
    rw [w2]; exact map_getD_range _ _
  · show (List.range t.values.d3).map (t.ddims.getD · 0) = t.ddims
    rw [w3]; exact map_getD_range _ _
  · intro i hi o ho d hd
    show t.values.get ((List.range t.values.d0).getD i 0) (([t.vdims.idxOf name] : List Nat).getD 0 0)
      ((List.range t.values.d2).getD o 0) ((List.range t.values.d3).getD d 0) = _
    rw [range_getD' (by rw [w0]; exact hi), range_getD' (by rw [w2]; exact ho), range_getD' (by rw [w3]; exact hd)]
    rfl

/-- **C81 (columns).**  `rename("columns", names)` with as many distinct names as columns gives a coherent triangle, in
which the column under a new name holds the amounts of the column that was at its place; any other number of
names raises. -/
theorem C81_columns {t : Tri K} (wf : WF t) (h3 : 1 ≤ t.ddims.length) (hn : t.vdims.Nodup) (names : List String) :
    (names.length ≠ t.vdims.length → t.renameColumns (.lst names) = .error .valueError) ∧
    (names.length = t.vdims.length → names.Nodup → ∃ u, t.renameColumns (.lst names) = .ok u ∧ WF u ∧
      u.vdims = names ∧ u.kdims = t.kdims ∧ u.odims = t.odims ∧ u.ddims = t.ddims ∧ u.vd = t.vd ∧
      ∀ (c : Nat) (old new : String), t.vdims[c]? = some old → names[c]? = some new →
        ∃ a b, t.getCols [old] = .ok a ∧ u.getCols [new] = .ok b ∧
          ∀ i < t.kdims.length, ∀ o < t.odims.length, ∀ d < t.ddims.length,
            b.values.get i 0 o d = a.values.get i 0 o d) := by
  constructor
  · intro h
    unfold renameColumns setColumns
    exact if_pos (Ne.symm h)
  · intro h hnn
    have wu : WF ({ t with vdims := names } : Tri K) := ⟨wf.1, wf.2.1.trans h.symm, wf.2.2.1, wf.2.2.2⟩
    refine ⟨{ t with vdims := names }, if_neg (not_not.mpr h.symm), wu, rfl, rfl, rfl, rfl, rfl, ?_⟩
    intro c old new ho hnw
    obtain ⟨a, ea, -, -, -, -, ca⟩ := getCols_one wf h3 (List.mem_of_getElem? ho)
    obtain ⟨b, eb, -, -, -, -, cb⟩ := getCols_one wu h3 (name := new) (List.mem_of_getElem? hnw)
    refine ⟨a, b, ea, eb, ?_⟩
    intro i hi o ho' d hd
    rw [ca i hi o ho' d hd, cb i hi o ho' d hd, ← pos_unique hn ho]
    show t.values.get i (names.idxOf new) o d = _
    rw [← pos_unique hnn hnw]

/-- **C81 (a single name).**  `rename("columns", "name")` of a triangle with one column renames it. -/
theorem C81_single {t : Tri K} (wf : WF t) (h1 : t.vdims.length = 1) (name : String) :
    ∃ u, t.renameColumns (.str name) = .ok u ∧ WF u ∧ u.vdims = [name] ∧ u.values = t.values :=
  ⟨{ t with vdims := [name] }, if_neg (not_not.mpr h1), ⟨wf.1, wf.2.1.trans h1, wf.2.2.1, wf.2.2.2⟩, rfl, rfl⟩

/-- **C81 (index).**  A new index with as many rows gives a coherent triangle, in which the row at each place has its
new key and the old amounts; any other number of rows raises. -/
theorem C81_index {t : Tri K} (wf : WF t) (h3 : 1 ≤ t.ddims.length) (labels : List String)
    (rows : List (List String)) :
    (rows.length ≠ t.kdims.length → t.setIndex labels rows = .error .valueError) ∧
    (rows.length = t.kdims.length → ∃ u, t.setIndex labels rows = .ok u ∧ WF u ∧ u.kdims = rows ∧
      u.keyLabels = labels ∧ u.vdims = t.vdims ∧ u.odims = t.odims ∧ u.ddims = t.ddims ∧
      ∀ n < t.kdims.length, ∃ a b, t.ilocAx .index (.lst [(n : Int)]) = .ok a ∧
        u.ilocAx .index (.lst [(n : Int)]) = .ok b ∧ b.kdims = [rows.getD n []] ∧ b.values = a.values) := by
  constructor
  · intro h
    exact if_pos (Ne.symm h)
  · intro h
    have wu : WF ({ t with kdims := rows, keyLabels := labels } : Tri K) :=
      ⟨wf.1.trans h.symm, wf.2.1, wf.2.2.1, wf.2.2.2⟩
    refine ⟨_, if_neg (not_not.mpr h.symm), wu, rfl, rfl, rfl, rfl, rfl, ?_⟩
    intro n hn
    obtain ⟨v, ev⟩ := ilocAx_rows wf h3 (l := [n]) (by simp) (by simpa using hn) (List.nodup_singleton _)
    obtain ⟨v', ev'⟩ := ilocAx_rows wu h3 (l := [n]) (by simp) (by simpa [h] using hn) (List.nodup_singleton _)
    exact ⟨_, _, ev, ev', rfl, rfl⟩

/-! ## Counterexamples -/

/-- Four columns. -/
private def fourColumns : Tri ℚ :=
  { Ex.tri3 (some true) Ex.cum3 with
    vdims := ["a", "b", "c", "d"]
    values := ⟨1, 4, 3, 3, fun _ c o d => Ex.cum3 o d * .fin (c + 1)⟩ }

/-- **C81 is false of `tri.columns = name`**: the length of the string is compared with the number of columns, so that a
name of four letters passes for four columns and leaves a triangle with one label for them; for a single column any
longer name raises. -/
theorem C81_setter_false : (∃ t u : Tri ℚ, WF t ∧ t.setColumns (.str "Paid") = .ok u ∧ ¬ WF u) ∧
    (∃ t : Tri ℚ, WF t ∧ t.vdims.length = 1 ∧ t.setColumns (.str "Paid") = .error .valueError) := by
  constructor
  · refine ⟨fourColumns, { fourColumns with vdims := ["Paid"] }, ⟨rfl, rfl, rfl, rfl⟩, if_neg (by decide), ?_⟩
    intro h
    exact absurd h.2.1 (by decide)
  · exact ⟨Ex.tri3 (some true) Ex.cum3, ⟨rfl, rfl, rfl, rfl⟩, rfl, if_pos (by decide)⟩

/-- **C81 is false of the development of a valuation triangle**: assigning it its own labels turns the valuation
dates into ages. -/
theorem C81_development_false : ∃ t u : Tri ℚ, WF t ∧ t.isVal = true ∧ t.setDevelopment t.ddims = .ok u ∧
    u.isVal = false ∧ u.valuation 0 0 ≠ t.valuation 0 0 := by
  refine ⟨{ Ex.tri3 (some true) Ex.cum3 with isVal := true, ddims := [24131, 24143, 24155] },
    { Ex.tri3 (some true) Ex.cum3 with isVal := false, ddims := [24131, 24143, 24155] }, ⟨rfl, rfl, rfl, rfl⟩, rfl,
    if_neg (by decide), rfl, ?_⟩
  decide

/-- The hypotheses of `C81_columns` hold of the four columns, and the second new name finds the second column. -/
example : WF fourColumns ∧ fourColumns.vdims.Nodup ∧ ∃ u b : Tri ℚ,
    fourColumns.renameColumns (.lst ["p", "q", "r", "a"]) = .ok u ∧ u.getCols ["a"] = .ok b ∧
      b.values.get 0 0 0 0 = .fin 400 := by
  refine ⟨⟨rfl, rfl, rfl, rfl⟩, by decide, { fourColumns with vdims := ["p", "q", "r", "a"] }, ?_⟩
  obtain ⟨b, h1, h2⟩ := ok_of (x := Tri.getCols ({ fourColumns with vdims := ["p", "q", "r", "a"] } : Tri ℚ) ["a"])
    (fun b : Tri ℚ => b.values.get 0 0 0 0 = .fin 400) (by decide +kernel)
  refine ⟨b, ?_, h1, h2⟩
  unfold renameColumns setColumns
  exact if_neg (by decide)

end Tri
end CL
