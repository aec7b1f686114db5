import Verif.Model.HeadTail
import Verif.Lemmas.Grain
import Verif.Props.C13
import Verif.Props.C81

set_option linter.unusedSectionVars false

/-! # C82: head, tail and append -/

namespace CL
namespace Tri
variable {K : Type} [Field K] [LinearOrder K] [IsStrictOrderedRing K]

/-- `u` has the rows of `t` from the position `a` on, `n` of them, and nothing else has changed. -/
structure RowRange (t u : Tri K) (a n : Nat) : Prop where
  wf : WF u
  kdims : u.kdims = (t.kdims.drop a).take n
  keyLabels : u.keyLabels = t.keyLabels
  vdims : u.vdims = t.vdims
  odims : u.odims = t.odims
  ddims : u.ddims = t.ddims
  isVal : u.isVal = t.isVal
  cells : ∀ i < n, ∀ c < t.vdims.length, ∀ o < t.odims.length, ∀ d < t.ddims.length,
    u.values.get i c o d = t.values.get (a + i) c o d

theorem rowRange_of {t : Tri K} (wf : WF t) {a n : Nat} (h : a + n ≤ t.kdims.length) (v : Int) :
    RowRange t (t.rowsOf ((List.range n).map (· + a)) v) a n := by
  refine ⟨wf_rowsOf wf _ _, ?_, rfl, rfl, rfl, rfl, rfl, ?_⟩
  · show ((List.range n).map (· + a)).map (t.kdims.getD · []) = _
    apply List.ext_getElem
    · simp; omega
    · intro i h1 h2
      have hi : i < n := by simpa using h1
      simp only [List.getElem_map, List.getElem_range, List.getElem_take, List.getElem_drop]
      rw [List.getD_eq_getElem _ _ (by omega)]
      congr 1
      omega
  · intro i hi c hc o ho d hd
    show t.values.get (((List.range n).map (· + a)).getD i 0) ((List.range t.values.d1).getD c 0)
      ((List.range t.values.d2).getD o 0) ((List.range t.values.d3).getD d 0) = _
    rw [range_getD' (by rw [wf.2.1]; exact hc), range_getD' (by rw [wf.2.2.1]; exact ho),
      range_getD' (by rw [wf.2.2.2]; exact hd), List.getD_eq_getElem _ _ (by simpa using hi), List.getElem_map,
      List.getElem_range, Nat.add_comm]

theorem selS_upto_min (n k : Nat) : SelS n (.upto (k : Int)) (List.range (min k n)) := by
  have h : SafePos n ⟨none, some (k : Int), none⟩ := by
    refine ⟨by simp, by simp, by simp⟩
  obtain ⟨s, h1, h2⟩ := normalize_pos h
  refine ⟨_, s, h1, rfl, ?_⟩
  rw [h2]
  have h : ¬ ((1 : Int) < 0) := by omega
  simp only [PySlice.positions, PySlice.indices, Option.getD_none, one_ne_zero, if_false, h]
  simp only [pyRange_one, List.map_map]
  congr 1
  have : ((if (k : Int) < 0 then max ((k : Int) + n) 0 else min (k : Int) n) - 0).toNat = min k n := by
    split_ifs <;> omega
  rw [this]
  simp [Function.comp_def]

theorem selS_from_neg_min (n b : Nat) (h0 : b ≠ 0) :
    SelS n (.from (-(b : Int))) ((List.range (min b n)).map (· + (n - min b n))) := by
  have h : SafePos n ⟨some (-(b : Int)), none, none⟩ := ⟨by simp, by simp, by simp⟩
  obtain ⟨k, h1, h2⟩ := normalize_pos h
  refine ⟨_, k, h1, rfl, ?_⟩
  rw [h2]
  have h : ¬ ((1 : Int) < 0) := by omega
  have h' : -(b : Int) < 0 := by omega
  simp only [PySlice.positions, PySlice.indices, Option.getD_none, one_ne_zero, if_false, h, h', if_true]
  simp only [pyRange_one, List.map_map]
  congr 1
  have : ((n : Int) - max (-(b : Int) + n) 0).toNat = min b n := by omega
  rw [this]
  apply List.map_congr_left
  intro i hi
  simp at hi ⊢
  omega

/-- **C82 (head).**  `head(n)` has the first `n` rows, or all if there are fewer. -/
theorem C82_head {t : Tri K} (wf : WF t) (h3 : 1 ≤ t.ddims.length) (n : Nat) :
    ∃ u, t.head n = .ok u ∧ RowRange t u 0 (min n t.kdims.length) := by
  obtain ⟨v, e⟩ := ilocAx_of_sel wf h3 (selS_upto_min t.values.d0 n).sel
  refine ⟨_, e, ?_⟩
  have := rowRange_of wf (a := 0) (n := min n t.kdims.length) (by omega) v
  rw [wf.1]
  simpa using this

/-- **C82 (tail).**  `tail(n)` has the last `n` rows, or all if there are fewer, when `n` is positive. -/
theorem C82_tail_partial {t : Tri K} (wf : WF t) (h3 : 1 ≤ t.ddims.length) {n : Nat} (hn : n ≠ 0) :
    ∃ u, t.tail n = .ok u ∧ RowRange t u (t.kdims.length - min n t.kdims.length) (min n t.kdims.length) := by
  obtain ⟨v, e⟩ := ilocAx_of_sel wf h3 (selS_from_neg_min t.values.d0 n hn).sel
  refine ⟨_, e, ?_⟩
  rw [wf.1]
  exact rowRange_of wf (by omega) v

/-- **C82 is false of `tail(0)`**, which is `iloc[-0:]`: for every triangle it has all rows instead of none. -/
theorem C82_tail_false {t : Tri K} (wf : WF t) (h3 : 1 ≤ t.ddims.length) :
    ∃ u, t.tail 0 = .ok u ∧ RowRange t u 0 t.kdims.length := by
  obtain ⟨v, e⟩ := ilocAx_of_sel wf h3 (selS_from t.values.d0 0).sel
  refine ⟨_, e, ?_⟩
  rw [wf.1]
  exact rowRange_of wf (a := 0) (n := t.kdims.length - 0) (by omega) v

/-- **C82 (head of a negative number).**  `head(-n)` leaves out the last `n` rows, when there are as many. -/
theorem C82_head_negative_partial {t : Tri K} (wf : WF t) (h3 : 1 ≤ t.ddims.length) {n : Nat} (hn : n ≠ 0)
    (hl : n ≤ t.kdims.length) :
    ∃ u, t.head (-(n : Int)) = .ok u ∧ RowRange t u 0 (t.kdims.length - n) := by
  obtain ⟨v, e⟩ := ilocAx_of_sel wf h3 (selS_upto_neg t.values.d0 n (by rw [wf.1]; exact hl) hn).sel
  refine ⟨_, e, ?_⟩
  have := rowRange_of wf (a := 0) (n := t.kdims.length - n) (by omega) v
  rw [wf.1]
  simpa using this

/-- **C82 (tail of a negative number).**  `tail(-n)` leaves out the first `n` rows. -/
theorem C82_tail_negative {t : Tri K} (wf : WF t) (h3 : 1 ≤ t.ddims.length) {n : Nat} (hl : n ≤ t.kdims.length) :
    ∃ u, t.tail (-(n : Int)) = .ok u ∧ RowRange t u n (t.kdims.length - n) := by
  obtain ⟨v, e⟩ := ilocAx_of_sel wf h3 (selS_from t.values.d0 n).sel
  refine ⟨_, (by unfold tail; rw [neg_neg]; exact e), ?_⟩
  rw [wf.1]
  exact rowRange_of wf (by omega) v

/-- **C82 is false of `head(-n)` for more than all rows**: leaving out more rows than there are leaves out none. -/
theorem C82_head_negative_false {t : Tri K} (wf : WF t) (h3 : 1 ≤ t.ddims.length) {n : Nat} (hl : t.kdims.length < n) :
    ∃ u, t.head (-(n : Int)) = .ok u ∧ RowRange t u 0 t.kdims.length := by
  obtain ⟨v, e⟩ := ilocAx_of_sel wf h3 (C13_far_negative_stop_false t.values.d0 n (by rw [wf.1]; exact hl)).1.sel
  refine ⟨_, e, ?_⟩
  have := rowRange_of wf (a := 0) (n := t.kdims.length) (by omega) v
  rw [wf.1]
  simpa using this

/-- **C82 (append).**  Appending the remaining rows to the head gives all rows again, each with its amounts. -/
theorem C82_append {t : Tri K} (wf : WF t) (h3 : 1 ≤ t.ddims.length) (hd : t.kdims.Nodup) {n : Nat}
    (hn : n < t.kdims.length) :
    ∃ a b u, t.head n = .ok a ∧ t.tail ((t.kdims.length - n : Nat) : Int) = .ok b ∧ a.append b = .ok u ∧
      RowRange t u 0 t.kdims.length := by
  obtain ⟨a, ea, ha⟩ := C82_head wf h3 n
  obtain ⟨b, eb, hb⟩ := C82_tail_partial wf h3 (n := t.kdims.length - n) (by omega)
  have m1 : min n t.kdims.length = n := by omega
  have m2 : min (t.kdims.length - n) t.kdims.length = t.kdims.length - n := by omega
  have m3 : t.kdims.length - (t.kdims.length - n) = n := by omega
  rw [m1] at ha
  rw [m2, m3] at hb
  have ka : a.kdims = t.kdims.take n := by rw [ha.kdims, List.drop_zero]
  have kb : b.kdims = t.kdims.drop n := by
    rw [hb.kdims, List.take_of_length_le (by simp)]
  have la : a.kdims.length = n := by rw [ka, List.length_take]; omega
  have lb : b.kdims.length = t.kdims.length - n := by rw [kb, List.length_drop]
  have hfm : [a, b].flatMap Tri.kdims = t.kdims := by
    simp [ka, kb]
  have both : ∀ s ∈ [a, b], WF s ∧ s.vdims = t.vdims ∧ s.odims = t.odims ∧ s.ddims = t.ddims ∧ s.isVal = t.isVal := by
    intro s hs
    rcases List.mem_pair.mp hs with rfl | rfl
    · exact ⟨ha.wf, ha.vdims, ha.odims, ha.ddims, ha.isVal⟩
    · exact ⟨hb.wf, hb.vdims, hb.odims, hb.ddims, hb.isVal⟩
  have hal : alignColumns .index [a, b] = .ok [a, b] := by
    unfold alignColumns
    rw [if_neg (by decide)]
    exact mapM_fill_id _ t.vdims fun s hs => (both s hs).2.1
  obtain ⟨u, eu, wu, labu, agu, colu, ⟨t0, rest, et, -, t1, t2, -⟩, cellu⟩ := concat_core (ax := .index)
    (by simp) hal (by simp) (fun s hs => (both s hs).1)
    (by
      intro s hs s' hs'
      obtain ⟨-, -, o1, d1, i1⟩ := both s hs
      obtain ⟨-, -, o2, d2, i2⟩ := both s' hs'
      exact ⟨fun n => absurd rfl n, fun _ => o2.trans o1.symm, fun _ => ⟨d2.trans d1.symm, i2.trans i1.symm⟩⟩)
    (by
      intro _ s hs s' hs'
      exact (both s' hs').2.1.trans (both s hs).2.1.symm)
    (by
      show ([a, b].flatMap Tri.kdims).Nodup
      rw [hfm]
      exact hd)
  obtain ⟨rfl, -⟩ := List.cons.inj et
  have ag := agu a (by simp)
  have uk : u.kdims = t.kdims := (labu.1 rfl).trans hfm
  have uo : u.odims = t.odims := by rw [← ag.2.1 (by decide), ha.odims]
  have ud : u.ddims = t.ddims := by rw [← (ag.2.2 (by decide)).1, ha.ddims]
  refine ⟨a, b, u, ea, eb, eu, ⟨wu, by rw [uk]; simp, t2.trans ha.keyLabels,
    (colu (by decide) a (by simp)).trans ha.vdims, uo, ud, t1.trans ha.isVal, ?_⟩⟩
  intro i hi c hc o ho d hd'
  rw [Nat.zero_add]
  let p : Pos := fun x => match x with
    | .index => i
    | .columns => c
    | .origin => o
    | .development => d
  have hl : u.values.get i c o d = u.values.cell p := rfl
  have da : a.values.dim .index = n := by show a.values.d0 = n; rw [ha.wf.1, la]
  have db : b.values.dim .index = t.kdims.length - n := by
    show b.values.d0 = _; rw [hb.wf.1, lb]
  by_cases hin : i < n
  · have hc' := cellu 0 (by simp) i (by rw [List.getElem_cons_zero, da]; exact hin) p (by simp [p])
    rw [hl, hc']
    show a.values.get i c o d = _
    rw [ha.cells i hin c hc o ho d hd', Nat.zero_add]
  · have hc' := cellu 1 (by simp) (i - n) (by simp only [List.getElem_cons_succ, List.getElem_cons_zero]; rw [db]; omega) p
      (by simp [p, da]; omega)
    rw [hl, hc']
    show b.values.get (i - n) c o d = _
    rw [hb.cells (i - n) (by omega) c hc o ho d hd']
    congr 1
    omega

theorem total_rows {u : Tri K} {c o d : Nat} (h : ∀ i < u.values.d0, (u.values.get i c o d).NoInf) :
    ((u.sumKeep .index).values.get 0 c o d).amt = ∑ i ∈ Finset.range u.values.d0, (u.values.get i c o d).amt := by
  show ((∑ i ∈ Finset.range u.values.d0, (u.values.get i c o d).nan0).numToNan).amt = _
  rw [Num.amt_numToNan, Num.sum_nan0 _ _ (fun i hi => h i (Finset.mem_range.mp hi))]
  rfl

/-- **C82 (totals).**  The total of the first rows and the total of the remaining rows add up to the total of all rows. -/
theorem C82_total {t : Tri K} (wf : WF t) (fin : Finite t) (h3 : 1 ≤ t.ddims.length) {n : Nat} (hn : n < t.kdims.length) :
    ∃ a b, t.head n = .ok a ∧ t.tail ((t.kdims.length - n : Nat) : Int) = .ok b ∧
      ∀ c < t.vdims.length, ∀ o < t.odims.length, ∀ d < t.ddims.length,
        ((a.sumKeep .index).values.get 0 c o d).amt + ((b.sumKeep .index).values.get 0 c o d).amt =
          ((t.sumKeep .index).values.get 0 c o d).amt := by
  obtain ⟨a, ea, ha⟩ := C82_head wf h3 n
  obtain ⟨b, eb, hb⟩ := C82_tail_partial wf h3 (n := t.kdims.length - n) (by omega)
  have m1 : min n t.kdims.length = n := by omega
  have m2 : min (t.kdims.length - n) t.kdims.length = t.kdims.length - n := by omega
  have m3 : t.kdims.length - (t.kdims.length - n) = n := by omega
  rw [m1] at ha
  rw [m2, m3] at hb
  have la : a.values.d0 = n := by rw [ha.wf.1, ha.kdims, List.length_take, List.length_drop]; omega
  have lb : b.values.d0 = t.kdims.length - n := by rw [hb.wf.1, hb.kdims, List.length_take, List.length_drop]; omega
  refine ⟨a, b, ea, eb, ?_⟩
  intro c hc o ho d hd
  have ft : ∀ i < t.kdims.length, (t.values.get i c o d).NoInf := fun i hi =>
    fin i (by rw [wf.1]; exact hi) c (by rw [wf.2.1]; exact hc) o (by rw [wf.2.2.1]; exact ho) d
      (by rw [wf.2.2.2]; exact hd)
  have ca : ∀ i < n, a.values.get i c o d = t.values.get i c o d := fun i hi => by
    rw [ha.cells i hi c hc o ho d hd, Nat.zero_add]
  have cb : ∀ i < t.kdims.length - n, b.values.get i c o d = t.values.get (n + i) c o d := fun i hi =>
    hb.cells i hi c hc o ho d hd
  rw [total_rows (u := a) (fun i hi => by rw [ca i (by omega)]; exact ft i (by omega)),
    total_rows (u := b) (fun i hi => by rw [cb i (by omega)]; exact ft _ (by omega)),
    total_rows (u := t) (fun i hi => ft i (by rw [← wf.1]; exact hi)), la, lb, wf.1]
  have split : t.kdims.length = n + (t.kdims.length - n) := by omega
  conv_rhs => rw [split, Finset.sum_range_add]
  congr 1
  · exact Finset.sum_congr rfl fun i hi => by rw [ca i (Finset.mem_range.mp hi)]
  · exact Finset.sum_congr rfl fun i hi => by rw [cb i (Finset.mem_range.mp hi)]

/-- Five rows. -/
private def five : Tri ℚ :=
  { Ex.tri3 (some true) Ex.cum3 with
    kdims := [["a"], ["b"], ["c"], ["d"], ["e"]]
    keyLabels := ["lob"]
    values := ⟨5, 1, 3, 3, fun i _ o d => Ex.cum3 o d * .fin (i + 1)⟩ }

/-- The hypotheses hold of five rows, of which `tail(2)` are the last two. -/
example : WF five ∧ 1 ≤ five.ddims.length ∧ five.kdims.Nodup ∧ ∃ u : Tri ℚ, five.tail 2 = .ok u ∧
    u.kdims = [["d"], ["e"]] ∧ u.values.get 0 0 0 0 = .fin 400 := by
  refine ⟨⟨rfl, rfl, rfl, rfl⟩, by decide, by decide, ?_⟩
  exact ok_of (x := five.tail 2) (fun u : Tri ℚ => u.kdims = [["d"], ["e"]] ∧ u.values.get 0 0 0 0 = .fin 400)
    (by decide +kernel)

end Tri
end CL
