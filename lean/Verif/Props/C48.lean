import Verif.Lemmas.Predict
import Verif.Lemmas.Benktander
import Verif.Props.C33

set_option linter.unusedSectionVars false

/-! # C48: predicting with a fitted model -/

namespace CL
namespace Tri
variable {K : Type} [Field K] [LinearOrder K] [IsStrictOrderedRing K]

/-- `t'` is `t` with the valuation date `v`. -/
structure Redated (t t' : Tri K) (v : Int) : Prop where
  labels : ∃ g : Nat → Nat → Nat → Nat → Num K, t' = { t with
    vd := v
    values := { t.values with get := g } }
  cells : ∀ i < t.values.d0, ∀ c < t.values.d1, ∀ o < t.values.d2, ∀ d < t.values.d3,
    t'.values.get i c o d = t.values.get i c o d
  date : v ≤ t.vd
  current : ∀ o < t.odims.length, ∀ d < t.ddims.length, t.valuation o d = t.vd → v = t.vd

theorem ilocKeys_all {t : Tri K} (wf : WF t) (h0 : 1 ≤ t.kdims.length) (h3 : 1 ≤ t.ddims.length)
    (labels : List String) {keys : List (List String)} (hk : ∀ k ∈ t.indexFor labels, k ∈ keys) :
    ∃ t' v, t.ilocKeys labels keys = .ok t' ∧ Redated t t' v := by
  obtain ⟨w0, w1, w2, w3⟩ := wf
  have hmask : maskPositions ((t.indexFor labels).map fun k => decide (k ∈ keys)) =
      (List.range t.values.d0).map fun i : Nat => (i : Int) := by
    unfold maskPositions
    have hl : ((t.indexFor labels).map fun k => decide (k ∈ keys)).length = t.values.d0 := by
      rw [List.length_map, w0]; unfold indexFor; rw [List.length_map]
    rw [hl]
    congr 1
    rw [List.filter_eq_self]
    intro i hi
    have hi' := List.mem_range.1 hi
    rw [← hl] at hi'
    rw [List.getD_eq_getElem?_getD, List.getElem?_eq_getElem hi', Option.getD_some, List.getElem_map]
    exact decide_eq_true (hk _ (List.getElem_mem _))
  have e := pick_eq t (List.range t.values.d0) (List.range t.values.d1) (List.range t.values.d2)
    (List.range t.values.d3)
    (Or.inr (by intro e; have := congrArg List.length e; simp at this; omega))
  have sel := sel_positions (n := t.values.d0) (l := List.range t.values.d0)
    (by intro e; have := congrArg List.length e; simp at this; omega)
    (fun x hx => List.mem_range.1 hx) List.nodup_range
  have el := iloc_of_sel (t := t) sel (selS_all t.values.d1).sel (selS_all t.values.d2)
    (selS_all t.values.d3)
  have ek : t.kdims = (List.range t.values.d0).map (t.kdims.getD · []) := by
    rw [w0]; exact (map_getD_range _ _).symm
  have ev : t.vdims = (List.range t.values.d1).map (t.vdims.getD · "") := by
    rw [w1]; exact (map_getD_range _ _).symm
  have eo : t.odims = (List.range t.values.d2).map (t.odims.getD · 0) := by
    rw [w2]; exact (map_getD_range _ _).symm
  have ed : t.ddims = (List.range t.values.d3).map (t.ddims.getD · 0) := by
    rw [w3]; exact (map_getD_range _ _).symm
  have hpick : ∀ v, ∃ g : Nat → Nat → Nat → Nat → Num K, t.picked (List.range t.values.d0)
      (List.range t.values.d1) (List.range t.values.d2) (List.range t.values.d3) v = { t with
        vd := v
        values := { t.values with get := g } } ∧
      ∀ i < t.values.d0, ∀ c < t.values.d1, ∀ o < t.values.d2, ∀ d < t.values.d3,
        g i c o d = t.values.get i c o d := by
    intro v
    refine ⟨(t.values.take (List.range t.values.d0) (List.range t.values.d1) (List.range t.values.d2)
      (List.range t.values.d3)).get, ?_, ?_⟩
    · unfold picked
      rw [← ek, ← ev, ← eo, ← ed]
      unfold Arr.take
      simp only [List.length_range]
    · intro i hi c hc o ho d hd
      unfold Arr.take
      dsimp only
      rw [getD_range _ _ hi, getD_range _ _ hc, getD_range _ _ ho, getD_range _ _ hd]
  set v := (((t.picked (List.range t.values.d0) (List.range t.values.d1) (List.range t.values.d2)
    (List.range t.values.d3) t.vd).valuations.max?).elim t.vd fun a => min a t.vd) with hv
  obtain ⟨g, hg, hc⟩ := hpick v
  refine ⟨_, v, ?_, ⟨⟨g, rfl⟩, hc, ?_, ?_⟩⟩
  · unfold ilocKeys
    rw [hmask, el, e, hg]
  · rw [hv]
    cases ((t.picked (List.range t.values.d0) (List.range t.values.d1) (List.range t.values.d2)
      (List.range t.values.d3) t.vd).valuations.max?) with
    | none => exact le_refl _
    | some a => exact min_le_right _ _
  · intro o ho d hd hcur
    obtain ⟨g', hg', -⟩ := hpick t.vd
    rw [hv, hg']
    have hmem : t.vd ∈ ({ t with
        vd := t.vd
        values := { t.values with get := g' } } : Tri K).valuations := by
      unfold valuations
      rw [List.mem_flatMap]
      exact ⟨d, List.mem_range.2 hd, List.mem_map.2 ⟨o, List.mem_range.2 ho, hcur⟩⟩
    cases hm : ({ t with
        vd := t.vd
        values := { t.values with get := g' } } : Tri K).valuations.max? with
    | none => rfl
    | some a =>
      have := (List.max?_eq_some_iff.1 hm).2 _ hmem
      exact min_eq_right this

private theorem Redated.refl (t : Tri K) : Redated t t t.vd :=
  ⟨⟨t.values.get, rfl⟩, fun _ _ _ _ _ _ _ _ => rfl, le_refl _, fun _ _ _ _ _ => rfl⟩

theorem intersection_same {a b : Tri K} (wa : WF a) (wb : WF b) (hk : b.kdims = a.kdims)
    (hl : b.keyLabels = a.keyLabels) (h0 : 1 ≤ a.kdims.length) (ha : 1 ≤ a.ddims.length)
    (hb : 1 ≤ b.ddims.length) :
    ∃ a' b' va vb, a.intersection b = .ok (a', b') ∧ Redated a a' va ∧ Redated b b' vb := by
  have hsame : ∀ labels, b.indexFor labels = a.indexFor labels := by
    intro labels; unfold indexFor; rw [hk, hl]
  have hkeys : ∀ labels, ((a.indexFor labels).filter fun k => decide (k ∈ b.indexFor labels)) =
      a.indexFor labels := by
    intro labels
    rw [hsame, List.filter_eq_self]
    exact fun k hk => decide_eq_true hk
  unfold intersection
  dsimp only
  by_cases e1 : a.kdims.length = 1 ∧ b.kdims.length = 1
  · rw [if_pos e1]
    exact ⟨a, b, _, _, rfl, .refl a, .refl b⟩
  · rw [if_neg e1]
    by_cases e2 : (a.keyLabels.filter fun l => decide (l ∈ b.keyLabels)) = []
    · rw [if_pos e2]
      exact ⟨a, b, _, _, rfl, .refl a, .refl b⟩
    · rw [if_neg e2, if_neg (by rw [hk] at e1 ⊢; rintro ⟨h | h, -⟩ <;> exact e1 ⟨h, h⟩), hkeys]
      obtain ⟨b', vb, hb', rb⟩ := ilocKeys_all wb (by rw [hk]; exact h0) hb
        (a.keyLabels.filter fun l => decide (l ∈ b.keyLabels))
        (keys := a.indexFor (a.keyLabels.filter fun l => decide (l ∈ b.keyLabels)))
        (by rw [hsame]; exact fun _ h => h)
      obtain ⟨a', va, ha', ra⟩ := ilocKeys_all wa h0 ha
        (a.keyLabels.filter fun l => decide (l ∈ b.keyLabels))
        (keys := a.indexFor (a.keyLabels.filter fun l => decide (l ∈ b.keyLabels)))
        (fun _ h => h)
      refine ⟨a', b', va, vb, ?_, ra, rb⟩
      simp only [hb', ha', bind, Except.bind]

theorem Extends.redated {x m z z' : Tri K} {v : Int} (h : Extends x m z) (hr : Redated z z' v)
    (hv : v = z.vd) : Extends x m z' := by
  obtain ⟨⟨g, rfl⟩, hc, -, -⟩ := hr
  obtain ⟨w0, w1, w2, w3⟩ := h.wf
  refine ⟨⟨w0, w1, w2, w3⟩, h.kdims, h.keyLabels, h.vdims, h.odims, h.ddims, h.isVal, h.ograin, h.dgrain,
    hv.trans h.vd, h.isCum, h.isPattern, h.isAdditive, ?_⟩
  intro i hi c hc' o ho d hd
  rw [hc i (by rw [w0, h.kdims]; exact hi) c (by rw [w1, h.vdims]; exact hc') o
    (by rw [w2, h.odims]; exact ho) d (by rw [w3, h.ddims]; exact hd)]
  exact h.cells i hi c hc' o ho d hd

theorem Extends.cumTri {x m z : Tri K} (hx : CumTri x) (hm : Older m x) (h : Extends x m z) :
    CumTri z := by
  have hle := hm.length_le
  have hval := valuation_plain h.isVal (by rw [h.ddims]; exact fun a ha => (hm.ages a ha).2)
  obtain ⟨w0, w1, w2, w3⟩ := h.wf
  refine ⟨h.wf, ?_, ?_, ?_, ?_, h.isVal, ?_, h.isPattern, ?_, ?_, ?_, ?_⟩
  · intro _
    refine ⟨?_, ?_, ?_⟩
    · rw [h.odims, h.vd]; exact (hx.ordered hx.ages).1
    · rw [h.ddims]; exact fun d hd => (hm.ages d hd).1
    · rw [h.ddims]
      intro hmem
      have := (hm.ages _ (List.dropLast_subset _ hmem)).2
      omega
  · intro _
    rw [h.vd]; exact hx.dated hx.ages
  · intro o ho d hd e he heq
    rw [hval, hval] at heq
    rw [h.ddims] at hd he heq
    have hg : m.ddims.getD d 0 = m.ddims.getD e 0 := by omega
    rw [List.getD_eq_getElem _ _ hd, List.getD_eq_getElem _ _ he] at hg
    exact (List.Nodup.getElem_inj_iff (hm.sorted.imp fun h => ne_of_lt h)).1 hg
  · intro i hi c hc o ho d hd
    rw [w0, h.kdims] at hi
    rw [w1, h.vdims] at hc
    rw [w2, h.odims] at ho
    rw [w3, h.ddims] at hd
    rw [h.cells i hi c hc o ho d hd]
    split_ifs with hb
    · obtain ⟨x0, x1, x2, x3⟩ := hx.wf
      exact Num.noInf_numToNan (hx.finite i (by omega) c (by omega) o (by omega) d (by omega))
    · simp
  · rw [h.isCum]; exact hx.cumulative
  · rw [h.kdims]; exact hx.index_pos
  · rw [h.vdims]; exact hx.columns_pos
  · rw [h.odims]; exact hx.origins_pos
  · rw [h.ddims]; have := hx.ages_two; omega

theorem patternFor_redated {x m z f f' : Tri K} {v : Int} (h : Extends x m z)
    (hx : x.isVal = false) (hf : PatternFor ({ x with ddims := m.ddims } : Tri K) f)
    (hr : Redated f f' v) : PatternFor z f' := by
  obtain ⟨⟨g, rfl⟩, hc, -, -⟩ := hr
  obtain ⟨w0, w1, w2, w3⟩ := hf.wf
  refine ⟨⟨w0, w1, w2, w3⟩, hf.pattern, hf.incremental, hf.multiplicative, ?_, ?_, ?_, ?_, ?_, ?_,
    hf.origin, ?_, ?_⟩
  · rw [h.isVal]; exact hf.ages.trans hx
  · rw [h.ograin]; exact hf.ograin
  · rw [h.dgrain]; exact hf.dgrain
  · rw [h.keyLabels]; exact hf.keyLabels
  · rw [h.kdims]; exact hf.index
  · rw [h.vdims]; exact hf.columns
  · rw [h.ddims]; exact hf.starts
  · intro i hi c hc' j hj
    rw [hc i hi c hc' 0 (by rw [w2, hf.origin]; omega) j hj]
    exact hf.factors i hi c hc' j hj

theorem toUlt_redated {f f' : Tri K} {v : Int} (wf : WF f) (ho : f.odims.length = 1)
    (hr : Redated f f' v) {i c : Nat} (hi : i < f.kdims.length)
    (hc' : c < f.vdims.length ∨ f.vdims.length = 1) (d : Nat) : f'.toUlt i c d = f.toUlt i c d := by
  obtain ⟨⟨g, rfl⟩, hc, -, -⟩ := hr
  obtain ⟨w0, w1, w2, w3⟩ := wf
  unfold toUlt
  refine Finset.prod_congr rfl fun j hj => ?_
  unfold ageFactor
  have := hc (if f.kdims.length = 1 then 0 else i) (by split_ifs <;> omega)
    (if f.vdims.length = 1 then 0 else c) (by split_ifs <;> omega) 0 (by omega) j
    (by rw [w3]; exact (Finset.mem_Ico.1 hj).2)
  exact congrArg Num.amt this

/-- A triangle with an age beyond the ages of the pattern cannot be predicted. -/
theorem C48_rejects {m f x : Tri K} (hx : x.isVal = false) {d : Int} (hd : d ∈ x.ddims)
    (hlate : ∀ a ∈ f.ddims, a < d) : chainladderPredict m f x = .error .valueError := by
  unfold chainladderPredict predictBase valToDev
  rw [if_pos hx]
  simp only [bind, Except.bind]
  cases hmax : f.ddims.max? with
  | none => rfl
  | some a =>
    have ha := (List.max?_eq_some_iff.1 hmax).1
    have : (x.ddims.any fun d => decide (a < d)) = true :=
      List.any_eq_true.2 ⟨d, hd, decide_eq_true (hlate a ha)⟩
    dsimp only
    rw [if_pos this]

/-- What `predict` passes to the method: `x` on the ages of the model, with the model's factors. -/
theorem predictBase_run {m f x : Tri K} (hx : CumTri x) (so : x.odims.Pairwise (· < ·))
    (h2 : 2 ≤ x.odims.length) (hm : Older m x) (hk : f.kdims = x.kdims)
    (hf : PatternFor ({ x with ddims := m.ddims } : Tri K) f)
    {o d : Nat} (ho : o < x.odims.length) (hd : d < x.ddims.length) (hcur : x.valuation o d = x.vd) :
    ∃ z f', predictBase m f x = .ok (z, f') ∧ Extends x m z ∧ CumTri z ∧
      PatternFor z f' ∧ ∀ i < x.kdims.length, ∀ c < x.vdims.length, ∀ d, f'.toUlt i c d = f.toUlt i c d := by
  obtain ⟨z, hz, ez⟩ := addAges_spec hx so h2 hm
  have hle := hm.length_le
  have h3 := hx.ages_two
  have hfl : m.ddims.length ≤ f.ddims.length := hf.length_le
  have hml : 1 ≤ m.ddims.length := by omega
  have hfl' : 1 ≤ f.ddims.length := by omega
  obtain ⟨z', f', va, vb, hi, ra, rb⟩ := intersection_same (a := z) (b := f) ez.wf hf.wf
    (by rw [hk, ez.kdims]) (by rw [ez.keyLabels]; exact hf.keyLabels.symm)
    (by rw [ez.kdims]; exact hx.index_pos) (by rw [ez.ddims]; exact hml) hfl'
  have hva : va = z.vd := ra.current o (by rw [ez.odims]; exact ho) d (by rw [ez.ddims]; omega) (by
    rw [ez.valuation hm hx.ages o hd, hcur, ez.vd])
  have ez' := ez.redated ra hva
  refine ⟨z', f', ?_, ez', ez'.cumTri hx hm, patternFor_redated ez' hx.ages hf rb, ?_⟩
  · unfold predictBase valToDev
    rw [if_pos hx.ages, if_pos hm.isVal]
    simp only [bind, Except.bind]
    have hne : f.ddims ≠ [] := by intro e; rw [e] at hfl'; simp at hfl'
    cases hmax : f.ddims.max? with
    | none => exact absurd (List.max?_eq_none_iff.1 hmax) hne
    | some a =>
      have hall : ¬ (x.ddims.any fun d => decide (a < d)) = true := by
        rw [List.any_eq_true]
        rintro ⟨e, he, hlt⟩
        have h1 : e ∈ f.ddims := by
          rw [← hm.starts] at he
          have h2 := List.mem_of_mem_take he
          rw [← (show f.ddims.take m.ddims.length = m.ddims from hf.starts)] at h2
          exact List.mem_of_mem_take h2
        have := (List.max?_eq_some_iff.1 hmax).2 e h1
        have := of_decide_eq_true hlt
        omega
      dsimp only
      rw [if_neg hall]
      simp only [hz, hi]
  · intro i hi' c hc' d
    refine toUlt_redated hf.wf hf.origin rb (by rw [hk]; exact hi') ?_ d
    rcases hf.columns with e | e
    · exact Or.inl (by rw [e]; exact hc')
    · exact Or.inr e

private theorem predict_run {m f x : Tri K} (hx : CumTri x) (so : x.odims.Pairwise (· < ·))
    (h2 : 2 ≤ x.odims.length) (hm : Older m x) (hk : f.kdims = x.kdims)
    (hf : PatternFor ({ x with ddims := m.ddims } : Tri K) f)
    {o d : Nat} (ho : o < x.odims.length) (hd : d < x.ddims.length) (hcur : x.valuation o d = x.vd) :
    ∃ z f', chainladderPredict m f x = z.chainladder f' none ∧ Extends x m z ∧ CumTri z ∧
      PatternFor z f' ∧ ∀ i < x.kdims.length, ∀ c < x.vdims.length, ∀ d, f'.toUlt i c d = f.toUlt i c d := by
  obtain ⟨z, f', h, r⟩ := predictBase_run hx so h2 hm hk hf ho hd hcur
  refine ⟨z, f', ?_, r⟩
  unfold chainladderPredict
  simp only [h, bind, Except.bind]

/-- **C48**: predicting a triangle `x` that is at least as recent as the model's triangle `m`, and whose
ages are the first ages of `m`.  If a prediction is returned, the ultimate of every origin of `x`
with a cell at the valuation date is its latest amount times the model's factor from that age to
ultimate (0 as missing), whatever the triangle `m` held. -/
theorem C48_predict_partial {m f x u : Tri K} (hx : CumTri x) (so : x.odims.Pairwise (· < ·))
    (h2 : 2 ≤ x.odims.length) (hm : Older m x) (hk : f.kdims = x.kdims)
    (hf : PatternFor ({ x with ddims := m.ddims } : Tri K) f)
    (hrun : chainladderPredict m f x = .ok u)
    {o d : Nat} (ho : o < x.odims.length) (hd : d < x.ddims.length) (hcur : x.valuation o d = x.vd) :
    u.kdims = x.kdims ∧ u.vdims = x.vdims ∧ u.ddims = [ultVal] ∧
      ∃ r, u.odims[r]? = x.odims[o]? ∧ r < u.odims.length ∧
        ∀ i < x.kdims.length, ∀ c < x.vdims.length, u.values.get i c r 0 =
          (Num.fin ((x.values.get i c o d).amt * f.toUlt i c d)).numToNan := by
  obtain ⟨z, f', hz, ez, cz, pz, hu⟩ := predict_run hx so h2 hm hk hf ho hd hcur
  have hle := hm.length_le
  rw [hz] at hrun
  cases hl : z.latestDiagonal with
  | error e =>
    exfalso
    unfold chainladder at hrun
    rw [if_neg (by rw [cz.ages]; simp [cz.cumulative])] at hrun
    simp [hl, bind, Except.bind] at hrun
  | ok l =>
    cases l with
    | scalar s => rw [C33_single_cell cz pz hl] at hrun; simp at hrun
    | tri l =>
      obtain ⟨u', rows, h1, -, hU⟩ := C33_ultimate_partial cz pz hl
      rw [hrun] at h1
      obtain rfl : u = u' := by injection h1
      refine ⟨hU.index.1.trans ez.kdims, hU.columns.trans ez.vdims, hU.development.1, ?_⟩
      have hcurz : z.valuation o d = z.vd := by rw [ez.valuation hm hx.ages o hd, hcur, ez.vd]
      have hmem : o ∈ rows := (hU.mem_rows o).2 ⟨by rw [ez.odims]; exact ho, d, by
        rw [ez.ddims]; omega, hcurz⟩
      obtain ⟨r, hr, hro⟩ := List.getElem_of_mem hmem
      refine ⟨r, ?_, by rw [hU.origins.1]; exact hr, ?_⟩
      · rw [hU.origins.2 r hr, hro, ez.odims]
      · intro i hi c hc
        rw [hU.cells i c r d (by rw [ez.wf.1, ez.kdims]; exact hi) (by rw [ez.wf.2.1, ez.vdims]; exact hc)
          hr (by rw [ez.ddims]; omega) (by rw [hro]; exact hcurz), hro, hu i hi c hc,
          ez.cells i hi c hc o ho d (by omega), if_pos ⟨hd, by omega⟩, Num.amt_numToNan]

/-- **C48 on regular triangles**: the prediction succeeds and every origin gets its latest amount times
the model's factor. -/
theorem C48_regular_partial {m f x : Tri K} (hx : CumTri x) (so : x.odims.Pairwise (· < ·))
    (h2 : 2 ≤ x.odims.length) (hm : Older m x) (hk : f.kdims = x.kdims)
    (hf : PatternFor ({ x with ddims := m.ddims } : Tri K) f)
    {D q : Nat} (hq : 1 ≤ q) (hD : D < x.ddims.length) (hqD : q * (x.odims.length - 1) ≤ D)
    (hv : ∀ o < x.odims.length, x.valuation o (D - q * o) = x.vd) :
    ∃ u, chainladderPredict m f x = .ok u ∧ u.odims = x.odims ∧
      ∀ i < x.kdims.length, ∀ c < x.vdims.length, ∀ o < x.odims.length, u.values.get i c o 0 =
        (Num.fin ((x.values.get i c o (D - q * o)).amt * f.toUlt i c (D - q * o))).numToNan := by
  have hle := hm.length_le
  obtain ⟨z, f', hz, ez, cz, pz, hu⟩ := predict_run hx so h2 hm hk hf (o := 0) (by omega)
    (d := D) hD (by simpa using hv 0 (by omega))
  obtain ⟨u, h1, ho, hc⟩ := C33_regular cz pz (by rw [ez.odims]; exact h2) hq
    (D := D) (by rw [ez.ddims]; omega) (by rw [ez.odims]; exact hqD) (by
      intro o ho
      rw [ez.odims] at ho
      rw [ez.valuation hm hx.ages o (by omega), ez.vd]
      exact hv o ho)
  refine ⟨u, hz.trans h1, ho.trans ez.odims, ?_⟩
  intro i hi c hc' o ho'
  have hcur := hv o ho'
  rw [hc i (by rw [ez.kdims]; exact hi) c (by rw [ez.vdims]; exact hc') o (by rw [ez.odims]; exact ho'),
    hu i hi c hc', ez.cells i hi c hc' o ho' _ (by omega), if_pos ⟨by omega, by omega⟩, Num.amt_numToNan]

namespace C48
/-- The two latest origins of `tri3`, with ages 12 and 24. -/
def newTri : Tri ℚ := Ex.tri2 (some true) fun o d => Ex.cum3 (o + 1) d

theorem older : Older (Ex.tri3 (some true) Ex.cum3) newTri :=
  ⟨by decide, rfl, by decide, by decide, by decide, by decide, by decide, rfl, rfl, rfl, rfl, by decide⟩

theorem cumTri : CumTri newTri :=
  ⟨by decide, by decide, by decide, by unfold DistinctValuations; decide, by decide, rfl, by decide, rfl,
    by decide, by decide, by decide, by decide⟩

/-- A model of ages 12 to 36 with a tail predicts a triangle of ages 12 and 24: ultimates
168 * 11/10 * 21/20 and 120 * 3/2 * 11/10 * 21/20. -/
example : ∃ u, chainladderPredict (Ex.tri3 (some true) Ex.cum3) C33.pat newTri = .ok u ∧
    u.values.get 0 0 0 0 = .fin (4851 / 25) ∧ u.values.get 0 0 1 0 = .fin (2079 / 10) := by
  obtain ⟨u, h1, -, h3⟩ := C48_regular_partial cumTri (by decide) (by decide) older rfl (f := C33.pat)
    ⟨by decide, rfl, by decide, rfl, rfl, rfl, rfl, rfl, Or.inl rfl, Or.inl rfl, rfl, rfl,
      C33.patternFor.factors⟩ (D := 1) (q := 1) le_rfl (by decide) (by decide) (by decide)
  refine ⟨u, h1, ?_, ?_⟩
  · rw [h3 0 (by decide) 0 (by decide) 0 (by decide)]; decide +kernel
  · rw [h3 0 (by decide) 0 (by decide) 1 (by decide)]; decide +kernel

/-- `tri3` as of December 2021. -/
def early : Tri ℚ :=
  { Ex.tri3 (some true) Ex.cum3 with
    vd := 24263
    odims := [24240, 24252]
    ddims := [12, 24]
    values := ⟨1, 1, 2, 2, fun _ _ o d => if o + d ≤ 1 then Ex.cum3 o d else .nan⟩ }

/-- The first column of `tri3`. -/
def oneAge : Tri ℚ :=
  { Ex.tri3 (some true) Ex.cum3 with
    ddims := [12]
    values := ⟨1, 1, 3, 1, fun _ _ o _ => Ex.cum3 o 0⟩ }

end C48

/-- **C48 is false for a triangle with an earlier valuation date than the model's**: adding the model's
row of zeros moves the valuation date to the model's, where the triangle has no amounts, and every
ultimate is missing; the same factors applied to the triangle itself give 693/4 and 7623/40. -/
theorem C48_earlier_false : ∃ u v : Tri ℚ, CumTri C48.early ∧
    chainladderPredict (Ex.tri3 (some true) Ex.cum3) C33.pat C48.early = .ok u ∧
    u.odims = [24240, 24252] ∧ u.values.get 0 0 0 0 = .nan ∧ u.values.get 0 0 1 0 = .nan ∧
    C48.early.chainladder C33.pat none = .ok v ∧
    v.values.get 0 0 0 0 = .fin (693 / 4) ∧ v.values.get 0 0 1 0 = .fin (7623 / 40) := by
  obtain ⟨u, h1, h2⟩ := ok_of (x := chainladderPredict (Ex.tri3 (some true) Ex.cum3) C33.pat C48.early)
    (fun u => u.odims = [24240, 24252] ∧ u.values.get 0 0 0 0 = .nan ∧ u.values.get 0 0 1 0 = .nan)
    (by decide +kernel)
  obtain ⟨v, h3, h4⟩ := ok_of (x := C48.early.chainladder C33.pat none)
    (fun v => v.values.get 0 0 0 0 = .fin (693 / 4) ∧ v.values.get 0 0 1 0 = .fin (7623 / 40))
    (by decide +kernel)
  exact ⟨u, v, ⟨by decide, by decide, by decide, by unfold DistinctValuations; decide, by decide, rfl,
    by decide, rfl, by decide, by decide, by decide, by decide⟩, h1, h2.1, h2.2.1, h2.2.2, h3, h4⟩

/-- **C48 is false for a triangle with a single age**: its column is copied to all ages of the model, so
that the amount 100 of origin 2020 at age 12 gets the factor 21/20 of age 36 instead of
3/2 * 11/10 * 21/20. -/
theorem C48_one_age_false : ∃ u : Tri ℚ, C48.oneAge.ddims = [12] ∧
    C48.oneAge.values.get 0 0 0 0 = .fin 100 ∧
    chainladderPredict (Ex.tri3 (some true) Ex.cum3) C33.pat C48.oneAge = .ok u ∧
    u.odims = [24240, 24252, 24264] ∧ u.values.get 0 0 0 0 = .fin (100 * (21 / 20)) ∧
    C33.pat.toUlt 0 0 0 = 3 / 2 * (11 / 10) * (21 / 20) := by
  obtain ⟨u, h1, h2⟩ := ok_of (x := chainladderPredict (Ex.tri3 (some true) Ex.cum3) C33.pat C48.oneAge)
    (fun u => u.odims = [24240, 24252, 24264] ∧ u.values.get 0 0 0 0 = .fin (100 * (21 / 20)))
    (by decide +kernel)
  exact ⟨u, rfl, rfl, h1, h2.1, h2.2, by decide +kernel⟩

end Tri
end CL
