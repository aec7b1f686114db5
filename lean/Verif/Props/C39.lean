import Verif.Lemmas.Voting
import Verif.Props.C38

set_option linter.unusedSectionVars false

/-! # C39: the voting ensemble is the weighted average of its members -/

namespace CL
variable {K : Type} [Field K] [LinearOrder K] [IsStrictOrderedRing K]

/-- The member can be fitted on `t` and predicts the ultimates `U` for it. -/
def Member.Gives (e : Member K) (t : Tri K) (U : Nat → Nat → Nat → K) : Prop :=
  ∃ g u, e.fit t = .ok g ∧ g t = .ok u ∧ Tri.UltAmt t u U

/-- Fitting with the members `es` left after dropping. -/
theorem votingFit_spec {ests : List (Option (Member K))} {es : List (Member K)} (he : ests.filterMap id = es)
    (hne : ests ≠ []) {w : WeightArg K} {d : Option (List (Num K))} {t : Tri K} (hw : Tri.WF t) {ws : Weights K}
    (hc : w.coerce (d.getD (List.replicate ests.length 1)) t = .ok ws)
    {W : Nat → Nat → Nat → Nat → K} (h : ws.Are t ests.length W) {Us : List (Nat → Nat → Nat → K)}
    (hg : List.Forall₂ (fun (e : Member K) U => e.Gives t U) es Us) :
    ∃ v, votingFit ests w d t = .ok v ∧ v.weights = ws ∧
      List.Forall₂ (fun g U => ∃ u, g t = .ok u ∧ Tri.UltAmt t u U) v.fitted Us := by
  obtain ⟨gs, h1, h2⟩ : ∃ gs, es.mapM (fun e => e.fit t) = .ok gs ∧
      List.Forall₂ (fun g U => ∃ u, g t = .ok u ∧ Tri.UltAmt t u U) gs Us := by
    clear he
    induction hg with
    | nil => exact ⟨[], rfl, List.Forall₂.nil⟩
    | @cons e U es Us hU _ ih =>
      obtain ⟨g, u, hg, hu, hU⟩ := hU
      obtain ⟨gs, h1, h2⟩ := ih
      refine ⟨g :: gs, ?_, List.Forall₂.cons ⟨u, hu, hU⟩ h2⟩
      rw [List.mapM_cons, hg, h1]
      rfl
  refine ⟨⟨ws, gs⟩, ?_, rfl, h2⟩
  unfold votingFit
  rw [if_neg hne]
  simp only [bind, Except.bind]
  rw [hc]
  simp only
  rw [if_neg (by rw [h.origins, hw.2.2.1]; simp), if_neg (by rw [h.members]; simp), he, h1]

theorem filterMap_map_some {α : Type} (l : List α) : (l.map some).filterMap id = l := by
  induction l with
  | nil => rfl
  | cons a l ih => rw [List.map_cons, List.filterMap_cons]; simp [ih]

/-- With any number of members, none of them dropped, and weights per origin, per column and origin, or
per index, column and origin: the ultimate is the weighted average of the ultimates of the members.
Missing: dropped members (false, see `C39_drop_false`) and weights adding up to zero. -/
theorem C39_weighted_partial {es : List (Member K)} (hne : es ≠ []) {t : Tri K} (hw : Tri.WF t)
    {ws : Weights K} {W : Nat → Nat → Nat → Nat → K} (h : ws.Are t es.length W)
    (hW : ∀ i < t.kdims.length, ∀ c < t.vdims.length, ∀ o < t.odims.length,
      ∑ j ∈ Finset.range es.length, W i c o j ≠ 0) {Us : List (Nat → Nat → Nat → K)}
    (hg : List.Forall₂ (fun (e : Member K) U => e.Gives t U) es Us) (d : Option (List (Num K))) :
    ∃ r, votingUltimate (es.map some) (.array ws) d t = .ok (some r) ∧ Tri.UltAmt t r fun i c o =>
      (∑ j ∈ Finset.range es.length, W i c o j * (Us.getD j fun _ _ _ => 0) i c o) /
        ∑ j ∈ Finset.range es.length, W i c o j := by
  obtain ⟨v, hv, rfl, hf⟩ := votingFit_spec (filterMap_map_some es) (by simpa using hne) hw
    (w := .array ws) (d := d) rfl (W := W) (by rw [List.length_map]; exact h) hg
  have hl := hg.length_eq
  obtain ⟨r, hr, ru⟩ := ultimate_spec h hw hf hl.ge
    (by intro e; rw [e] at hl; exact hne (List.length_eq_zero_iff.1 hl)) hW
  refine ⟨r, ?_, by rw [hl] at ru ⊢; exact ru⟩
  unfold votingUltimate
  simp only [bind, Except.bind]
  rw [hv]
  exact hr

/-- Without weights the ultimate is the plain average, for a triangle with as many origins as ages.
Missing: other triangles (false, see `C39_default_false`). -/
theorem C39_average_partial {es : List (Member K)} (hne : es ≠ []) {t : Tri K} (hw : Tri.WF t)
    (hsq : t.ddims.length = t.odims.length) {Us : List (Nat → Nat → Nat → K)}
    (hg : List.Forall₂ (fun (e : Member K) U => e.Gives t U) es Us) :
    ∃ r, votingUltimate (es.map some) .default none t = .ok (some r) ∧ Tri.UltAmt t r fun i c o =>
      (∑ j ∈ Finset.range es.length, (Us.getD j fun _ _ _ => 0) i c o) / es.length := by
  have hpos : 0 < es.length := List.length_pos_iff.2 hne
  obtain ⟨v, hv, hws, hf⟩ := votingFit_spec (filterMap_map_some es) (by simpa using hne) hw
    (w := .default) (d := none) rfl (W := fun _ _ _ _ => 1)
    (by
      refine ⟨by rw [hw.2.2.2, hsq], by simp, ?_⟩
      intro i hi c hc o ho j hj
      show (List.replicate (es.map some).length (1 : Num K)).getD j .nan = _
      rw [List.getD_eq_getElem _ _ (by rw [List.length_replicate]; exact hj), List.getElem_replicate, Num.one_def]) hg
  have hl := hg.length_eq
  have h1 : ∑ j ∈ Finset.range es.length, (1 : K) = es.length := by simp
  obtain ⟨r, hr, ru⟩ := ultimate_spec (v := v) (m := es.length) (W := fun _ _ _ _ => 1) (by
      rw [hws]
      refine ⟨by rw [hw.2.2.2, hsq], by simp, ?_⟩
      intro i hi c hc o ho j hj
      show (List.replicate (es.map some).length (1 : Num K)).getD j .nan = _
      rw [List.getD_eq_getElem _ _ (by rw [List.length_replicate, List.length_map]; exact hj), List.getElem_replicate,
        Num.one_def]) hw hf hl.ge
    (by intro e; rw [e] at hl; exact hne (List.length_eq_zero_iff.1 hl))
    (by intro i _ c _ o _; rw [h1]; exact Nat.cast_ne_zero.2 hpos.ne')
  refine ⟨r, ?_, ?_⟩
  · unfold votingUltimate
    simp only [bind, Except.bind]
    rw [hv]
    exact hr
  · simp only [one_mul, h1] at ru
    rw [hl] at ru ⊢; exact ru

/-- If all members agree, the ensemble agrees. -/
theorem C39_agree_partial {es : List (Member K)} (hne : es ≠ []) {t : Tri K} (hw : Tri.WF t)
    {ws : Weights K} {W : Nat → Nat → Nat → Nat → K} (h : ws.Are t es.length W)
    (hW : ∀ i < t.kdims.length, ∀ c < t.vdims.length, ∀ o < t.odims.length,
      ∑ j ∈ Finset.range es.length, W i c o j ≠ 0) {U : Nat → Nat → Nat → K}
    (hg : ∀ e ∈ es, e.Gives t U) (d : Option (List (Num K))) :
    ∃ r, votingUltimate (es.map some) (.array ws) d t = .ok (some r) ∧ Tri.UltAmt t r U := by
  have hf : List.Forall₂ (fun (e : Member K) U => e.Gives t U) es (List.replicate es.length U) := by
    clear hne h hW
    induction es with
    | nil => exact List.Forall₂.nil
    | cons e es ih =>
      exact List.Forall₂.cons (hg e (by simp)) (ih fun x hx => hg x (by simp [hx]))
  obtain ⟨r, hr, ru⟩ := C39_weighted_partial hne hw h hW hf d
  refine ⟨r, hr, ru.wf, ru.index, ru.keyLabels, ru.columns, ru.origins, ru.one, ru.ograin, ru.date, ru.noPattern, ?_⟩
  intro i hi c hc o ho
  obtain ⟨h1, h2⟩ := ru.cells i hi c hc o ho
  refine ⟨h1, ?_⟩
  rw [h2]
  have : ∑ j ∈ Finset.range es.length, W i c o j * ((List.replicate es.length U).getD j fun _ _ _ => 0) i c o =
      (∑ j ∈ Finset.range es.length, W i c o j) * U i c o := by
    rw [Finset.sum_mul]
    refine Finset.sum_congr rfl fun j hj => ?_
    rw [List.getD_eq_getElem _ _ (by rw [List.length_replicate]; exact Finset.mem_range.1 hj), List.getElem_replicate]
  rw [this, mul_div_cancel_left₀ _ (hW i hi c hc o ho)]

/-- The rows of a callable or dictionary as weights. -/
theorem ofRows_are {t : Tri K} {m : Nat} (hO : t.odims ≠ []) {row : Int → List (Num K)}
    {R : Int → Nat → K} (hr : ∀ o ∈ t.odims, (row o).length = m ∧ ∀ j < m, (row o).getD j .nan = .fin (R o j)) :
    ∃ ws, Weights.ofRows (t.odims.map row) = .ok ws ∧ ws.Are t m fun _ _ o j => R (t.odims.getD o 0) j := by
  cases e : t.odims with
  | nil => exact absurd e hO
  | cons a l =>
    have ha := hr a (by rw [e]; simp)
    have hall : ((a :: l).map row).all (fun x => x.length == (row a).length) = true := by
      rw [List.all_eq_true]
      intro x hx
      obtain ⟨o, ho, rfl⟩ := List.mem_map.1 hx
      simp only [beq_iff_eq]
      rw [(hr o (by rw [e]; exact ho)).1, ha.1]
    refine ⟨.mat ((a :: l).map row).length (row a).length
      fun o j => (((a :: l).map row).getD o []).getD j .nan, ?_, ?_, ha.1, ?_⟩
    · unfold Weights.ofRows
      rw [List.map_cons] at hall ⊢
      simp only
      rw [if_pos hall]
    · rw [List.length_map, e]
    · intro i hi c hc o ho j hj
      rw [List.length_map] at ho
      have h1 : ((a :: l).map row).getD o [] = row ((a :: l).getD o 0) := by
        rw [List.getD_eq_getElem _ _ (by rw [List.length_map]; exact ho), List.getElem_map,
          List.getD_eq_getElem _ _ ho]
      show (((a :: l).map row).getD o []).getD j .nan = .fin (R ((a :: l).getD o 0) j)
      rw [h1]
      have h2 : (a :: l).getD o 0 ∈ t.odims := by
        rw [e, List.getD_eq_getElem _ _ ho]; exact List.getElem_mem ho
      rw [← e] at h2 ⊢
      exact (hr _ h2).2 j hj

/-- A dictionary gives an origin the weights of its key, and the default weighting to origins without
one. -/
theorem C39_dict_partial {es : List (Member K)} (hne : es ≠ []) {t : Tri K} (hw : Tri.WF t) (hO : t.odims ≠ [])
    {items : List (Int × List (Num K))} (hk : ∀ p ∈ items, p.1 ∈ t.odims)
    {row : Int → List (Num K)} {d : List (Num K)}
    (hrow : ∀ o ∈ t.odims, (∃ x, (o, x) ∈ items ∧ (∀ p ∈ items, p.1 = o → p.2 = x) ∧ row o = x) ∨
      ((∀ p ∈ items, p.1 ≠ o) ∧ row o = d)) {R : Int → Nat → K}
    (hr : ∀ o ∈ t.odims, (row o).length = es.length ∧ ∀ j < es.length, (row o).getD j .nan = .fin (R o j))
    (hW : ∀ o ∈ t.odims, ∑ j ∈ Finset.range es.length, R o j ≠ 0) {Us : List (Nat → Nat → Nat → K)}
    (hg : List.Forall₂ (fun (e : Member K) U => e.Gives t U) es Us) :
    ∃ r, votingUltimate (es.map some) (.dict items) (some d) t = .ok (some r) ∧ Tri.UltAmt t r fun i c o =>
      (∑ j ∈ Finset.range es.length, R (t.odims.getD o 0) j * (Us.getD j fun _ _ _ => 0) i c o) /
        ∑ j ∈ Finset.range es.length, R (t.odims.getD o 0) j := by
  obtain ⟨ws, h1, h2⟩ := ofRows_are hO hr
  have hc : (WeightArg.dict items).coerce d t = .ok ws := by
    unfold WeightArg.coerce
    simp only
    rw [if_pos (by simpa using hk), ← h1]
    congr 1
    refine List.map_congr_left fun o ho => ?_
    rcases hrow o ho with ⟨x, hx, hu, e⟩ | ⟨hn, e⟩
    · cases hf : items.find? fun p => p.1 == o with
      | none =>
        rw [List.find?_eq_none] at hf
        exact absurd (hf (o, x) hx) (by simp)
      | some p =>
        have hp := List.find?_some hf
        have hm := List.mem_of_find?_eq_some hf
        rw [e]
        exact hu p hm (by simpa using hp)
    · have hf : items.find? (fun p => p.1 == o) = none := by
        rw [List.find?_eq_none]
        intro p hp
        simpa using hn p hp
      rw [hf, e]
      rfl
  obtain ⟨v, hv, rfl, hf⟩ := votingFit_spec (filterMap_map_some es) (by simpa using hne) hw
    (w := .dict items) (d := some d) hc (by rw [List.length_map]; exact h2) hg
  have hl := hg.length_eq
  obtain ⟨r, hr, ru⟩ := ultimate_spec h2 hw hf hl.ge
    (by intro e; rw [e] at hl; exact hne (List.length_eq_zero_iff.1 hl)) (by
      intro i _ c _ o ho
      refine hW _ ?_
      rw [List.getD_eq_getElem _ _ ho]; exact List.getElem_mem ho)
  refine ⟨r, ?_, by rw [hl] at ru ⊢; exact ru⟩
  unfold votingUltimate
  simp only [bind, Except.bind]
  rw [hv]
  exact hr

/-- Without weights a triangle whose numbers of origins and ages differ is an error: the default
weights are repeated once per age. -/
theorem C39_default_false {ests : List (Option (Member K))} {t : Tri K} (hw : Tri.WF t)
    (hsq : t.ddims.length ≠ t.odims.length) (d : Option (List (Num K))) :
    votingUltimate ests .default d t = .error .valueError := by
  unfold votingUltimate votingFit
  simp only [bind, Except.bind]
  split_ifs with h
  · rfl
  · simp only [WeightArg.coerce]
    rw [if_pos]
    show t.values.d3 ≠ t.values.d2
    rw [hw.2.2.2, hw.2.2.1]
    exact hsq

/-- Dropping members: the sum of the ultimates of the others is still divided by the number of all.
Holds of every triangle with as many origins as ages, so the ensemble is not that of the others. -/
theorem C39_drop_false {ests : List (Option (Member K))} {es : List (Member K)} (he : ests.filterMap id = es)
    (hne : es ≠ []) {t : Tri K} (hw : Tri.WF t)
    (hsq : t.ddims.length = t.odims.length) {Us : List (Nat → Nat → Nat → K)}
    (hg : List.Forall₂ (fun (e : Member K) U => e.Gives t U) es Us) :
    ∃ r, votingUltimate ests .default none t = .ok (some r) ∧ Tri.UltAmt t r fun i c o =>
      (∑ j ∈ Finset.range es.length, (Us.getD j fun _ _ _ => 0) i c o) / ests.length := by
  have hle : es.length ≤ ests.length := by rw [← he]; exact List.length_filterMap_le _ _
  have hpos : 0 < es.length := List.length_pos_iff.2 hne
  have hne' : ests ≠ [] := by intro e; rw [e] at hle; simp at hle; exact hne hle
  have hA : (Weights.mat t.values.d3 (List.replicate ests.length (1 : Num K)).length
      fun _ j => (List.replicate ests.length (1 : Num K)).getD j .nan).Are t ests.length fun _ _ _ _ => 1 := by
    refine ⟨by rw [hw.2.2.2, hsq], by simp, ?_⟩
    intro i hi c hc o ho j hj
    show (List.replicate ests.length (1 : Num K)).getD j .nan = _
    rw [List.getD_eq_getElem _ _ (by rw [List.length_replicate]; exact hj), List.getElem_replicate, Num.one_def]
  obtain ⟨v, hv, hws, hf⟩ := votingFit_spec he hne' hw (w := .default) (d := none) rfl hA hg
  have hl := hg.length_eq
  have h1 : ∑ j ∈ Finset.range ests.length, (1 : K) = ests.length := by simp
  obtain ⟨r, hr, ru⟩ := ultimate_spec (v := v) (m := ests.length) (W := fun _ _ _ _ => 1) (by rw [hws]; exact hA)
    hw hf (by omega)
    (by intro e; rw [e] at hl; exact hne (List.length_eq_zero_iff.1 hl))
    (by intro i _ c _ o _; rw [h1]; exact Nat.cast_ne_zero.2 (by omega))
  refine ⟨r, ?_, ?_⟩
  · unfold votingUltimate
    simp only [bind, Except.bind]
    rw [hv]
    exact hr
  · simp only [one_mul, h1] at ru
    rw [hl]; exact ru

/-- Dropping the first of two members and giving weight one to the second only: the weight zero of the
dropped member is used for the other one. -/
theorem C39_drop_weights_false {e : Member K} {t : Tri K} (hw : Tri.WF t) {U : Nat → Nat → Nat → K}
    (hg : e.Gives t U) : ∃ r, votingUltimate [none, some e]
      (.array (.mat t.odims.length 2 fun _ j => .fin (if j = 0 then 0 else 1))) none t = .ok (some r) ∧
      Tri.UltAmt t r fun _ _ _ => 0 := by
  have hA : (Weights.mat t.odims.length 2 fun _ j => Num.fin (if j = 0 then (0 : K) else 1)).Are t 2
      fun _ _ _ j => if j = 0 then 0 else 1 := ⟨rfl, rfl, fun _ _ _ _ _ _ _ _ => rfl⟩
  obtain ⟨v, hv, hws, hf⟩ := votingFit_spec (ests := [none, some e]) (es := [e]) rfl (by simp) hw
    (w := .array (.mat t.odims.length 2 fun _ j => .fin (if j = 0 then 0 else 1))) (d := none) rfl hA
    (List.Forall₂.cons hg List.Forall₂.nil)
  have h1 : ∑ j ∈ Finset.range 2, (if j = 0 then (0 : K) else 1) = 1 := by
    rw [Finset.sum_range_succ, Finset.sum_range_one]; simp
  obtain ⟨r, hr, ru⟩ := ultimate_spec (v := v) (m := 2) (W := fun _ _ _ j => if j = 0 then 0 else 1)
    (by rw [hws]; exact hA) hw hf (by simp) (by simp)
    (by intro i _ c _ o _; rw [h1]; exact one_ne_zero)
  refine ⟨r, ?_, ?_⟩
  · unfold votingUltimate
    simp only [bind, Except.bind]
    rw [hv]
    exact hr
  · refine ⟨ru.wf, ru.index, ru.keyLabels, ru.columns, ru.origins, ru.one, ru.ograin, ru.date, ru.noPattern, ?_⟩
    intro i hi c hc o ho
    obtain ⟨h1, h2⟩ := ru.cells i hi c hc o ho
    exact ⟨h1, by rw [h2]; simp⟩

/-- Fitting and the members' predictions for another triangle. -/
theorem votingFit_new {es : List (Member K)} (hne : es ≠ []) {w : WeightArg K} {d : Option (List (Num K))}
    {t x : Tri K} (hw : Tri.WF t) {ws : Weights K}
    (hc : w.coerce (d.getD (List.replicate es.length 1)) t = .ok ws)
    {W : Nat → Nat → Nat → Nat → K} (h : ws.Are t es.length W) {Us : List (Nat → Nat → Nat → K)}
    (hg : List.Forall₂ (fun (e : Member K) U => ∃ g u, e.fit t = .ok g ∧ g x = .ok u ∧ Tri.UltAmt x u U) es Us) :
    ∃ v, votingFit (es.map some) w d t = .ok v ∧ v.weights = ws ∧
      List.Forall₂ (fun g U => ∃ u, g x = .ok u ∧ Tri.UltAmt x u U) v.fitted Us := by
  obtain ⟨gs, h1, h2⟩ : ∃ gs, es.mapM (fun e => e.fit t) = .ok gs ∧
      List.Forall₂ (fun g U => ∃ u, g x = .ok u ∧ Tri.UltAmt x u U) gs Us := by
    clear h hc hne
    induction hg with
    | nil => exact ⟨[], rfl, List.Forall₂.nil⟩
    | @cons e U es Us hU _ ih =>
      obtain ⟨g, u, hg, hu, hU⟩ := hU
      obtain ⟨gs, h1, h2⟩ := ih
      refine ⟨g :: gs, ?_, List.Forall₂.cons ⟨u, hu, hU⟩ h2⟩
      rw [List.mapM_cons, hg, h1]
      rfl
  refine ⟨⟨ws, gs⟩, ?_, rfl, h2⟩
  unfold votingFit
  rw [if_neg (by simpa using hne)]
  simp only [bind, Except.bind, List.length_map, filterMap_map_some]
  rw [hc]
  simp only
  rw [if_neg (by rw [h.origins, hw.2.2.1]; simp), if_neg (by rw [h.members]; simp), h1]

/-- Predicting another triangle with as many indices, columns and origins: the ultimate is the weighted
average of what the members predict for it, with the weights of the fit by position.  Missing: triangles with
another number of origins (see `C39_origins_false`), and weights adding up to zero. -/
theorem C39_predict_partial {es : List (Member K)} (hne : es ≠ []) {w : WeightArg K} {d : Option (List (Num K))}
    {t x : Tri K} (hw : Tri.WF t) (hx : Tri.WF x) (hk : x.kdims.length = t.kdims.length)
    (hv : x.vdims.length = t.vdims.length) (ho : x.odims.length = t.odims.length) {ws : Weights K}
    (hc : w.coerce (d.getD (List.replicate es.length 1)) t = .ok ws)
    {W : Nat → Nat → Nat → Nat → K} (h : ws.Are t es.length W)
    (hW : ∀ i < t.kdims.length, ∀ c < t.vdims.length, ∀ o < t.odims.length,
      ∑ j ∈ Finset.range es.length, W i c o j ≠ 0) {Us : List (Nat → Nat → Nat → K)}
    (hg : List.Forall₂ (fun (e : Member K) U => ∃ g u, e.fit t = .ok g ∧ g x = .ok u ∧ Tri.UltAmt x u U) es Us) :
    ∃ v r, votingFit (es.map some) w d t = .ok v ∧ v.ultimate x = .ok (some r) ∧ Tri.UltAmt x r fun i c o =>
      (∑ j ∈ Finset.range es.length, W i c o j * (Us.getD j fun _ _ _ => 0) i c o) /
        ∑ j ∈ Finset.range es.length, W i c o j := by
  obtain ⟨v, hv', rfl, hf⟩ := votingFit_new hne hw hc h hg
  have hl := hg.length_eq
  have h' : v.weights.Are x es.length W := by
    cases e : v.weights with
    | mat n m get => rw [e] at h; unfold Weights.Are at h ⊢; rw [hk, hv, ho]; exact h
    | cube a n m get => rw [e] at h; unfold Weights.Are at h ⊢; rw [hk, hv, ho]; exact h
    | full k a n m get => rw [e] at h; unfold Weights.Are at h ⊢; rw [hk, hv, ho]; exact h
  obtain ⟨r, hr, ru⟩ := ultimate_spec h' hx hf hl.ge
    (by intro e; rw [e] at hl; exact hne (List.length_eq_zero_iff.1 hl)) (by rw [hk, hv, ho]; exact hW)
  exact ⟨v, r, hv', hr, by rw [hl] at ru ⊢; exact ru⟩

/-- Weights given by origin are lost in `predict`: the origin of a new triangle gets the weights of the
origin at the same place of the fitted triangle, not its own. -/
theorem C39_dict_false {es : List (Member K)} (hne : es ≠ []) {f : Int → List (Num K)} {t x : Tri K}
    (hw : Tri.WF t) (hx : Tri.WF x) (hk : x.kdims.length = t.kdims.length)
    (hv : x.vdims.length = t.vdims.length) (ho : x.odims.length = t.odims.length) (hO : t.odims ≠ [])
    {R : Int → Nat → K}
    (hr : ∀ o ∈ t.odims, (f o).length = es.length ∧ ∀ j < es.length, (f o).getD j .nan = .fin (R o j))
    (hW : ∀ o ∈ t.odims, ∑ j ∈ Finset.range es.length, R o j ≠ 0) {Us : List (Nat → Nat → Nat → K)}
    (hg : List.Forall₂ (fun (e : Member K) U => ∃ g u, e.fit t = .ok g ∧ g x = .ok u ∧ Tri.UltAmt x u U) es Us) :
    ∃ v r, votingFit (es.map some) (.callable f) none t = .ok v ∧ v.ultimate x = .ok (some r) ∧
      Tri.UltAmt x r fun i c o =>
      (∑ j ∈ Finset.range es.length, R (t.odims.getD o 0) j * (Us.getD j fun _ _ _ => 0) i c o) /
        ∑ j ∈ Finset.range es.length, R (t.odims.getD o 0) j := by
  obtain ⟨ws, h1, h2⟩ := ofRows_are hO hr
  refine C39_predict_partial hne hw hx hk hv ho (w := .callable f) (d := none) h1 h2 ?_ hg
  intro i _ c _ o ho
  rw [List.getD_eq_getElem _ _ ho]
  exact hW _ (List.getElem_mem ho)

/-- A triangle with another number of origins cannot be predicted. -/
theorem C39_origins_false {es : List (Member K)} (hne : es ≠ []) {w : WeightArg K} {d : Option (List (Num K))}
    {t x : Tri K} (hw : Tri.WF t) (ho : x.odims.length ≠ t.odims.length) (h2 : 2 ≤ x.odims.length)
    (h2' : 2 ≤ t.odims.length) {ws : Weights K}
    (hc : w.coerce (d.getD (List.replicate es.length 1)) t = .ok ws)
    {W : Nat → Nat → Nat → Nat → K} (h : ws.Are t es.length W) {Us : List (Nat → Nat → Nat → K)}
    (hg : List.Forall₂ (fun (e : Member K) U => ∃ g u, e.fit t = .ok g ∧ g x = .ok u ∧ Tri.UltAmt x u U) es Us) :
    ∃ v, votingFit (es.map some) w d t = .ok v ∧ v.ultimate x = .error .valueError := by
  obtain ⟨v, hv', rfl, hf⟩ := votingFit_new hne hw hc h hg
  refine ⟨v, hv', ?_⟩
  have hl := hg.length_eq
  have hslice : (v.weights.slice x 0).d2 = t.odims.length := by
    rw [← h.origins]
    cases v.weights <;> rfl
  unfold Voting.ultimate
  generalize v.fitted = gs at hf
  split_ifs with hfit
  · cases hf with
    | nil => rw [List.length_nil] at hl; exact absurd (List.length_eq_zero_iff.1 hl) hne
    | @cons g U gs Us hU _ =>
      obtain ⟨u, hu, hU⟩ := hU
      rw [List.zipIdx_cons, List.mapM_cons]
      simp only [bind, Except.bind]
      rw [hu]
      have hnone : Arr.bdim u.values.d2 (v.weights.slice x 0).d2 = none := by
        rw [hslice, hU.wf.2.2.1, hU.origins]
        unfold Arr.bdim
        rw [if_neg ho, if_neg (by omega), if_neg (by omega)]
      have herr : u.mulArr (v.weights.slice x 0) = .error .valueError := by
        unfold Tri.mulArr Tri.zipArr Arr.zip
        rw [hnone]
        split
        · rename_i e _
          cases e
        · rfl
      simp only
      rw [herr]
  · rfl

namespace C39

/-- A chain ladder with the given pattern. -/
def cl (f : Tri K) : Member K := ⟨fun _ => .ok fun x => x.chainladder f none⟩

theorem cl_gives {t f : Tri K} {a : Int} {n D q F : Nat} (h : Tri.Standard t a n D q)
    (hf : Tri.GridPattern t f a n D q F) :
    (cl f).Gives t fun i c o => t.latest D q i c o * f.toUlt i c (D - 1 - q * o) := by
  obtain ⟨u, hu, hua⟩ := Tri.chainladder_ult h hf
  exact ⟨_, u, rfl, hu, hua.ultAmt⟩

/-- A chain ladder whose ultimates are doubled. -/
def double (f : Tri K) : Member K := ⟨fun _ => .ok fun x => do
  let u ← x.chainladder f none
  u.mulArr (Arr.scalar (.fin 2))⟩

theorem double_gives {t f : Tri K} {a : Int} {n D q F : Nat} (h : Tri.Standard t a n D q)
    (hf : Tri.GridPattern t f a n D q F) :
    (double f).Gives t fun i c o => 2 * (t.latest D q i c o * f.toUlt i c (D - 1 - q * o)) := by
  obtain ⟨u, hu, hua⟩ := Tri.chainladder_ult h hf
  obtain ⟨r, hr, ru⟩ := hua.ultAmt.mul (a := Arr.scalar (.fin 2)) (W := fun _ _ _ => 2)
    ⟨Or.inr rfl, Or.inr rfl, Or.inr rfl, rfl⟩ (fun _ _ _ _ _ _ => rfl)
  refine ⟨_, r, rfl, ?_, ru⟩
  simp only [bind, Except.bind]
  rw [hu]
  exact hr

/-- The chain ladder and its double, with weights 1 and 3: seven quarters of the ultimate. -/
example : ∃ r, votingUltimate [some (cl (Tri.C38.pat ℚ ["paid"] 4)), some (double (Tri.C38.pat ℚ ["paid"] 4))]
      (.array (.mat 3 2 fun _ j => .fin (if j = 0 then 1 else 3))) none (Tri.C38.tri ℚ ["paid"]) = .ok (some r) ∧
    (r.values.get 0 0 2 0).amt = 120 * 2 * (3 / 2) * (5 / 4) * (7 / 4) := by
  have hst := Tri.C38.standard (K := ℚ) (cols := ["paid"]) le_rfl
  have hgp := Tri.C38.gridPattern (K := ℚ) (cols := ["paid"]) (F := 4) (by omega) (by omega)
  obtain ⟨r, hr, ru⟩ := C39_weighted_partial (es := [cl (Tri.C38.pat ℚ ["paid"] 4), double (Tri.C38.pat ℚ ["paid"] 4)])
    (by simp) hst.wf (ws := .mat 3 2 fun _ j => .fin (if j = 0 then 1 else 3))
    (W := fun _ _ _ j => if j = 0 then 1 else 3) ⟨rfl, rfl, fun _ _ _ _ _ _ _ _ => rfl⟩
    (by intro i _ c _ o _; decide +kernel)
    (List.Forall₂.cons (cl_gives hst hgp) (List.Forall₂.cons (double_gives hst hgp) List.Forall₂.nil)) none
  refine ⟨r, hr, ?_⟩
  rw [(ru.cells 0 (by decide) 0 (by decide) 2 (by decide)).2]
  decide +kernel

/-- Without weights: three halves. -/
example : ∃ r, votingUltimate [some (cl (Tri.C38.pat ℚ ["paid"] 4)), some (double (Tri.C38.pat ℚ ["paid"] 4))]
      .default none (Tri.C38.tri ℚ ["paid"]) = .ok (some r) ∧
    (r.values.get 0 0 2 0).amt = 120 * 2 * (3 / 2) * (5 / 4) * (3 / 2) := by
  have hst := Tri.C38.standard (K := ℚ) (cols := ["paid"]) le_rfl
  have hgp := Tri.C38.gridPattern (K := ℚ) (cols := ["paid"]) (F := 4) (by omega) (by omega)
  obtain ⟨r, hr, ru⟩ := C39_average_partial (es := [cl (Tri.C38.pat ℚ ["paid"] 4), double (Tri.C38.pat ℚ ["paid"] 4)])
    (by simp) hst.wf rfl
    (List.Forall₂.cons (cl_gives hst hgp) (List.Forall₂.cons (double_gives hst hgp) List.Forall₂.nil))
  refine ⟨r, hr, ?_⟩
  rw [(ru.cells 0 (by decide) 0 (by decide) 2 (by decide)).2]
  decide +kernel

/-- With the first of two members dropped and no weights: half of the ultimate of the other. -/
example : ∃ r, votingUltimate [none, some (cl (Tri.C38.pat ℚ ["paid"] 4))]
      .default none (Tri.C38.tri ℚ ["paid"]) = .ok (some r) ∧
    (r.values.get 0 0 2 0).amt = 120 * 2 * (3 / 2) * (5 / 4) / 2 := by
  have hst := Tri.C38.standard (K := ℚ) (cols := ["paid"]) le_rfl
  have hgp := Tri.C38.gridPattern (K := ℚ) (cols := ["paid"]) (F := 4) (by omega) (by omega)
  obtain ⟨r, hr, ru⟩ := C39_drop_false (ests := [none, some (cl (Tri.C38.pat ℚ ["paid"] 4))])
    (es := [cl (Tri.C38.pat ℚ ["paid"] 4)]) rfl (by simp) hst.wf rfl
    (List.Forall₂.cons (cl_gives hst hgp) List.Forall₂.nil)
  refine ⟨r, hr, ?_⟩
  rw [(ru.cells 0 (by decide) 0 (by decide) 2 (by decide)).2]
  decide +kernel

/-- A dictionary with one of three origins. -/
example : ∃ r, votingUltimate [some (cl (Tri.C38.pat ℚ ["paid"] 4)), some (double (Tri.C38.pat ℚ ["paid"] 4))]
      (.dict [(24264, [.fin 0, .fin 1])]) (some [.fin 1, .fin 0]) (Tri.C38.tri ℚ ["paid"]) = .ok (some r) ∧
    (r.values.get 0 0 2 0).amt = 120 * 2 * (3 / 2) * (5 / 4) * 2 ∧
    (r.values.get 0 0 1 0).amt = 168 * (3 / 2) * (5 / 4) := by
  have hst := Tri.C38.standard (K := ℚ) (cols := ["paid"]) le_rfl
  have hgp := Tri.C38.gridPattern (K := ℚ) (cols := ["paid"]) (F := 4) (by omega) (by omega)
  obtain ⟨r, hr, ru⟩ := C39_dict_partial (es := [cl (Tri.C38.pat ℚ ["paid"] 4), double (Tri.C38.pat ℚ ["paid"] 4)])
    (by simp) hst.wf (by decide) (items := [(24264, [.fin 0, .fin 1])]) (d := [.fin 1, .fin 0]) (by decide)
    (row := fun o => if o = 24264 then [.fin 0, .fin 1] else [.fin 1, .fin 0])
    (R := fun o j => if o = 24264 then [0, 1].getD j 0 else [1, 0].getD j 0)
    (by
      intro o _
      by_cases e : o = 24264
      · subst e
        exact Or.inl ⟨_, List.mem_singleton.2 rfl, fun p hp _ => by rw [List.mem_singleton.1 hp], rfl⟩
      · refine Or.inr ⟨fun p hp => ?_, if_neg e⟩
        rw [List.mem_singleton.1 hp]
        exact Ne.symm e)
    (by decide +kernel +revert) (by decide +kernel +revert)
    (List.Forall₂.cons (cl_gives hst hgp) (List.Forall₂.cons (double_gives hst hgp) List.Forall₂.nil))
  refine ⟨r, hr, ?_, ?_⟩
  · rw [(ru.cells 0 (by decide) 0 (by decide) 2 (by decide)).2]
    decide +kernel
  · rw [(ru.cells 0 (by decide) 0 (by decide) 1 (by decide)).2]
    decide +kernel

/-- The same amounts a year later. -/
def later : Tri ℚ :=
  { Tri.C38.tri ℚ ["paid"] with
    odims := [24252, 24264, 24276]
    vd := 24287 }

theorem later_standard : Tri.Standard later 24252 3 3 1 :=
  have h := Tri.C38.standard (K := ℚ) (cols := ["paid"]) le_rfl
  { wf := ⟨rfl, rfl, rfl, rfl⟩
    finite := h.finite
    isVal := rfl
    index_pos := le_rfl
    columns_pos := le_rfl
    two_origins := by decide
    period := le_rfl
    recent := by decide
    odims := rfl
    ddims := rfl
    vd := rfl
    short := h.short
    early := by decide
    known := h.known
    cumulative := h.cumulative
    noPattern := rfl
    multiplicative := rfl }

/-- The pattern for `later`. -/
theorem later_pattern : Tri.GridPattern later (Tri.C38.pat ℚ ["paid"] 4) 24252 3 3 1 4 :=
  have h := Tri.C38.gridPattern (K := ℚ) (cols := ["paid"]) (F := 4) (by omega) (by omega)
  { toPatternFor := by
      obtain ⟨⟩ := h.toPatternFor
      constructor <;> assumption
    grid := h.grid
    covers := h.covers
    short := h.short
    early := by decide
    date := h.date }

/-- `C39_dict_false`: the chain ladder for 2022 and its double for the other years; a year later 2022 is the
second origin and gets the double, and 2023 the chain ladder. -/
example : ∃ v r, votingFit [some (cl (Tri.C38.pat ℚ ["paid"] 4)), some (double (Tri.C38.pat ℚ ["paid"] 4))]
      (.callable fun o => if o = 24264 then [.fin 1, .fin 0] else [.fin 0, .fin 1]) none (Tri.C38.tri ℚ ["paid"]) =
        .ok v ∧ v.ultimate later = .ok (some r) ∧
    (r.values.get 0 0 1 0).amt = 168 * (3 / 2) * (5 / 4) * 2 ∧
    (r.values.get 0 0 2 0).amt = 120 * 2 * (3 / 2) * (5 / 4) := by
  obtain ⟨u, hu, hua⟩ := Tri.chainladder_ult later_standard later_pattern
  obtain ⟨u', hu', ru'⟩ := hua.ultAmt.mul (a := Arr.scalar (.fin 2)) (W := fun _ _ _ => 2)
    ⟨Or.inr rfl, Or.inr rfl, Or.inr rfl, rfl⟩ (fun _ _ _ _ _ _ => rfl)
  have hw := (Tri.C38.standard (K := ℚ) (cols := ["paid"]) le_rfl).wf
  obtain ⟨v, r, hv, hr, ru⟩ := C39_dict_false (t := Tri.C38.tri ℚ ["paid"]) (x := later)
    (es := [cl (Tri.C38.pat ℚ ["paid"] 4), double (Tri.C38.pat ℚ ["paid"] 4)]) (by simp)
    (f := fun o => if o = 24264 then [.fin 1, .fin 0] else [.fin 0, .fin 1])
    (R := fun o j => if o = 24264 then [1, 0].getD j 0 else [0, 1].getD j 0) hw later_standard.wf rfl rfl rfl
    (by decide) (by decide +kernel +revert) (by decide +kernel +revert)
    (List.Forall₂.cons ⟨_, u, rfl, hu, hua.ultAmt⟩ (List.Forall₂.cons ⟨_, u', rfl, by
      simp only [bind, Except.bind]
      rw [hu]
      exact hu', ru'⟩ List.Forall₂.nil))
  refine ⟨v, r, hv, hr, ?_, ?_⟩
  · rw [(ru.cells 0 (by decide) 0 (by decide) 1 (by decide)).2]
    decide +kernel
  · rw [(ru.cells 0 (by decide) 0 (by decide) 2 (by decide)).2]
    decide +kernel

/-- The first two origins. -/
def shorter : Tri ℚ :=
  { Tri.C38.tri ℚ ["paid"] with
    odims := [24240, 24252]
    values := { (Tri.C38.tri ℚ ["paid"]).values with d2 := 2 } }

theorem shorter_standard : Tri.Standard shorter 24240 2 3 1 :=
  have h := Tri.C38.standard (K := ℚ) (cols := ["paid"]) le_rfl
  { wf := ⟨rfl, rfl, rfl, rfl⟩
    finite := fun i hi c hc o ho => h.finite i hi c hc o (show o < 3 from Nat.lt_succ_of_lt ho)
    isVal := rfl
    index_pos := le_rfl
    columns_pos := le_rfl
    two_origins := by decide
    period := le_rfl
    recent := by decide
    odims := rfl
    ddims := rfl
    vd := rfl
    short := h.short
    early := h.early
    known := fun i hi c hc o ho => h.known i hi c hc o (by omega)
    cumulative := h.cumulative
    noPattern := rfl
    multiplicative := rfl }

/-- `C39_origins_false`: two origins after a fit of three. -/
example : ∃ v, votingFit [some (cl (Tri.C38.pat ℚ ["paid"] 4))] .default none (Tri.C38.tri ℚ ["paid"]) = .ok v ∧
    v.ultimate shorter = .error .valueError := by
  have hgp : Tri.GridPattern shorter (Tri.C38.pat ℚ ["paid"] 4) 24240 2 3 1 4 :=
    have h := Tri.C38.gridPattern (K := ℚ) (cols := ["paid"]) (F := 4) (by omega) (by omega)
    { toPatternFor := by
        obtain ⟨⟩ := h.toPatternFor
        constructor <;> assumption
      grid := h.grid
      covers := h.covers
      short := h.short
      early := by decide
      date := h.date }
  obtain ⟨u, hu, hua⟩ := Tri.chainladder_ult shorter_standard hgp
  exact C39_origins_false (es := [cl (Tri.C38.pat ℚ ["paid"] 4)]) (by simp)
    (Tri.C38.standard (K := ℚ) (cols := ["paid"]) le_rfl).wf (by decide) le_rfl (by decide)
    (w := .default) (d := none) rfl (W := fun _ _ _ _ => 1)
    ⟨rfl, rfl, fun _ _ _ _ _ _ j hj => by
      have : j = 0 := by simpa using hj
      subst this
      rfl⟩ (List.Forall₂.cons ⟨_, u, rfl, hu, hua.ultAmt⟩ List.Forall₂.nil)

end C39
end CL
