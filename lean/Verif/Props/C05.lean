import Verif.Props.C15

set_option linter.unusedSectionVars false

/-! # C05: the latest diagonal -/

namespace CL
namespace Tri
variable {K : Type} [Field K] [LinearOrder K] [IsStrictOrderedRing K]

/-- The cells of an origin have different valuations. -/
def DistinctValuations (t : Tri K) : Prop :=
  ∀ o < t.odims.length, ∀ d < t.ddims.length, ∀ e < t.ddims.length,
    t.valuation o d = t.valuation o e → d = e

/-- `u` is a latest diagonal of `t`: one development column, valued at the valuation date; one row
for each origin (listed by `rows` in increasing order) that has a cell valued at the valuation
date, holding the content of that cell (zero as missing). -/
structure DiagonalOf (t u : Tri K) (rows : List Nat) : Prop where
  rows_inc : rows.Pairwise (· < ·)
  mem_rows : ∀ o, o ∈ rows ↔ o < t.odims.length ∧ ∃ d < t.ddims.length, t.valuation o d = t.vd
  wf : WF u
  index : u.kdims = t.kdims
  columns : u.vdims = t.vdims
  origins : At t.odims u.odims rows
  one : u.ddims.length = 1
  date : u.vd = t.vd
  valued : ∀ o < rows.length, u.valuation o 0 = t.vd
  cells : ∀ i c o d, i < t.values.d0 → c < t.values.d1 → (ho : o < rows.length) →
    d < t.ddims.length → t.valuation rows[o] d = t.vd →
    u.values.get i c o 0 = (t.values.get i c rows[o] d).numToNan

private theorem sum_single {n : Nat} {f : Nat → Num K} {j : Nat} (hj : j < n)
    (h : ∀ d < n, d ≠ j → f d = .nan) : ∑ d ∈ Finset.range n, (f d).nan0 = (f j).nan0 := by
  rw [Finset.sum_eq_single j]
  · intro d hd hne
    rw [h d (by simpa using hd) hne]; rfl
  · intro hn
    exact absurd (Finset.mem_range.2 hj) hn

private theorem numToNan_nan0 (x : Num K) : (x.nan0).numToNan = x.numToNan := by
  cases x <;> simp [Num.nan0]

theorem DiagonalOf.of_filter {t v : Tri K} (dv : DistinctValuations t) {rows cols : List Nat}
    (h : FilterSpec t v (fun o d => t.valuation o d == t.vd) rows cols) :
    DiagonalOf t (v.sumKeep .development) rows := by
  have hw := h.wf
  have hcne : cols ≠ [] := by
    obtain ⟨m, ⟨o, d, ho, hd, hk, hv⟩, -⟩ := h.vd
    exact List.ne_nil_of_mem ((h.mem_cols d).2 ⟨hd, o, ho, hk⟩)
  have hcl : 0 < cols.length := List.length_pos_iff.2 hcne
  have hvvd : v.vd = t.vd := by
    obtain ⟨m, ⟨o, d, ho, hd, hk, hv⟩, h2, h3⟩ := h.vd
    have : m = t.vd := by
      have := hk
      simp only [beq_iff_eq] at this
      omega
    rw [h3, this, min_self]
  have hrow : ∀ o (ho : o < rows.length), ∃ e, ∃ he : e < cols.length,
      t.valuation rows[o] cols[e] = t.vd := by
    intro o ho
    obtain ⟨h1, d, hd, hk⟩ := (h.mem_rows _).1 (List.getElem_mem ho)
    have hdc : d ∈ cols := (h.mem_cols d).2 ⟨hd, _, h1, hk⟩
    obtain ⟨e, he, rfl⟩ := List.getElem_of_mem hdc
    exact ⟨e, he, by simpa using hk⟩
  have hd3 : v.values.d3 = cols.length := by rw [hw.2.2.2, h.developments.1]
  refine ⟨h.rows_inc, ?_, ?_, ?_, ?_, ?_, ?_, ?_, ?_, ?_⟩
  · intro o
    rw [h.mem_rows]
    simp
  · obtain ⟨w0, w1, w2, w3⟩ := hw
    refine ⟨?_, ?_, ?_, ?_⟩
    · show v.values.d0 = (relabelAgg v .development).kdims.length
      rw [w0]; unfold relabelAgg; split_ifs <;> rfl
    · show v.values.d1 = (relabelAgg v .development).vdims.length
      rw [w1]; unfold relabelAgg; split_ifs <;> rfl
    · show v.values.d2 = (relabelAgg v .development).odims.length
      rw [w2]; unfold relabelAgg; split_ifs <;> rfl
    · show 1 = (relabelAgg v .development).ddims.length
      have := h.developments.1
      simp only [relabelAgg]
      split_ifs
      · rfl
      · omega
  · rw [← h.index]
    show (relabelAgg v .development).kdims = _
    unfold relabelAgg; split_ifs <;> rfl
  · rw [← h.columns]
    show (relabelAgg v .development).vdims = _
    unfold relabelAgg; split_ifs <;> rfl
  · have e : (v.sumKeep .development).odims = v.odims := by
      show (relabelAgg v .development).odims = _
      unfold relabelAgg; split_ifs <;> rfl
    rw [e]; exact h.origins
  · show (relabelAgg v .development).ddims.length = 1
    have := h.developments.1
    simp only [relabelAgg]
    split_ifs
    · rfl
    · omega
  · rw [← hvvd]
    show (relabelAgg v .development).vd = _
    unfold relabelAgg; split_ifs <;> rfl
  · intro o ho
    show (relabelAgg v .development).valuation o 0 = t.vd
    have hl := h.developments.1
    simp only [relabelAgg]
    split_ifs with hh
    · show valuationOf true v.odims [v.vd] v.vd o 0 = t.vd
      simp [valuationOf, hvvd]
    · rw [h.dates o 0 ho hcl]
      obtain ⟨e, he, hv⟩ := hrow o ho
      have : e = 0 := by omega
      subst this
      exact hv
  · intro i c o d hi hc ho hd hv
    show (∑ e ∈ Finset.range v.values.d3, (v.values.get i c o e).nan0).numToNan = _
    obtain ⟨e, he, hve⟩ := hrow o ho
    have hro : rows[o] < t.odims.length := ((h.mem_rows _).1 (List.getElem_mem ho)).1
    have hce : ∀ e (he : e < cols.length), cols[e] < t.ddims.length := fun e he =>
      ((h.mem_cols _).1 (List.getElem_mem he)).1
    have hde : cols[e] = d := dv _ hro _ (hce e he) _ hd (by rw [hve, hv])
    rw [sum_single (j := e) (by omega), numToNan_nan0, h.cells i c o e hi hc ho he]
    · rw [hde]
      have : (t.valuation rows[o] d == t.vd) = true := by simpa using hv
      simp [this]
    · intro d' hd' hne
      have hd'' : d' < cols.length := by omega
      rw [h.cells i c o d' hi hc ho hd'']
      have : (t.valuation rows[o] cols[d'] == t.vd) = false := by
        rw [beq_eq_false_iff_ne]
        intro hcon
        apply hne
        have : cols[d'] = cols[e] := dv _ hro _ (hce d' hd'') _ (hce e he) (by rw [hcon, hve])
        have hnd : cols.Nodup := h.cols_inc.imp (fun hab => Nat.ne_of_lt hab)
        exact (List.Nodup.getElem_inj_iff hnd).1 this
      simp [this]

/-- **C05** (partial: origins without a cell at the valuation date are missing from the result
instead of holding a missing amount, see `C05_dropped_origin_false`).  Whenever `latest_diagonal`
returns (a triangle, or a number if there is only one cell), the result is the latest diagonal. -/
theorem C05_latest_diagonal_partial {t : Tri K} (wf : WF t) (ord : Ordered t) (dated : Dated t)
    (dv : DistinctValuations t) (hd : 2 ≤ t.ddims.length) {r : Agg K}
    (h : t.latestDiagonal = .ok r) :
    ∃ u rows, DiagonalOf t u rows ∧ r = u.toAgg := by
  unfold latestDiagonal at h
  cases hg : t.getVal (· == t.vd) with
  | error e => rw [hg] at h; cases h
  | ok v =>
    rw [hg] at h
    simp only [bind, Except.bind] at h
    injection h with h
    obtain ⟨rows, cols, hf⟩ := C15_filter_partial wf ord dated hd hg
    exact ⟨_, rows, DiagonalOf.of_filter dv hf, h.symm⟩

/-- With one development column as well. -/
theorem C05_single_development {t : Tri K} (wf : WF t) (hd : t.ddims.length = 1)
    (hne : ∃ o < t.odims.length, t.valuation o 0 = t.vd) :
    ∃ u rows, DiagonalOf t u rows ∧ t.latestDiagonal = .ok u.toAgg := by
  have hd3 : ¬ t.values.d3 > 1 := by rw [wf.2.2.2]; omega
  have hd3' : t.values.d3 = 1 := by rw [wf.2.2.2]; omega
  set m := (List.range t.odims.length).map fun o => t.valuation o 0 == t.vd with hm
  have hml : m.length = t.odims.length := by simp [hm]
  have htp : ∀ o, o ∈ TruePositions m ↔ o < t.odims.length ∧ t.valuation o 0 = t.vd := by
    intro o
    simp only [TruePositions, List.mem_filter, List.mem_range, hml, decide_eq_true_eq]
    constructor
    · rintro ⟨h1, h2⟩
      refine ⟨h1, ?_⟩
      simpa [hm, h1] using h2
    · rintro ⟨h1, h2⟩
      exact ⟨h1, by simp [hm, h1, h2]⟩
  obtain ⟨o0, ho0, hv0⟩ := hne
  obtain ⟨v, e, vw, v1, v2, v3, v4, v5, v6⟩ := C14_mask_origin wf hml
    (List.ne_nil_of_mem ((htp o0).2 ⟨ho0, hv0⟩))
  have hvl : ¬ v.ddims.length > 1 := by rw [v3]; omega
  have hvd3 : v.values.d3 = 1 := by rw [vw.2.2.2, v3, hd]
  have hrel : relabelAgg v .development = v := by simp only [relabelAgg]; rw [if_neg hvl]
  have hisval : v.isVal = t.isVal := by
    unfold sliceOrigin at e
    rw [if_neg (by omega)] at e
    cases h1 : contigSlice (.lst (maskPositions m)) with
    | error => rw [h1] at e; cases e
    | ok k =>
      rw [h1] at e
      simp only [bind, Except.bind] at e
      cases h2 : k.positions t.values.d2 with
      | error => rw [h2] at e; cases e
      | ok po =>
        rw [h2] at e
        simp only at e
        injection e with e
        rw [← e]
  refine ⟨v.sumKeep .development, TruePositions m, ⟨?_, ?_, ?_, ?_, ?_, ?_, ?_, ?_, ?_, ?_⟩, ?_⟩
  · exact List.Pairwise.filter _ List.pairwise_lt_range
  · intro o
    rw [htp]
    constructor
    · rintro ⟨h1, h2⟩; exact ⟨h1, 0, by omega, h2⟩
    · rintro ⟨h1, d, h2, h3⟩
      have : d = 0 := by omega
      subst this; exact ⟨h1, h3⟩
  · obtain ⟨w0, w1, w2, w3⟩ := vw
    refine ⟨?_, ?_, ?_, ?_⟩
    · show v.values.d0 = (relabelAgg v .development).kdims.length
      rw [hrel, w0]
    · show v.values.d1 = (relabelAgg v .development).vdims.length
      rw [hrel, w1]
    · show v.values.d2 = (relabelAgg v .development).odims.length
      rw [hrel, w2]
    · show 1 = (relabelAgg v .development).ddims.length
      rw [hrel, v3, hd]
  · show (relabelAgg v .development).kdims = _
    rw [hrel, v1]
  · show (relabelAgg v .development).vdims = _
    rw [hrel, v2]
  · show At _ (relabelAgg v .development).odims _
    rw [hrel]; exact v5
  · show (relabelAgg v .development).ddims.length = _
    rw [hrel, v3, hd]
  · show (relabelAgg v .development).vd = _
    rw [hrel, v4]
  · intro o ho
    show (relabelAgg v .development).valuation o 0 = _
    rw [hrel]
    have h1 := (htp _).1 (List.getElem_mem ho)
    rw [← h1.2]
    have h2 := v5.2 o ho
    show valuationOf v.isVal v.odims v.ddims v.vd o 0 = valuationOf t.isVal t.odims t.ddims t.vd _ 0
    have h3 : v.odims.getD o 0 = t.odims.getD (TruePositions m)[o] 0 := by
      simp only [List.getD_eq_getElem?_getD, h2]
    simp only [valuationOf, hisval, v3, v4, h3]
  · intro i c o d hi hc ho hd' hv
    have : d = 0 := by omega
    subst this
    show (∑ e ∈ Finset.range v.values.d3, (v.values.get i c o e).nan0).numToNan = _
    rw [hvd3, Finset.sum_range_one, numToNan_nan0, v6 i c o 0 hi hc ho (by omega)]
  · unfold latestDiagonal getVal
    rw [if_neg hd3]
    have e' : t.sliceOrigin (List.map (fun o => t.valuation o 0 == t.vd) (List.range t.odims.length)) =
      .ok v := e
    rw [e']
    rfl

theorem pairwise_ext {l l' : List Nat} (h : l.Pairwise (· < ·)) (h' : l'.Pairwise (· < ·))
    (hm : ∀ x, x ∈ l ↔ x ∈ l') : l = l' := by
  induction l generalizing l' with
  | nil =>
    cases l' with
    | nil => rfl
    | cons a l' => exact absurd ((hm a).2 (by simp)) (by simp)
  | cons a l ih =>
    cases l' with
    | nil => exact absurd ((hm a).1 (by simp)) (by simp)
    | cons b l' =>
      rw [List.pairwise_cons] at h h'
      have hab : a = b := by
        have h1 := (hm a).1 (by simp)
        have h2 := (hm b).2 (by simp)
        rcases List.mem_cons.1 h1 with h1 | h1
        · exact h1
        · rcases List.mem_cons.1 h2 with h2 | h2
          · exact h2.symm
          · have := h'.1 _ h1; have := h.1 _ h2; omega
      subst hab
      congr 1
      apply ih h.2 h'.2
      intro x
      constructor
      · intro hx
        have := (hm x).1 (by simp [hx])
        rcases List.mem_cons.1 this with rfl | h3
        · have := h.1 _ hx; omega
        · exact h3
      · intro hx
        have := (hm x).2 (by simp [hx])
        rcases List.mem_cons.1 this with rfl | h3
        · have := h'.1 _ hx; omega
        · exact h3

theorem diffs_ap (a c : Int) : ∀ n, ∀ d ∈ diffs (ap a c n), d = c
  | 0 => by simp [ap, diffs]
  | 1 => by simp [ap, diffs]
  | n + 2 => by
    intro d hd
    have ih := diffs_ap (a + c) c (n + 1)
    rw [ap_succ, ap_succ] at hd
    simp only [diffs, List.mem_cons] at hd
    rcases hd with rfl | hd
    · ring
    · apply ih
      rw [ap_succ]
      exact hd

theorem even_ap (a q n : Nat) : Even ((List.range n).map fun i => a + i * q) := by
  refine ⟨q, ?_⟩
  have : ((List.range n).map fun i => a + i * q).map (fun i : Nat => (i : Int)) = ap a q n := by
    simp only [List.map_map, ap]
    apply List.map_congr_left
    intro i _
    simp
  rw [this]
  exact diffs_ap _ _ _

/-- On a regular triangle, where going one origin later moves the latest cell `q` developments
back, `latest_diagonal` succeeds and keeps every origin. -/
theorem C05_regular {t : Tri K} (wf : WF t) (ord : Ordered t) (dated : Dated t)
    (dv : DistinctValuations t) (hd : 2 ≤ t.ddims.length) (hn : 1 ≤ t.odims.length)
    {D q : Nat} (hq : 1 ≤ q) (hD : D < t.ddims.length) (hqD : q * (t.odims.length - 1) ≤ D)
    (hv : ∀ o < t.odims.length, t.valuation o (D - q * o) = t.vd) :
    ∃ u, t.latestDiagonal = .ok u.toAgg ∧ DiagonalOf t u (List.range t.odims.length) := by
  have hd3 : t.values.d3 > 1 := by rw [wf.2.2.2]; omega
  have hle : ∀ o < t.odims.length, q * o ≤ D := fun o ho =>
    le_trans (Nat.mul_le_mul_left q (by omega)) hqD
  set key : Nat → Nat → Bool := fun o d => t.valuation o d == t.vd with hkey
  have hk : ∀ o d, o < t.odims.length → d < t.ddims.length → (key o d = true ↔ d = D - q * o) := by
    intro o d ho hd'
    rw [hkey]
    simp only [beq_iff_eq]
    constructor
    · intro h
      exact dv o ho d hd' _ (by omega) (by rw [h, hv o ho])
    · rintro rfl; exact hv o ho
  have hrows : keyRows t.values.d2 t.values.d3 key = List.range t.odims.length := by
    refine pairwise_ext (keyRows_pairwise _ _ _) List.pairwise_lt_range ?_
    intro o
    rw [mem_keyRows, wf.2.2.1, wf.2.2.2, List.mem_range]
    constructor
    · exact fun h => h.1
    · intro h
      exact ⟨h, D - q * o, by omega, (hk o _ h (by omega)).2 rfl⟩
  have hcols : keyCols t.values.d2 t.values.d3 key =
      (List.range t.odims.length).map fun i => (D - q * (t.odims.length - 1)) + i * q := by
    refine pairwise_ext (keyCols_pairwise _ _ _) ?_ ?_
    · rw [List.pairwise_map]
      refine List.Pairwise.imp ?_ List.pairwise_lt_range
      intro a b hab
      have := Nat.mul_lt_mul_of_pos_right hab (show 0 < q by omega)
      omega
    · intro d
      rw [mem_keyCols, wf.2.2.1, wf.2.2.2]
      simp only [List.mem_map, List.mem_range]
      constructor
      · rintro ⟨h1, o, ho, h2⟩
        refine ⟨t.odims.length - 1 - o, by omega, ?_⟩
        rw [(hk o d ho h1).1 h2]
        have e1 : (t.odims.length - 1 - o) * q + q * o = q * (t.odims.length - 1) := by
          rw [Nat.mul_comm _ q, ← Nat.mul_add]
          congr 1; omega
        have := hle o ho
        omega
      · rintro ⟨i, hi, rfl⟩
        have e1 : i * q + q * (t.odims.length - 1 - i) = q * (t.odims.length - 1) := by
          rw [Nat.mul_comm i q, ← Nat.mul_add]
          congr 1; omega
        have h1 : D - q * (t.odims.length - 1) + i * q = D - q * (t.odims.length - 1 - i) := by omega
        refine ⟨by omega, t.odims.length - 1 - i, by omega, ?_⟩
        exact (hk _ _ (by omega) (by omega)).2 h1
  have hr : keyRows t.values.d2 t.values.d3 key ≠ [] := by
    rw [hrows]
    exact List.ne_nil_of_mem (List.mem_range.2 (show 0 < _ by omega))
  obtain ⟨v, e, hf, -⟩ := filterMask_spec wf ord dated hr
    (by rw [hrows]; have := even_ap 0 1 t.odims.length; simpa using this)
    (by rw [hcols]; exact even_ap _ _ _)
  rw [hrows] at hf
  refine ⟨v.sumKeep .development, ?_, DiagonalOf.of_filter dv hf⟩
  unfold latestDiagonal getVal
  rw [if_pos hd3]
  have e' : (t.filterMask fun o d => t.valuation o d == t.vd) = .ok v := e
  rw [e']
  rfl

/-- The 3 x 3 example: all three origins, latest amounts 165, 168, 120. -/
example : ∃ u, (Ex.tri3 (some true) Ex.cum3).latestDiagonal = .ok u.toAgg ∧
    DiagonalOf (Ex.tri3 (some true) Ex.cum3) u [0, 1, 2] ∧ u.values.get 0 0 1 0 = .fin 168 := by
  have pr := Ex.proper_tri3 (some true)
  obtain ⟨u, h1, h2⟩ := C05_regular pr.wf pr.ordered pr.dated
    (by unfold DistinctValuations; decide) (by decide) (by decide) (D := 2) (q := 1) le_rfl
    (by decide) (by decide) (by decide)
  refine ⟨u, h1, h2, ?_⟩
  exact (h2.cells 0 0 1 1 (by decide) (by decide) (by decide) (by decide) (by decide)).trans
    (by decide +kernel)

/-- **C05 is false for origins without a cell at the valuation date**: the triangle cut after age
24 has origin 2020 valued up to 2021 only, and `latest_diagonal` has no row for it. -/
theorem C05_dropped_origin_false :
    ∃ (t u : Tri ℚ), (Ex.tri3 (some true) Ex.cum3).ilocD (.upto 2) = .ok t ∧ WF t ∧ Ordered t ∧
      t.odims = [12 * 2020, 12 * 2021, 12 * 2022] ∧
      t.latestDiagonal = .ok (.tri u) ∧ u.odims = [12 * 2021, 12 * 2022] :=
  ⟨_, _, rfl, by decide, by decide, rfl, rfl, rfl⟩

end Tri
end CL
