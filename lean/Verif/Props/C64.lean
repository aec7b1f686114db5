import Verif.Model.TrendFit
import Verif.Props.C22
import Verif.Props.C36
import Verif.Lemmas.Coherent

set_option linter.unusedSectionVars false

/-! # C64: the Trend estimator -/

namespace CL
namespace Tri

/-- A trend and the window it applies to. -/
structure C64.Step where
  rate : ℝ
  start : Option Int
  stop : Option Int

/-- The months a cell is trended over: from its date, moved into the window, to the start of the window. -/
def C64.months (t : Tri ℝ) (ax : TrendAxis) (s : C64.Step) (o d : Nat) : Int :=
  s.start.getD t.vd - C22.clamped (s.start.getD t.vd) (s.stop.getD (t.odims.getD 0 0)) (C22.date t ax o d)

/-- The trend factor of a cell. -/
noncomputable def C64.total (t : Tri ℝ) (ax : TrendAxis) (l : List C64.Step) (o d : Nat) : ℝ :=
  (l.map fun s => (1 + s.rate) ^ ((C64.months t ax s o d : ℝ) / 12)).prod

/-- The estimator with these trends and dates. -/
noncomputable def C64.fit (l : List C64.Step) (ax : TrendAxis) (t : Tri ℝ) : Except Err (Tri ℝ) :=
  t.trendFit (l.map fun s => C22.factor s.rate) (some (l.map fun s => some (s.start, s.stop))) ax

variable {t : Tri ℝ} {ax : TrendAxis}

theorem C64.loop (hd : C22.HasDates t) (hax : ax ≠ .other) (l : List C64.Step) :
    ∀ g : Nat → Nat → Nat → Nat → Num ℝ, ∃ g' : Nat → Nat → Nat → Nat → Num ℝ,
      ({ t with values := { t.values with get := g } } : Tri ℝ).trendLoop ax (l.map fun s => C22.factor s.rate)
        (l.map fun s => some (s.start, s.stop)) = .ok { t with values := { t.values with get := g' } } ∧
      (∀ i c o d, C22.Shown t o d → g' i c o d = g i c o d * .fin (C64.total t ax l o d)) ∧
      ∀ i c o d, ¬ C22.Shown t o d → l ≠ [] → g' i c o d = .nan := by
  induction l with
  | nil =>
    intro g
    refine ⟨g, rfl, fun i c o d _ => ?_, fun _ _ _ _ _ h => absurd rfl h⟩
    show g i c o d = g i c o d * .fin 1
    rw [← Num.one_def, _root_.mul_one]
  | cons s l ih =>
    intro g
    set u : Tri ℝ := { t with values := { t.values with get := g } } with hu
    have hdu : C22.HasDates u := hd
    have e1 := C22.trend_ok hdu hax s.start s.stop none (C22.factor s.rate)
    obtain ⟨g', h1, h2, h3⟩ := ih fun i c o d => g i c o d * (.fin (C22.factor s.rate
      (u.trendMonths ax (s.start.getD u.vd) (s.stop.getD (u.odims.getD 0 0)) none o d)) * u.nanTri o d)
    refine ⟨g', ?_, ?_, ?_⟩
    · show (do let v ← u.trend (C22.factor s.rate) ax s.start s.stop none; trendLoop ax _ _ v) = _
      rw [e1]
      exact h1
    · intro i c o d hs
      rw [h2 i c o d hs, C22.months hax]
      have : u.nanTri o d = 1 := C22.nanTri_shown (t := u) hs
      rw [this, _root_.mul_one, _root_.mul_assoc, Num.fin_mul_fin]
      unfold C64.total
      rw [List.map_cons, List.prod_cons]
      rfl
    · intro i c o d hs _
      have hn : u.nanTri o d = .nan := C22.nanTri_hidden (t := u) hs
      by_cases hl : l = []
      · subst hl
        injection h1 with h1
        have : g' = fun i c o d => g i c o d * (.fin (C22.factor s.rate
          (u.trendMonths ax (s.start.getD u.vd) (s.stop.getD (u.odims.getD 0 0)) none o d)) * u.nanTri o d) := by
          have := congrArg (fun v : Tri ℝ => v.values.get) h1
          exact this.symm
        rw [this]
        dsimp only
        rw [hn]
        simp
      · exact h3 i c o d hs hl

theorem C64.run (hd : C22.HasDates t) (wf : WF t) (hax : ax ≠ .other) {l : List C64.Step} (hl : l ≠ []) :
    ∃ u v, t.trendLoop ax (l.map fun s => C22.factor s.rate) (l.map fun s => some (s.start, s.stop)) = .ok u ∧
      C64.fit l ax t = .ok v ∧ C22.SameLabels t u ∧ C22.SameLabels t v ∧
      (∀ i c o d, t.values.In i c o d → C22.Shown t o d →
        u.values.get i c o d = t.values.get i c o d * .fin (C64.total t ax l o d)) ∧
      (∀ i c o d, t.values.In i c o d → ¬ C22.Shown t o d → u.values.get i c o d = .nan) ∧
      ∀ i c o d, t.values.In i c o d → v.values.get i c o d = u.values.get i c o d / t.values.get i c o d := by
  obtain ⟨g, h1, h2, h3⟩ := C64.loop hd hax l t.values.get
  have h1' : t.trendLoop ax (l.map fun s => C22.factor s.rate) (l.map fun s => some (s.start, s.stop)) =
    .ok { t with values := { t.values with get := g } } := h1
  set u : Tri ℝ := { t with values := { t.values with get := g } } with hu
  have ed : u.div t = .ok (zipped (· / ·) u t) :=
    div_fits (SameAxes.fitsIn (x := u) (y := t) ⟨rfl, rfl, rfl, rfl, rfl, rfl, rfl, rfl⟩ wf wf)
  refine ⟨u, zipped (· / ·) u t, h1', ?_, ⟨rfl, rfl, rfl, rfl, rfl⟩, ⟨?_, rfl, rfl, rfl, rfl⟩, fun i c o d _ hs => h2 i c o d hs,
    fun i c o d _ hs => h3 i c o d hs hl, ?_⟩
  · obtain ⟨s, l', rfl⟩ := List.exists_cons_of_ne_nil hl
    have e : C64.fit (s :: l') ax t = (do
          let v ← trendLoop ax (List.map (fun s => C22.factor s.rate) (s :: l'))
            (List.map (fun s => some (s.start, s.stop)) (s :: l')) t
          v.div t) := rfl
    rw [e, h1']
    exact ed
  · show ({ u with
      isPattern := u.isPattern && t.isPattern
      vd := max u.vd t.vd
      values := { u.values with get := _ } } : Tri ℝ) = _
    show ({ t with
      isPattern := t.isPattern && t.isPattern
      vd := max t.vd t.vd
      values := { t.values with get := _ } } : Tri ℝ) = _
    rw [max_self, Bool.and_self]
    rfl
  · rintro i c o d ⟨hi, hc, ho, hdd⟩
    show u.values.get i c o d / bcell t.values u.values i c o d = _
    unfold bcell
    rw [Arr.bix_self, Arr.bix_self, Arr.bix_self, Arr.bix_self]

/-- **C64, factors**: the factor of a known amount is the product of all the trends over the months between the
cell and the start of their windows; there is none for a cell that is not observed, and none for an amount of
zero. -/
theorem C64_factors (hd : C22.HasDates t) (wf : WF t) (hax : ax ≠ .other) {l : List C64.Step} (hl : l ≠ []) :
    ∃ v, C64.fit l ax t = .ok v ∧ C22.SameLabels t v ∧
      (∀ i c o d, t.values.In i c o d → C22.Shown t o d → ∀ x : ℝ, x ≠ 0 → t.values.get i c o d = .fin x →
        v.values.get i c o d = .fin (C64.total t ax l o d)) ∧
      ∀ i c o d, t.values.In i c o d → (¬ C22.Shown t o d ∨ t.values.get i c o d = .fin 0 ∨
        t.values.get i c o d = .nan) → v.values.get i c o d = .nan := by
  obtain ⟨u, v, -, h2, -, h4, h5, h6, h7⟩ := C64.run hd wf hax hl
  refine ⟨v, h2, h4, ?_, ?_⟩
  · intro i c o d hi hs x hx he
    rw [h7 i c o d hi, h5 i c o d hi hs, he, Num.fin_mul_fin, Num.fin_div_fin_of_ne _ hx]
    congr 1
    field_simp
  · intro i c o d hi h
    rw [h7 i c o d hi]
    by_cases hs : C22.Shown t o d
    · rcases h with h | h | h
      · exact absurd hs h
      · rw [h5 i c o d hi hs, h, Num.fin_mul_fin, zero_mul]
        simp [Num.fin_div_fin]
      · rw [h5 i c o d hi hs, h]
        simp
    · rw [h6 i c o d hi hs]
      simp

/-- **C64, applied**: the amounts times their factors are the triangle with all the trends applied one after
the other. -/
theorem C64_applied (hd : C22.HasDates t) (wf : WF t) (hf : Finite t) (hax : ax ≠ .other) {l : List C64.Step}
    (hl : l ≠ []) :
    ∃ u v, t.trendLoop ax (l.map fun s => C22.factor s.rate) (l.map fun s => some (s.start, s.stop)) = .ok u ∧
      C64.fit l ax t = .ok v ∧ ∀ i c o d, t.values.In i c o d →
        (t.values.get i c o d * v.values.get i c o d).amt = (u.values.get i c o d).amt := by
  obtain ⟨u, v, h1, h2, -, -, h5, h6, h7⟩ := C64.run hd wf hax hl
  refine ⟨u, v, h1, h2, ?_⟩
  intro i c o d hi
  rw [h7 i c o d hi]
  by_cases hs : C22.Shown t o d
  · rw [h5 i c o d hi hs]
    have hno := hf i hi.1 c hi.2.1 o hi.2.2.1 d hi.2.2.2
    cases hx : t.values.get i c o d with
    | nan => simp
    | fin x =>
      by_cases h0 : x = 0
      · subst h0
        simp [Num.fin_div_fin]
      · rw [Num.fin_mul_fin, Num.fin_div_fin_of_ne _ h0, Num.fin_mul_fin]
        congr 2
        field_simp
    | pinf => rw [hx] at hno; exact absurd hno (by simp [Num.NoInf])
    | ninf => rw [hx] at hno; exact absurd hno (by simp [Num.NoInf])
  · rw [h6 i c o d hi hs]
    simp

/-- **C64, order**: trends with their dates can be given in any order. -/
theorem C64_order (hd : C22.HasDates t) (wf : WF t) (hax : ax ≠ .other) {l l' : List C64.Step} (hl : l ≠ [])
    (hp : l.Perm l') :
    ∃ v w, C64.fit l ax t = .ok v ∧ C64.fit l' ax t = .ok w ∧ C22.SameLabels v w ∧
      ∀ i c o d, t.values.In i c o d → v.values.get i c o d = w.values.get i c o d := by
  have hl' : l' ≠ [] := fun h => hl (by rw [h] at hp; exact hp.eq_nil)
  obtain ⟨u, v, -, h2, -, ⟨s1, s2⟩, h5, h6, h7⟩ := C64.run hd wf hax hl
  obtain ⟨u', w, -, k2, -, ⟨r1, r2⟩, k5, k6, k7⟩ := C64.run hd wf hax hl'
  refine ⟨v, w, h2, k2, ⟨?_, ?_⟩, ?_⟩
  · rw [r1, s1]
  · obtain ⟨a0, a1, a2, a3⟩ := s2
    obtain ⟨b0, b1, b2, b3⟩ := r2
    exact ⟨by rw [a0, b0], by rw [a1, b1], by rw [a2, b2], by rw [a3, b3]⟩
  · intro i c o d hi
    rw [h7 i c o d hi, k7 i c o d hi]
    by_cases hs : C22.Shown t o d
    · rw [h5 i c o d hi hs, k5 i c o d hi hs]
      unfold C64.total
      rw [(hp.map _).prod_eq]
    · rw [h6 i c o d hi hs, k6 i c o d hi hs]

/-- **C64, windows**: one trend in two adjoining windows is the trend in the two together. -/
theorem C64_split (hd : C22.HasDates t) (wf : WF t) (hax : ax ≠ .other) {r : ℝ} (hr : -1 < r) {s m e : Int}
    (h1 : e ≤ m) (h2 : m ≤ s) :
    ∃ v w, C64.fit [⟨r, some s, some m⟩, ⟨r, some m, some e⟩] ax t = .ok v ∧
      C64.fit [⟨r, some s, some e⟩] ax t = .ok w ∧ C22.SameLabels v w ∧
      ∀ i c o d, t.values.In i c o d → v.values.get i c o d = w.values.get i c o d := by
  obtain ⟨u, v, -, h2', -, ⟨s1, s2⟩, h5, h6, h7⟩ :=
    C64.run hd wf hax (l := [⟨r, some s, some m⟩, ⟨r, some m, some e⟩]) (by simp)
  obtain ⟨u', w, -, k2, -, ⟨r1, r2⟩, k5, k6, k7⟩ := C64.run hd wf hax (l := [⟨r, some s, some e⟩]) (by simp)
  refine ⟨v, w, h2', k2, ⟨?_, ?_⟩, ?_⟩
  · rw [r1, s1]
  · obtain ⟨a0, a1, a2, a3⟩ := s2
    obtain ⟨b0, b1, b2, b3⟩ := r2
    exact ⟨by rw [a0, b0], by rw [a1, b1], by rw [a2, b2], by rw [a3, b3]⟩
  · intro i c o d hi
    rw [h7 i c o d hi, k7 i c o d hi]
    by_cases hs : C22.Shown t o d
    · rw [h5 i c o d hi hs, k5 i c o d hi hs]
      unfold C64.total C64.months
      simp only [List.map_cons, List.map_nil, List.prod_cons, List.prod_nil, Option.getD_some, mul_one]
      rw [← Real.rpow_add (by linarith), ← add_div, ← Int.cast_add]
      have key : s - C22.clamped s m (C22.date t ax o d) + (m - C22.clamped m e (C22.date t ax o d)) =
          s - C22.clamped s e (C22.date t ax o d) := by
        unfold C22.clamped
        rw [min_eq_right h2, max_eq_left h2, min_eq_right h1, max_eq_left h1, min_eq_right (h1.trans h2),
          max_eq_left (h1.trans h2)]
        split_ifs <;> omega
      rw [key]
    · rw [h6 i c o d hi hs, k6 i c o d hi hs]

/-- **C64, rejected**: dates that are not a pair of dates, and fewer pairs of dates than trends. -/
theorem C64_rejects (trends : List (Int → ℝ)) (ds : List (Option (Option Int × Option Int))) :
    t.trendFit trends (some (none :: ds)) ax = .error .attributeError := rfl

theorem C64_few_dates (hd : C22.HasDates t) (hax : ax ≠ .other) {l : List C64.Step} (hl : l ≠ []) (r : Int → ℝ)
    (rs : List (Int → ℝ)) :
    t.trendFit (l.map (fun s => C22.factor s.rate) ++ r :: rs) (some (l.map fun s => some (s.start, s.stop))) ax =
      .error .indexError := by
  have key : ∀ (l : List C64.Step) (u : Tri ℝ), C22.HasDates u →
      u.trendLoop ax (l.map (fun s => C22.factor s.rate) ++ r :: rs) (l.map fun s => some (s.start, s.stop)) =
        .error .indexError := by
    intro l
    induction l with
    | nil => intro u _; rfl
    | cons s l ih =>
      intro u hu
      show (do let v ← u.trend (C22.factor s.rate) ax s.start s.stop none; trendLoop ax _ _ v) = _
      rw [C22.trend_ok hu hax]
      exact ih _ hu
  obtain ⟨s, l', rfl⟩ := List.exists_cons_of_ne_nil hl
  have e : t.trendFit ((s :: l').map (fun s => C22.factor s.rate) ++ r :: rs)
      (some ((s :: l').map fun s => some (s.start, s.stop))) ax =
      (do let v ← trendLoop ax (List.map (fun s => C22.factor s.rate) (s :: l') ++ r :: rs)
            (List.map (fun s => some (s.start, s.stop)) (s :: l')) t
          v.div t) := rfl
  rw [e, key _ t hd]
  rfl

/-! ## Cape Cod with these factors -/

/-- The trend factor of the latest amount of an origin. -/
noncomputable def C64.latest (t : Tri ℝ) (ax : TrendAxis) (l : List C64.Step) (age : Nat → Nat) (o : Nat) : ℝ :=
  C64.total t ax l o (age o)

theorem C64.total_pos {l : List C64.Step} (hr : ∀ s ∈ l, -1 < s.rate) (o d : Nat) : 0 < C64.total t ax l o d := by
  unfold C64.total
  refine List.prod_pos fun x hx => ?_
  obtain ⟨s, hs, rfl⟩ := List.mem_map.1 hx
  exact Real.rpow_pos_of_pos (by linarith [hr s hs]) _

/-- The factors on the latest diagonal, when no latest amount is zero. -/
theorem C64.diagonal (ht : CumTri t) {age : Nat → Nat} (hage : C36.Latest t age) (hax : ax ≠ .other)
    {l : List C64.Step} (hl : l ≠ []) (hr' : ∀ s ∈ l, -1 < s.rate) {ld : Tri ℝ}
    (hld : t.latestDiagonal = .ok (.tri ld))
    (hlat : ∀ i < t.kdims.length, ∀ c < t.vdims.length, ∀ o < t.odims.length,
      (t.values.get i c o (age o)).amt ≠ 0) :
    ∃ v u, C64.fit l ax t = .ok v ∧ v.latestDiagonal = .ok (.tri u) ∧ FactorsFor t u.values ∧
      ∀ i c o, i < t.kdims.length → c < t.vdims.length → o < t.odims.length →
        u.values.entry i c o = .fin (C64.latest t ax l age o) := by
  have hall : AllCurrent t := fun o ho => ⟨age o, (hage o ho).1, (hage o ho).2⟩
  obtain ⟨w0, w1, w2, w3⟩ := ht.wf
  have hdates : C22.HasDates t := by
    refine ⟨fun h => ?_, fun h => ?_⟩
    · have := ht.origins_pos
      rw [h] at this
      simp at this
    · rw [ht.noPattern] at h
      exact absurd h.1 (by simp)
  obtain ⟨v, h1, ⟨h2, h3⟩, h4, -⟩ := C64_factors hdates ht.wf hax hl
  obtain ⟨x, rows, hx, hr, hdg⟩ := ht.diagonal hld
  obtain ⟨hxl, hns⟩ := toAgg_tri hr.symm
  have hrows : rows = List.range t.odims.length := by
    refine List.Pairwise.eq_of_mem_iff hdg.rows_inc List.pairwise_lt_range ?_
    intro o
    rw [hdg.mem_rows, List.mem_range]
    exact ⟨fun h => h.1, fun h => ⟨h, hall o h⟩⟩
  subst hrows
  have hv : v = t.reval t.isPattern v.values.get := by
    obtain ⟨s0, s1, s2, s3⟩ := h3
    have : v.values = { t.values with get := v.values.get } := by
      show v.values = ⟨t.values.d0, t.values.d1, t.values.d2, t.values.d3, v.values.get⟩
      rw [← s0, ← s1, ← s2, ← s3]
    conv_lhs => rw [h2, this]
    rfl
  obtain ⟨u, u1, -, -, u4⟩ := diagonal_reval ht.wf ht.ordered ht.dated ht.distinct ht.ages_two hx hdg t.isPattern
    v.values.get
  rw [← hv] at u1 u4
  have vk : v.kdims = t.kdims := by rw [h2]
  have vv : v.vdims = t.vdims := by rw [h2]
  have vo : v.odims = t.odims := by rw [h2]
  have vd : v.ddims = t.ddims := by rw [h2]
  have d0 : u.values.d0 = t.kdims.length := by rw [u4.wf.1, u4.index, vk]
  have d1 : u.values.d1 = t.vdims.length := by rw [u4.wf.2.1, u4.columns, vv]
  have d2 : u.values.d2 = t.odims.length := by rw [u4.wf.2.2.1, u4.origins.1, List.length_range]
  have d3 : u.values.d3 = 1 := by rw [u4.wf.2.2.2, u4.one]
  have x0 : (x.sumKeep .development).values.d0 = t.kdims.length := by rw [hdg.wf.1, hdg.index]
  have x1 : (x.sumKeep .development).values.d1 = t.vdims.length := by rw [hdg.wf.2.1, hdg.columns]
  have x2 : (x.sumKeep .development).values.d2 = t.odims.length := by
    rw [hdg.wf.2.2.1, hdg.origins.1, List.length_range]
  have x3 : (x.sumKeep .development).values.d3 = 1 := by rw [hdg.wf.2.2.2, hdg.one]
  have hut : u.toAgg = .tri u := by
    unfold toAgg
    rw [if_neg]
    rw [d0, d1, d2, d3]
    rw [x0, x1, x2, x3] at hns
    exact hns
  rw [hut] at u1
  have hcell : ∀ i < t.kdims.length, ∀ c < t.vdims.length, ∀ o < t.odims.length,
      u.values.get i c o 0 = .fin (C64.latest t ax l age o) := by
    intro i hi c hc o ho
    have hor : (List.range t.odims.length)[o]'(by simpa using ho) = o := List.getElem_range _
    have c1 := u4.cells i c o (age o) (by rw [h3.1, w0]; exact hi) (by rw [h3.2.1, w1]; exact hc)
      (by simpa using ho) (by rw [vd]; exact (hage o ho).1) (by rw [hor, h2]; exact (hage o ho).2)
    rw [hor] at c1
    have hin : t.values.In i c o (age o) :=
      ⟨by rw [w0]; exact hi, by rw [w1]; exact hc, by rw [w2]; exact ho, by rw [w3]; exact (hage o ho).1⟩
    rw [c1, h4 i c o (age o) hin (Or.inr (hage o ho).2.le) _ (hlat i hi c hc o ho)
      (Num.eq_fin_amt (ht.finite i hin.1 c hin.2.1 o hin.2.2.1 _ hin.2.2.2) (hlat i hi c hc o ho))]
    exact Num.numToNan_fin_of_ne (C64.total_pos hr' o (age o)).ne'
  have hentry : ∀ i c o, i < t.kdims.length → c < t.vdims.length → o < t.odims.length →
      u.values.entry i c o = .fin (C64.latest t ax l age o) := by
    intro i c o hi hc ho
    unfold Arr.entry
    have e0 : (if u.values.d0 = 1 then 0 else i) = i := by rw [d0]; split_ifs <;> omega
    have e1 : (if u.values.d1 = 1 then 0 else c) = c := by rw [d1]; split_ifs <;> omega
    have e2 : (if u.values.d2 = 1 then 0 else o) = o := by rw [d2]; split_ifs <;> omega
    rw [e0, e1, e2]
    exact hcell i hi c hc o ho
  exact ⟨v, u, h1, u1, ⟨Or.inl d0, Or.inl d1, Or.inl d2, d3, fun i hi c hc o ho =>
    ⟨_, C64.total_pos hr' o (age o), hentry i c o hi hc ho⟩⟩, hentry⟩

/-- The a-priori of an origin: the average of the trended ratios of latest amount to used-up exposure, weighted by
used-up exposure and decay. -/
noncomputable def C64.apriori (t f w : Tri ℝ) (ax : TrendAxis) (l : List C64.Step) (age : Nat → Nat) (decay : ℝ)
    (i c o : Nat) : ℝ :=
  wavg t.odims.length (fun p => w.exposure i c p / f.toUlt i c (age p) * decay ^ apart o p)
    (fun p => (t.values.get i c p (age p)).amt * C64.total t ax l p (age p) /
      (w.exposure i c p / f.toUlt i c (age p)))

/-- **C64, Cape Cod** (partial: as `C36_fit_partial`, and no latest amount is zero).  The a-priori uses the
product of the trends at the latest cell of each origin, and the detrended a-priori is without it. -/
theorem C64_capecod_partial {f w ld : Tri ℝ} (ht : CumTri t) (hf : PatternFor t f)
    (hw : ExposureFor t w) (hwo : w.odims = t.odims) {age : Nat → Nat} (hage : C36.Latest t age)
    (hld : t.latestDiagonal = .ok (.tri ld)) {decay : ℝ} (hdec : 0 ≤ decay) (hax : ax ≠ .other)
    {l : List C64.Step} (hl : l ≠ []) (hr : ∀ s ∈ l, -1 < s.rate) (n : Nat)
    (hexp : ∀ i < t.kdims.length, ∀ c < t.vdims.length, ∀ o < t.odims.length, 0 < w.exposure i c o)
    (hcdf : ∀ i < t.kdims.length, ∀ c < t.vdims.length, ∀ d < t.ddims.length, 0 < f.toUlt i c d)
    (hlat : ∀ i < t.kdims.length, ∀ c < t.vdims.length, ∀ o < t.odims.length,
      0 < (t.values.get i c o (age o)).amt)
    (hq : ∀ i < t.kdims.length, ∀ c < t.vdims.length, ∀ d < t.ddims.length,
      1 - 1 / f.toUlt i c d ≠ -(1 / 10 ^ 16)) :
    ∃ y a d e u p, C64.fit l ax t = .ok y ∧ capecodTrended y t f (some w) decay n = .ok (a, d, e, u) ∧
      C36.RatioOf t w a (C64.apriori t f w ax l age decay) ∧
      C36.RatioOf t w d (fun i c o => C64.apriori t f w ax l age decay i c o / C64.total t ax l o (age o)) ∧
      C35.SortedUltimate t u p fun i c o d => benkIter (t.values.get i c o d).amt (f.toUlt i c d)
        (w.exposure i c o * (C64.apriori t f w ax l age decay i c o / C64.total t ax l o (age o))) n := by
  have hall : AllCurrent t := fun o ho => ⟨age o, (hage o ho).1, (hage o ho).2⟩
  obtain ⟨y, tr, y1, y2, hff, hen⟩ := C64.diagonal ht hage hax hl hr hld
    fun i hi c hc o ho => (hlat i hi c hc o ho).ne'
  have hpos : ∀ i < t.kdims.length, ∀ c < t.vdims.length, ∀ o < t.odims.length,
      0 < f.usedUp w age i c o := fun i hi c hc o ho =>
    div_pos (hexp i hi c hc o ho) (hcdf i hi c hc _ (hage o ho).1)
  obtain ⟨a, d, h1, h2, h3⟩ := C36_apriori_partial ht hf hw hwo hage hld hdec hff (factorsFor_one t)
    (factorsFor_one t) hpos fun i hi c hc o ho =>
      (add_pos (hlat i hi c hc o ho) (hexp i hi c hc o ho)).ne'
  have hone : ∀ i c o, ((Arr.scalar 1 : Arr ℝ).entry i c o).amt = 1 := fun _ _ _ => rfl
  have hap : ∀ i < t.kdims.length, ∀ c < t.vdims.length, ∀ o < t.odims.length,
      t.capeCodRatio f w age tr.values (Arr.scalar 1) (Arr.scalar 1) decay i c o =
        C64.apriori t f w ax l age decay i c o := by
    intro i hi c hc o ho
    unfold capeCodRatio C64.apriori wavg
    congr 1
    refine Finset.sum_congr rfl fun p hp => ?_
    unfold lossRatio usedUp
    beta_reduce
    rw [hone, mul_one, mul_one, hen i c p hi hc (Finset.mem_range.1 hp)]
    rfl
  have ha : C36.RatioOf t w a (C64.apriori t f w ax l age decay) :=
    ⟨h2.wf, h2.index, h2.columns, h2.origins, h2.keyLabels, h2.ograin, h2.development, h2.date,
      fun i hi c hc o ho => by rw [h2.cells i hi c hc o ho, hap i hi c hc o ho]⟩
  have hd : C36.RatioOf t w d (fun i c o =>
      C64.apriori t f w ax l age decay i c o / C64.total t ax l o (age o)) := by
    refine ⟨h3.wf, h3.index, h3.columns, h3.origins, h3.keyLabels, h3.ograin, h3.development, h3.date,
      fun i hi c hc o ho => ?_⟩
    rw [h3.cells i hi c hc o ho, hap i hi c hc o ho, hone, div_one, mul_one, hen i c o hi hc ho]
    rfl
  obtain ⟨e, e1, e2, e3, e4⟩ := exposure_mul ht.index_pos ht.columns_pos hw hwo hd
  have hnn : ∀ i < t.kdims.length, ∀ c < t.vdims.length, ∀ o < t.odims.length,
      0 ≤ e.exposure i c o := by
    intro i hi c hc o ho
    rw [e4 i hi c hc o ho]
    refine mul_nonneg (hexp i hi c hc o ho).le (div_nonneg ?_ (C64.total_pos hr _ _).le)
    unfold C64.apriori wavg
    refine div_nonneg (Finset.sum_nonneg fun p hp => ?_) (Finset.sum_nonneg fun p hp => ?_)
    · have hp := Finset.mem_range.1 hp
      exact mul_nonneg (mul_nonneg (hpos i hi c hc p hp).le (pow_nonneg hdec _))
        (div_nonneg (mul_nonneg (hlat i hi c hc p hp).le (C64.total_pos hr _ _).le) (hpos i hi c hc p hp).le)
    · exact mul_nonneg (hpos i hi c hc p (Finset.mem_range.1 hp)).le (pow_nonneg hdec _)
  obtain ⟨u, p, u1, u2⟩ := C35_benktander_partial ht hf e2 hall hld 1 n (by
    intro i hi c hc o ho dd hdd hval
    have hda : dd = age o := ht.distinct o ho dd hdd (age o) (hage o ho).1
      (by rw [hval, (hage o ho).2])
    subst hda
    rw [one_mul]
    exact Or.inl (add_pos_of_pos_of_nonneg (hlat i hi c hc o ho) (hnn i hi c hc o ho)).ne') hq
  refine ⟨y, a, d, e, u, p, y1, ?_, ha, hd, ?_⟩
  · unfold capecodTrended
    simp only [y2, h1, e1, u1, bind, Except.bind]
  · obtain ⟨q1, q2, q3, q4, q5, q6, q7, q8, q9, q10, q11, q12, q13⟩ := u2
    refine ⟨q1, q2, q3, q4, q5, q6, q7, q8, q9, q10, q11, q12, ?_⟩
    intro i c o dd hi hc ho hdd hval
    have hpi : p[i] < t.kdims.length := by
      have := q1.mem_iff.1 (List.getElem_mem hi)
      exact List.mem_range.1 this
    rw [q13 i c o dd hi hc ho hdd hval, one_mul, e4 p[i] hpi c hc o ho]

/-! ## An origin without losses -/

/-- Origins 2020 and 2021 at the end of 2021; nothing reported for 2021. -/
def C64.tri : Tri ℚ :=
  { Ex.tri3 (some true) Ex.cum3 with
    odims := [24240, 24252]
    ddims := [12, 24]
    vd := 24263
    values := ⟨1, 1, 2, 2, fun _ _ o d => if o = 0 then .fin (100 * (d + 1)) else if d = 0 then .fin 0 else .nan⟩ }

/-- A trend of 10 per cent. -/
def C64.ten (m : Int) : ℚ := if m < 12 then 1 else 11 / 10

/-- Losses double in the second year. -/
def C64.pat : Tri ℚ :=
  { C33.pat with
    ddims := [12, 24]
    values := ⟨1, 1, 1, 2, fun _ _ _ d => .fin (if d = 0 then 2 else 1)⟩ }

/-- A premium of 200 in each year. -/
def C64.premium : Tri ℚ :=
  { C35.premium (fun _ => 200) with
    odims := [24240, 24252]
    ddims := [24263]
    vd := 24263
    values := ⟨1, 1, 2, 1, fun _ _ _ _ => .fin 200⟩ }

/-- **C64 is false for an origin without losses**: the factor of an amount of zero is missing, and with it the
a-priori and the ultimate of Cape Cod; with the same trend given to Cape Cod itself the ultimate is 220 / 3. -/
theorem C64_zero_false :
    ∃ y r r', C64.tri.trendFit [C64.ten] none .origin = .ok y ∧ y.values.get 0 0 1 0 = .nan ∧
      capecodTrended y C64.tri C64.pat (some C64.premium) 1 1 = .ok r ∧ r.2.2.2.values.get 0 0 1 0 = .nan ∧
      C64.tri.capecod C64.ten C64.pat (some C64.premium) 1 1 = .ok r' ∧
      r'.2.2.2.values.get 0 0 1 0 = .fin (220 / 3) := by
  obtain ⟨yr, h1, h2, h3⟩ := ok_of (x := do
      let y ← C64.tri.trendFit [C64.ten] none .origin
      let r ← capecodTrended y C64.tri C64.pat (some C64.premium) 1 1
      .ok (y, r))
    (fun y => y.1.values.get 0 0 1 0 = .nan ∧ y.2.2.2.2.values.get 0 0 1 0 = .nan) (by decide +kernel)
  obtain ⟨y, hy, h1⟩ := bind_ok h1
  obtain ⟨r, hr, h1⟩ := bind_ok h1
  injection h1 with h1
  subst h1
  obtain ⟨r', k1, k2⟩ := ok_of (x := C64.tri.capecod C64.ten C64.pat (some C64.premium) 1 1)
    (fun r => r.2.2.2.values.get 0 0 1 0 = .fin (220 / 3)) (by decide +kernel)
  exact ⟨y, r, r', hy, h2, hr, h3, k1, k2⟩

/-! ## Example: 10 per cent up to the end of 2021, 20 per cent afterwards -/

theorem C64.tri_dates : C22.HasDates C22.tri := ⟨by simp [C22.tri], by simp [C22.tri]⟩

/-- The origin year 2020 is trended one year by each of the two. -/
example : ∃ v, C64.fit [⟨2 / 10, some 24275, some 24263⟩, ⟨1 / 10, some 24263, some 24251⟩] .origin C22.tri = .ok v ∧
    v.values.get 0 0 0 0 = .fin (12 / 10 * (11 / 10)) ∧ v.values.get 0 0 1 0 = .fin (12 / 10) ∧
    v.values.get 0 0 2 0 = .fin 1 := by
  obtain ⟨v, h1, -, h3, -⟩ := C64_factors (t := C22.tri) (ax := .origin) C64.tri_dates
    ⟨rfl, rfl, rfl, rfl⟩ (by decide)
    (l := [⟨2 / 10, some 24275, some 24263⟩, ⟨1 / 10, some 24263, some 24251⟩]) (by simp)
  have hs : ∀ o < 3, C22.Shown C22.tri o 0 := by
    intro o ho
    right
    interval_cases o <;> decide
  have hc : ∀ o < 3, C22.tri.values.get 0 0 o 0 = .fin 100 := by
    intro o ho
    interval_cases o <;> simp [C22.tri]
  have hin : ∀ o < 3, C22.tri.values.In 0 0 o 0 := by
    intro o ho
    exact ⟨by simp [C22.tri], by simp [C22.tri], by simpa [C22.tri] using ho, by simp [C22.tri]⟩
  refine ⟨v, h1, ?_, ?_, ?_⟩
  · rw [h3 0 0 0 0 (hin 0 (by omega)) (hs 0 (by omega)) 100 (by norm_num) (hc 0 (by omega))]
    have e1 : C64.months C22.tri .origin ⟨2 / 10, some 24275, some 24263⟩ 0 0 = 12 := by
      simp [C64.months, C22.clamped, C22.date, C22.tri, Grain.months]
    have e2 : C64.months C22.tri .origin ⟨1 / 10, some 24263, some 24251⟩ 0 0 = 12 := by
      simp [C64.months, C22.clamped, C22.date, C22.tri, Grain.months]
    simp only [C64.total, List.map_cons, List.map_nil, List.prod_cons, List.prod_nil, e1, e2]
    norm_num
  · rw [h3 0 0 1 0 (hin 1 (by omega)) (hs 1 (by omega)) 100 (by norm_num) (hc 1 (by omega))]
    have e1 : C64.months C22.tri .origin ⟨2 / 10, some 24275, some 24263⟩ 1 0 = 12 := by
      simp [C64.months, C22.clamped, C22.date, C22.tri, Grain.months]
    have e2 : C64.months C22.tri .origin ⟨1 / 10, some 24263, some 24251⟩ 1 0 = 0 := by
      simp [C64.months, C22.clamped, C22.date, C22.tri, Grain.months]
    simp only [C64.total, List.map_cons, List.map_nil, List.prod_cons, List.prod_nil, e1, e2]
    norm_num
  · rw [h3 0 0 2 0 (hin 2 (by omega)) (hs 2 (by omega)) 100 (by norm_num) (hc 2 (by omega))]
    have e1 : C64.months C22.tri .origin ⟨2 / 10, some 24275, some 24263⟩ 2 0 = 0 := by
      simp [C64.months, C22.clamped, C22.date, C22.tri, Grain.months]
    have e2 : C64.months C22.tri .origin ⟨1 / 10, some 24263, some 24251⟩ 2 0 = 0 := by
      simp [C64.months, C22.clamped, C22.date, C22.tri, Grain.months]
    simp only [C64.total, List.map_cons, List.map_nil, List.prod_cons, List.prod_nil, e1, e2]
    norm_num

end Tri
end CL
