import Verif.Lemmas.TailFit
import Mathlib.Analysis.SpecificLimits.Normed
import Mathlib.Analysis.SpecialFunctions.Pow.Continuity

set_option linter.unusedSectionVars false

/-! # C62: the Bondy tail -/

namespace CL
namespace Tail

variable {t f : Tri ℝ} {a : Int} {n D q : Nat}

/-- Factors decaying on the logarithmic scale. -/
theorem decay_prod {x b : ℝ} (hx : 0 < x) (m N : Nat) :
    ∏ k ∈ Finset.range N, x ^ (b ^ (m + k)) = x ^ (b ^ m * ∑ k ∈ Finset.range N, b ^ k) := by
  rw [← Real.rpow_sum_of_pos hx]
  congr 1
  rw [Finset.mul_sum]
  apply Finset.sum_congr rfl
  intro k _
  rw [pow_add]

theorem decay_limit {x b : ℝ} (hx : 0 < x) (hb : |b| < 1) (m : Nat) :
    Filter.Tendsto (fun N => ∏ k ∈ Finset.range N, x ^ (b ^ (m + k))) Filter.atTop (nhds (x ^ (b ^ m / (1 - b)))) := by
  simp only [decay_prod hx]
  have h1 := ((hasSum_geometric_of_abs_lt_one hb).tendsto_sum_nat).const_mul (b ^ m)
  rw [← div_eq_mul_inv] at h1
  exact (Real.continuousAt_const_rpow hx.ne').tendsto.comp h1

/-- **C62, factors**: for every grain and projection period, the factors up to the attachment age stay; the
logarithm of those after it goes on from the factor at the earliest age, multiplied by the decay at each
age; the last factor stands for all the rest: it is the limit of the product of the factors that would follow. -/
theorem C62_factors (h : t.Grid a n D q) (hl : LinkPattern t f) {earliest attach : Option Int} {e j : Nat}
    (he : PickedAt t earliest e) (hj : PickedAt t attach j) (hej : e ≤ j) (hn : attach = none ∨ earliest ≠ none)
    {b : Nat → Nat → ℝ} (hb : ∀ i c, |b i c| < 1) {x : Nat → Nat → ℝ}
    (hx : ∀ i < f.values.d0, ∀ c < f.values.d1, 0 < x i c ∧ f.values.get i c 0 e = .fin (x i c)) (p : Nat) :
    ∃ g, bondy b t f earliest attach p = .ok g ∧ g.values.d3 = D + 1 ∧
      (∀ i c o d, d ≤ j → g.values.get i c o d = f.values.get i c o d) ∧
      ∀ i < f.values.d0, ∀ c < f.values.d1, ∀ o,
        (∀ d, j < d → d < D → g.values.get i c o d = .fin (Real.exp (b i c ^ (d - e) * Real.log (x i c)))) ∧
        ∃ y, g.values.get i c o D = .fin y ∧ Filter.Tendsto
          (fun N => ∏ k ∈ Finset.range N, Real.exp (b i c ^ (D + k - e) * Real.log (x i c))) Filter.atTop (nhds y) := by
  have hb' : ∀ i c, b i c ≠ 1 := fun i c h1 => by have := hb i c; rw [h1] at this; simp at this
  obtain ⟨g, last, -, h2, h3, h4, h5⟩ := bondy_eq h hl he hj hej hn hb' hx p
  have hexp : ∀ y m : ℝ, 0 < y → Real.exp (m * Real.log y) = y ^ m := by
    intro y m hy
    rw [Real.rpow_def_of_pos hy, mul_comm]
  have hjD : j + 1 < D := by rw [← h.lenD]; exact hj.1
  refine ⟨g, h2, by rw [h3], h4, fun i hi c hc o => ⟨fun d hd1 hd2 => ?_, ?_⟩⟩
  · rw [h5 i hi c hc o d hd1, if_pos hd2, hexp _ _ (hx i hi c hc).1]
  · refine ⟨_, by rw [h5 i hi c hc o D (by omega), if_neg (lt_irrefl D)], ?_⟩
    have := decay_limit (hx i hi c hc).1 (hb i c) (D - e)
    simp only [hexp _ _ (hx i hi c hc).1]
    refine this.congr fun N => Finset.prod_congr rfl fun k _ => ?_
    rw [show D + k - e = D - e + k by omega]

/-- **C62, tail**: when one period is added (annual ages and a projection of a year) the result is a pattern
with labels and values in step, and the tail is the whole of the decay after the attachment age. -/
theorem C62_tail_partial (h : t.Grid a n D q) (hl : LinkPattern t f) {earliest attach : Option Int} {e j : Nat}
    (he : PickedAt t earliest e) (hj : PickedAt t attach j) (hej : e ≤ j) (hn : attach = none ∨ earliest ≠ none)
    {b : Nat → Nat → ℝ} (hb : ∀ i c, |b i c| < 1) {x : Nat → Nat → ℝ}
    (hx : ∀ i < f.values.d0, ∀ c < f.values.d1, 0 < x i c ∧ f.values.get i c 0 e = .fin (x i c)) {p : Nat}
    (hp : addedPeriods p t.dgrain = 1) :
    ∃ g, bondy b t f earliest attach p = .ok g ∧
      HasTail f g (j + 1) t.dgrain p fun i c _ => x i c ^ (b i c ^ (j + 1 - e) / (1 - b i c)) := by
  have hb' : ∀ i c, b i c ≠ 1 := fun i c h1 => by have := hb i c; rw [h1] at this; simp at this
  obtain ⟨g, last, h1, h2, h3, h4, h5⟩ := bondy_eq h hl he hj hej hn hb' hx p
  have hjD : j + 1 < D := by rw [← h.lenD]; exact hj.1
  obtain ⟨hlen, hpos⟩ := hl.length
  rw [h.lenD] at hlen
  obtain ⟨w0, w1, w2, w3⟩ := hl.wf
  refine ⟨g, h2, ?_⟩
  have k0 : g.kdims = f.kdims ∧ g.keyLabels = f.keyLabels := by rw [h3]; exact ⟨rfl, rfl⟩
  refine ⟨?_, k0, by rw [h3], by rw [h3], by rw [h3]; exact ⟨rfl, rfl⟩, by rw [h3]; exact ⟨rfl, rfl, rfl, rfl, rfl⟩,
    ⟨last, h1, by rw [h3]⟩, fun i c o d hd => h4 i c o d (by omega), ?_⟩
  · rw [h3]
    refine ⟨w0, w1, w2, ?_⟩
    show D + 1 = (f.ddims ++ _).length
    rw [List.length_append, List.length_map, List.length_range, hp]
    omega
  · intro i hi c hc o _
    obtain ⟨x1, x2⟩ := hx i hi c hc
    have g3 : g.values.d3 = D + 1 := by rw [h3]
    refine ⟨fun d => if d < D then x i c ^ (b i c ^ (d - e)) else x i c ^ (b i c ^ (D - e) / (1 - b i c)), ?_, ?_⟩
    · intro d hd1 hd2
      refine ⟨?_, h5 i hi c hc o d (by omega)⟩
      show (if d < D then _ else _) ≠ _
      split_ifs <;> exact (Real.rpow_pos_of_pos x1 _).ne'
    · rw [g3, Finset.prod_Ico_succ_top (by omega), if_neg (lt_irrefl D)]
      have e1 : ∏ d ∈ Finset.Ico (j + 1) D, (if d < D then x i c ^ (b i c ^ (d - e)) else
          x i c ^ (b i c ^ (D - e) / (1 - b i c))) =
          ∏ k ∈ Finset.range (D - (j + 1)), x i c ^ (b i c ^ ((j + 1 - e) + k)) := by
        rw [Finset.prod_Ico_eq_prod_range]
        apply Finset.prod_congr rfl
        intro k hk
        have hk := Finset.mem_range.1 hk
        rw [if_pos (by omega), show j + 1 + k - e = j + 1 - e + k by omega]
      rw [e1, decay_prod x1, ← Real.rpow_add x1]
      congr 1
      have h6 : 1 - b i c ≠ 0 := fun h => hb' i c (by linarith)
      rw [geom_sum_eq (hb' i c), show D - e = (j + 1 - e) + (D - (j + 1)) by omega, pow_add]
      have h7 : b i c - 1 ≠ 0 := fun h => hb' i c (by linarith)
      field_simp
      ring

/-- **C62, chain ladder**: with the default attachment the ultimates are the latest amounts times the
remaining factors times the tail. -/
theorem C62_chainladder_partial {l : Tri ℝ} (h : t.Standard a n D q) (hl : LinkPattern t f)
    (hd : t.latestDiagonal = .ok (.tri l)) {earliest : Option Int} {e : Nat} (he : PickedAt t earliest e)
    {b : Nat → Nat → ℝ} (hb : ∀ i c, |b i c| < 1) {x : Nat → Nat → ℝ}
    (hx : ∀ i < f.values.d0, ∀ c < f.values.d1, 0 < x i c ∧ f.values.get i c 0 e = .fin (x i c)) {p : Nat}
    (hp : addedPeriods p t.dgrain = 1) :
    ∃ g u rows, bondy b t f earliest none p = .ok g ∧ t.chainladder g none = .ok u ∧
      Tri.UltimateOf t u rows fun i c o d => (t.values.get i c o d).amt *
        ((∏ j ∈ Finset.Ico d (D - 1), f.ageFactor i c j) *
          x (if f.kdims.length = 1 then 0 else i) (if f.vdims.length = 1 then 0 else c) ^
            (b (if f.kdims.length = 1 then 0 else i) (if f.vdims.length = 1 then 0 else c) ^ (D - 1 - e) /
              (1 - b (if f.kdims.length = 1 then 0 else i) (if f.vdims.length = 1 then 0 else c)))) := by
  have hD := h.lenD
  have h2 := h.two_ages
  have he1 := he.1
  obtain ⟨g, e1, e2⟩ := C62_tail_partial h.toGrid hl he (j := D - 2) (attach := none)
    ⟨by omega, .inl ⟨rfl, by omega⟩⟩ (by omega) (.inl rfl) hb hx hp
  rw [show D - 2 + 1 = t.ddims.length - 1 by omega] at e2
  obtain ⟨hpat, hult⟩ := e2.pattern hl
  have ht := h.cumTri
  obtain ⟨u, rows, e3, -, e4⟩ := Tri.C33_ultimate_partial ht hpat hd
  refine ⟨g, u, rows, e1, e3, ⟨e4.rows_inc, e4.mem_rows, e4.wf, e4.index, e4.columns, e4.origins,
    e4.grains, e4.development, e4.date, e4.cumulative, ?_⟩⟩
  intro i c o d hi hc ho hd hv
  rw [e4.cells i c o d hi hc ho hd hv, hult i (by rw [← ht.wf.1]; exact hi) c
    (by rw [← ht.wf.2.1]; exact hc) d hd, hD]

/-- **C62, labels**: whenever the projection adds another number of periods than one, labels and values are
out of step. -/
theorem C62_labels (h : t.Grid a n D q) (hl : LinkPattern t f) {earliest attach : Option Int} {e j : Nat}
    (he : PickedAt t earliest e) (hj : PickedAt t attach j) (hej : e ≤ j) (hn : attach = none ∨ earliest ≠ none)
    {b : Nat → Nat → ℝ} (hb : ∀ i c, |b i c| < 1) {x : Nat → Nat → ℝ}
    (hx : ∀ i < f.values.d0, ∀ c < f.values.d1, 0 < x i c ∧ f.values.get i c 0 e = .fin (x i c)) {p : Nat}
    (hp : addedPeriods p t.dgrain ≠ 1) :
    ∃ g, bondy b t f earliest attach p = .ok g ∧ g.values.d3 ≠ g.ddims.length := by
  have hb' : ∀ i c, b i c ≠ 1 := fun i c h1 => by have := hb i c; rw [h1] at this; simp at this
  obtain ⟨g, last, h1, h2, h3, h4, h5⟩ := bondy_eq h hl he hj hej hn hb' hx p
  obtain ⟨hlen, hpos⟩ := hl.length
  rw [h.lenD] at hlen
  refine ⟨g, h2, ?_⟩
  rw [h3]
  show D + 1 ≠ (f.ddims ++ _).length
  rw [List.length_append, List.length_map, List.length_range]
  omega

/-- **C62, attachment alone**: an attachment age without an earliest age is a type error. -/
theorem C62_attachment_alone {x : Int} (hv : t.isVal = false) (hl : f.values.d3 + 1 = t.ddims.length) (hx : x ≠ 0)
    (b : Nat → Nat → ℝ) (p : Nat) : bondy b t f none (some x) p = .error .typeError := by
  unfold bondy checkAges
  rw [if_neg (by rw [hv]; simp; omega)]
  simp only
  rw [if_neg hx]
  rfl

/-- **C62, order**: an attachment age before the earliest age is rejected. -/
theorem C62_order {x y : Int} (hv : t.isVal = false) (hl : f.values.d3 + 1 = t.ddims.length) (hx : x ≠ 0) (hxy : x < y)
    (b : Nat → Nat → ℝ) (p : Nat) : bondy b t f (some y) (some x) p = .error .valueError := by
  unfold bondy checkAges
  rw [if_neg (by rw [hv]; simp; omega)]
  simp only
  rw [if_neg hx, if_pos hxy]
  rfl

namespace C62

theorem link : LinkPattern C37.tri C37.pat where
  wf := C37.wf_pat
  pattern := rfl
  incremental := by decide
  multiplicative := rfl
  ages := rfl
  ograin := rfl
  dgrain := rfl
  keyLabels := rfl
  index := .inl rfl
  columns := .inl rfl
  origin := rfl
  developments := ⟨24, rfl, rfl⟩
  factors := by
    intro i hi c hc j hj
    replace hj : j < 2 := hj
    interval_cases j
    · exact ⟨3 / 2, by norm_num, rfl⟩
    · exact ⟨11 / 10, by norm_num, rfl⟩

/-- The factor at 12 months. -/
theorem first : ∀ i < C37.pat.values.d0, ∀ c < C37.pat.values.d1,
    0 < (fun _ _ => 3 / 2 : Nat → Nat → ℝ) i c ∧ C37.pat.values.get i c 0 0 = .fin ((fun _ _ => 3 / 2 : Nat → Nat → ℝ) i c) :=
  fun i _ c _ => ⟨by norm_num, rfl⟩

theorem positive : ∀ i < C37.pat.values.d0, ∀ c < C37.pat.values.d1, ∀ j < C37.pat.values.d3,
    ∃ x, 0 < x ∧ C37.pat.values.get i c 0 j = .fin x := by
  intro i _ c _ j hj
  replace hj : j < 2 := hj
  interval_cases j
  · exact ⟨3 / 2, by norm_num, rfl⟩
  · exact ⟨11 / 10, by norm_num, rfl⟩

theorem picked : PickedAt C37.tri (some 12) 0 := ⟨by decide, .inr rfl⟩

/-- From 12 months with a decay of one half: 1.5 and 1.1 stay, 1.5 to the quarter is the factor at 36 months,
and once more stands for everything later; the tail is the root of 1.5. -/
example : ∃ g, bondy (fun _ _ => 1 / 2) C37.tri C37.pat (some 12) none 12 = .ok g ∧ g.ddims = [12, 24, 36, 48] ∧
    g.values.get 0 0 0 1 = .fin (11 / 10) ∧ g.values.get 0 0 0 2 = .fin ((3 / 2) ^ (1 / 4 : ℝ)) ∧
    g.values.get 0 0 0 3 = .fin ((3 / 2) ^ (1 / 4 : ℝ)) := by
  obtain ⟨g, last, h1, h2, h3, h4, h5⟩ := bondy_eq Work.C56.standard.toGrid link picked (j := 1) (attach := none)
    ⟨by decide, .inl ⟨rfl, rfl⟩⟩ (by decide) (.inl rfl) (b := fun _ _ => 1 / 2) (fun _ _ => by norm_num) first 12
  have hlast : last = 24 := by
    have : C37.pat.ddims.getLast? = some 24 := rfl
    rw [this] at h1
    injection h1 with h1
    exact h1.symm
  subst hlast
  refine ⟨g, h2, by rw [h3]; rfl, ?_, ?_, ?_⟩
  · rw [h4 0 0 0 1 le_rfl]; rfl
  · rw [h5 0 (by decide) 0 (by decide) 0 2 (by decide), if_pos (by decide)]
    norm_num
  · rw [h5 0 (by decide) 0 (by decide) 0 3 (by decide), if_neg (by decide)]
    norm_num

end C62

/-- The full claim, a pattern for every projection period, fails for a projection of two years. -/
theorem C62_labels_false : ¬ ∀ (b : Nat → Nat → ℝ) (t f : Tri ℝ) (a : Int) (n D q p : Nat), (∀ i c, 0 < b i c ∧ b i c < 1) →
    t.Grid a n D q → LinkPattern t f →
    (∀ i < f.values.d0, ∀ c < f.values.d1, ∀ j < f.values.d3, ∃ x, 0 < x ∧ f.values.get i c 0 j = .fin x) →
    ∃ g, bondy b t f (some 12) none p = .ok g ∧ Tri.WF g := by
  intro hall
  obtain ⟨g, h1, h2⟩ := hall (fun _ _ => 1 / 2) C37.tri C37.pat 24240 3 3 1 24 (fun _ _ => by norm_num)
    Work.C56.standard.toGrid C62.link C62.positive
  obtain ⟨g', h3, h4⟩ := C62_labels Work.C56.standard.toGrid C62.link C62.picked (j := 1) (attach := none)
    ⟨by decide, .inl ⟨rfl, rfl⟩⟩ (by decide) (.inl rfl) (b := fun _ _ => 1 / 2)
    (fun _ _ => by norm_num [abs_lt]) C62.first (p := 24) (by decide)
  rw [h1] at h3
  injection h3 with h3
  rw [← h3] at h4
  exact h4 h2.2.2.2

end Tail
end CL
