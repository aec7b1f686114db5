import Verif.Lemmas.TailFit
import Verif.Spec.Examples

set_option linter.unusedSectionVars false

/-! # C63: the Clark tail -/

namespace CL
namespace Tail

variable {t f : Tri ℝ} {a : Int} {n D q : Nat} {growth : String} {theta omega : Nat → Nat → ℝ}

theorem telescope {v : Nat → ℝ} (hv : ∀ d, v d ≠ 0) (T : ℝ) (N : Nat) : ∀ m k, k + m + 1 = N →
    ∏ d ∈ Finset.Ico k N, (if d + 1 < N then v (d + 1) / v d else T / v d) = T / v k := by
  intro m
  induction m with
  | zero =>
    intro k hk
    rw [show N = k + 1 by omega, Finset.prod_Ico_succ_top (by omega), Finset.Ico_self, Finset.prod_empty, one_mul,
      if_neg (by omega)]
  | succ m ih =>
    intro k hk
    rw [Finset.prod_eq_prod_Ico_succ_bot (by omega), ih (k + 1) (by omega), if_pos (by omega)]
    have h1 := hv k
    have h2 := hv (k + 1)
    field_simp

/-- **C63, factors**: the factors before the attachment age stay (one where there is none); from it on they are
ratios of the growth curve at the middles of consecutive periods, all greater than one, and the last is what is
left of the curve. -/
theorem C63_factors (h : t.Grid a n D q) (hl : LinkPattern t f) {attach : Option Int} {k : Nat}
    (hk : AttachedAge t attach k) {p : Nat} (hkp : k < D + addedPeriods p t.dgrain)
    (hg : growth = "loglogistic" ∨ growth = "weibull") (ht : ∀ i c, 0 < theta i c) (ho : ∀ i c, 0 < omega i c)
    (h0 : f.values.d0 = t.values.d0) (h1 : f.values.d1 = t.values.d1) :
    ∃ g, clark growth theta omega t f attach none p = .ok g ∧ g.values.d3 = g.ddims.length ∧
      g.ddims.length = D + addedPeriods p t.dgrain ∧
      (∀ i c o d, d < k → g.values.get i c o d = if d + 1 < D then f.values.get i c o d else 1) ∧
      ∀ i c o d, k ≤ d → d < D + addedPeriods p t.dgrain → ∃ G y, 1 < y ∧ g.values.get i c o d = .fin y ∧
        Clark.curve growth (theta i c) (omega i c) ((d + 1) * t.dgrain.months - t.dgrain.months / 2) = .fin G ∧
        (d + 1 < D + addedPeriods p t.dgrain →
          Clark.curve growth (theta i c) (omega i c) ((d + 2) * t.dgrain.months - t.dgrain.months / 2) = .fin (y * G)) ∧
        (d + 1 = D + addedPeriods p t.dgrain → y * G = 1) := by
  obtain ⟨g, last, e1, e2, e3, e4, e5⟩ := clark_eq (omega := omega) h hl hk hkp hg ht h0 h1 (trunc := none) (by simp)
  have gl : g.ddims.length = D + addedPeriods p t.dgrain := by
    rw [e3]
    show (f.ddims ++ _).length = _
    rw [extended_ages h hl e1 p]
    simp
  refine ⟨g, e2, by rw [gl, e3], gl, e4, fun i c o d hd1 hd2 => ?_⟩
  have hv := Clark.value_bounds (growth := growth) (omega := omega i c) (ht i c) (midAge_pos t d)
  have hlt : midAge t d < midAge t (d + 1) := by
    unfold midAge
    have := Clark.months_pos' t.dgrain
    push_cast
    nlinarith
  have hv' := Clark.value_lt (growth := growth) (ht i c) (ho i c) (midAge_pos t d) hlt
  have hc := Clark.curve_eq (omega := omega i c) hg (ht i c) (midAge_pos t d)
  have hc' := Clark.curve_eq (omega := omega i c) hg (ht i c) (midAge_pos t (d + 1))
  have em : midAge t (d + 1) = (d + 2) * t.dgrain.months - t.dgrain.months / 2 := by
    unfold midAge
    push_cast
    ring
  rw [em] at hc'
  refine ⟨_, _, ?_, e5 i c o d hd1 hd2, hc, fun h5 => ?_, fun h5 => ?_⟩
  · split_ifs
    · exact (one_lt_div hv.1).2 hv'
    · exact (one_lt_div hv.1).2 hv.2
  · rw [hc', if_pos h5, em, div_mul_cancel₀ _ hv.1.ne']
  · rw [if_neg (by omega)]
    show 1 / _ * _ = _
    rw [div_mul_cancel₀ _ hv.1.ne']

/-- The curve at the truncation age, one without. -/
noncomputable def cut (growth : String) (theta omega : ℝ) : Option ℝ → ℝ
  | none => 1
  | some x => (Clark.curve growth theta omega x).amt

/-- **C63, tail**: attached at the last age or before, the result is a pattern whose tail is the value of the
curve at the truncation age (one without) over its value in the middle of the period attached to, whatever the
projection period. -/
theorem C63_tail_partial (h : t.Grid a n D q) (hl : LinkPattern t f) {attach : Option Int} {k : Nat}
    (hk : AttachedAge t attach k) (hkD : k < D) (p : Nat) (hg : growth = "loglogistic" ∨ growth = "weibull")
    (ht : ∀ i c, 0 < theta i c) (h0 : f.values.d0 = t.values.d0) (h1 : f.values.d1 = t.values.d1) {trunc : Option ℝ}
    (hx : ∀ x, trunc = some x → 0 < x) :
    ∃ g, clark growth theta omega t f attach trunc p = .ok g ∧
      HasTail f g k t.dgrain p fun i c _ =>
        cut growth (theta i c) (omega i c) trunc /
          (Clark.curve growth (theta i c) (omega i c) ((k + 1) * t.dgrain.months - t.dgrain.months / 2)).amt := by
  obtain ⟨g, last, e1, e2, e3, e4, e5⟩ := clark_eq (omega := omega) h hl hk (p := p) (by omega) hg ht h0 h1 (trunc := trunc)
    (fun x hx' => (hx x hx').le)
  obtain ⟨hlen, hpos⟩ := hl.length
  rw [h.lenD] at hlen
  obtain ⟨w0, w1, w2, w3⟩ := hl.wf
  have htr : ∀ i c, 0 < truncated growth (theta i c) (omega i c) trunc ∧
      truncated growth (theta i c) (omega i c) trunc = cut growth (theta i c) (omega i c) trunc := by
    intro i c
    unfold truncated cut
    cases trunc with
    | none => exact ⟨one_pos, rfl⟩
    | some x =>
      simp only
      have := hx x rfl
      rw [if_neg this.ne', Clark.curve_eq hg (ht i c) this, Num.amt_fin]
      exact ⟨(Clark.value_bounds (ht i c) this).1, rfl⟩
  refine ⟨g, e2, ?_, ?_, by rw [e3], by rw [e3], by rw [e3]; exact ⟨rfl, rfl⟩,
    by rw [e3]; exact ⟨rfl, rfl, rfl, rfl, rfl⟩, ⟨last, e1, by rw [e3]⟩, ?_, ?_⟩
  · rw [e3]
    refine ⟨w0, w1, w2, ?_⟩
    show D + addedPeriods p t.dgrain = (f.ddims ++ _).length
    rw [extended_ages h hl e1 p]
    simp
  · rw [e3]; exact ⟨rfl, rfl⟩
  · intro i c o d hd
    rw [e4 i c o d hd, if_pos (by omega)]
  · intro i _ c _ o _
    have g3 : g.values.d3 = D + addedPeriods p t.dgrain := by rw [e3]
    have hv : ∀ d, Clark.value growth (theta i c) (omega i c) (midAge t d) ≠ 0 := fun d =>
      (Clark.value_bounds (ht i c) (midAge_pos t d)).1.ne'
    refine ⟨_, fun d hd1 hd2 => ⟨?_, e5 i c o d hd1 (by omega)⟩, ?_⟩
    · split_ifs
      · exact div_ne_zero (hv _) (hv _)
      · exact div_ne_zero (htr i c).1.ne' (hv _)
    · rw [g3, telescope hv _ _ (D + addedPeriods p t.dgrain - k - 1) k (by omega), (htr i c).2]
      have : (k + 1) * (t.dgrain.months : ℝ) - t.dgrain.months / 2 = midAge t k := rfl
      rw [this, Clark.curve_eq hg (ht i c) (midAge_pos t k), Num.amt_fin]

/-- **C63, chain ladder**: an origin whose latest age is before the attachment age develops with the fitted
factors up to there; the rest is the curve at the truncation age over the curve at the later of its age and the
attachment age. -/
theorem C63_chainladder_partial {l : Tri ℝ} (h : t.Standard a n D q) (hl : LinkPattern t f)
    (hd : t.latestDiagonal = .ok (.tri l)) {attach : Option Int} {k : Nat}
    (hk : AttachedAge t attach k) (hkD : k < D) (p : Nat) (hg : growth = "loglogistic" ∨ growth = "weibull")
    (ht : ∀ i c, 0 < theta i c) (h0 : f.values.d0 = t.values.d0) (h1 : f.values.d1 = t.values.d1) {trunc : Option ℝ}
    (hx : ∀ x, trunc = some x → 0 < x) :
    ∃ g u rows, clark growth theta omega t f attach trunc p = .ok g ∧ t.chainladder g none = .ok u ∧
      Tri.UltimateOf t u rows fun i c o d => (t.values.get i c o d).amt *
        ((∏ j ∈ Finset.Ico d k, f.ageFactor i c j) *
          (cut growth (theta i c) (omega i c) trunc /
          (Clark.curve growth (theta i c) (omega i c) ((max d k + 1 : Nat) * t.dgrain.months - t.dgrain.months / 2)).amt)) := by
  obtain ⟨g, e1, e2⟩ := C63_tail_partial (omega := omega) h.toGrid hl hk hkD p hg ht h0 h1 hx
  obtain ⟨g', last, c1, c2, c3, c4, c5⟩ := clark_eq (omega := omega) h.toGrid hl hk (p := p) (by omega) hg ht h0 h1
    (trunc := trunc) (fun x hx' => (hx x hx').le)
  rw [e1] at c2
  injection c2 with c2
  subst c2
  have hpat := e2.patternFor hl (by rw [h.lenD]; exact hkD)
  have hcum := h.cumTri
  obtain ⟨u, rows, e3, -, e4⟩ := Tri.C33_ultimate_partial hcum hpat hd
  refine ⟨g, u, rows, e1, e3, ⟨e4.rows_inc, e4.mem_rows, e4.wf, e4.index, e4.columns, e4.origins,
    e4.grains, e4.development, e4.date, e4.cumulative, ?_⟩⟩
  intro i c o d hi hc ho hdd hv
  rw [e4.cells i c o d hi hc ho hdd hv]
  congr 2
  rw [h.lenD] at hdd
  obtain ⟨w0, w1, w2, w3⟩ := hl.wf
  have gk : g.kdims = f.kdims := e2.index.1
  have gv : g.vdims = f.vdims := e2.columns
  have gl : g.ddims.length = D + addedPeriods p t.dgrain := by
    rw [← e2.wf.2.2.2, c3]
  have hi' : (if f.kdims.length = 1 then 0 else i) = i := by
    split_ifs with h5
    · rw [← h0, w0, h5] at hi; omega
    · rfl
  have hc' : (if f.vdims.length = 1 then 0 else c) = c := by
    split_ifs with h5
    · rw [← h1, w1, h5] at hc; omega
    · rfl
  have hv' : ∀ d, Clark.value growth (theta i c) (omega i c) (midAge t d) ≠ 0 := fun d =>
    (Clark.value_bounds (ht i c) (midAge_pos t d)).1.ne'
  have htr : truncated growth (theta i c) (omega i c) trunc = cut growth (theta i c) (omega i c) trunc := by
    unfold truncated cut
    cases trunc with
    | none => rfl
    | some x =>
      simp only
      have := hx x rfl
      rw [if_neg this.ne', Clark.curve_eq hg (ht i c) this, Num.amt_fin]
  have htail : ∀ m, k ≤ m → m < D → ∏ j ∈ Finset.Ico m (D + addedPeriods p t.dgrain), g.ageFactor i c j =
      truncated growth (theta i c) (omega i c) trunc / Clark.value growth (theta i c) (omega i c) (midAge t m) := by
    intro m hm1 hm2
    rw [← telescope hv' _ (D + addedPeriods p t.dgrain) (D + addedPeriods p t.dgrain - m - 1) m (by omega)]
    apply Finset.prod_congr rfl
    intro j hj
    obtain ⟨j1, j2⟩ := Finset.mem_Ico.1 hj
    unfold Tri.ageFactor
    rw [gk, gv, hi', hc', c5 i c 0 j (by omega) j2, Num.amt_fin]
  have hG : (Clark.curve growth (theta i c) (omega i c) ((max d k + 1 : Nat) * t.dgrain.months - t.dgrain.months / 2)).amt =
      Clark.value growth (theta i c) (omega i c) (midAge t (max d k)) := by
    have : ((max d k + 1 : Nat) : ℝ) * t.dgrain.months - t.dgrain.months / 2 = midAge t (max d k) := by
      unfold midAge
      push_cast
      ring
    rw [this, Clark.curve_eq hg (ht i c) (midAge_pos t _), Num.amt_fin]
  rw [hG, ← htr]
  unfold Tri.toUlt
  rw [gl]
  have hpr : ∏ j ∈ Finset.Ico d k, g.ageFactor i c j = ∏ j ∈ Finset.Ico d k, f.ageFactor i c j := by
    apply Finset.prod_congr rfl
    intro j hj
    have hj := (Finset.mem_Ico.1 hj).2
    unfold Tri.ageFactor
    rw [gk, gv, e2.before _ _ _ _ hj]
  by_cases hdk : d ≤ k
  · rw [← Finset.prod_Ico_consecutive _ hdk (show k ≤ D + addedPeriods p t.dgrain by omega), htail k le_rfl hkD,
      max_eq_right hdk]
    rw [hpr]
  · rw [htail d (by omega) hdd, max_eq_left (by omega), Finset.Ico_eq_empty (by omega), Finset.prod_empty, one_mul]

/-- **C63, curve**: an unknown growth curve leaves a variable unbound. -/
theorem C63_unknown {g : Tri ℝ} (hv : t.isVal = false) (hl : f.values.d3 + 1 = t.ddims.length) {p : Nat}
    (he : extend t.dgrain p f = .ok g) (h1 : growth ≠ "loglogistic") (h2 : growth ≠ "weibull") (attach : Option Int)
    (trunc : Option ℝ) : clark growth theta omega t f attach trunc p = .error .unboundLocalError := by
  unfold clark
  rw [if_neg (by rw [hv]; simp; omega)]
  simp only [bind, Except.bind]
  rw [he]
  simp only [Clark.check]
  rw [if_pos ⟨h1, h2⟩]

/-- **C63, late attachment**: after the last age the slice from the end takes everything, and there are twice as
many values as labels. -/
theorem C63_late (h : t.Grid a n D q) (hl : LinkPattern t f) {x : Int} {p : Nat}
    (hx : ((D + addedPeriods p t.dgrain) * t.dgrain.months : Nat) < x)
    (hg : growth = "loglogistic" ∨ growth = "weibull")
    (h0 : f.values.d0 = t.values.d0) (h1 : f.values.d1 = t.values.d1) :
    ∃ g, clark growth theta omega t f (some x) none p = .ok g ∧ g.ddims.length = D + addedPeriods p t.dgrain ∧
      g.values.d3 = 2 * g.ddims.length := by
  obtain ⟨hlen, hpos⟩ := hl.length
  rw [h.lenD] at hlen
  obtain ⟨last, e1, e2⟩ := hl.developments
  have f3 := hl.wf.2.2.2
  have hext := extended_ages h hl e1 p
  set N := D + addedPeriods p t.dgrain with hN
  set E := (List.range N).map fun d : Nat => (((d + 1) * t.dgrain.months : Nat) : Int) with hE
  have hEl : E.length = N := by rw [hE]; simp
  have hfe : f.ddims ++ (List.range ((avePeriod p t.dgrain).1 + 1)).map (fun j : Nat =>
      ((j + 1) * (avePeriod p t.dgrain).2 + last : Int)) = E := by
    rw [avePeriod_eq, ← hext]
    congr 1
    apply List.map_congr_left
    intro j _
    ring
  have hlt : ∀ y ∈ E, y < x := by
    intro y hy
    rw [hE] at hy
    obtain ⟨d, hd, rfl⟩ := List.mem_map.1 hy
    have hd := List.mem_range.1 hd
    have : (d + 1) * t.dgrain.months ≤ N * t.dgrain.months := Nat.mul_le_mul_right _ (by omega)
    omega
  have hchk : Clark.check growth (E.map fun a : Int => (a : ℝ) - Clark.offset t.dgrain) = .ok () := by
    apply check_ok hg
    intro y hy
    obtain ⟨z, hz, rfl⟩ := List.mem_map.1 hy
    rw [hE] at hz
    obtain ⟨d, hd, rfl⟩ := List.mem_map.1 hz
    rw [Clark.offset_eq]
    have := midAge_pos t d
    unfold midAge at this
    push_cast
    exact this.le
  have ha : attachAge t (some x) = x := by
    show (if x = 0 then _ else x) = x
    rw [if_neg (by omega)]
  have k1 : (E.filter fun d => decide (d < x)).length = N := by
    rw [List.filter_eq_self.2 (fun y hy => decide_eq_true (hlt y hy)), hEl]
  have k2 : (E.filter fun d => decide (x ≤ d)).length = 0 := by
    rw [List.filter_eq_nil_iff.2, List.length_nil]
    intro y hy
    simp only [decide_eq_true_eq, not_le]
    exact hlt y hy
  unfold clark
  rw [if_neg (by rw [h.isVal, h.lenD]; simp; omega)]
  simp only [bind, Except.bind]
  unfold extend
  rw [e1]
  simp only
  rw [hfe, hchk]
  simp only
  rw [ha, k1, k2, hEl, if_pos rfl, if_neg (by simp [h0, h1])]
  refine ⟨_, rfl, hEl, ?_⟩
  show N + (N - 0) = 2 * E.length
  omega

namespace C63

theorem link : LinkPattern C37.tri C37.pat where
  wf := C37.wf_pat
  pattern := rfl
  incremental := by decide
  multiplicative := rfl
  ages := rfl
  ograin := rfl
  dgrain := rfl
  keyLabels := rfl
  index := .inl rfl
  columns := .inl rfl
  origin := rfl
  developments := ⟨24, rfl, rfl⟩
  factors := by
    intro i hi c hc j hj
    replace hj : j < 2 := hj
    interval_cases j
    · exact ⟨3 / 2, by norm_num, rfl⟩
    · exact ⟨11 / 10, by norm_num, rfl⟩

end C63

/-- Loglogistic with scale 6 and shape 1, attached at 24 months by default: the curve is 3/4, 5/6 and 7/8 in the
middle of the second, third and fourth year. -/
example : ∃ g, clark "loglogistic" (fun _ _ => 6) (fun _ _ => 1) C37.tri C37.pat none none 12 = .ok g ∧
    g.values.get 0 0 0 0 = .fin (3 / 2) ∧ g.values.get 0 0 0 1 = .fin (10 / 9) ∧
    g.values.get 0 0 0 2 = .fin (21 / 20) ∧ g.values.get 0 0 0 3 = .fin (8 / 7) := by
  obtain ⟨g, last, e1, e2, e3, e4, e5⟩ := clark_eq (omega := fun _ _ => 1) Work.C56.standard.toGrid C63.link (attach := none) (k := 1)
    (.inl ⟨rfl, rfl⟩) (p := 12) (by decide) (.inl rfl) (theta := fun _ _ => 6) (fun _ _ => by norm_num) rfl rfl (trunc := none) (by simp)
  have hm : ∀ d, midAge C37.tri d = (d + 1) * 12 - 6 := by
    intro d
    show ((d : ℝ) + 1) * ((12 : Nat) : ℝ) - ((12 : Nat) : ℝ) / 2 = _
    norm_num
  refine ⟨g, e2, ?_, ?_, ?_, ?_⟩
  · rw [e4 0 0 0 0 (by decide), if_pos (by decide)]; rfl
  · rw [e5 0 0 0 1 (by decide) (by decide), if_pos (by decide), hm, hm]
    norm_num [Clark.value]
  · rw [e5 0 0 0 2 (by decide) (by decide), if_pos (by decide), hm, hm]
    norm_num [Clark.value]
  · rw [e5 0 0 0 3 (by decide) (by decide), if_neg (by decide), hm]
    norm_num [Clark.value, truncated]

/-- The full claim, a pattern for every attachment age, fails after the last age. -/
theorem C63_late_false : ¬ ∀ (t f : Tri ℝ) (a : Int) (n D q p : Nat) (attach : Option Int), t.Standard a n D q →
    LinkPattern t f → f.values.d0 = t.values.d0 → f.values.d1 = t.values.d1 →
    ∃ g, clark "loglogistic" (fun _ _ => 6) (fun _ _ => 1) t f attach none p = .ok g ∧ Tri.WF g := by
  intro hall
  obtain ⟨g, h1, h2⟩ := hall C37.tri C37.pat 24240 3 3 1 12 (some 60) Work.C56.standard C63.link rfl rfl
  obtain ⟨g', h3, h4, h5⟩ := C63_late (theta := fun _ _ => 6) (omega := fun _ _ => 1) Work.C56.standard.toGrid C63.link (x := 60) (p := 12) (by decide) (.inl rfl) rfl rfl
  rw [h1] at h3
  injection h3 with h3
  rw [← h3] at h4 h5
  have h6 := h2.2.2.2
  rw [h5, h4] at h6
  revert h6
  decide

end Tail
end CL
