import Verif.Model.Bootstrap
import Verif.Props.C56
import Verif.Props.C49
import Mathlib.Algebra.BigOperators.Field

set_option linter.unusedSectionVars false

/-! # Expected increments of the chain ladder -/

namespace CL
namespace Tri
variable {K : Type} [Field K] [LinearOrder K] [IsStrictOrderedRing K]

/-- The flags and dates of the full expectation. -/
theorem fullExpectation_flags {t f u r : Tri K} (hf : PatternFor t f) (hu : UltFor t u) (hv : f.isVal = false)
    (h2 : 2 ≤ f.ddims.length) (hn : f.ddims.Nodup) (h9 : 9999 ∉ f.ddims)
    (h : fullExpectation f.incrToCum u true = .ok r) :
    r.isCum = u.isCum ∧ r.isPattern = u.isPattern ∧ r.dgrain = f.dgrain ∧ r.vd = max (max u.vd f.vd) u.vd := by
  obtain ⟨q, e1, wq, eq, hq⟩ := ult_div_cdf hf hu h2
  obtain ⟨u0, u1, u2, u3⟩ := hu.wf
  obtain ⟨q0, q1, q2, q3⟩ := wq
  have k0 : q.kdims = u.kdims := by rw [eq]
  have k1 : q.vdims = u.vdims := by rw [eq]
  have k2 : q.odims = u.odims := by rw [eq]
  have k3 : q.ddims = f.ddims := by rw [eq]
  have k4 : q.isVal = false := by rw [eq]; exact hv
  have hren : u.renameUlt = .ok { u with ddims := [9999], isVal := false } := by
    unfold renameUlt
    rw [if_neg (by simp [hu.one])]
  have hcat := concat_dev (a := q) (b := { u with ddims := [9999], isVal := false }) k1.symm k0.symm
    k2.symm k4.symm (by rw [q0, k0]; exact u0.symm) (by rw [q1, k1]; exact u1.symm)
    (by rw [q2, k2]; exact u2.symm) (by rw [k3]; simpa [List.nodup_append] using ⟨hn, fun a ha e => h9 (e ▸ ha)⟩)
  have hrun : fullExpectation f.incrToCum u true =
      concat .development [q, { u with ddims := [9999], isVal := false }] := by
    unfold fullExpectation
    simp only [e1, hren, bind, Except.bind, if_true]
  rw [hcat, h] at hrun
  injection hrun with hrun
  rw [hrun]
  refine ⟨?_, ?_, ?_, ?_⟩
  · show q.isCum = _; rw [eq]
  · show q.isPattern = _; rw [eq]
  · show q.dgrain = _; rw [eq]
  · show max q.vd u.vd = _; rw [eq]

theorem Grid.nanTri {t : Tri K} {a : Int} {n D q : Nat} (h : Grid t a n D q) {o d : Nat} (ho : o < n) (hd : d < D) :
    t.nanTri o d = if q * o + d + 1 ≤ D then 1 else .nan := by
  have h1 := h.two_ages
  have h2 := h.two_origins
  have h3 := h.valuation_gt ho hd
  unfold Tri.nanTri
  rw [if_neg (by rw [h.wf.2.2.1, h.wf.2.2.2, h.lenO, h.lenD]; omega)]
  split_ifs with h4 h5 h5
  · exact absurd (h3.1 h4) (by omega)
  · rfl
  · rfl
  · exact absurd (h3.2 (by omega)) h4

end Tri

namespace Boot
open Tri Work

/-- The chain-ladder expectation of origin `o` at age `d`, up to its latest age `D - 1 - q * o`: the latest
amount divided by the factors between. -/
noncomputable def level (t f : Tri ℝ) (D q o d : Nat) : ℝ :=
  (t.values.get 0 0 o (D - 1 - q * o)).amt / ∏ j ∈ Finset.Ico d (D - 1 - q * o), f.ageFactor 0 0 j

/-- The expected increment. -/
noncomputable def step (t f : Tri ℝ) (D q o d : Nat) : ℝ :=
  level t f D q o d - if d = 0 then 0 else level t f D q o (d - 1)

theorem expected_eq {t f : Tri ℝ} {a : Int} {n D q : Nat} (h : Standard t a n D q) (hc : t.isCum = some true)
    (hl : Tail.LinkPattern t f) (hvd : f.vd = ultVal) (hs : D * t.dgrain.months + 12 < 9999) :
    ∃ m, expected t f = .ok m ∧ ∀ o < n, ∀ d < D,
      m o d = if q * o + d + 1 ≤ D then .fin (step t f D q o d) else .nan := by
  have h2 := h.two_ages
  have h3 := h.two_origins
  obtain ⟨hlen, hpos⟩ := hl.length
  obtain ⟨g, e1, e2⟩ := Tail.C37_tail_partial (tail := 1) (decay := 1 / 2) h.isVal hl.wf hlen hpos (age := none)
    (k := t.ddims.length - 1) (Or.inl ⟨Or.inl rfl, by omega⟩) (by omega) 12
    (by unfold Tail.tailLength; cases t.dgrain <;> simp [Tail.addedPeriods, Grain.months] <;> omega) (by norm_num) (by norm_num) (Or.inl rfl)
  obtain ⟨hpat, hult⟩ := e2.pattern hl
  obtain ⟨l, hld, hdiag⟩ := h.latest
  obtain ⟨u, rows, e3, -, e4⟩ := Tri.C33_ultimate_partial h.cumTri hpat hld
  have hrr : rows = List.range n := by
    refine List.Pairwise.eq_of_mem_iff e4.rows_inc hdiag.rows_inc ?_
    intro o
    rw [e4.mem_rows, hdiag.mem_rows]
  subst hrr
  have hlD := h.lenD
  have gl : g.ddims.length = f.ddims.length + (Tail.addedPeriods 12 t.dgrain + 1) := by
    obtain ⟨last, -, e⟩ := e2.ages
    rw [e]; simp
  have hgd : g.ddims = (List.range (D + Tail.addedPeriods 12 t.dgrain)).map fun d : Nat =>
      (((d + 1) * t.dgrain.months : Nat) : Int) := by
    obtain ⟨last, e5, e6⟩ := hl.developments
    obtain ⟨last', e7, e8⟩ := e2.ages
    rw [e5] at e7
    injection e7 with e7
    subst e7
    obtain ⟨E, rfl⟩ : ∃ E, D = E + 1 := ⟨D - 1, by omega⟩
    have e9 := h.ddims
    rw [e6, List.range_succ, List.map_append] at e9
    obtain ⟨e10, e11⟩ := List.append_inj' e9 rfl
    simp only [List.map_cons, List.map_nil, List.cons.injEq, and_true] at e11
    rw [e8, e10, show E + 1 + Tail.addedPeriods 12 t.dgrain = E + (Tail.addedPeriods 12 t.dgrain + 1) by omega,
      List.range_add (n := E) (m := Tail.addedPeriods 12 t.dgrain + 1), List.map_append, List.map_map]
    congr 1
    apply List.map_congr_left
    intro j _
    simp only [Function.comp]
    have : last = (E : Int) * t.dgrain.months := by
      push_cast at e11
      linarith
    rw [this]
    push_cast
    ring
  have hmon := months_pos t.dgrain
  have hadd : (D + Tail.addedPeriods 12 t.dgrain) * t.dgrain.months = D * t.dgrain.months + 12 := by
    rw [Nat.add_mul]
    cases t.dgrain <;> simp [Tail.addedPeriods, Grain.months]
  have hnd : g.ddims.Nodup := by
    rw [hgd]
    refine List.Nodup.map_on ?_ List.nodup_range
    intro x _ y _ e
    have e' : (x + 1) * t.dgrain.months = (y + 1) * t.dgrain.months := by exact_mod_cast e
    have := Nat.eq_of_mul_eq_mul_right hmon e'
    omega
  have h9 : 9999 ∉ g.ddims := by
    rw [hgd]
    simp only [List.mem_map, List.mem_range, not_exists, not_and]
    intro d hd e
    have : (d + 1) * t.dgrain.months ≤ (D + Tail.addedPeriods 12 t.dgrain) * t.dgrain.months :=
      Nat.mul_le_mul_right _ hd
    omega
  have hgv : g.isVal = false := hpat.ages.trans h.isVal
  have huf : UltFor t u := e4.ultFor h.cumTri (by
    intro e
    have := congrArg List.length e
    simp at this
    omega)
  obtain ⟨r, r1, rwf, rk, rv, ro, rd, ri, rc⟩ := C49_cumulative hpat huf hgv (by omega) hnd h9
  obtain ⟨r2, r3, r4, r5⟩ := fullExpectation_flags hpat huf hgv (by omega) hnd h9 r1
  have hgvd : g.vd = ultVal := e2.flags.2.2.2.2.trans hvd
  rw [e4.date, hgvd, max_self, max_self] at r5
  have huo : u.odims = t.odims := by
    have b := e4.origins
    apply List.ext_getElem?
    intro j
    by_cases hj : j < (List.range n).length
    · rw [b.2 j hj, List.getElem_range]
    · rw [List.getElem?_eq_none (by rw [b.1]; omega),
        List.getElem?_eq_none (by rw [h.lenO]; simpa using hj)]
  have hro : r.odims.length = n := by rw [ro, huo, h.lenO]
  have hrd : r.ddims.length = g.ddims.length + 1 := by rw [rd]; simp
  have hord : Ordered r := by
    intro _
    refine ⟨?_, ?_, ?_⟩
    · rw [ro, huo, r5]
      intro o ho
      exact le_trans ((h.ordered h.isVal).1 o ho) h.early
    · rw [rd, hgd]
      intro d hd
      simp only [List.mem_append, List.mem_map, List.mem_range, List.mem_singleton] at hd
      rcases hd with ⟨k, hk, rfl⟩ | rfl
      · have : 1 * 1 ≤ (k + 1) * t.dgrain.months := Nat.mul_le_mul (by omega) hmon
        omega
      · decide
    · rw [rd, List.dropLast_concat]
      exact h9
  obtain ⟨m, m1, m2, ⟨s0, s1, s2, s3⟩, m4⟩ := cumToIncr_cells rwf hord (fun _ => by rw [r5])
    (by rw [r2, e4.cumulative.1]; decide) (by rw [r3, e4.cumulative.2]) (by rw [rwf.2.2.2, hrd]; omega)
    (by rw [rd]; simpa [List.nodup_append] using ⟨hnd, fun a ha e => h9 (e ▸ ha)⟩)
  have hval : validateX t (some f) = .ok g := by
    unfold validateX
    simp only [pure, Except.pure, bind, Except.bind]
    rw [if_pos (by omega)]
    exact e1
  have hmd : m.values.d2 = t.values.d2 := by
    rw [s2, rwf.2.2.1, hro, h.wf.2.2.1, h.lenO]
  refine ⟨fun o d => (m.values.get 0 0 o d).nanToNum * t.nanTri o d, ?_, ?_⟩
  · unfold expected
    rw [hval]
    simp only [bind, Except.bind]
    rw [e3]
    simp only [hc, beq_self_eq_true]
    rw [r1]
    simp only
    rw [m1]
    simp only
    rw [if_pos hmd]
  · intro o ho d hd
    have hnt := h.nanTri ho hd
    simp only
    rw [hnt]
    split_ifs with hk
    · have hL : d ≤ D - 1 - q * o := by omega
      have hi : 0 < t.kdims.length := h.index_pos
      have hcc : 0 < t.vdims.length := h.columns_pos
      have hcell := e4.cells 0 0 o (D - 1 - q * o) (by rw [h.wf.1]; exact hi) (by rw [h.wf.2.1]; exact hcc)
        (by simpa using ho) (by rw [h.lenD]; omega)
        (by rw [List.getElem_range, h.valuation_vd ho (by omega)]; omega)
      rw [List.getElem_range] at hcell
      obtain ⟨c1, -⟩ := rc 0 hi 0 hcc o (by rw [huo, h.lenO]; exact ho)
      have hlev : ∀ e, e ≤ D - 1 - q * o → (r.values.get 0 0 o e).nanToNum = .fin (level t f D q o e) := by
        intro e he
        obtain ⟨c2, c3⟩ := c1 e (by omega)
        have c4 := (c1 (D - 1 - q * o) (by omega)).2
        have hsplit : g.toUlt 0 0 e = (∏ j ∈ Finset.Ico e (D - 1 - q * o), f.ageFactor 0 0 j) *
            g.toUlt 0 0 (D - 1 - q * o) := by
          rw [hult 0 hi 0 hcc e (by omega), hult 0 hi 0 hcc (D - 1 - q * o) (by omega), mul_one, mul_one, hlD,
            Finset.prod_Ico_consecutive _ he (by omega)]
        rw [c2, hcell, Num.numToNan_fin]
        unfold level
        split_ifs with h0
        · rcases mul_eq_zero.1 h0 with h1 | h1
          · rw [h1]; simp
          · exact absurd h1 c4
        · rw [Num.fin_div_fin, if_neg c3, hsplit, mul_div_mul_right _ _ c4]
          rfl
      have hone : ∀ x : ℝ, (Num.fin x).nanToNum * 1 = Num.fin x := by
        intro x
        show Num.fin x * Num.fin 1 = _
        simp
      rw [m4 0 0 o d ⟨by rw [rwf.1, rk]; exact hi, by rw [rwf.2.1, rv]; exact hcc, by rw [rwf.2.2.1, hro]; exact ho,
        by rw [rwf.2.2.2, hrd]; omega⟩]
      unfold step
      by_cases hd0 : d = 0
      · subst hd0
        rw [if_pos rfl, if_pos rfl, hlev 0 (by omega), sub_zero]
        exact hone _
      · rw [if_neg hd0, if_neg hd0, hlev d hL, hlev (d - 1) (by omega)]
        have hmask : r.diffMask o d = 1 := by
          unfold diffMask
          rw [if_neg (by rw [rwf.2.2.1, hro, rwf.2.2.2, hrd]; omega), if_neg]
          rw [not_lt, r5]
          refine le_trans (le_of_eq ?_) (le_trans (not_lt.1 (mt (h.valuation_gt ho hd).1 (by omega))) h.early)
          unfold Tri.valuation valuationOf
          rw [ri, h.isVal]
          simp only [Bool.false_eq_true, if_false]
          rw [if_neg (by rw [hrd]; omega), if_neg, ro, huo, r5, h.getO ho, min_eq_left (le_trans (h.origin_le ho) h.early),
            min_eq_left (h.origin_le ho), rd, h.getDv hd, hgd]
          · congr 1
            rw [List.getD_eq_getElem?_getD, List.getElem?_append_left (by simp; omega)]
            simp [show d < D + Tail.addedPeriods 12 t.dgrain by omega]
          · rintro ⟨e, -⟩
            exact h.not_ult (List.mem_of_getLast? e)
        rw [hmask]
        have : ∀ x y : ℝ, (((Num.fin x - Num.fin y) * (1 : Num ℝ).nanToNum).numToNan).nanToNum * 1 = Num.fin (x - y) := by
          intro x y
          rw [show (Num.fin x - Num.fin y) * (1 : Num ℝ).nanToNum = Num.fin (x - y) by
            show Num.fin (x - y) * Num.fin 1 = _
            rw [Num.fin_mul_fin, mul_one], Num.numToNan_fin]
          split_ifs with h0
          · rw [h0]; exact hone 0
          · exact hone _
        exact this _ _
    · cases (m.values.get 0 0 o d) <;> rfl

end Boot
end CL

namespace CL
namespace Dev
variable {K : Type} [Field K] [LinearOrder K] [IsStrictOrderedRing K]

theorem fit_vd {t f : Tri K} {p : Params K} (h : fit t p = .ok f) : f.vd = ultVal := by
  unfold fit paramTri at h
  simp only [bind, Except.bind] at h
  repeat' split at h
  all_goals first | (cases h; done) | (cases h; rfl)

theorem fit_weights {t f : Tri K} {p : Params K} (h : fit t p = .ok f) : ∃ w, weights t p = .ok w := by
  cases hw : weights t p with
  | ok w => exact ⟨w, rfl⟩
  | error e =>
    unfold fit at h
    simp only [hw, bind, Except.bind] at h
    repeat' split at h
    all_goals cases h

end Dev

namespace Boot
open Tri Work

/-! ## Row and column totals of the expected increments -/

/-- Origins recorded at age `d`. -/
def recorded (n D q d : Nat) : Finset Nat := (Finset.range n).filter fun o => q * o + d + 1 ≤ D

theorem row_total (t f : Tri ℝ) (D q o : Nat) (d : Nat) :
    ∑ e ∈ Finset.range (d + 1), step t f D q o e = level t f D q o d := by
  induction d with
  | zero => simp [step]
  | succ d ih =>
    rw [Finset.sum_range_succ, ih]
    unfold step
    rw [if_neg (by omega), Nat.add_sub_cancel]
    ring

theorem level_latest (t f : Tri ℝ) (D q o : Nat) :
    level t f D q o (D - 1 - q * o) = (t.values.get 0 0 o (D - 1 - q * o)).amt := by
  simp [level]

theorem level_succ {t f : Tri ℝ} {D q o d : Nat} (hd : q * o + d + 1 < D) :
    level t f D q o d = level t f D q o (d + 1) / f.ageFactor 0 0 d := by
  unfold level
  rw [Finset.prod_eq_prod_Ico_succ_bot (by omega), div_div]
  congr 1
  ring

theorem recorded_succ (n D q d : Nat) : recorded n D q (d + 1) = pairs n D q d := by
  unfold recorded pairs
  apply Finset.filter_congr
  intro o _
  omega

theorem level_pairs {t f : Tri ℝ} {n D q d : Nat} (f1 : f.ageFactor 0 0 d = volumeFactor t n D q 0 0 d)
    (f2 : f.ageFactor 0 0 d ≠ 0)
    (ih : ∑ o ∈ pairs n D q d, level t f D q o (d + 1) = ∑ o ∈ pairs n D q d, (t.values.get 0 0 o (d + 1)).amt) :
    ∑ o ∈ pairs n D q d, level t f D q o d = ∑ o ∈ pairs n D q d, (t.values.get 0 0 o d).amt := by
  have e : ∀ o ∈ pairs n D q d, level t f D q o d = level t f D q o (d + 1) / f.ageFactor 0 0 d := by
    intro o ho
    simp only [pairs, Finset.mem_filter, Finset.mem_range] at ho
    exact level_succ ho.2
  rw [Finset.sum_congr rfl e, ← Finset.sum_div, ih, div_eq_iff f2, f1]
  rw [f1] at f2
  unfold volumeFactor at f2 ⊢
  have : ∑ o ∈ pairs n D q d, (t.values.get 0 0 o d).amt ≠ 0 := by
    intro h0
    rw [h0, div_zero] at f2
    exact f2 rfl
  rw [mul_div_cancel₀ _ this]

/-- With volume-weighted factors the expectations of an age add up to its recorded amounts. -/
theorem level_total {t f : Tri ℝ} {n D q : Nat}
    (hf : ∀ d, d + 1 < D → f.ageFactor 0 0 d = volumeFactor t n D q 0 0 d ∧ f.ageFactor 0 0 d ≠ 0) {d : Nat}
    (hd : d < D) : ∑ o ∈ recorded n D q d, level t f D q o d = ∑ o ∈ recorded n D q d, (t.values.get 0 0 o d).amt := by
  obtain ⟨k, hk⟩ : ∃ k, d + k + 1 = D := ⟨D - d - 1, by omega⟩
  induction k generalizing d with
  | zero =>
    apply Finset.sum_congr rfl
    intro o ho
    simp only [recorded, Finset.mem_filter, Finset.mem_range] at ho
    have : d = D - 1 - q * o := by omega
    rw [this, level_latest]
  | succ k ih =>
    have ih := ih (d := d + 1) (by omega) (by omega)
    obtain ⟨f1, f2⟩ := hf d (by omega)
    rw [recorded_succ] at ih
    have hsub : pairs n D q d ⊆ recorded n D q d := by
      intro o
      simp only [recorded, pairs, Finset.mem_filter, Finset.mem_range]
      omega
    rw [← Finset.sum_sdiff hsub, ← Finset.sum_sdiff hsub]
    congr 1
    · apply Finset.sum_congr rfl
      intro o ho
      simp only [recorded, pairs, Finset.mem_sdiff, Finset.mem_filter, Finset.mem_range] at ho
      have : d = D - 1 - q * o := by omega
      rw [this, level_latest]
    · exact level_pairs f1 f2 ih
/-- The increments expected at an age add up to the recorded ones. -/
theorem column_total {t f : Tri ℝ} {n D q : Nat}
    (hf : ∀ d, d + 1 < D → f.ageFactor 0 0 d = volumeFactor t n D q 0 0 d ∧ f.ageFactor 0 0 d ≠ 0) {d : Nat}
    (hd : d < D) : ∑ o ∈ recorded n D q d, step t f D q o d =
      ∑ o ∈ recorded n D q d, ((t.values.get 0 0 o d).amt - if d = 0 then 0 else (t.values.get 0 0 o (d - 1)).amt) := by
  unfold step
  rw [Finset.sum_sub_distrib, Finset.sum_sub_distrib, level_total hf hd]
  congr 1
  by_cases h0 : d = 0
  · simp [h0]
  · obtain ⟨e, rfl⟩ : ∃ e, d = e + 1 := ⟨d - 1, by omega⟩
    simp only [if_neg h0, Nat.add_sub_cancel]
    rw [recorded_succ]
    obtain ⟨f1, f2⟩ := hf e hd
    apply level_pairs f1 f2
    have := level_total hf hd
    rwa [recorded_succ] at this

/-! ## The residuals -/

theorem centred_sum {l : List ℝ} (h : l ≠ []) : (centred l).sum = 0 := by
  have : ∀ (l : List ℝ) (c : ℝ), (l.map fun a => a - c).sum = l.sum - l.length * c := by
    intro l c
    induction l with
    | nil => simp
    | cons a l ih =>
      simp only [List.map_cons, List.sum_cons, ih, List.length_cons]
      push_cast
      ring
  unfold centred
  rw [this]
  have h2 : (l.length : ℝ) ≠ 0 := by
    exact_mod_cast (List.length_pos_iff.2 h).ne'
  field_simp
  ring

/-- Summing a function of one coordinate over all tables. -/
theorem sum_coordinate {ι : Type} [Fintype ι] [DecidableEq ι] {L : Nat} (i : ι) (g : Fin L → ℝ)
    (h : ∑ j, g j = 0) : ∑ x : ι → Fin L, g (x i) = 0 := by
  rw [Fintype.sum_equiv (Equiv.funSplitAt i (Fin L)) (fun x => g (x i)) (fun y => g y.1) (fun x => rfl),
    Fintype.sum_prod_type]
  simp only [Finset.sum_const, nsmul_eq_mul]
  rw [← Finset.mul_sum, h, mul_zero]

end Boot
end CL

namespace CL
namespace Boot
open Tri Work

/-- The triangles `BootstrapODPSample` is fitted to: a cumulative triangle on a regular grid with one index
entry and one column, less than 800 years long. -/
structure Sampled (t : Tri ℝ) (a : Int) (n D q : Nat) : Prop extends Standard t a n D q where
  isCum : t.isCum = some true
  oneIndex : t.kdims.length = 1
  oneColumn : t.vdims.length = 1
  long : D * t.dgrain.months + 12 < 9999

section
variable {t f : Tri ℝ} {a : Int} {n D q : Nat} {root : ℝ → ℝ} {p : Dev.Params ℝ}
  {hat : (Nat → Nat → Num ℝ) → Option (Nat → Nat → Num ℝ)} {sims : Nat} {draw : Nat → Nat → Nat → Nat}

/-- What `fit` does with a fitted pattern. -/
theorem fit_run (h : Sampled t a n D q) (hf : Dev.fit t p = .ok f) (hl : Tail.LinkPattern t f) :
    ∃ w m x, Dev.weights t p = .ok w ∧ t.cumToIncr = .ok x ∧
      (∀ o < n, ∀ d < D, m o d = if q * o + d + 1 ≤ D then .fin (step t f D q o d) else .nan) ∧
      fit root p hat sims draw t =
        let r := residual root w (x.values.get 0 0) m
        let s := match hat m with
          | none => r
          | some h => fun o d => h o d * r o d
        let l := usable n D s
        if l = [] ∨ sims = 0 then .error .valueError
        else .ok {
          w := w
          expected := m
          residuals := centred l
          scale := scale t r
          resampled := samples root t m (centred l) sims draw } := by
  obtain ⟨m, hm, hm'⟩ := expected_eq h.toStandard h.isCum hl (Dev.fit_vd hf) h.long
  obtain ⟨w, hw⟩ := Dev.fit_weights hf
  obtain ⟨x, hx, -⟩ := cumToIncr_cells h.wf h.ordered h.dated h.cumulative h.noPattern
    (by rw [h.wf.2.2.2, h.lenD]; exact h.two_ages) h.nodup
  refine ⟨w, m, x, hw, hx, hm', ?_⟩
  unfold fit
  rw [if_neg (by rw [h.wf.2.1, h.oneColumn]; simp), if_neg (by rw [h.wf.1, h.oneIndex]; simp),
    if_neg (by rw [h.isVal]; simp)]
  simp only [bind, Except.bind]
  rw [hf]
  simp only
  rw [hw]
  simp only
  rw [hm]
  simp only
  rw [hx, h.wf.2.2.1, h.wf.2.2.2, h.lenO, h.lenD]
  rfl

theorem fit_ok (h : Sampled t a n D q) (hf : Dev.fit t p = .ok f) (hl : Tail.LinkPattern t f) {r : Fitted}
    (hr : fit root p hat sims draw t = .ok r) :
    (∀ o < n, ∀ d < D, r.expected o d = if q * o + d + 1 ≤ D then .fin (step t f D q o d) else .nan) ∧
    r.residuals ≠ [] ∧ r.residuals.sum = 0 ∧
    r.resampled = samples root t r.expected r.residuals sims draw := by
  obtain ⟨w, m, x, hw, hx, hm, hrun⟩ := fit_run (root := root) (hat := hat) (sims := sims) (draw := draw) h hf hl
  rw [hrun] at hr
  simp only at hr
  split_ifs at hr with hc
  rw [not_or] at hc
  injection hr with hr
  rw [← hr]
  refine ⟨hm, ?_, centred_sum hc.1, rfl⟩
  unfold centred
  rw [ne_eq, List.map_eq_nil_iff]
  exact hc.1

theorem sample_cell (h : Sampled t a n D q) {m : Nat → Nat → Num ℝ}
    (hm : ∀ o < n, ∀ d < D, m o d = if q * o + d + 1 ≤ D then .fin (step t f D q o d) else .nan) (pool : List ℝ)
    {k o d : Nat} (ho : o < n) (hd : d < D) :
    (samples root t m pool sims draw).values.get k 0 o d = if q * o + d + 1 ≤ D then
      .fin (∑ e ∈ Finset.range (d + 1), (step t f D q o e + pool.getD (draw k o e) 0 * root |step t f D q o e|))
      else .nan := by
  show ∑ e ∈ Finset.range (d + 1), (Num.fin (pool.getD (draw k o e) 0) * (m o e * 0 + 1) * rootAbs root (m o e) + m o e) = _
  split_ifs with hk
  · rw [← Num.sum_fin]
    apply Finset.sum_congr rfl
    intro e he
    have he := Finset.mem_range.1 he
    rw [hm o ho e (by omega), if_pos (by omega)]
    show Num.fin _ * (Num.fin _ * Num.fin 0 + Num.fin 1) * Num.fin _ + Num.fin _ = _
    simp only [Num.fin_mul_fin, Num.fin_add_fin]
    congr 1
    ring
  · rw [Finset.sum_range_succ, hm o ho d hd, if_neg hk]
    cases (∑ e ∈ Finset.range d, (Num.fin (pool.getD (draw k o e) 0) * (m o e * 0 + 1) * rootAbs root (m o e) + m o e)) <;> rfl

end
end Boot
end CL
