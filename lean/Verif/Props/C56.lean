import Verif.Model.Workflow
import Verif.Spec.Standard
import Verif.Props.C28
import Verif.Props.C37

set_option linter.unusedSectionVars false

/-! # C56: the chain-ladder method applied to a plain triangle -/

namespace CL
namespace Work
open Tri

variable {K : Type} [Field K] [LinearOrder K] [IsStrictOrderedRing K]

/-- All recorded amounts are positive. -/
def Positive (t : Tri K) (n D q : Nat) : Prop :=
  ∀ i < t.kdims.length, ∀ c < t.vdims.length, ∀ o < n, ∀ d < D, q * o + d + 1 ≤ D →
    ∃ x, 0 < x ∧ t.values.get i c o d = .fin x

/-- Origins recorded at age `d` and at the next. -/
def pairs (n D q d : Nat) : Finset Nat := (Finset.range n).filter fun o => q * o + d + 1 < D

/-- Volume-weighted factor from age `d` to the next. -/
def volumeFactor (t : Tri K) (n D q i c d : Nat) : K :=
  (∑ o ∈ pairs n D q d, (t.values.get i c o (d + 1)).amt) /
    ∑ o ∈ pairs n D q d, (t.values.get i c o d).amt

theorem pairs_nonempty {n D q d : Nat} (hn : 2 ≤ n) (hd : d + 1 < D) : (pairs n D q d).Nonempty :=
  ⟨0, by simp only [pairs, Finset.mem_filter, Finset.mem_range]; omega⟩

theorem included_eq {t : Tri K} {a : Int} {n D q : Nat} (h : Standard t a n D q)
    (hp : Positive t n D q) {i c d : Nat} (hi : i < t.kdims.length) (hc : c < t.vdims.length)
    (hd : d + 1 < D) : Dev.included t (fun _ _ _ _ => 1) i c d = pairs n D q d := by
  unfold Dev.included pairs
  rw [h.wf.2.2.1, h.lenO]
  apply Finset.filter_congr
  intro o ho
  have ho : o < n := by simpa using ho
  unfold Dev.amount
  constructor
  · rintro ⟨-, h2, -⟩
    by_contra hc'
    rw [h.known i hi c hc o ho (d + 1) hd (by omega)] at h2
    exact h2 rfl
  · intro hlt
    obtain ⟨x, hx, ex⟩ := hp i hi c hc o ho d (by omega) (by omega)
    obtain ⟨y, hy, ey⟩ := hp i hi c hc o ho (d + 1) hd (by omega)
    rw [ex, ey]
    exact ⟨hx.ne', hy.ne', one_ne_zero⟩

theorem amt_pos {t : Tri K} {n D q : Nat} (hp : Positive t n D q) {i c d o : Nat}
    (hi : i < t.kdims.length) (hc : c < t.vdims.length) (hd : d + 1 < D) (ho : o ∈ pairs n D q d) :
    0 < (t.values.get i c o d).amt ∧ 0 < (t.values.get i c o (d + 1)).amt := by
  simp only [pairs, Finset.mem_filter, Finset.mem_range] at ho
  obtain ⟨x, hx, ex⟩ := hp i hi c hc o ho.1 d (by omega) (by omega)
  obtain ⟨y, hy, ey⟩ := hp i hi c hc o ho.1 (d + 1) hd (by omega)
  rw [ex, ey]
  exact ⟨hx, hy⟩

theorem average_pos {t : Tri K} {n D q : Nat} (hp : Positive t n D q) (hn : 2 ≤ n) {i c d : Nat}
    (hi : i < t.kdims.length) (hc : c < t.vdims.length) (hd : d + 1 < D) (m : Avg) :
    0 < Dev.average t i c d (pairs n D q d) m := by
  have hne := pairs_nonempty (q := q) hn hd
  have h1 := fun o (ho : o ∈ pairs n D q d) => amt_pos hp hi hc hd ho
  cases m
  · exact div_pos (Finset.sum_pos (fun o ho => mul_pos (h1 o ho).1 (h1 o ho).2) hne)
      (Finset.sum_pos (fun o ho => pow_pos (h1 o ho).1 2) hne)
  · exact div_pos (Finset.sum_pos (fun o ho => (h1 o ho).2) hne)
      (Finset.sum_pos (fun o ho => (h1 o ho).1) hne)
  · refine div_pos (Finset.sum_pos (fun o ho => div_pos (h1 o ho).2 (h1 o ho).1) hne) ?_
    exact_mod_cast Finset.card_pos.2 hne

/-- `Development.fit` of a plain triangle: a pattern with one factor for each age but the last, each
the chosen average over the origins recorded at both ages. -/
theorem C56_development {t : Tri K} {a : Int} {n D q : Nat} (h : Standard t a n D q)
    (hp : Positive t n D q) {p : Dev.Params K} (hd : p.NoDrop) (hn : ∀ d, p.nPeriods d < 1) :
    ∃ f, Dev.fit t p = .ok f ∧ Tail.LinkPattern t f ∧ f.ddims.length + 1 = D ∧
      ∀ i < t.kdims.length, ∀ c < t.vdims.length, ∀ d, d + 1 < D →
        f.ageFactor i c d = Dev.average t i c d (pairs n D q d) (p.average d) := by
  have h1 := h.two_ages
  have h2 := h.two_origins
  obtain ⟨lr, hl, hlr⟩ := h.linkRatio
  obtain ⟨w, hw, -⟩ := Dev.weights_all (t := t) hd hn
  obtain ⟨b, hb⟩ := Dev.nPeriodsWeightFunc_all lr hn
  obtain ⟨f, hf, k1, k2, k3, k4, k5, k6, k7⟩ := Dev.C28_fit h.regular hd hn hl
  have hfe : f = { t with
      odims := t.odims.filter fun o => o == (t.odims.min?).getD 0
      ddims := lr.ddims
      vd := ultVal
      isPattern := true
      isCum := some false
      values := Dev.ldfArr t p w } := by
    simp only [Dev.fit, hl, hb, hw, Dev.paramTri, hd.1, hd.2.1, Option.map_none, Dev.optWeight, bind, Except.bind] at hf
    injection hf with hf
    exact hf.symm
  have hlen : t.ddims.dropLast.length + 1 = D := by rw [List.length_dropLast, h.lenD]; omega
  have hod : (t.odims.filter fun o => o == (t.odims.min?).getD 0).length = 1 := by
    have hnd : t.odims.Nodup := by
      rw [h.odims]
      refine List.Nodup.map_on ?_ List.nodup_range
      intro x _ y _ e
      have e' : x * q * t.dgrain.months = y * q * t.dgrain.months := by
        have := add_left_cancel e
        exact_mod_cast this
      exact Nat.eq_of_mul_eq_mul_right h.period
        (Nat.eq_of_mul_eq_mul_right (months_pos t.dgrain) e')
    cases hm : t.odims.min? with
    | none =>
      rw [List.min?_eq_none_iff] at hm
      have := h.lenO
      rw [hm] at this
      simp at this
      omega
    | some m =>
      have hmem : m ∈ t.odims := List.min?_mem hm
      show (t.odims.filter fun o => o == m).length = 1
      rw [← List.countP_eq_length_filter]
      exact List.count_eq_one_of_mem hnd hmem
  have hval : ∀ i < t.kdims.length, ∀ c < t.vdims.length, ∀ d, d + 1 < D →
      f.values.get i c 0 d =
        .fin (Dev.average t i c d (pairs n D q d) (p.average d)) := by
    intro i hi c hc d hd'
    rw [k7 i (by rw [h.wf.1]; exact hi) c (by rw [h.wf.2.1]; exact hc) d
      (by rw [h.wf.2.2.2, h.lenD]; exact hd'), included_eq h hp hi hc hd', Num.numToNan_fin]
    rw [if_neg (average_pos hp h2 hi hc hd' _).ne']
  refine ⟨f, hf, ⟨?_, k4, ?_, ?_, ?_, ?_, ?_, ?_, Or.inl k1, Or.inl k2, ?_, ?_, ?_⟩, ?_, ?_⟩
  · rw [hfe]
    exact ⟨h.wf.1, h.wf.2.1, hod.symm, by
      show t.values.d3 - 1 = lr.ddims.length
      rw [hlr, h.wf.2.2.2, List.length_dropLast]⟩
  · rw [k5]; simp
  · rw [hfe]; exact h.multiplicative
  · rw [hfe]
  · rw [hfe]
  · rw [hfe]
  · rw [hfe]
  · rw [hfe]; exact hod
  · rw [k3, hlr]
    obtain ⟨E, rfl⟩ : ∃ E, D = E + 2 := ⟨D - 2, by omega⟩
    have hr : t.ddims = ((List.range (E + 1)).map fun d : Nat =>
        (((d + 1) * t.dgrain.months : Nat) : Int)) ++ [(((E + 2) * t.dgrain.months : Nat) : Int)] := by
      rw [h.ddims, List.range_succ, List.map_append]
      rfl
    have hdl : t.ddims.dropLast = ((List.range (E + 1)).map fun d : Nat =>
        (((d + 1) * t.dgrain.months : Nat) : Int)) := by
      rw [hr, List.dropLast_concat]
    refine ⟨(((E + 1) * t.dgrain.months : Nat) : Int), ?_, ?_⟩
    · rw [hdl, List.range_succ]
      simp
    · rw [hdl]
      conv_lhs => rw [hr]
      congr 2
      push_cast
      ring
  · have h0 : f.values.d0 = t.kdims.length := by rw [hfe]; exact h.wf.1
    have h1' : f.values.d1 = t.vdims.length := by rw [hfe]; exact h.wf.2.1
    have h3 : f.values.d3 = D - 1 := by
      rw [hfe]
      show t.values.d3 - 1 = _
      rw [h.wf.2.2.2, h.lenD]
    intro i hi c hc j hj
    exact ⟨_, (average_pos hp h2 (h0 ▸ hi) (h1' ▸ hc) (by omega) _).ne',
      hval i (h0 ▸ hi) c (h1' ▸ hc) j (by omega)⟩
  · rw [k3, hlr, hlen]
  · intro i hi c hc d hd'
    unfold ageFactor
    rw [k1, k2]
    have hi' : (if t.kdims.length = 1 then 0 else i) = i := by split_ifs <;> omega
    have hc' : (if t.vdims.length = 1 then 0 else c) = c := by split_ifs <;> omega
    rw [hi', hc', hval i hi c hc d hd', Num.amt_fin]

/-- The ultimate of every origin after `Development(...)`, `TailConstant(tail, decay,
projection_period)` and `Chainladder()`: the latest amount times the remaining averages times the
tail. -/
theorem C56_pipeline {t : Tri ℝ} {a : Int} {n D q : Nat} (h : Standard t a n D q)
    (hp : Positive t n D q) {p : Dev.Params ℝ} (hd : p.NoDrop) (hn : ∀ d, p.nPeriods d < 1)
    (m : Nat) (hm : Tail.addedPeriods m t.dgrain < 1000) {tail decay : ℝ} (h0 : 0 ≤ decay)
    (h1 : decay ≤ 1) (ht : tail = 1 ∨ Tail.Solvable decay tail) (htail : 1 ≤ tail) :
    ∃ f g u, Dev.fit t p = .ok f ∧ f.ddims.length + 1 = D ∧ Tail.constant t f tail decay none m = .ok g ∧
      t.chainladder g none = .ok u ∧
      u.odims = t.odims ∧ u.kdims = t.kdims ∧ u.vdims = t.vdims ∧ u.ddims = [ultVal] ∧
      ∀ i < t.kdims.length, ∀ c < t.vdims.length, ∀ o < n,
        u.values.get i c o 0 = .fin ((t.values.get i c o (D - 1 - q * o)).amt *
          ((∏ j ∈ Finset.Ico (D - 1 - q * o) (D - 1),
            Dev.average t i c j (pairs n D q j) (p.average j)) * tail)) := by
  obtain ⟨f, hf, hl, hlen, hfac⟩ := C56_development h hp hd hn
  obtain ⟨l, hld, hdiag⟩ := h.latest
  obtain ⟨g, u, rows, e1, e2, e3⟩ := Tail.C37_chainladder_partial h.cumTri hl hld m hm h0 h1 ht
  have hD := h.two_ages
  have hrr : rows = List.range n := by
    refine List.Pairwise.eq_of_mem_iff e3.rows_inc hdiag.rows_inc ?_
    intro o
    rw [e3.mem_rows, hdiag.mem_rows]
  subst hrr
  refine ⟨f, g, u, hf, hlen, e1, e2, ?_, e3.index.1, e3.columns, e3.development.1, ?_⟩
  · have b := e3.origins
    apply List.ext_getElem?
    intro j
    by_cases hj : j < (List.range n).length
    · rw [b.2 j hj, List.getElem_range]
    · rw [List.getElem?_eq_none (by rw [b.1]; omega),
        List.getElem?_eq_none (by rw [h.lenO]; simpa using hj)]
  · intro i hi c hc o ho
    have hro := h.row_le ho
    rw [Nat.mul_comm] at hro
    have := e3.cells i c o (D - 1 - q * o) (by rw [h.wf.1]; exact hi) (by rw [h.wf.2.1]; exact hc)
      (by simpa using ho) (by rw [h.lenD]; omega)
      (by rw [List.getElem_range, h.valuation_vd ho (by omega)]; omega)
    rw [List.getElem_range] at this
    rw [this, h.lenD]
    have hprod : ∏ j ∈ Finset.Ico (D - 1 - q * o) (D - 1), f.ageFactor i c j =
        ∏ j ∈ Finset.Ico (D - 1 - q * o) (D - 1),
            Dev.average t i c j (pairs n D q j) (p.average j) := by
      apply Finset.prod_congr rfl
      intro j hj
      exact hfac i hi c hc j (by have := Finset.mem_Ico.1 hj; omega)
    rw [hprod]
    obtain ⟨x, hx, ex⟩ := hp i hi c hc o ho (D - 1 - q * o) (by omega) (by omega)
    rw [ex, Num.amt_fin]
    apply Num.numToNan_fin_of_ne
    apply ne_of_gt
    refine mul_pos hx (mul_pos (Finset.prod_pos ?_) (by linarith))
    intro j hj
    exact average_pos hp h.two_origins hi hc (by have := Finset.mem_Ico.1 hj; omega) _

/-- **C56**: `Chainladder().fit(X)` on a plain triangle without a pattern: each ultimate is the latest
amount times the remaining volume-weighted factors. -/
theorem C56_chainladder {t : Tri ℝ} {a : Int} {n D q : Nat} (h : Standard t a n D q)
    (hp : Positive t n D q) :
    ∃ u, chainladderFit t none = .ok u ∧
      u.odims = t.odims ∧ u.kdims = t.kdims ∧ u.vdims = t.vdims ∧ u.ddims = [ultVal] ∧
      ∀ i < t.kdims.length, ∀ c < t.vdims.length, ∀ o < n,
        u.values.get i c o 0 = .fin ((t.values.get i c o (D - 1 - q * o)).amt *
          ∏ j ∈ Finset.Ico (D - 1 - q * o) (D - 1), volumeFactor t n D q i c j) := by
  obtain ⟨f, g, u, e1, e2, e3, e4, e5, e6, e7, e8, e9⟩ := C56_pipeline (p := {}) h hp
    ⟨rfl, rfl, rfl, rfl, rfl, rfl⟩ (fun _ => by show (-1 : Int) < 1; decide) 12 (by cases t.dgrain <;> decide)
    (decay := 1 / 2) (tail := 1) (by norm_num) (by norm_num) (Or.inl rfl) le_rfl
  refine ⟨u, ?_, e5, e6, e7, e8, ?_⟩
  · unfold chainladderFit validateX
    simp only [bind, Except.bind, e1]
    rw [if_pos (by rw [h.lenD]; omega), e3]
    exact e4
  · intro i hi c hc o ho
    rw [e9 i hi c hc o ho, mul_one]
    rfl

/-- The labels, grains and date of that ultimate. -/
theorem C56_labels {t u : Tri ℝ} {a : Int} {n D q : Nat} (h : Standard t a n D q)
    (hp : Positive t n D q) (hu : chainladderFit t none = .ok u) :
    WF u ∧ u.keyLabels = t.keyLabels ∧ u.ograin = t.ograin ∧ u.dgrain = t.dgrain ∧ u.isVal = true ∧
      u.vd = ultVal ∧ u.isCum = some true ∧ u.isPattern = false := by
  obtain ⟨f, hf, hl, hlen, -⟩ := C56_development (p := {}) h hp ⟨rfl, rfl, rfl, rfl, rfl, rfl⟩
    (fun _ => by show (-1 : Int) < 1; decide)
  obtain ⟨l, hld, -⟩ := h.latest
  obtain ⟨g, u', rows, e1, e2, e3⟩ := Tail.C37_chainladder_partial (decay := 1 / 2) (tail := 1) h.cumTri hl hld
    12 (by cases t.dgrain <;> decide) (by norm_num) (by norm_num) (Or.inl rfl)
  have : chainladderFit t none = .ok u' := by
    unfold chainladderFit validateX
    simp only [bind, Except.bind, hf]
    rw [if_pos (by rw [h.lenD]; omega), e1]
    exact e2
  rw [this] at hu
  injection hu with hu
  subst hu
  exact ⟨e3.wf, e3.index.2, e3.grains.1, e3.grains.2, e3.development.2, e3.date, e3.cumulative.1,
    e3.cumulative.2⟩

namespace C56

theorem standard : Standard Tail.C37.tri 24240 3 3 1 where
  wf := ⟨rfl, rfl, rfl, rfl⟩
  finite := by
    intro i hi c hc o ho d hd
    replace ho : o < 3 := ho
    replace hd : d < 3 := hd
    interval_cases o <;> interval_cases d <;> trivial
  isVal := rfl
  cumulative := by decide
  noPattern := rfl
  multiplicative := rfl
  index_pos := le_rfl
  columns_pos := le_rfl
  two_origins := by decide
  period := le_rfl
  recent := by decide
  odims := rfl
  ddims := rfl
  vd := rfl
  short := by decide
  early := by decide
  known := by
    intro i hi c hc o ho d hd hlt
    interval_cases o <;> interval_cases d <;> first | rfl | omega

theorem positive : Positive Tail.C37.tri 3 3 1 := by
  intro i hi c hc o ho d hd hle
  interval_cases o <;> interval_cases d <;>
    first
    | omega
    | exact ⟨_, by norm_num, rfl⟩

end C56

/-- 110, 168 at 24 months becomes 168 times 165 / 150; 120 at 12 months becomes
120 times 318 / 210 times 165 / 150. -/
example : ∃ u, chainladderFit Tail.C37.tri none = .ok u ∧ u.odims = [24240, 24252, 24264] ∧
    u.values.get 0 0 0 0 = .fin 165 ∧ u.values.get 0 0 1 0 = .fin (168 * (165 / 150)) ∧
    u.values.get 0 0 2 0 = .fin (120 * (318 / 210 * (165 / 150))) := by
  obtain ⟨u, h1, h2, -, -, -, h3⟩ := C56_chainladder C56.standard C56.positive
  have f0 : volumeFactor Tail.C37.tri 3 3 1 0 0 0 = 318 / 210 := by
    have : pairs 3 3 1 0 = {0, 1} := by decide
    unfold volumeFactor
    rw [this, Finset.sum_pair (by decide), Finset.sum_pair (by decide)]
    show ((150 : ℝ) + 168) / (100 + 110) = _
    norm_num
  have f1 : volumeFactor Tail.C37.tri 3 3 1 0 0 1 = 165 / 150 := by
    have : pairs 3 3 1 1 = {0} := by decide
    unfold volumeFactor
    rw [this, Finset.sum_singleton, Finset.sum_singleton]
    rfl
  refine ⟨u, h1, h2, ?_, ?_, ?_⟩
  · rw [h3 0 (by decide) 0 (by decide) 0 (by decide)]
    show Num.fin ((165 : ℝ) * _) = _
    simp
  · rw [h3 0 (by decide) 0 (by decide) 1 (by decide)]
    show Num.fin ((168 : ℝ) * ∏ j ∈ Finset.Ico 1 2, _) = _
    rw [Finset.prod_Ico_succ_top (by decide), Finset.Ico_self, Finset.prod_empty, one_mul, f1]
  · rw [h3 0 (by decide) 0 (by decide) 2 (by decide)]
    show Num.fin ((120 : ℝ) * ∏ j ∈ Finset.Ico 0 2, _) = _
    rw [Finset.prod_Ico_succ_top (by decide), Finset.prod_Ico_succ_top (by decide), Finset.Ico_self,
      Finset.prod_empty, one_mul, f0, f1]

end Work
end CL
