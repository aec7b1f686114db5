import Verif.Lemmas.Full
import Verif.Props.C33
import Verif.Props.C08

set_option linter.unusedSectionVars false

/-! # C49: the full expectation ends at the ultimate -/

namespace CL
namespace Tri
variable {K : Type} [Field K] [LinearOrder K] [IsStrictOrderedRing K]

/-- **C49, cumulative**: at every age of the pattern the expectation is the ultimate divided by the
age-to-ultimate factor, and a column 9999 with the ultimate follows. -/
theorem C49_cumulative {t f u : Tri K} (hf : PatternFor t f) (hu : UltFor t u) (hv : f.isVal = false)
    (h2 : 2 ≤ f.ddims.length) (hn : f.ddims.Nodup) (h9 : 9999 ∉ f.ddims) :
    ∃ r, fullExpectation f.incrToCum u true = .ok r ∧ WF r ∧ r.kdims = t.kdims ∧ r.vdims = t.vdims ∧
      r.odims = u.odims ∧ r.ddims = f.ddims ++ [9999] ∧ r.isVal = false ∧
      ∀ i < t.kdims.length, ∀ c < t.vdims.length, ∀ o < u.odims.length,
        (∀ d < f.ddims.length,
          r.values.get i c o d = u.values.get i c o 0 / .fin (f.toUlt i c d) ∧ f.toUlt i c d ≠ 0) ∧
        r.values.get i c o f.ddims.length = u.values.get i c o 0 := by
  obtain ⟨q, e1, wq, eq, hq⟩ := ult_div_cdf hf hu h2
  obtain ⟨u0, u1, u2, u3⟩ := hu.wf
  obtain ⟨q0, q1, q2, q3⟩ := wq
  have k0 : q.kdims = u.kdims := by rw [eq]
  have k1 : q.vdims = u.vdims := by rw [eq]
  have k2 : q.odims = u.odims := by rw [eq]
  have k3 : q.ddims = f.ddims := by rw [eq]
  have k4 : q.isVal = false := by rw [eq]; exact hv
  have hren : u.renameUlt = .ok { u with ddims := [9999], isVal := false } := by
    unfold renameUlt
    rw [if_neg (by simp [hu.one])]
  have hcat := concat_dev (a := q) (b := { u with ddims := [9999], isVal := false }) k1.symm k0.symm
    k2.symm k4.symm (by rw [q0, k0]; exact u0.symm) (by rw [q1, k1]; exact u1.symm)
    (by rw [q2, k2]; exact u2.symm) (by rw [k3]; simpa [List.nodup_append] using ⟨hn, fun a ha e => h9 (e ▸ ha)⟩)
  have hrun : fullExpectation f.incrToCum u true =
      concat .development [q, { u with ddims := [9999], isVal := false }] := by
    unfold fullExpectation
    simp only [e1, hren, bind, Except.bind, if_true]
  rw [hcat] at hrun
  have hd3 : q.values.d3 = f.ddims.length := by rw [q3, k3]
  refine ⟨_, hrun, ⟨by rw [← q0], by rw [← q1], by rw [← q2], ?_⟩, k0.trans hu.index.1,
    k1.trans hu.columns, k2, by rw [k3], k4, ?_⟩
  · show q.values.d3 + u.values.d3 = _
    rw [hd3, u3, hu.one, k3]; simp
  · intro i hi c hc o ho
    refine ⟨fun d hd => ⟨?_, ((cdf_full hf).2 i c d hi hc hd).2⟩, ?_⟩
    · show (if d < q.values.d3 then q.values.get i c o d else _) = _
      rw [if_pos (by omega)]
      exact hq i hi c hc o ho d hd
    · show (if f.ddims.length < q.values.d3 then _ else u.values.get i c o (f.ddims.length - q.values.d3)) = _
      rw [if_neg (by omega), hd3, Nat.sub_self]

/-- The chain-ladder expectation goes through the observed latest amount: at the age of an origin, the
expectation is the latest amount (an amount of zero is missing). -/
theorem C49_chainladder {t f u l : Tri K} {rows : List Nat} (ht : CumTri t) (hf : PatternFor t f)
    (hl : t.latestDiagonal = .ok (.tri l)) (hr : DiagonalOf t l rows) (hne : rows ≠ [])
    (hu : t.chainladder f none = .ok u) (hn : f.ddims.Nodup) (h9 : 9999 ∉ f.ddims) :
    ∃ r, fullExpectation f.incrToCum u true = .ok r ∧
      ∀ i c o d, i < t.kdims.length → c < t.vdims.length → (ho : o < rows.length) →
        d < t.ddims.length → t.valuation rows[o] d = t.vd →
        (r.values.get i c o d).amt = (t.values.get i c rows[o] d).amt ∧
        (r.values.get i c o f.ddims.length).amt =
          (t.values.get i c rows[o] d).amt * f.toUlt i c d := by
  obtain ⟨u', rows', e, g2, g3⟩ := C33_ultimate_partial ht hf hl
  rw [hu] at e
  injection e with e
  subst e
  have hrr : rows' = rows := by
    refine List.Pairwise.eq_of_mem_iff g2.rows_inc hr.rows_inc ?_
    intro o
    rw [g2.mem_rows, hr.mem_rows]
  subst hrr
  have hle := hf.length_le
  obtain ⟨r, e1, -, -, -, -, -, -, hc⟩ := C49_cumulative hf (g3.ultFor ht hne)
    (hf.ages.trans ht.ages) (by have := ht.ages_two; omega) hn h9
  refine ⟨r, e1, ?_⟩
  intro i c o d hi hcc ho hd hv
  obtain ⟨c1, c2⟩ := hc i hi c hcc o (by rw [g3.origins.1]; exact ho)
  have c0 := g3.cells i c o d (by rw [ht.wf.1]; exact hi) (by rw [ht.wf.2.1]; exact hcc) ho hd hv
  obtain ⟨c3, c4⟩ := c1 d (by omega)
  refine ⟨?_, by rw [c2, c0]; simp⟩
  rw [c3, c0, Num.numToNan_fin]
  split_ifs with h0
  · rcases mul_eq_zero.1 h0 with h | h
    · simp [h]
    · exact absurd h c4
  · rw [Num.fin_div_fin, if_neg c4, Num.amt_fin, mul_div_assoc, div_self c4, mul_one]

/-- **C49, incremental** (partial: the amounts add up to the ultimate only for a last factor of one,
`C49_no_tail`; in general see `C49_incremental_false`).  The amounts of all developments add up to
twice the expectation at the last age minus the ultimate. -/
theorem C49_incremental_partial {t f u : Tri K} (hf : PatternFor t f) (hu : UltFor t u)
    (hv : f.isVal = false) (h2 : 2 ≤ f.ddims.length) (hn : f.ddims.Nodup) (h9 : 9999 ∉ f.ddims)
    (hfin : Finite u) (hcum : u.isCum = some true) (hvd : u.vd = ultVal) (hfvd : f.vd ≤ ultVal)
    (hpos : ∀ d ∈ f.ddims, 1 ≤ d) (hval : ∀ o ∈ u.odims, ∀ d ∈ f.ddims, o + d - 1 ≤ ultVal) :
    ∃ r, fullExpectation f.incrToCum u false = .ok r ∧ r.kdims = t.kdims ∧ r.vdims = t.vdims ∧
      r.odims = u.odims ∧ r.ddims = f.ddims ++ [9999] ∧
      ∀ i < t.kdims.length, ∀ c < t.vdims.length, ∀ o < u.odims.length,
        ∑ d ∈ Finset.range r.ddims.length, (r.values.get i c o d).amt =
          2 * ((u.values.get i c o 0).amt / f.toUlt i c (f.ddims.length - 1)) -
            (u.values.get i c o 0).amt := by
  obtain ⟨q, e1, wq, eq, hq⟩ := ult_div_cdf hf hu h2
  obtain ⟨u0, u1, u2, u3⟩ := hu.wf
  have wq' := wq
  obtain ⟨q0, q1, q2, q3⟩ := wq'
  have k0 : q.kdims = u.kdims := by rw [eq]
  have k1 : q.vdims = u.vdims := by rw [eq]
  have k2 : q.odims = u.odims := by rw [eq]
  have k3 : q.ddims = f.ddims := by rw [eq]
  have k4 : q.isVal = false := by rw [eq]; exact hv
  have k5 : q.vd = ultVal := by rw [eq]; show max u.vd f.vd = _; rw [hvd]; exact max_eq_left hfvd
  have k6 : q.isCum = some true := by rw [eq]; exact hcum
  have k7 : q.isPattern = false := by rw [eq]; exact hu.noPattern
  have k8 : q.keyLabels = u.keyLabels := by rw [eq]
  have k9 : q.ograin = u.ograin := by rw [eq]
  have hd3 : q.values.d3 = f.ddims.length := by rw [q3, k3]
  have hge : ∀ o ∈ u.odims, o ≤ ultVal := by
    intro o ho
    have hd : f.ddims[0]'(by omega) ∈ f.ddims := List.getElem_mem _
    have h3 := hpos _ hd
    have h4 := hval o ho _ hd
    omega
  have ord : Ordered q := by
    intro _
    refine ⟨?_, ?_, ?_⟩
    · rw [k2, k5]; exact hge
    · rw [k3]; exact hpos
    · rw [k3]; exact fun h => h9 (List.dropLast_subset _ h)
  have dat : Dated q := fun _ => by rw [k5]
  have hmask : ∀ o < u.odims.length, ∀ d < f.ddims.length, q.valuation o d ≤ ultVal := by
    intro o ho d hd
    unfold valuation valuationOf
    rw [k4, k2, k3, k5]
    have h6 : ¬ (f.ddims.getLast? = some 9999 ∧ d + 1 = f.ddims.length) := by
      rintro ⟨a, -⟩; exact h9 (List.mem_of_getLast? a)
    simp only [Bool.false_eq_true, if_false, if_neg h6]
    rw [List.getD_eq_getElem _ _ ho, List.getD_eq_getElem _ _ hd]
    have := hval _ (List.getElem_mem ho) _ (List.getElem_mem hd)
    have h7 := min_le_left u.odims[o] ultVal
    omega
  obtain ⟨x, ex, lx, sx, hx⟩ := cumToIncr_cells wq ord dat (by rw [k6]; decide) k7 (by omega)
    (by rw [k3]; exact hn)
  have il := ilocD_last q (by omega)
  rw [pick_eq _ _ _ _ _ (Or.inr (by simp))] at il
  generalize hW : ((q.picked (List.range q.values.d0) (List.range q.values.d1)
    (List.range q.values.d2) [q.values.d3 - 1] q.vd).valuations.max?).elim q.vd
      (fun m => min m q.vd) = W at il
  set L := q.picked (List.range q.values.d0) (List.range q.values.d1) (List.range q.values.d2)
    [q.values.d3 - 1] W with hL
  have L0 : L.kdims = u.kdims := (getD_getD_range _ _ _ q0).trans k0
  have L1 : L.vdims = u.vdims := (getD_getD_range _ _ _ q1).trans k1
  have L2 : L.odims = u.odims := (getD_getD_range _ _ _ q2).trans k2
  have wL : WF L := ⟨by simp [hL, picked, Arr.take], by simp [hL, picked, Arr.take],
    by simp [hL, picked, Arr.take], by simp [hL, picked, Arr.take]⟩
  have L3 : L.ddims.length = 1 := rfl
  have p0 := hu.index_pos
  have p1 := hu.columns_pos
  have p2 := hu.origins_pos
  have hcompat : Compat L u := by
    refine ⟨wL, hu.wf, k9, Or.inr ?_, k8, Or.inl L0, Or.inl L1, Or.inl L2,
      Or.inr (Or.inr ⟨L3, by rw [hu.one]⟩), ?_⟩
    · rw [u3, hu.one]; omega
    · intro h; rw [L3] at h; omega
  have es := sub_compat hcompat
  set S := (combined (fun a b => a.nanToNum - b.nanToNum) L u).cleanup with hS
  have S0 : S.kdims = u.kdims := by
    show longer L.kdims u.kdims = _
    unfold longer; rw [L0]; split_ifs <;> rfl
  have S1 : S.vdims = u.vdims := by
    show longer L.vdims u.vdims = _
    unfold longer; rw [L1]; split_ifs <;> rfl
  have S2 : S.odims = u.odims := by
    show longer L.odims u.odims = _
    unfold longer; rw [L2]; split_ifs <;> rfl
  have S3 : S.ddims.length = 1 := by
    show (longer L.ddims u.ddims).length = _
    unfold longer; rw [hu.one]; simp [L3]
  have wS : WF S := wf_combined (fun a b => a.nanToNum - b.nanToNum) L u
  have hren : S.renameUlt = .ok { S with ddims := [9999], isVal := false } := by
    unfold renameUlt
    rw [if_neg (by simp [S3])]
  obtain ⟨x0, x1, x2, x3⟩ := sx
  have X0 : x.kdims = q.kdims := by rw [lx]
  have X1 : x.vdims = q.vdims := by rw [lx]
  have X2 : x.odims = q.odims := by rw [lx]
  have X3 : x.ddims = q.ddims := by rw [lx]
  have X4 : x.isVal = q.isVal := by rw [lx]
  have hcat := concat_dev (a := x) (b := { S with ddims := [9999], isVal := false })
    (by rw [X1, k1]; exact S1) (by rw [X0, k0]; exact S0) (by rw [X2, k2]; exact S2)
    (by rw [X4, k4]) (by rw [x0, q0, k0, ← S0]; exact wS.1.symm)
    (by rw [x1, q1, k1, ← S1]; exact wS.2.1.symm) (by rw [x2, q2, k2, ← S2]; exact wS.2.2.1.symm)
    (by rw [X3, k3]; simpa [List.nodup_append] using ⟨hn, fun a ha e => h9 (e ▸ ha)⟩)
  have hrun : fullExpectation f.incrToCum u false =
      concat .development [x, { S with ddims := [9999], isVal := false }] := by
    unfold fullExpectation
    simp only [e1, il, es, ex, hren, bind, Except.bind, Bool.false_eq_true, if_false]
  rw [hcat] at hrun
  have hx3 : x.values.d3 = f.ddims.length := by rw [x3, hd3]
  refine ⟨_, hrun, X0.trans (k0.trans hu.index.1), X1.trans (k1.trans hu.columns), X2.trans k2,
    by rw [X3, k3], ?_⟩
  intro i hi c hc o ho
  have hi' : i < q.values.d0 := by rw [q0, k0, hu.index.1]; exact hi
  have hc' : c < q.values.d1 := by rw [q1, k1, hu.columns]; exact hc
  have ho' : o < q.values.d2 := by rw [q2, k2]; exact ho
  have hnu : (u.values.get i c o 0).NoInf := hfin i (by rw [u0, hu.index.1]; exact hi) c
    (by rw [u1, hu.columns]; exact hc) o (by rw [u2]; exact ho) 0 (by rw [u3, hu.one]; omega)
  set U := (u.values.get i c o 0).amt with hU
  have hqd : ∀ d < f.ddims.length, (q.values.get i c o d).NoInf ∧
      (q.values.get i c o d).amt = U / f.toUlt i c d := by
    intro d hd
    have hz := ((cdf_full hf).2 i c d hi hc hd).2
    rw [hq i hi c hc o ho d hd, hU]
    rcases Num.noInf_cases hnu with e | ⟨a, e⟩ <;> rw [e]
    · simp
    · simp [Num.fin_div_fin, hz]
  have hdiff : ∀ d < f.ddims.length, (x.values.get i c o d).amt =
      U / f.toUlt i c d - if d = 0 then 0 else U / f.toUlt i c (d - 1) := by
    intro d hd
    rw [hx i c o d ⟨hi', hc', ho', by omega⟩]
    split_ifs with h0
    · rw [h0, (hqd 0 (by omega)).2, sub_zero]
    · have hm : q.diffMask o d = 1 := by
        unfold diffMask
        have := hmask o ho d hd
        rw [← k5] at this
        split_ifs <;> first | rfl | omega
      rw [hm, Num.nanToNum_eq (hqd d hd).1, Num.nanToNum_eq (hqd (d - 1) (by omega)).1,
        (hqd d hd).2, (hqd (d - 1) (by omega)).2]
      simp [Num.one_def]
  have htel : ∀ m, m < f.ddims.length → ∑ d ∈ Finset.range (m + 1), (x.values.get i c o d).amt =
      U / f.toUlt i c m := by
    intro m
    induction m with
    | zero =>
      intro hm
      rw [Finset.sum_range_one, hdiff 0 hm]; simp
    | succ m ih =>
      intro hm
      rw [Finset.sum_range_succ, ih (by omega), hdiff (m + 1) hm, if_neg (by omega)]
      simp
  have hlast : (S.values.get i c o 0).amt = U / f.toUlt i c (f.ddims.length - 1) - U := by
    have hcell : (combined (fun a b => a.nanToNum - b.nanToNum) L u).values.get i c o 0 =
        (L.values.get i c o 0).nanToNum - (u.values.get i c o 0).nanToNum := by
      have l0 : longer L.kdims u.kdims = u.kdims := S0
      have l1 : longer L.vdims u.vdims = u.vdims := S1
      have l2 : longer L.odims u.odims = u.odims := S2
      show (L.values.get (Arr.bix L.values.d0 (longer L.kdims u.kdims).length i)
        (Arr.bix L.values.d1 (longer L.vdims u.vdims).length c)
        (Arr.bix L.values.d2 (longer L.odims u.odims).length o)
        (Arr.bix L.values.d3 (longer L.ddims u.ddims).length 0)).nanToNum -
        (u.values.get (Arr.bix u.values.d0 (longer L.kdims u.kdims).length i)
        (Arr.bix u.values.d1 (longer L.vdims u.vdims).length c)
        (Arr.bix u.values.d2 (longer L.odims u.odims).length o)
        (Arr.bix u.values.d3 (longer L.ddims u.ddims).length 0)).nanToNum = _
      have z : ∀ m n, Arr.bix m n 0 = 0 := by intro m n; unfold Arr.bix; split_ifs <;> rfl
      rw [l0, l1, l2, wL.1, wL.2.1, wL.2.2.1, L0, L1, L2, u0, u1, u2, Arr.bix_self, Arr.bix_self,
        Arr.bix_self, z, z]
    have hLc : L.values.get i c o 0 = q.values.get i c o (f.ddims.length - 1) := by
      show q.values.get ((List.range _).getD i 0) ((List.range _).getD c 0) ((List.range _).getD o 0)
        (q.values.d3 - 1) = _
      rw [getD_range _ _ hi', getD_range _ _ hc', getD_range _ _ ho', hd3]
    have hn1 : (combined (fun a b => a.nanToNum - b.nanToNum) L u).nanTri o 0 = 1 := by
      unfold nanTri
      rw [if_pos]
      have a2 : (combined (fun a b => a.nanToNum - b.nanToNum) L u).values.d2 = u.odims.length := by
        rw [(wf_combined _ _ _).2.2.1]; exact congrArg List.length S2
      have a3 : (combined (fun a b => a.nanToNum - b.nanToNum) L u).values.d3 = 1 := by
        rw [(wf_combined _ _ _).2.2.2]; exact S3
      rw [a2, a3]; omega
    show (((combined (fun a b => a.nanToNum - b.nanToNum) L u).values.get i c o 0 *
      ((combined (fun a b => a.nanToNum - b.nanToNum) L u).nanTri o 0).nanToNum).numToNan).amt = _
    rw [hcell, hn1, hLc, Num.nanToNum_eq (hqd _ (by omega)).1, Num.nanToNum_eq hnu,
      (hqd _ (by omega)).2]
    simp [Num.one_def, hU]
  have hlen : (x.ddims ++ [(9999 : Int)]).length = f.ddims.length + 1 := by rw [X3, k3]; simp
  show ∑ d ∈ Finset.range (x.ddims ++ [(9999 : Int)]).length,
    (if d < x.values.d3 then x.values.get i c o d else S.values.get i c o (d - x.values.d3)).amt = _
  rw [hlen, Finset.sum_range_succ, if_neg (by omega), hx3, Nat.sub_self, hlast]
  have : ∑ d ∈ Finset.range f.ddims.length, (if d < f.ddims.length then x.values.get i c o d else
      S.values.get i c o (d - f.ddims.length)).amt =
      ∑ d ∈ Finset.range (f.ddims.length - 1 + 1), (x.values.get i c o d).amt := by
    rw [Nat.sub_add_cancel (by omega)]
    apply Finset.sum_congr rfl
    intro d hd
    rw [if_pos (Finset.mem_range.1 hd)]
  rw [this, htel _ (by omega)]
  ring

/-- When the last factor of the pattern is one, the increments add up to the ultimate. -/
theorem C49_no_tail {t f u : Tri K} (hf : PatternFor t f) (hu : UltFor t u)
    (hv : f.isVal = false) (h2 : 2 ≤ f.ddims.length) (hn : f.ddims.Nodup) (h9 : 9999 ∉ f.ddims)
    (hfin : Finite u) (hcum : u.isCum = some true) (hvd : u.vd = ultVal) (hfvd : f.vd ≤ ultVal)
    (hpos : ∀ d ∈ f.ddims, 1 ≤ d) (hval : ∀ o ∈ u.odims, ∀ d ∈ f.ddims, o + d - 1 ≤ ultVal)
    (h1 : ∀ i < t.kdims.length, ∀ c < t.vdims.length, f.ageFactor i c (f.ddims.length - 1) = 1) :
    ∃ r, fullExpectation f.incrToCum u false = .ok r ∧
      ∀ i < t.kdims.length, ∀ c < t.vdims.length, ∀ o < u.odims.length,
        ∑ d ∈ Finset.range r.ddims.length, (r.values.get i c o d).amt =
          (u.values.get i c o 0).amt := by
  obtain ⟨r, e, -, -, -, -, hr⟩ := C49_incremental_partial hf hu hv h2 hn h9 hfin hcum hvd hfvd hpos hval
  refine ⟨r, e, ?_⟩
  intro i hi c hc o ho
  have hl : f.toUlt i c (f.ddims.length - 1) = 1 := by
    unfold toUlt
    have : Finset.Ico (f.ddims.length - 1) f.ddims.length = {f.ddims.length - 1} := by
      ext x; simp; omega
    rw [this, Finset.prod_singleton, h1 i hi c hc]
  rw [hr i hi c hc o ho, hl]
  ring

/-- **C49 is false for incremental models with a tail**: with the tail factor 21/20 the increments of
the first origin (ultimate 693/4) add up to 627/4. -/
theorem C49_incremental_false :
    ∃ u r : Tri ℚ, (Ex.tri3 (some true) Ex.cum3).chainladder C33.pat none = .ok u ∧
      fullExpectation C33.pat.incrToCum u false = .ok r ∧ u.values.get 0 0 0 0 = .fin (693 / 4) ∧
      ∑ d ∈ Finset.range r.ddims.length, (r.values.get 0 0 0 d).amt = 627 / 4 := by
  obtain ⟨u, hu, h1⟩ := ok_of_check
    (x := (Ex.tri3 (some true) Ex.cum3).chainladder C33.pat none)
    (fun u : Tri ℚ => decide (u.values.get 0 0 0 0 = .fin (693 / 4))) (by decide +kernel)
  obtain ⟨r, hr, h2⟩ := ok_of_check
    (x := (Ex.tri3 (some true) Ex.cum3).chainladder C33.pat none >>= fun u =>
      fullExpectation C33.pat.incrToCum u false)
    (fun r : Tri ℚ => decide (∑ d ∈ Finset.range r.ddims.length, (r.values.get 0 0 0 d).amt = 627 / 4))
    (by decide +kernel)
  refine ⟨u, r, hu, ?_, by simpa using h1, by simpa using h2⟩
  rw [hu] at hr
  exact hr

/-- The expectation of the first origin, and its column 9999. -/
example : ∃ u r, (Ex.tri3 (some true) Ex.cum3).chainladder C33.pat none = .ok u ∧
    fullExpectation C33.pat.incrToCum u true = .ok r ∧ r.ddims = [12, 24, 36, 48, 9999] ∧
    (List.range 5).map (r.values.get 0 0 0) =
      [.fin 100, .fin 150, .fin 165, .fin 165, .fin (693 / 4)] := by
  obtain ⟨u, hu, h1⟩ := ok_of_check
    (x := (Ex.tri3 (some true) Ex.cum3).chainladder C33.pat none) (fun _ => true) (by decide +kernel)
  obtain ⟨r, hr, h2⟩ := ok_of_check
    (x := (Ex.tri3 (some true) Ex.cum3).chainladder C33.pat none >>= fun u =>
      fullExpectation C33.pat.incrToCum u true)
    (fun r : Tri ℚ => decide (r.ddims = [12, 24, 36, 48, 9999] ∧ (List.range 5).map (r.values.get 0 0 0) =
      [.fin 100, .fin 150, .fin 165, .fin 165, .fin (693 / 4)]))
    (by decide +kernel)
  rw [hu] at hr
  have h2 := of_decide_eq_true h2
  exact ⟨u, r, hu, hr, h2.1, h2.2⟩

end Tri
end CL
