import Verif.Lemmas.CaseByAge

set_option linter.unusedSectionVars false

/-! # The completed case reserves of `CaseOutstanding` (continued) -/

namespace CL
namespace CaseOut
open Tri
variable {K : Type} [Field K] [LinearOrder K] [IsStrictOrderedRing K]
variable {x c f s : Tri K} {a : Int} {n D q : Nat} {C : Nat → Nat → Nat → K} {fl : Flags} {φ : Nat → Nat → K}

/-- The factor from age `l` to age `d`: a product of the factors in between, or of their inverses. -/
def carried (φ : Nat → Nat → K) (i l d : Nat) : K := (∏ j ∈ Finset.Ico l d, φ i j) / ∏ j ∈ Finset.Ico d l, φ i j

theorem carried_back (φ : Nat → Nat → K) (i : Nat) {l d : Nat} (h : d ≤ l) :
    carried φ i l d = ∏ j ∈ Finset.Ico d l, 1 / φ i j := by
  unfold carried
  rw [Finset.Ico_eq_empty_of_le h, Finset.prod_empty, Finset.prod_div_distrib, Finset.prod_const_one]

theorem carried_forth (φ : Nat → Nat → K) (i : Nat) {l d : Nat} (h : l ≤ d) :
    carried φ i l d = ∏ j ∈ Finset.Ico l d, φ i j := by
  unfold carried
  rw [Finset.Ico_eq_empty_of_le h, Finset.prod_empty, div_one]

theorem carried_ne (φ : Nat → Nat → K) (i : Nat) {l d m : Nat} (hl : l ≤ m) (hd : d ≤ m)
    (h : ∀ j < m, φ i j ≠ 0) : carried φ i l d ≠ 0 := by
  unfold carried
  refine div_ne_zero ?_ ?_ <;> refine Finset.prod_ne_zero_iff.2 fun j hj => h j ?_ <;>
    · rw [Finset.mem_Ico] at hj; omega

/-- The reserve of every origin at every age. -/
def reserveAt (C : Nat → Nat → Nat → K) (φ : Nat → Nat → K) (D q i o d : Nat) : K :=
  carried φ i (reached D q o) d * C i o (reached D q o)

/-- The factors multiplied up by valuation. -/
def compounded (D q : Nat) (φ : Nat → Nat → K) (i o k : Nat) : K :=
  if k < D then ∏ j ∈ Finset.Ico (k + 1) D, (if q * o < j then 1 / φ i (j - q * o - 1) else 1)
  else ∏ j ∈ Finset.range (k - D + 1), (if j < q * o then φ i (D + j - q * o - 1) else 1)

theorem compounded_eq {o k : Nat} (i : Nat) (hD : q * o < D) (h1 : q * o ≤ k) (h2 : k < q * o + D) :
    compounded D q φ i o k = carried φ i (reached D q o) (k - q * o) := by
  unfold compounded
  by_cases hk : k < D
  · rw [if_pos hk, carried_back φ i (by unfold reached; omega)]
    have e : Finset.Ico (k + 1) D = Finset.Ico (k - q * o + (q * o + 1)) (reached D q o + (q * o + 1)) := by
      unfold reached
      congr 1 <;> omega
    rw [e, ← Finset.prod_Ico_add']
    refine Finset.prod_congr rfl fun j _ => ?_
    rw [if_pos (by omega), show j + (q * o + 1) - q * o - 1 = j by omega]
  · rw [if_neg hk, carried_forth φ i (by unfold reached; omega), Finset.prod_Ico_eq_prod_range,
      show k - q * o - reached D q o = k - D + 1 by unfold reached; omega]
    refine Finset.prod_congr rfl fun j hj => ?_
    rw [Finset.mem_range] at hj
    rw [if_pos (by omega)]
    congr 1
    unfold reached; omega

theorem stepAt_spec (hD : 0 < D) {i o k : Nat} (hφ : ∀ d < D - 1, φ i d ≠ 0) :
    (stepAt D q φ i o k = .nan ∧ ¬ (q * o ≤ k ∧ k < q * o + D)) ∨
    (∃ y : K, y ≠ 0 ∧ stepAt D q φ i o k = .fin y ∧ (q * o ≤ k ∧ k < q * o + D) ∧
      y = if k = q * o then 1 else φ i (k - q * o - 1)) := by
  unfold stepAt
  by_cases h : q * o ≤ k ∧ k < q * o + D
  · refine Or.inr ⟨_, ?_, if_pos h, h, rfl⟩
    split_ifs with h'
    · exact one_ne_zero
    · exact hφ _ (by omega)
  · exact Or.inl ⟨if_neg h, h⟩

set_option maxHeartbeats 1000000 in
theorem completeCase_ok (hx : Grid x a n D q) (hq : Dev.valOffset x.dgrain x.ograin = some q)
    (hu : lastDate x a n D q < 12 * 2261) (hc : Reserves x c a n D q C) (hf : Factors x f D fl φ)
    (hfl : fl.1 ≠ some true) (hφ : ∀ i < x.kdims.length, ∀ d < D - 1, φ i d ≠ 0) :
    ∃ r, completeCase c f = .ok r ∧ Box x r (lastDate x a n D q) (fl.1, false, fl.2.2)
      fun i o d => .fin (reserveAt C φ D q i o d) := by
  have hD := hx.two_ages
  have hn := hx.two_origins
  have hp := months_pos x.dgrain
  have hq1 := hx.period
  obtain ⟨s, h1, hs⟩ := spread_ok hx hq hu hc hf hfl
  obtain ⟨l, l1, lw, lk, ll, lv, lo, ld, lg, lp, lvd, lc⟩ := latest_ok hx hc
  obtain ⟨l0, l1', l2, l3⟩ := lw
  have hcv : c.vd = a + (D * x.dgrain.months : Nat) - 1 := by rw [hc.box.vd, hx.vd]
  have hcmp : ∀ k : Nat, a + x.dgrain.months - 1 + (k * x.dgrain.months : Nat) ≤ c.vd ↔ k < D := by
    intro k
    have e : ((k * x.dgrain.months : Nat) : Int) + x.dgrain.months = ((k + 1) * x.dgrain.months : Nat) := by
      push_cast; ring
    have : (k + 1) * x.dgrain.months ≤ D * x.dgrain.months ↔ k < D := by
      rw [Nat.mul_le_mul_right_iff hp]; omega
    rw [hcv, ← this]
    omega
  have hcmp' : ∀ k : Nat, c.vd < a + x.dgrain.months - 1 + (k * x.dgrain.months : Nat) ↔ D ≤ k := by
    intro k
    rw [← not_le, hcmp k]; omega
  have hsp : spans n D q = D + q * (n - 1) := by unfold spans; omega
  have hq' : 1 ≤ q * (n - 1) := Nat.mul_pos (by omega) (by omega)
  -- the two halves
  obtain ⟨fw, f1, f2, f3, f4, f5, f6⟩ := hs.getVal hx (P := fun v => decide (c.vd < v))
    (pd := (List.range (q * (n - 1))).map (· + D))
    (by rw [List.pairwise_map]; exact List.pairwise_lt_range.imp fun {i j} h => by omega)
    (fun k => by
      simp only [List.mem_map, List.mem_range, decide_eq_true_eq]
      rw [hcmp' k, hsp]
      constructor
      · rintro ⟨j, h, rfl⟩; omega
      · rintro ⟨h, h'⟩; exact ⟨k - D, by omega, by omega⟩)
    (List.ne_nil_of_mem (List.mem_map.2 ⟨0, List.mem_range.2 hq', rfl⟩))
    (fun i hi j hj k h h' => by
      simp only [List.mem_map, List.mem_range] at *
      obtain ⟨i', _, rfl⟩ := hi
      obtain ⟨j', _, rfl⟩ := hj
      exact ⟨k - D, by omega, by omega⟩)
  obtain ⟨bw, b1, b2, b3, b4, b5, b6⟩ := hs.getVal hx (P := fun v => decide (v ≤ c.vd)) (pd := List.range D)
    List.pairwise_lt_range
    (fun k => by
      simp only [List.mem_range, decide_eq_true_eq]
      rw [hcmp k, hsp]
      omega)
    (List.ne_nil_of_mem (List.mem_range.2 (show 0 < D by omega)))
    (fun i hi j hj k h h' => by
      rw [List.mem_range] at *; omega)
  rw [List.length_map, List.length_range] at f5
  rw [List.length_range] at b5
  have s0 : s.values.d0 = x.kdims.length := by rw [hs.wf.1, hs.kdims]
  have s1 : s.values.d1 = 1 := by rw [hs.wf.2.1, hs.one]
  have s2 : s.values.d2 = n := by rw [hs.wf.2.2.1, hs.rows, hx.lenO]
  have s3 : s.values.d3 = spans n D q := by rw [hs.wf.2.2.2, hs.lenD]
  -- the cells with a factor
  have fitS : FitsIn s s := ⟨hs.wf, hs.wf, rfl, Or.inl rfl, rfl, Or.inl rfl, Or.inl rfl, Or.inl rfl, Or.inl ⟨rfl, rfl⟩⟩
  have hnan := div_fits fitS
  have nanc : ∀ i < x.kdims.length, ∀ o < n, ∀ k < spans n D q, (zipped (· / ·) s s).values.get i 0 o k =
      if q * o ≤ k ∧ k < q * o + D then .fin 1 else .nan := by
    intro i hi o ho k hk
    show s.values.get i 0 o k / bcell s.values s.values i 0 o k = _
    unfold bcell
    rw [Arr.bix_self, Arr.bix_self, Arr.bix_self, Arr.bix_self, hs.cell i hi o ho k hk]
    rcases stepAt_spec (q := q) (o := o) (k := k) (by omega) (hφ i hi) with ⟨h, h'⟩ | ⟨y, hy, h, h', -⟩
    · rw [h, if_neg h']; rfl
    · rw [h, if_pos h', Num.fin_div_fin_of_ne _ hy, div_self hy]
  -- the factor of the latest age
  have hz : l.mulArr (Arr.scalar 0) = .ok { l with values := { l.values with
      get := fun i c o d => l.values.get i c o d * 0 } } := by
    unfold mulArr zipArr
    rw [Arr.zip_scalar]; rfl
  set z : Tri K := { l with values := { l.values with
      get := fun i c o d => l.values.get i c o d * 0 } } with hz'
  have ho : z.addArr (Arr.scalar 1) = .ok ({ z with values := { z.values with
      get := fun i c o d => (z.values.get i c o d).nanToNum + (1 : Num K).nanToNum } } : Tri K).cleanup := by
    unfold addArr zipArr
    rw [Arr.zip_scalar]; rfl
  set one : Tri K := ({ z with values := { z.values with
      get := fun i c o d => (z.values.get i c o d).nanToNum + (1 : Num K).nanToNum } } : Tri K).cleanup with hone
  have onec : ∀ i < x.kdims.length, ∀ o < n, one.values.get i 0 o 0 = .fin 1 := by
    intro i hi o ho
    show (((l.values.get i 0 o 0 * 0).nanToNum + (1 : Num K).nanToNum) * (Tri.nanTri _ o 0).nanToNum).numToNan = _
    rw [lc i hi o ho]
    have : ∀ t : Tri K, t.values.d2 = n → t.values.d3 = 1 → t.nanTri o 0 = 1 := by
      intro t h2 h3
      unfold Tri.nanTri
      rw [h2, h3, if_pos (by omega)]
    rw [this _ (by show l.values.d2 = n; rw [l2, lo, hx.lenO]) (by show l.values.d3 = 1; rw [l3, ld])]
    show (((Num.fin (C i o (reached D q o)) * Num.fin 0).nanToNum + Num.fin 1) * Num.fin 1).numToNan = _
    simp [Num.numToNan_fin]
  -- the compounded factors
  obtain ⟨v1, hv1, e1⟩ : ∃ v1, Arr.cat2 .development (backward bw.values) one.values = .ok v1 ∧
      v1 = { (backward bw.values) with
        d3 := (backward bw.values).d3 + one.values.d3
        get := fun i c o d => if d < (backward bw.values).d3 then (backward bw.values).get i c o d
          else one.values.get i c o (d - (backward bw.values).d3) } := by
    refine ⟨_, ?_, rfl⟩
    unfold Arr.cat2
    simp only
    rw [if_pos]
    refine ⟨?_, ?_, ?_⟩
    · show bw.values.d0 = l.values.d0
      rw [b2, l0, lk]
    · show bw.values.d1 = l.values.d1
      rw [b3, l1', lv]
    · show bw.values.d2 = l.values.d2
      rw [b4, l2, lo, hx.lenO]
  obtain ⟨v2, hv2, e2⟩ : ∃ v2, Arr.cat2 .development v1 (forward fw.values) = .ok v2 ∧
      v2 = { v1 with
        d3 := v1.d3 + (forward fw.values).d3
        get := fun i c o d => if d < v1.d3 then v1.get i c o d
          else (forward fw.values).get i c o (d - v1.d3) } := by
    refine ⟨_, ?_, rfl⟩
    unfold Arr.cat2
    simp only
    rw [if_pos]
    rw [e1]
    refine ⟨?_, ?_, ?_⟩
    · show bw.values.d0 = fw.values.d0
      rw [b2, f2]
    · show bw.values.d1 = fw.values.d1
      rw [b3, f3]
    · show bw.values.d2 = fw.values.d2
      rw [b4, f4]
  have d3b : (backward bw.values).d3 = D - 1 := by show bw.values.d3 - 1 = _; rw [b5]
  have d3o : one.values.d3 = 1 := l3.trans ld
  have d3v : v1.d3 = D := by
    rw [e1]
    show (backward bw.values).d3 + one.values.d3 = _
    rw [d3b, d3o]; omega
  have shape : Arr.SameShape v2 s.values := by
    rw [e2, e1]
    refine ⟨?_, ?_, ?_, ?_⟩
    · show bw.values.d0 = _; rw [b2, s0]
    · show bw.values.d1 = _; rw [b3, s1]
    · show bw.values.d2 = _; rw [b4, s2]
    · rw [← e1]
      show v1.d3 + fw.values.d3 = _
      rw [d3v, f5, s3, hsp]
  have v2c : ∀ i < x.kdims.length, ∀ o < n, ∀ k < spans n D q, v2.get i 0 o k = .fin (compounded D q φ i o k) := by
    intro i hi o ho k hk
    rw [e2]
    show (if k < v1.d3 then v1.get i 0 o k else (forward fw.values).get i 0 o (k - v1.d3)) = _
    rw [d3v]
    unfold compounded
    by_cases hkD : k < D
    · rw [if_pos hkD, if_pos hkD, e1]
      show (if k < (backward bw.values).d3 then (backward bw.values).get i 0 o k
          else one.values.get i 0 o (k - (backward bw.values).d3)) = _
      rw [d3b]
      by_cases hk1 : k < D - 1
      · rw [if_pos hk1]
        show ∏ j ∈ Finset.Ico (k + 1) bw.values.d3, (if ((1 : Num K) / bw.values.get i 0 o j).isNan then 1
          else 1 / bw.values.get i 0 o j) = _
        rw [b5, ← Num.prod_fin]
        refine Finset.prod_congr rfl fun j hj => ?_
        rw [Finset.mem_Ico] at hj
        have := b6 i hi o ho j (by rw [List.length_range]; omega)
        rw [List.getElem_range] at this
        rw [this]
        rcases stepAt_spec (q := q) (o := o) (k := j) (by omega) (hφ i hi) with ⟨h, h'⟩ | ⟨y, hy, h, h', ey⟩
        · rw [h, if_neg (c := q * o < j) (by omega)]
          rfl
        · rw [h, Num.numToNan_fin_of_ne hy]
          have e : (1 : Num K) / .fin y = .fin (1 / y) := Num.fin_div_fin_of_ne _ hy
          rw [e, if_neg (by simp [Num.isNan]), ey]
          by_cases h'' : j = q * o
          · rw [if_pos h'', if_neg (by omega), div_one]
          · rw [if_neg h'', if_pos (by omega)]
      · rw [if_neg hk1, show k - (D - 1) = 0 by omega, onec i hi o ho]
        rw [Finset.Ico_eq_empty_of_le (by omega), Finset.prod_empty]
    · rw [if_neg hkD, if_neg hkD]
      show ∏ j ∈ Finset.range (k - D + 1), (if (fw.values.get i 0 o j).isNan then 1 else fw.values.get i 0 o j) = _
      rw [← Num.prod_fin]
      refine Finset.prod_congr rfl fun j hj => ?_
      rw [Finset.mem_range] at hj
      have := f6 i hi o ho j (by rw [List.length_map, List.length_range]; omega)
      rw [List.getElem_map, List.getElem_range] at this
      rw [this]
      have hr : q * o < D := by
        have := hx.row_le ho
        rw [Nat.mul_comm] at this
        omega
      rcases stepAt_spec (q := q) (o := o) (k := j + D) (by omega) (hφ i hi) with ⟨h, h'⟩ | ⟨y, hy, h, h', ey⟩
      · rw [h, if_neg (c := j < q * o) (by omega)]
        rfl
      · rw [h, Num.numToNan_fin_of_ne hy, if_neg (by simp [Num.isNan]), ey, if_neg (by omega), if_pos (by omega),
          Nat.add_comm j]
  -- products
  set nans := zipped (· / ·) s s with hnans
  have p1 : ({ s with values := v2 } : Tri K).mulArr nans.values = .ok { s with values := { v2 with
      get := fun i c o d => v2.get i c o d * nans.values.get i c o d } } := by
    unfold mulArr zipArr
    have hss : Arr.SameShape v2 nans.values := shape
    rw [Arr.zip_same _ hss]; rfl
  have fitL : Arr.Fits l.values { v2 with get := fun i c o d => v2.get i c o d * nans.values.get i c o d } := by
    obtain ⟨h0, h1, h2, h3⟩ := shape
    refine ⟨Or.inl ?_, Or.inl ?_, Or.inl ?_, Or.inr ?_⟩
    · show l.values.d0 = v2.d0; rw [l0, lk, h0, s0]
    · show l.values.d1 = v2.d1; rw [l1', lv, h1, s1]
    · show l.values.d2 = v2.d2; rw [l2, lo, hx.lenO, h2, s2]
    · rw [l3, ld]
  obtain ⟨w, hw⟩ : ∃ w : Arr K, w = { v2 with
      get := fun i c o d => v2.get i c o d * nans.values.get i c o d *
        l.values.get (Arr.bix l.values.d0 v2.d0 i) (Arr.bix l.values.d1 v2.d1 c) (Arr.bix l.values.d2 v2.d2 o)
          (Arr.bix l.values.d3 v2.d3 d) } := ⟨_, rfl⟩
  have p2 : ({ s with values := { v2 with
      get := fun i c o d => v2.get i c o d * nans.values.get i c o d } } : Tri K).mulArr l.values =
      .ok { s with values := w } := by
    unfold mulArr zipArr
    rw [Arr.zip_fits _ fitL, hw]; rfl
  have wc : ∀ i < x.kdims.length, ∀ o < n, ∀ k < spans n D q, w.get i 0 o k =
      if q * o ≤ k ∧ k < q * o + D then .fin (reserveAt C φ D q i o (k - q * o)) else .nan := by
    intro i hi o ho k hk
    have hr : q * o < D := by
      have := hx.row_le ho
      rw [Nat.mul_comm] at this
      omega
    obtain ⟨h0, h1, h2, h3⟩ := shape
    rw [hw]
    show v2.get i 0 o k * nans.values.get i 0 o k * l.values.get (Arr.bix l.values.d0 v2.d0 i)
      (Arr.bix l.values.d1 v2.d1 0) (Arr.bix l.values.d2 v2.d2 o) (Arr.bix l.values.d3 v2.d3 k) = _
    rw [h0, h1, h2, h3, s0, s1, s2, s3, l0, l1', l2, l3, lk, lv, lo, ld, hx.lenO]
    have e2 : Arr.bix 1 (spans n D q) k = 0 := by unfold Arr.bix; split_ifs <;> omega
    rw [Arr.bix_self, Arr.bix_self, Arr.bix_self, e2, lc i hi o ho, v2c i hi o ho k hk, nanc i hi o ho k hk]
    by_cases h : q * o ≤ k ∧ k < q * o + D
    · rw [if_pos h, if_pos h, Num.fin_mul_fin, Num.fin_mul_fin, mul_one, compounded_eq i hr h.1 h.2]
      rfl
    · rw [if_neg h, if_neg h]
      rfl
  have hs' := hs.withValues hx (v := w) (g := fun i o k =>
    if q * o ≤ k ∧ k < q * o + D then .fin (reserveAt C φ D q i o (k - q * o)) else .nan)
    (by rw [hw]; exact shape) wc (fun i hi o ho k hk => by
      constructor
      · split_ifs <;> trivial
      · intro h
        rw [if_neg (by omega)])
  obtain ⟨r, u, h3, h4, h5⟩ := hs'.toAges hx hq ⟨0, hx.index_pos, 1, by omega, by omega, q, by
      have := Nat.mul_le_mul_left q (show 1 ≤ n - 1 by omega)
      rw [hsp]; omega,
    by rw [if_pos (by omega)]; simp⟩
  refine ⟨u, ?_, h5.congr ?_⟩
  · unfold completeCase
    simp only [h1, bind, Except.bind]
    rw [f1]
    simp only
    rw [b1]
    simp only
    rw [hnan]
    simp only [l1]
    rw [hz]
    simp only
    rw [ho]
    simp only
    rw [hv1]
    simp only
    rw [hv2]
    simp only
    rw [p1]
    simp only
    rw [p2]
    simp only
    rw [h3]
    simp only
    rw [show c.ddims.length = D by rw [hc.box.ddims, hx.lenD]]
    exact h4
  · intro i hi o ho d hd
    rw [hx.lenD] at hd
    rw [if_pos (by omega), Nat.add_sub_cancel_left]

end CaseOut
end CL
