import Verif.Lemmas.CaseReserve
import Verif.Lemmas.Part

set_option linter.unusedSectionVars false

/-! # The payments of `CaseOutstanding` -/

namespace CL
namespace CaseOut
open Tri
variable {K : Type} [Field K] [LinearOrder K] [IsStrictOrderedRing K]
variable {x c f s : Tri K} {a : Int} {n D q : Nat} {C : Nat → Nat → Nat → K} {fl fg : Flags} {φ γ : Nat → Nat → K}
  {R : Nat → Nat → Nat → K}

/-- A triangle of ones, or the number one. -/
def Ones (x : Tri K) : Agg K → Prop
  | .scalar y => y = .fin 1
  | .tri r => WF r ∧ r.kdims = x.kdims ∧ r.keyLabels = x.keyLabels ∧ r.vdims.length = 1 ∧ r.odims.length = 1 ∧
      r.ddims.length = 1 ∧ r.ograin = x.ograin ∧ ∀ i < x.kdims.length, r.values.get i 0 0 0 = .fin 1

theorem unit_ok (hx : Grid x a n D q) (hu : lastDate x a n D q < 12 * 2261)
    (hc : Box x c (lastDate x a n D q) fl fun i o d => .fin (R i o d))
    (hR : ∀ i < x.kdims.length, ∀ o < n, R i o (reached D q o) ≠ 0)
    (hT : ∀ i < x.kdims.length, total R n D q i ≠ 0) : ∃ l, unit c x.vd = .ok l ∧ Ones x l := by
  have hn := hx.two_origins
  have hD := hx.two_ages
  have hrec := hx.recent
  have hq1 := hx.period
  have hult : lastDate x a n D q ≤ ultVal := by unfold ultVal; omega
  have hv : ∀ o < n, ∀ d < D, (x.valuation o d == x.vd) = true ↔ q * o + d + 1 = D := by
    intro o ho d hd
    rw [beq_iff_eq, hx.valuation_vd ho hd]
  have hrr : ∀ o < n, q * o ≤ q * (n - 1) := fun o ho => Nat.mul_le_mul_left _ (by omega)
  have hmirror : ∀ o < n, q * o + (n - 1 - o) * q = q * (n - 1) := by
    intro o ho
    rw [Nat.mul_comm (n - 1 - o), ← Nat.mul_add]
    congr 1; omega
  obtain ⟨u, h1, h2, h3, h4⟩ := hc.getVal hx hx.le_last hult (P := (· == x.vd)) (rows := List.range n)
    (cols := (List.range n).map fun j => (D - 1 - q * (n - 1)) + j * q)
    List.pairwise_lt_range
    (by
      rw [List.pairwise_map]
      refine List.pairwise_lt_range.imp fun {i j} h => ?_
      have : i * q < j * q := Nat.mul_lt_mul_of_pos_right h hq1
      omega)
    (fun o => by
      rw [List.mem_range]
      refine ⟨fun ho => ⟨ho, reached D q o, ?_, ?_⟩, fun h => h.1⟩
      · have := reached_lt hx ho; omega
      · exact (hv o ho _ (by have := reached_lt hx ho; omega)).2 (reached_lt hx ho))
    (fun d => by
      simp only [List.mem_map, List.mem_range]
      constructor
      · rintro ⟨j, hj, rfl⟩
        have e := hmirror (n - 1 - j) (by omega)
        rw [show n - 1 - (n - 1 - j) = j by omega] at e
        exact ⟨by omega, n - 1 - j, by omega, (hv _ (by omega) _ (by omega)).2 (by omega)⟩
      · rintro ⟨hd, o, ho, h⟩
        have h := (hv o ho d hd).1 h
        have := hmirror o ho
        exact ⟨n - 1 - o, by omega, by omega⟩)
    (List.ne_nil_of_mem (List.mem_range.2 (show 0 < n by omega)))
    (even_range _) (even_progression _ _ _)
  obtain ⟨w0, w1, w2, w3⟩ := h2.wf
  have u0 : u.values.d0 = x.kdims.length := by rw [w0, h2.index, hc.kdims]
  have u1 : u.values.d1 = 1 := by rw [w1, h2.columns, hc.one]
  have uo : u.odims.length = n := by rw [h2.origins.1, List.length_range]
  have ud : u.ddims.length = n := by rw [h2.developments.1, List.length_map, List.length_range]
  have ulab : u.odims.length = n ∧ u.ddims.length = n := ⟨uo, ud⟩
  -- one cell per origin
  have row : ∀ i < x.kdims.length, ∀ o < n,
      ∑ d ∈ Finset.range n, (u.values.get i 0 o d).nan0 = .fin (R i o (reached D q o)) := by
    intro i hi o ho
    rw [Finset.sum_eq_single (n - 1 - o)]
    · rw [h4 i hi o (by simpa using ho) (n - 1 - o) (by simp; omega)]
      simp only [List.getElem_map, List.getElem_range]
      have e := hmirror o ho
      have e' : D - 1 - q * (n - 1) + (n - 1 - o) * q = reached D q o := by
        have := reached_lt hx ho
        omega
      have hr := reached_lt hx ho
      rw [e', if_pos ((hv o ho _ (by omega)).2 hr), Num.numToNan_fin_of_ne (hR i hi o ho)]
      rfl
    · intro d hd hne
      rw [Finset.mem_range] at hd
      rw [h4 i hi o (by simpa using ho) d (by simpa using hd)]
      simp only [List.getElem_map, List.getElem_range]
      have e := hmirror (n - 1 - d) (by omega)
      rw [show n - 1 - (n - 1 - d) = d by omega] at e
      rw [if_neg]
      · rfl
      · rw [hv o ho _ (by omega)]
        intro h
        have : q * o = q * (n - 1 - d) := by omega
        have := Nat.eq_of_mul_eq_mul_left (by omega) this
        omega
    · intro h
      exact absurd (Finset.mem_range.2 (show n - 1 - o < n by omega)) h
  have hsd : u.sum .development = .tri (u.sumKeep .development) := by
    unfold Tri.sum toAgg
    rw [if_neg]
    rintro ⟨-, -, h, -⟩
    have h : u.values.d2 = 1 := h
    rw [w2, uo] at h
    omega
  set y := u.sumKeep .development with hy
  have yk := sumKeep_keeps u .development
  rw [← hy] at yk
  have yc : ∀ i < x.kdims.length, ∀ o < n, y.values.get i 0 o 0 = .fin (R i o (reached D q o)) := by
    intro i hi o ho
    show (∑ d ∈ Finset.range u.values.d3, (u.values.get i 0 o d).nan0).numToNan = _
    rw [w3, ud, row i hi o ho]
    exact Num.numToNan_fin_of_ne (hR i hi o ho)
  have yrel : y = { u with
      ddims := [u.vd]
      isVal := true
      values := (u.values.nansum .development).map Num.numToNan } := by
    rw [hy]
    unfold sumKeep relabelAgg
    simp only
    rw [if_pos (by rw [ud]; omega)]
  set z := y.sumKeep .origin with hz
  have zrel : z = { y with
      odims := y.odims.take 1
      values := (y.values.nansum .origin).map Num.numToNan } := by
    rw [hz]
    unfold sumKeep relabelAgg
    simp only
    rw [if_pos (by rw [yrel]; show 1 < u.odims.length; omega)]
  have zc : ∀ i < x.kdims.length, z.values.get i 0 0 0 = .fin (total R n D q i) := by
    intro i hi
    show (∑ o ∈ Finset.range y.values.d2, (y.values.get i 0 o 0).nan0).numToNan = _
    rw [show y.values.d2 = n from w2.trans uo]
    have : ∑ o ∈ Finset.range n, (y.values.get i 0 o 0).nan0 = .fin (total R n D q i) := by
      unfold total
      rw [← Num.sum_fin]
      refine Finset.sum_congr rfl fun o ho => ?_
      rw [Finset.mem_range] at ho
      rw [yc i hi o ho]
      rfl
    rw [this]
    exact Num.numToNan_fin_of_ne (hT i hi)
  have zw : WF z := by
    rw [zrel, yrel]
    refine ⟨w0, w1, ?_, rfl⟩
    show 1 = (u.odims.take 1).length
    rw [List.length_take, uo]; omega
  by_cases hk : x.kdims.length = 1
  · refine ⟨.scalar (.fin 1), ?_, rfl⟩
    have hso : y.sum .origin = .scalar (.fin (total R n D q 0)) := by
      unfold Tri.sum toAgg
      rw [← hz, if_pos, zc 0 (by omega)]
      refine ⟨?_, ?_, rfl, ?_⟩
      · show u.values.d0 = 1; rw [u0, hk]
      · show u.values.d1 = 1; exact u1
      · rfl
    unfold unit
    simp only [h1, bind, Except.bind]
    rw [hsd]
    simp only
    rw [hso]
    simp only
    rw [Num.fin_div_fin_of_ne _ (hT 0 (by omega)), div_self (hT 0 (by omega))]
  · have hso : y.sum .origin = .tri z := by
      unfold Tri.sum toAgg
      rw [← hz, if_neg]
      rintro ⟨h, -⟩
      have h : u.values.d0 = 1 := h
      rw [u0] at h
      exact hk h
    have fit : FitsIn z z := ⟨zw, zw, rfl, Or.inl rfl, rfl, Or.inl rfl, Or.inl rfl, Or.inl rfl, Or.inl ⟨rfl, rfl⟩⟩
    refine ⟨.tri (zipped (· / ·) z z), ?_, zw, ?_, ?_, ?_, ?_, ?_, ?_, ?_⟩
    · unfold unit
      simp only [h1, bind, Except.bind]
      rw [hsd]
      simp only
      rw [hso]
      simp only
      rw [div_fits fit]
    · show z.kdims = _
      rw [zrel, yrel]
      exact h2.index.trans hc.kdims
    · show z.keyLabels = _
      rw [zrel]
      exact yk.1.trans (h3.keyLabels.trans hc.keyLabels)
    · show z.vdims.length = _
      rw [zrel, yrel]
      show u.vdims.length = 1
      rw [h2.columns, hc.one]
    · show z.odims.length = 1
      rw [zrel, yrel]
      show (u.odims.take 1).length = 1
      rw [List.length_take, uo]; omega
    · show z.ddims.length = 1
      rw [zrel, yrel]; rfl
    · show z.ograin = _
      rw [zrel]
      exact yk.2.1.trans (h3.ograin.trans hc.ograin)
    · intro i hi
      show z.values.get i 0 0 0 / bcell z.values z.values i 0 0 0 = _
      unfold bcell
      rw [Arr.bix_self, Arr.bix_self, Arr.bix_self, Arr.bix_self, zc i hi, Num.fin_div_fin_of_ne _ (hT i hi),
        div_self (hT i hi)]

/-- Multiplying by one. -/
theorem mulOnes_ok (hx : Grid x a n D q) (hf : Factors x f D fl γ) {l : Agg K} (hl : Ones x l) :
    ∃ m, Berq.mulAgg f l = .ok m ∧ m.values.d0 = x.kdims.length ∧ m.values.d1 = 1 ∧ m.values.d2 = 1 ∧
      m.values.d3 = D - 1 ∧ ∀ i < x.kdims.length, ∀ d < D - 1, m.values.get i 0 0 d = .fin (γ i d) := by
  have hD := hx.two_ages
  obtain ⟨f0, f1, f2, f3⟩ := hf.wf
  match l, hl with
  | .scalar y, hy =>
    have hy : y = .fin 1 := hy
    subst hy
    refine ⟨{ f with values := { f.values with get := fun i c o d => f.values.get i c o d * .fin 1 } }, ?_, ?_, ?_, ?_, ?_, ?_⟩
    · unfold Berq.mulAgg mulArr zipArr
      simp only
      rw [Arr.zip_scalar]; rfl
    · show f.values.d0 = _; rw [f0, hf.kdims]
    · show f.values.d1 = _; rw [f1, hf.one]
    · show f.values.d2 = _; rw [f2, hf.single]
    · show f.values.d3 = _; rw [f3, hf.ages]
    · intro i hi d hd
      show f.values.get i 0 0 d * .fin 1 = _
      rw [hf.cell i hi d hd, Num.fin_mul_fin, mul_one]
  | .tri r, ⟨rw', rk, rl, rv, ro, rd, rg, rc⟩ =>
    obtain ⟨r0, r1, r2, r3⟩ := rw'
    have fits : FitsIn r f := by
      refine ⟨hf.wf, ⟨r0, r1, r2, r3⟩, hf.ograin.trans rg.symm, Or.inr ?_, hf.keyLabels.trans rl.symm,
        Or.inl (rk.trans hf.kdims.symm), Or.inr ⟨rv, ?_⟩, Or.inr ⟨ro, ?_⟩, Or.inr ⟨rd, ?_⟩⟩
      · rw [r3, rd]; omega
      · rw [hf.one]
      · rw [hf.single]
      · rw [hf.ages]; omega
    refine ⟨zipped (· * ·) f r, mul_fits fits, ?_, ?_, ?_, ?_, ?_⟩
    · show f.values.d0 = _; rw [f0, hf.kdims]
    · show f.values.d1 = _; rw [f1, hf.one]
    · show f.values.d2 = _; rw [f2, hf.single]
    · show f.values.d3 = _; rw [f3, hf.ages]
    · intro i hi d hd
      show f.values.get i 0 0 d * r.values.get (Arr.bix r.values.d0 f.values.d0 i) (Arr.bix r.values.d1 f.values.d1 0)
        (Arr.bix r.values.d2 f.values.d2 0) (Arr.bix r.values.d3 f.values.d3 d) = _
      have e2 : Arr.bix 1 (D - 1) d = 0 := by unfold Arr.bix; split_ifs <;> omega
      rw [f0, f1, f2, f3, r0, r1, r2, r3, hf.kdims, hf.one, hf.single, hf.ages, rk, rv, ro, rd, Arr.bix_self, Arr.bix_self,
        e2, rc i hi, hf.cell i hi d hd, Num.fin_mul_fin, mul_one]

/-- The payments expected after the valuation date. -/
def paidAt (R : Nat → Nat → Nat → K) (γ : Nat → Nat → K) (D q i o d : Nat) : K :=
  if D ≤ q * o + d then R i o (d - 1) * γ i (d - 1) else 0

theorem futurePaid_ok (hx : Grid x a n D q) (hu : lastDate x a n D q < 12 * 2261)
    (hc : Box x c (lastDate x a n D q) fl fun i o d => .fin (R i o d)) (hf : Factors x f D fg γ)
    (hR : ∀ i < x.kdims.length, ∀ o < n, R i o (reached D q o) ≠ 0)
    (hT : ∀ i < x.kdims.length, total R n D q i ≠ 0) :
    ∃ r, futurePaid x c f = .ok r ∧ Part x r a q 0 n 1 (D - 1) ultVal fl fun i o d => .fin (paidAt R γ D q i o d) := by
  have hn := hx.two_origins
  have hD := hx.two_ages
  obtain ⟨l, l1, l2⟩ := unit_ok hx hu hc hR hT
  obtain ⟨m, m1, m2, m3, m4, m5, m6⟩ := mulOnes_ok hx hf l2
  have x2 : x.values.d2 = n := by rw [hx.wf.2.2.1, hx.lenO]
  have x3 : x.values.d3 = D := by rw [hx.wf.2.2.2, hx.lenD]
  obtain ⟨c0, c1, c2, c3⟩ := hc.dims
  rw [hx.lenO] at c2
  rw [hx.lenD] at c3
  have hb : ∀ k, Arr.bdim 1 k = some k := by
    intro k
    unfold Arr.bdim
    by_cases h : 1 = k
    · rw [if_pos h, h]
    · rw [if_neg h, if_pos rfl]
  have hb' : ∀ k, Arr.bdim k 1 = some k := by
    intro k
    unfold Arr.bdim
    by_cases h : k = 1
    · rw [if_pos h]
    · rw [if_neg h, if_neg h, if_pos rfl]
  have hbs : ∀ k, Arr.bdim k k = some k := fun k => by unfold Arr.bdim; rw [if_pos rfl]
  obtain ⟨pat, hpat⟩ : ∃ pat : Arr K, pat = ⟨x.kdims.length, 1, n, D - 1, fun i c o d =>
      (1 - (x.nanTri (Arr.bix n n o) (Arr.bix (D - 1) (D - 1) d + 1)).nanToNum) *
        m.values.get (Arr.bix x.kdims.length x.kdims.length i) (Arr.bix 1 1 c) (Arr.bix 1 n o)
          (Arr.bix (D - 1) (D - 1) d)⟩ := ⟨_, rfl⟩
  have pz : Arr.zip (· * ·) ⟨1, 1, x.values.d2, x.values.d3 - 1, fun _ _ o d =>
      1 - (x.nanTri o (d + 1)).nanToNum⟩ m.values = .ok pat := by
    unfold Arr.zip
    rw [m2, m3, m4, m5]
    simp only
    rw [x2, x3, hb, hbs, hb', hbs, hpat]
  have hnt : ∀ o < n, ∀ d < D, x.nanTri o d = if D ≤ q * o + d then .nan else 1 := by
    intro o ho d hd
    unfold Tri.nanTri
    rw [x2, x3, if_neg (by omega)]
    by_cases h : D ≤ q * o + d
    · rw [if_pos h, if_pos ((hx.valuation_gt ho hd).2 (by omega))]
    · rw [if_neg h, if_neg]
      intro h'
      have := (hx.valuation_gt ho hd).1 h'
      omega
  have patc : ∀ i < x.kdims.length, ∀ o < n, ∀ d < D - 1, pat.get i 0 o d =
      .fin (if D ≤ q * o + (d + 1) then γ i d else 0) := by
    intro i hi o ho d hd
    have e2 : Arr.bix 1 n o = 0 := by unfold Arr.bix; split_ifs <;> omega
    rw [hpat]
    show (1 - (x.nanTri (Arr.bix n n o) (Arr.bix (D - 1) (D - 1) d + 1)).nanToNum) * m.values.get _ _ _ _ = _
    rw [Arr.bix_self, Arr.bix_self, Arr.bix_self, Arr.bix_self, e2, m6 i hi d hd, hnt o ho (d + 1) (by omega)]
    split_ifs with h
    · show (Num.fin 1 - Num.fin 0) * _ = _
      rw [Num.fin_sub_fin, Num.fin_mul_fin, sub_zero, one_mul]
    · show (Num.fin 1 - Num.fin 1) * _ = _
      rw [Num.fin_sub_fin, Num.fin_mul_fin, sub_self, zero_mul]
  obtain ⟨b, b1, b2⟩ := ilocD_cut (t := c) hc.wf (k := .upto (-1)) (pd := List.range (D - 1))
    (by have := selS_upto_neg c.values.d3 1 (by omega) (by omega)
        rw [c3] at this ⊢
        exact this)
    (List.ne_nil_of_mem (List.mem_range.2 (show 0 < D - 1 by omega)))
  have bshape : Arr.SameShape b.values pat := by
    rw [hpat]
    refine ⟨?_, ?_, ?_, ?_⟩
    · show b.values.d0 = _; rw [b2.wf.1, b2.kdims, hc.kdims]
    · show b.values.d1 = _; rw [b2.wf.2.1, b2.vdims, hc.one]
    · show b.values.d2 = _; rw [b2.wf.2.2.1, b2.odims, hc.odims, hx.lenO]
    · show b.values.d3 = _; rw [b2.wf.2.2.2, b2.ddims, List.length_map, List.length_range]
  have bm : b.mulArr pat = .ok { b with values := { b.values with
      get := fun i c o d => b.values.get i c o d * pat.get i c o d } } := by
    unfold mulArr zipArr
    rw [Arr.zip_same _ bshape]; rfl
  refine ⟨_, by
    unfold futurePaid
    simp only [l1, bind, Except.bind]
    rw [m1]
    simp only
    rw [pz]
    simp only
    rw [b1]
    simp only
    rw [bm], ?_⟩
  refine ⟨⟨b2.wf.1, b2.wf.2.1, b2.wf.2.2.1, ?_⟩, b2.kdims.trans hc.kdims, b2.keyLabels.trans hc.keyLabels, ?_, ?_, ?_,
    b2.isVal.trans hc.isVal, b2.ograin.trans hc.ograin, b2.dgrain.trans hc.dgrain, rfl, b2.flags.trans hc.flags, ?_⟩
  · show b.values.d3 = (c.ddims.drop 1).length
    rw [List.length_drop, hc.ddims, hx.lenD, b2.wf.2.2.2, b2.ddims, List.length_map, List.length_range]
  · show b.vdims.length = 1
    rw [b2.vdims, hc.one]
  · show b.odims = _
    rw [b2.odims]
    exact (hc.part hx).odims
  · show c.ddims.drop 1 = _
    rw [hc.ddims, hx.ddims]
    apply List.ext_getElem
    · simp [run]
    · intro j h1 h2
      simp only [run, List.getElem_drop, List.getElem_map, List.getElem_range]
      rfl
  · intro i hi o ho d hd
    show b.values.get i 0 o d * pat.get i 0 o d = _
    rw [b2.cell i (by rw [hc.kdims]; exact hi) 0 (by rw [hc.one]; omega) o (by rw [hc.odims, hx.lenO]; exact ho) d
      (by rw [List.length_range]; exact hd), List.getElem_range, hc.cell i hi o (by rw [hx.lenO]; exact ho) d
      (by rw [hx.lenD]; omega), patc i hi o ho d hd, Num.fin_mul_fin, Nat.zero_add, Nat.add_comm 1 d]
    unfold paidAt
    rw [Nat.add_sub_cancel, mul_ite, mul_zero]

end CaseOut
end CL
