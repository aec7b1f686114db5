import Verif.Lemmas.CasePaid
import Verif.Lemmas.Convert

set_option linter.unusedSectionVars false

/-! # The completed triangles of `CaseOutstanding` -/

namespace CL
namespace Tri
variable {K : Type} [Field K] [LinearOrder K] [IsStrictOrderedRing K]
variable {x p r : Tri K} {a : Int} {n D q s k e m : Nat} {v w : Int} {fl fl' : Flags}
  {g h : Nat → Nat → Nat → Num K}

theorem kept_last (hx : Grid x a n D q) (hv : lastDate x a n D q ≤ v) {o d : Nat} (ho : o < n) (hd : d < D)
    (y : Num K) : kept x v o d y = y.numToNan := by
  have := hx.valuation_last ho hd
  unfold kept
  rw [if_neg (by omega), mul_one]

/-- A part at the latest valuation date of the rectangle is known everywhere. -/
theorem Part.nanTri (hx : Grid x a n D q) (hp : Part x p a q s k e m v fl g) (hv : lastDate x a n D q ≤ v)
    (b1 : s + k ≤ n) (b2 : e + m ≤ D) {o d : Nat} (ho : o < k) (hd : d < m) : p.nanTri o d = 1 := by
  unfold Tri.nanTri
  split_ifs with h1 h2
  · rfl
  · exfalso
    have hx1 := hx.valuation_last (o := s + o) (d := e + d) (by omega) (by omega)
    have hod : p.odims.getD o 0 = rowLabel x a q (s + o) := by
      rw [hp.odims]; simp [run, List.getD_eq_getElem?_getD, ho]
    have hdd : p.ddims.getD d 0 = colLabel x (e + d) := by
      rw [hp.ddims]; simp [run, List.getD_eq_getElem?_getD, hd]
    have hnot : ¬ (p.ddims.getLast? = some 9999 ∧ d + 1 = p.ddims.length) := by
      rintro ⟨hl, -⟩
      have hm := List.mem_of_getLast? hl
      rw [hp.ddims] at hm
      simp only [run, List.mem_map, List.mem_range] at hm
      obtain ⟨j, hj, he⟩ := hm
      have : (e + j + 1) * x.dgrain.months ≤ D * x.dgrain.months := Nat.mul_le_mul_right _ (by omega)
      have := hx.short
      unfold colLabel at he; omega
    have hnot' : ¬ (x.ddims.getLast? = some 9999 ∧ e + d + 1 = x.ddims.length) := by
      rintro ⟨hl, -⟩
      exact hx.not_ult (List.mem_of_getLast? hl)
    have ho1 := hx.origin_le (o := s + o) (by omega)
    unfold Tri.valuation valuationOf at h2 hx1
    rw [hp.isVal, hp.vd] at h2
    rw [hx.isVal] at hx1
    simp only [Bool.false_eq_true, if_false] at h2 hx1
    rw [if_neg hnot, hod, hdd] at h2
    rw [if_neg hnot', hx.getO (by omega), hx.getDv (by omega), min_eq_left ho1] at hx1
    have := hx.le_last
    unfold rowLabel colLabel at h2
    rw [min_eq_left (by omega)] at h2
    omega
  · rfl

/-- Two blocks at the same place added up. -/
theorem Part.addSame (hx : Grid x a n D q) (hp : Part x p a q s k e m v fl g) (hr : Part x r a q s k e m w fl' h)
    (hv : lastDate x a n D q ≤ max v w) (b1 : s + k ≤ n) (b2 : e + m ≤ D) :
    ∃ u, p.add r = .ok u ∧ Part x u a q s k e m (max v w) (fl.1, fl.2.1 && fl'.2.1, fl.2.2) fun i o d =>
      ((g i o d).nanToNum + (h i o d).nanToNum).numToNan := by
  have fits : FitsIn r p := by
    refine ⟨hp.wf, hr.wf, by rw [hp.ograin, hr.ograin], Or.inl (by rw [hp.dgrain, hr.dgrain]),
      by rw [hp.keyLabels, hr.keyLabels], Or.inl (by rw [hp.kdims, hr.kdims]), Or.inr ⟨hr.one, by rw [hp.one]⟩,
      Or.inl (by rw [hp.odims, hr.odims]), Or.inl ⟨by rw [hp.ddims, hr.ddims], by rw [hp.isVal, hr.isVal]⟩⟩
  obtain ⟨p0, p1, p2, p3⟩ := hp.wf
  obtain ⟨r0, r1, r2, r3⟩ := hr.wf
  obtain ⟨T, hT⟩ : ∃ T : Tri K, T = zipped (fun a b => a.nanToNum + b.nanToNum) p r := ⟨_, rfl⟩
  have hTp : Part x T a q s k e m (max v w) (fl.1, fl.2.1 && fl'.2.1, fl.2.2) fun i o d =>
      (g i o d).nanToNum + (h i o d).nanToNum := by
    subst hT
    refine ⟨hp.wf, hp.kdims, hp.keyLabels, hp.one, hp.odims, hp.ddims, hp.isVal, hp.ograin, hp.dgrain, ?_, ?_, ?_⟩
    · show max p.vd r.vd = _
      rw [hp.vd, hr.vd]
    · rw [← hp.flags, ← hr.flags]; rfl
    · intro i hi o ho d hd
      show (p.values.get i 0 o d).nanToNum + (bcell r.values p.values i 0 o d).nanToNum = _
      unfold bcell
      rw [p0, p1, p2, p3, r0, r1, r2, r3, hp.kdims, hr.kdims, hp.one, hr.one, hp.odims, hr.odims, hp.ddims, hr.ddims,
        Arr.bix_self, Arr.bix_self, Arr.bix_self, Arr.bix_self, hp.cell i hi o ho d hd, hr.cell i hi o ho d hd]
  refine ⟨T.cleanup, by rw [hT]; exact add_fits fits, ⟨hTp.wf, hTp.kdims, hTp.keyLabels, hTp.one, hTp.odims, hTp.ddims,
    hTp.isVal, hTp.ograin, hTp.dgrain, hTp.vd, hTp.flags, ?_⟩⟩
  intro i hi o ho d hd
  show (T.values.get i 0 o d * (T.nanTri o d).nanToNum).numToNan = _
  rw [hTp.nanTri hx hv b1 b2 ho hd, hTp.cell i hi o ho d hd]
  show (_ * (1 : Num K)).numToNan = _
  rw [mul_one]

end Tri

namespace CaseOut
open Tri
variable {K : Type} [Field K] [LinearOrder K] [IsStrictOrderedRing K]
variable {x c f s : Tri K} {a : Int} {n D q : Nat} {C : Nat → Nat → Nat → K} {fl fg : Flags} {φ γ : Nat → Nat → K}
  {R P I : Nat → Nat → Nat → K}

theorem col_lt {p : String} (hp : p ∈ x.vdims) : x.vdims.idxOf p < x.vdims.length :=
  List.idxOf_lt_length_iff.2 hp

theorem cell_noInf (hx : Grid x a n D q) {p : String} (hp : p ∈ x.vdims) {i o d : Nat} (hi : i < x.kdims.length)
    (ho : o < n) (hd : d < D) : (x.values.get i (x.vdims.idxOf p) o d).NoInf :=
  hx.finite i (by rw [hx.wf.1]; exact hi) _ (by rw [hx.wf.2.1]; exact col_lt hp) o
    (by rw [hx.wf.2.2.1, hx.lenO]; exact ho) d (by rw [hx.wf.2.2.2, hx.lenD]; exact hd)

theorem cell_nan0 (hx : Grid x a n D q) {p : String} (hp : p ∈ x.vdims) {i o d : Nat} (hi : i < x.kdims.length)
    (ho : o < n) (hd : d < D) : (x.values.get i (x.vdims.idxOf p) o d).nanToNum = .fin (amount x p i o d) :=
  Num.nanToNum_eq (cell_noInf hx hp hi ho hd)

/-- The case reserves of a triangle. -/
theorem caseTri_ok (hx : Standard x a n D q) {p r : String} (hp : p ∈ x.vdims) (hr : r ∈ x.vdims)
    (nz : ∀ i < x.kdims.length, ∀ o < n, ∀ d < D, q * o + d < D → reserve x p r i o d ≠ 0) :
    ∃ p0 r0 c, x.getCols [p] = .ok p0 ∧ x.getCols [r] = .ok r0 ∧ r0.sub p0 = .ok c ∧
      Box x p0 x.vd x.flags (fun i o d => x.values.get i (x.vdims.idxOf p) o d) ∧
      Box x r0 x.vd x.flags (fun i o d => x.values.get i (x.vdims.idxOf r) o d) ∧
      Reserves x c a n D q (reserve x p r) := by
  have hg := hx.toGrid
  obtain ⟨p0, p1, p2⟩ := hg.colBox hp
  obtain ⟨r0, r1, r2⟩ := hg.colBox hr
  obtain ⟨c, c1, c2⟩ := r2.sub hg p2 (by simp)
  rw [max_self] at c2
  have c3 : Box x c x.vd x.flags fun i o d => if q * o + d < D then .fin (reserve x p r i o d) else .nan := by
    have hfl : ((x.flags).1, (x.flags).2.1 && (x.flags).2.1, (x.flags).2.2) = x.flags := by
      rw [Bool.and_self]
    rw [hfl] at c2
    refine c2.congr fun i hi o ho d hd => ?_
    rw [hg.lenO] at ho
    rw [hg.lenD] at hd
    rw [cell_nan0 hg hr hi ho hd, cell_nan0 hg hp hi ho hd, Num.fin_sub_fin]
    unfold kept
    by_cases h : q * o + d < D
    · rw [if_neg, if_pos h, Num.one_def, Num.fin_mul_fin, mul_one]
      · exact Num.numToNan_fin_of_ne (nz i hi o ho d hd h)
      · intro h'
        have := (hg.valuation_gt ho hd).1 h'
        omega
    · rw [if_pos ((hg.valuation_gt ho hd).2 (by omega)), if_neg h, Num.zero_def, Num.fin_mul_fin, mul_zero]
      simp
  have hfl : c.flags = x.flags := c3.flags
  have hf1 : c.isCum = x.isCum := congrArg (fun t => t.1) hfl
  have hf2 : c.isPattern = x.isPattern := congrArg (fun t => t.2.1) hfl
  have hf3 : c.isAdditive = x.isAdditive := congrArg (fun t => t.2.2) hfl
  refine ⟨p0, r0, c, p1, r1, c1, p2, r2, ⟨⟨?_, ?_, ?_, ?_⟩, by rw [hfl]; exact c3, nz⟩⟩
  · refine c3.grid hg ?_ ?_
    · intro i hi o ho d hd
      split_ifs <;> simp
    · intro i hi o ho d hd h
      rw [if_neg (by omega)]
  · rw [hf1]; exact hx.cumulative
  · rw [hf2]; exact hx.noPattern
  · rw [hf3]; exact hx.multiplicative

/-- Paid amounts at every age: as known, then with the expected payments. -/
def fullPaid (P R : Nat → Nat → Nat → K) (γ : Nat → Nat → K) (D q i o d : Nat) : K :=
  if q * o + d < D then P i o d
  else P i o (reached D q o) + ∑ e ∈ Finset.Ico (reached D q o + 1) (d + 1), R i o (e - 1) * γ i (e - 1)

/-- Incurred amounts at every age: as known, then paid amounts plus reserves. -/
def fullIncurred (P I R : Nat → Nat → Nat → K) (γ : Nat → Nat → K) (D q i o d : Nat) : K :=
  if q * o + d < D then I i o d else R i o d + fullPaid P R γ D q i o d

/-- The payments of one age. -/
def payment (P R : Nat → Nat → Nat → K) (γ : Nat → Nat → K) (D q i o d : Nat) : K :=
  if q * o + d < D then (if d = 0 then P i o 0 else P i o d - P i o (d - 1)) else paidAt R γ D q i o d

theorem sum_payment (hD : q * o < D) (i d : Nat) :
    ∑ e ∈ Finset.range (d + 1), payment P R γ D q i o e = fullPaid P R γ D q i o d := by
  induction d with
  | zero =>
    rw [Finset.sum_range_one]
    unfold payment fullPaid
    rw [if_pos (by omega), if_pos rfl, if_pos (by omega)]
  | succ d ih =>
    rw [Finset.sum_range_succ, ih]
    unfold payment fullPaid paidAt
    by_cases h : q * o + (d + 1) < D
    · rw [if_pos (by omega), if_pos h, if_neg (by omega), if_pos h, Nat.add_sub_cancel]
      ring
    · rw [if_neg h, if_neg h, if_pos (c := D ≤ q * o + (d + 1)) (by omega),
        Finset.sum_Ico_succ_top (b := d + 1) (by unfold reached; omega), Nat.add_sub_cancel]
      by_cases h' : q * o + d < D
      · have hr : reached D q o = d := by unfold reached; omega
        rw [if_pos h', hr, Finset.Ico_self, Finset.sum_empty, zero_add]
      · rw [if_neg h', add_assoc]

/-- The incremental paid amounts. -/
theorem increments_ok (hx : Standard x a n D q) (hD3 : 3 ≤ D) {p : String} (hp : p ∈ x.vdims) {p0 : Tri K}
    (bp0 : Box x p0 x.vd x.flags fun i o d => x.values.get i (x.vdims.idxOf p) o d) :
    ∃ pd0, p0.cumToIncr = .ok pd0 ∧ Box x pd0 x.vd (some false, false, x.isAdditive) fun i o d =>
      if d = 0 then x.values.get i (x.vdims.idxOf p) o 0
      else if q * o + d < D then (Num.fin (amount x p i o d - amount x p i o (d - 1))).numToNan else .nan := by
  have hg := hx.toGrid
  have hn := hg.two_origins
  have gp0 : Grid p0 a n D q := bp0.grid hg
    (fun i hi o ho d hd => cell_noInf hg hp hi ho hd)
    (fun i hi o ho d hd h => hg.known i hi _ (col_lt hp) o ho d hd h)
  obtain ⟨e0, e1, e2, e3⟩ := bp0.dims
  rw [hg.lenO] at e2
  rw [hg.lenD] at e3
  have fp : p0.flags = x.flags := bp0.flags
  obtain ⟨pd0, hpd0, epd0, spd0, cpd0⟩ := cumToIncr_cells gp0.wf gp0.ordered gp0.dated
    (by rw [show p0.isCum = x.isCum from congrArg (fun t => t.1) fp]; exact hx.cumulative)
    (by rw [show p0.isPattern = x.isPattern from congrArg (fun t => t.2.1) fp]; exact hx.noPattern)
    (by rw [e3]; omega) gp0.nodup
  have bpd0 : Box x pd0 x.vd (some false, false, x.isAdditive) fun i o d =>
      if d = 0 then x.values.get i (x.vdims.idxOf p) o 0
      else if q * o + d < D then (Num.fin (amount x p i o d - amount x p i o (d - 1))).numToNan else .nan := by
    obtain ⟨s0, s1, s2, s3⟩ := spd0
    refine ⟨⟨?_, ?_, ?_, ?_⟩, ?_, ?_, ?_, ?_, ?_, ?_, ?_, ?_, ?_, ?_, ?_⟩
    · rw [s0, e0, epd0]; show _ = p0.kdims.length; rw [bp0.kdims]
    · rw [s1, e1, epd0]; show _ = p0.vdims.length; rw [bp0.one]
    · rw [s2, e2, epd0]; show _ = p0.odims.length; rw [bp0.odims, hg.lenO]
    · rw [s3, e3, epd0]; show _ = p0.ddims.length; rw [bp0.ddims, hg.lenD]
    · rw [epd0]; exact bp0.kdims
    · rw [epd0]; exact bp0.keyLabels
    · rw [epd0]; exact bp0.one
    · rw [epd0]; exact bp0.odims
    · rw [epd0]; exact bp0.ddims
    · rw [epd0]; exact bp0.isVal
    · rw [epd0]; exact bp0.ograin
    · rw [epd0]; exact bp0.dgrain
    · rw [epd0]; exact bp0.vd
    · rw [epd0]
      show (some false, p0.isPattern, p0.isAdditive) = _
      rw [show p0.isPattern = x.isPattern from congrArg (fun t => t.2.1) fp, hx.noPattern,
        show p0.isAdditive = x.isAdditive from congrArg (fun t => t.2.2) fp]
    · intro i hi o ho d hd
      rw [hg.lenO] at ho
      rw [hg.lenD] at hd
      rw [cpd0 i 0 o d ⟨by rw [e0]; exact hi, by rw [e1]; omega, by rw [e2]; exact ho, by rw [e3]; exact hd⟩]
      have cell : ∀ d < D, p0.values.get i 0 o d = x.values.get i (x.vdims.idxOf p) o d := fun d hd =>
        bp0.cell i hi o (by rw [hg.lenO]; exact ho) d (by rw [hg.lenD]; exact hd)
      by_cases h0 : d = 0
      · rw [if_pos h0, if_pos h0, cell 0 (by omega)]
      · rw [if_neg h0, if_neg h0, cell d hd, cell (d - 1) (by omega), cell_nan0 hg hp hi ho hd,
          cell_nan0 hg hp hi ho (by omega), Num.fin_sub_fin]
        unfold diffMask
        rw [if_neg (by rw [e2, e3]; omega), bp0.valuation hg le_rfl ho, bp0.vd]
        by_cases h : q * o + d < D
        · rw [if_neg, if_pos h]
          · show Num.numToNan (_ * Num.fin 1) = _
            rw [Num.fin_mul_fin, mul_one]
          · intro h'
            have := (hg.valuation_gt ho hd).1 h'
            omega
        · rw [if_pos ((hg.valuation_gt ho hd).2 (by omega)), if_neg h]
          show Num.numToNan (_ * Num.fin 0) = _
          rw [Num.fin_mul_fin, mul_zero]
          simp
  exact ⟨pd0, hpd0, bpd0⟩

/-- The two completed columns, before they are put together. -/
theorem columns_ok (hx : Standard x a n D q) (hq : Dev.valOffset x.dgrain x.ograin = some q)
    (hu : lastDate x a n D q < 12 * 2261) (hn3 : 3 ≤ n) {p r : String} (hp : p ∈ x.vdims) (hr : r ∈ x.vdims)
    {cf pf : Tri K} (nz : ∀ i < x.kdims.length, ∀ o < n, ∀ d < D, q * o + d < D → reserve x p r i o d ≠ 0)
    (hcf : Factors x cf D fl φ) (hfl : fl.1 ≠ some true) (hφ : ∀ i < x.kdims.length, ∀ d < D - 1, φ i d ≠ 0)
    (hpf : Factors x pf D fg γ)
    (hT : ∀ i < x.kdims.length, total (reserve x p r) n D q i ≠ 0) :
    ∃ p0 r0 c0 c future pd0 pd c1 p1 i0 i1, x.getCols [p] = .ok p0 ∧ x.getCols [r] = .ok r0 ∧ r0.sub p0 = .ok c0 ∧
      completeCase c0 cf = .ok c ∧ futurePaid x c pf = .ok future ∧ p0.cumToIncr = .ok pd0 ∧ pd0.add future = .ok pd ∧
      c.getVal (fun v => decide (x.vd < v)) = .ok c1 ∧ pd.incrToCum.getVal (fun v => decide (x.vd < v)) = .ok p1 ∧
      c1.add p1 = .ok i0 ∧ i0.add r0 = .ok i1 ∧
      Box x pd.incrToCum ultVal (some true, false, x.isAdditive) (fun i o d =>
        (Num.fin (fullPaid (amount x p) (reserveAt (reserve x p r) φ D q) γ D q i o d)).numToNan) ∧
      Box x i1 (lastDate x a n D q) (fl.1, false, fl.2.2) (fun i o d =>
        (Num.fin (fullIncurred (amount x p) (amount x r) (reserveAt (reserve x p r) φ D q) γ D q i o d)).numToNan) := by
  have hg := hx.toGrid
  have hq1 := hg.period
  have hrec := hg.recent
  have hqn : q * 2 ≤ q * (n - 1) := Nat.mul_le_mul_left _ (by omega)
  have hult : lastDate x a n D q ≤ ultVal := by unfold ultVal; omega
  obtain ⟨p0, r0, c0, hp0, hr0, hc0, bp0, br0, hres⟩ := caseTri_ok hx hp hr nz
  obtain ⟨c, hc, bc⟩ := completeCase_ok hg hq hu hres hcf hfl hφ
  set R := reserveAt (reserve x p r) φ D q with hR
  have hRr : ∀ i o, R i o (reached D q o) = reserve x p r i o (reached D q o) := by
    intro i o
    rw [hR]
    unfold reserveAt carried
    simp
  obtain ⟨future, hfu, bfu⟩ := futurePaid_ok hg hu bc hpf
    (fun i hi o ho => by
      rw [hRr]
      have := reached_lt hg ho
      exact nz i hi o ho _ (by omega) (by omega))
    (fun i hi => by
      have : total R n D q i = total (reserve x p r) n D q i := by
        unfold total
        exact Finset.sum_congr rfl fun o _ => hRr i o
      rw [this]; exact hT i hi)
  obtain ⟨pd0, hpd0, bpd0⟩ := increments_ok hx (by omega) hp bp0
  -- all payments
  obtain ⟨pd, hpd, bpd⟩ := (bpd0.part hg).add hg bfu (by omega) (by omega) (by omega) (by omega) (by omega) (by omega)
    (by omega) (by omega) (Or.inl ⟨rfl, rfl, rfl, rfl⟩) (Or.inr (by omega)) (le_max_left _ _)
  have hmax : max x.vd ultVal = ultVal := max_eq_right hg.early
  rw [hmax] at bpd
  have bpd' : Box x pd ultVal (some false, false, x.isAdditive) fun i o d =>
      (Num.fin (payment (amount x p) R γ D q i o d)).numToNan := by
    refine bpd.congr fun i hi o ho d hd => ?_
    rw [hg.lenO] at ho
    rw [hg.lenD] at hd
    rw [kept_last hg hult ho hd]
    congr 1
    unfold within payment
    beta_reduce
    rw [if_pos (c := (0 ≤ o ∧ o < 0 + n) ∧ 0 ≤ d ∧ d < 0 + D) (by omega)]
    by_cases h0 : d = 0
    · subst h0
      rw [if_pos rfl, if_neg (by omega), if_pos (by have := reached_lt hg ho; omega), if_pos rfl,
        cell_nan0 hg hp hi ho hd]
      show Num.fin _ + Num.fin 0 = _
      rw [Num.fin_add_fin, add_zero]
    · rw [if_neg h0, if_pos (c := (0 ≤ o ∧ o < 0 + n) ∧ 1 ≤ d ∧ d < 1 + (D - 1)) (by omega)]
      by_cases h : q * o + d < D
      · rw [if_pos h, if_pos h, if_neg h0]
        unfold paidAt
        rw [if_neg (by omega), Num.numToNan_fin]
        split_ifs with hz
        · rw [hz]
          show Num.fin 0 + Num.fin 0 = _
          rw [Num.fin_add_fin, add_zero]
        · show Num.fin _ + Num.fin 0 = _
          rw [Num.fin_add_fin, add_zero]
      · rw [if_neg h, if_neg h]
        show Num.fin 0 + Num.fin _ = _
        rw [Num.fin_add_fin, zero_add]
  obtain ⟨k0, k1, k2, k3⟩ := bpd'.dims
  rw [hg.lenO] at k2
  rw [hg.lenD] at k3
  have pdfin : Tri.Finite pd := by
    intro i hi c' hc' o ho d hd
    rw [k0] at hi
    rw [k1] at hc'
    rw [k2] at ho
    rw [k3] at hd
    have : c' = 0 := by omega
    subst this
    rw [bpd'.cell i hi o (by rw [hg.lenO]; exact ho) d (by rw [hg.lenD]; exact hd), Num.numToNan_fin]
    split_ifs <;> simp
  have fpd : pd.flags = (some false, false, x.isAdditive) := bpd'.flags
  have fpd1 : pd.isCum = some false := congrArg (fun t => t.1) fpd
  have fpd2 : pd.isPattern = false := congrArg (fun t => t.2.1) fpd
  have fpd3 : pd.isAdditive = x.isAdditive := congrArg (fun t => t.2.2) fpd
  obtain ⟨hcum, ccum⟩ := incrToCum_cells pdfin (by rw [fpd1]; simp) fpd2
  have bpaid : Box x pd.incrToCum ultVal (some true, false, x.isAdditive) fun i o d =>
      (Num.fin (fullPaid (amount x p) R γ D q i o d)).numToNan := by
    rw [hcum]
    refine ⟨bpd'.wf, bpd'.kdims, bpd'.keyLabels, bpd'.one, bpd'.odims, bpd'.ddims, bpd'.isVal, bpd'.ograin, bpd'.dgrain,
      bpd'.vd, ?_, ?_⟩
    · show (some true, pd.isPattern, pd.isAdditive) = _
      rw [fpd2, fpd3]
    · intro i hi o ho d hd
      rw [hg.lenO] at ho
      rw [hg.lenD] at hd
      show pd.cumSumVals.get i 0 o d = _
      rw [ccum i (by rw [k0]; exact hi) 0 (by rw [k1]; omega) o (by rw [k2]; exact ho) d (by rw [k3]; exact hd),
        bpd'.nanTri hg hg.early ho, if_neg (by have := hg.valuation_last ho hd; omega), Num.one_def, Num.fin_mul_fin,
        mul_one]
      congr 2
      rw [← sum_payment (by have := reached_lt hg ho; omega)]
      refine Finset.sum_congr rfl fun e he => ?_
      rw [Finset.mem_range] at he
      rw [bpd'.cell i hi o (by rw [hg.lenO]; exact ho) e (by rw [hg.lenD]; omega), Num.numToNan_fin]
      split_ifs with hz
      · rw [hz]; rfl
      · rfl
  -- incurred
  obtain ⟨c1, hc1, pc1⟩ := bc.future hg le_rfl hult
  obtain ⟨p1, hp1, pp1⟩ := bpaid.future hg hult le_rfl
  have hq2 : 2 ≤ q * (n - 1) := by omega
  obtain ⟨i0, hi0, pi0⟩ := pc1.addSame hg pp1 (le_max_left _ _) (by omega) (by omega)
  rw [max_self] at pi0
  obtain ⟨i1, hi1, bi1⟩ := pi0.add hg (br0.part hg) (by omega) hq2 (by omega) (by omega) (by omega) (by omega)
    (by omega) (by omega) (Or.inr ⟨rfl, rfl, rfl, rfl⟩) (Or.inl (by omega)) (le_max_right _ _)
  rw [max_eq_left hg.le_last] at bi1
  refine ⟨p0, r0, c0, c, future, pd0, pd, c1, p1, i0, i1, hp0, hr0, hc0, hc, hfu, hpd0, hpd, hc1, hp1, hi0, hi1, bpaid, ?_⟩
  refine (bi1.congr fun i hi o ho d hd => ?_)
  rw [hg.lenO] at ho
  rw [hg.lenD] at hd
  rw [kept_last hg le_rfl ho hd]
  congr 1
  unfold within fullIncurred
  beta_reduce
  rw [if_pos (c := (0 ≤ o ∧ o < 0 + n) ∧ 0 ≤ d ∧ d < 0 + D) (by omega), cell_nan0 hg hr hi ho hd]
  have hnk : ∀ y : K, (Num.fin y).numToNan.nanToNum = .fin y := by
    intro y
    rw [Num.numToNan_fin]
    split_ifs with hz
    · rw [hz]; rfl
    · rfl
  have hnn : ∀ y : K, (Num.fin y).numToNan.numToNan = (Num.fin y).numToNan := by
    intro y
    rw [Num.numToNan_fin]
    split_ifs with hz
    · rfl
    · rw [Num.numToNan_fin, if_neg hz]
  by_cases h : q * o + d < D
  · rw [if_pos h]
    have : (if (1 ≤ o ∧ o < 1 + (n - 1)) ∧ D - q * (n - 1) ≤ d ∧ d < D - q * (n - 1) + q * (n - 1) then
        ((if D ≤ q * o + d then (Num.fin (R i o d)).numToNan else Num.nan).nanToNum +
          (if D ≤ q * o + d then ((Num.fin (fullPaid (amount x p) R γ D q i o d)).numToNan).numToNan
            else Num.nan).nanToNum).numToNan
        else Num.nan).nanToNum = .fin 0 := by
      split_ifs with h1 h2
      · omega
      · show (Num.fin (0 : K) + Num.fin 0).numToNan.nanToNum = _
        rw [Num.fin_add_fin, hnk, add_zero]
      · rfl
    rw [this, Num.fin_add_fin, zero_add]
  · have h1 : 1 ≤ o := by
      rcases Nat.eq_zero_or_pos o with rfl | h'
      · omega
      · exact h'
    have h2 : q * o ≤ q * (n - 1) := Nat.mul_le_mul_left _ (by omega)
    rw [if_neg h, if_pos ⟨⟨h1, by omega⟩, by omega, by omega⟩, if_pos (by omega), if_pos (by omega), hnn, hnk, hnk,
      Num.fin_add_fin, hnk, Num.fin_add_fin]
    have hk := hg.known i hi _ (col_lt hr) o ho d hd (by omega)
    have : amount x r i o d = 0 := by unfold amount; rw [hk]; rfl
    rw [this, add_zero]

end CaseOut
end CL
