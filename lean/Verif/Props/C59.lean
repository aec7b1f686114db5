import Verif.Props.C44

set_option linter.unusedSectionVars false

/-! # C59: the Berquist-Sherman adjustment of a steady triangle -/

namespace CL
namespace Berq
open Tri
variable {x u : Tri ℝ} {a : Int} {D : Nat} {n : Names} {fac : Int → ℝ} {U : Nat → Nat → ℝ}

theorem through_left {c0 c1 p0 p1 : ℝ} : through c0 c1 p0 p1 c0 = p0 := by
  unfold through; simp

theorem through_right {c0 c1 p0 p1 : ℝ} (hc : c0 ≠ c1) (h0 : 0 < p0) : through c0 c1 p0 p1 c1 = p1 := by
  unfold through
  rw [div_self (sub_ne_zero.2 (Ne.symm hc)), Real.rpow_one, mul_div_cancel₀ _ h0.ne']

/-- A triangle in which claims are closed at the same rate for all origins, and the average reserves follow
the trend, is not adjusted. -/
theorem C59_steady (fac : Int → ℝ) {est : Tri ℝ → Except Err (Tri ℝ)}
    (hx : Grid x a D D 1) (hD : 3 ≤ D) (hn : n.In x) (hd : n.Distinct) {ult rep : Tri ℝ}
    (hrep : x.getCols [n.reported] = .ok rep) (hest : est rep = .ok ult) (hu : Ultimates x ult D U)
    (hst : ∀ i < x.kdims.length, ∀ o < D, Steady x n D i o) {rate : Nat → Nat → ℝ}
    (hrate : ∀ i < x.kdims.length, ∀ o d, o + d < D → col x n.closed i o d = rate i d * U i o)
    (hcase : ∀ i < x.kdims.length, ∀ o d, o + d < D → reserve n x i o d = 0 ∨ opened n x i o d ≠ 0 ∧
      reserve n x i o d / opened n x i o d =
        fac (months x D o d) * (reserve n x i (D - 1 - d) d / opened n x i (D - 1 - d) d)) :
    ∃ u, fit Tail.log Tail.exp fac est n x = .ok u ∧ u.kdims = x.kdims ∧ u.vdims = x.vdims ∧
      u.odims = x.odims ∧ u.ddims = x.ddims ∧ u.vd = x.vd ∧
      ∀ i < x.kdims.length, ∀ c < x.vdims.length, ∀ o < D, ∀ d < D,
        u.values.get i c o d = (x.values.get i c o d).numToNan := by
  obtain ⟨u, E, h1, h2, h3⟩ := C44_exponential fac hx hD hn hd hrep hest hu
  refine ⟨u, h1, h2.kdims, h2.vdims, h2.odims, h2.ddims, h2.vd, ?_⟩
  intro i hi c hc o ho d hd'
  by_cases hod : o + d < D
  swap
  · rw [h2.future i hi c hc o ho d hd' (by omega), hx.known i hi c hc o ho d hd' (by omega)]
    rfl
  have hg : col x n.closed i (D - 1 - d) d / U i (D - 1 - d) * U i o = col x n.closed i o d := by
    rw [hrate i hi _ _ (by omega), hrate i hi o d hod, mul_div_assoc,
      div_self (hu.nonzero i hi _ (by omega)), mul_one]
  by_cases c1 : c = x.vdims.idxOf n.closed
  · rw [c1, h2.closed i hi o d hod, hg, col_cell hx hn.closed hi ho hd']
  by_cases c2 : c = x.vdims.idxOf n.incurred
  · rw [c2, col_cell hx hn.incurred hi ho hd']
    rcases hcase i hi o d hod with hr | ⟨hop, hr⟩
    · rw [h2.nothing i hi o d hod (Or.inl hr), col_cell hx hn.paid hi ho hd']
      unfold reserve at hr
      rw [sub_eq_zero.1 hr]
    · by_cases hz : reserve n x i o d = 0
      · rw [h2.nothing i hi o d hod (Or.inl hz), col_cell hx hn.paid hi ho hd']
        unfold reserve at hz
        rw [sub_eq_zero.1 hz]
      · have hq := div_ne_zero hz hop
        rw [hr] at hq
        have hq' := right_ne_zero_of_mul hq
        rw [h2.incurred i hi o d hod hz hop (fun e => hq' (by rw [e, zero_div])) (fun e => hq' (by rw [e, div_zero])),
          ← hr, div_mul_cancel₀ _ hop]
        congr 2
        unfold reserve
        ring
  by_cases c3 : c = x.vdims.idxOf n.paid
  · rw [c3]
    by_cases e : o + d + 1 = D
    · exact h2.latest i hi o d e
    have s := hst i hi o ho
    rw [h2.before i hi o d (by omega), col_cell hx hn.paid hi ho hd']
    congr 2
    have hne : col x n.closed i (D - 1 - d) d ≠ 0 := by
      rw [hrate i hi _ _ (by omega)]
      refine mul_ne_zero ?_ (hu.nonzero i hi _ (by omega))
      intro hz
      have := s.closed d hod
      rw [hrate i hi o d hod, hz, zero_mul] at this
      exact lt_irrefl _ this
    rcases Nat.eq_zero_or_pos d with rfl | hpos
    · rw [h3 i hi o s 0 (by omega) hne 0 ⟨by omega, Or.inl rfl, Or.inr (by
        rw [hg]; exact (s.increasing 0 (by omega)).le)⟩, hg, through_left]
    · obtain ⟨d, rfl⟩ : ∃ e, d = e + 1 := ⟨d - 1, by omega⟩
      rw [h3 i hi o s (d + 1) (by omega) hne d ⟨by omega, Or.inr (by
        rw [hg]; exact s.increasing d (by omega)), Or.inr (by rw [hg])⟩, hg,
        through_right (s.increasing d (by omega)).ne (s.paid d (by omega))]
  · exact h2.others i hi c hc c3 c2 c1 o d hod

namespace C44
theorem steady_ult {i o : Nat} (ho : o < 3) : countUlt (square 3 steady) names 3 i o = 10 * (o + 1) := by
  have h : ∀ o d, o + d < 3 → col (square 3 steady) names.reported i o d = 10 * (o + 1) := by
    intro o d hod
    rw [col_square hod]
    rcases cases3 hod with ⟨rfl, rfl⟩ | ⟨rfl, rfl⟩ | ⟨rfl, rfl⟩ | ⟨rfl, rfl⟩ | ⟨rfl, rfl⟩ | ⟨rfl, rfl⟩ <;>
      norm_num [steady, ip, ii, ir, ic]
  unfold countUlt
  rw [h o _ (by omega), Finset.prod_eq_one, mul_one]
  intro j hj
  rw [Finset.mem_Ico] at hj
  rw [Finset.sum_congr rfl fun k hk => h k (j + 1) (by have := Finset.mem_range.1 hk; omega),
    Finset.sum_congr rfl fun k hk => h k j (by have := Finset.mem_range.1 hk; omega)]
  apply div_self
  apply ne_of_gt
  exact Finset.sum_pos (fun k _ => by positivity) ⟨0, by rw [Finset.mem_range]; omega⟩

/-- The steady triangle is not adjusted. -/
example : ∃ u, fit Tail.log Tail.exp (fun _ => 1) (fun r => Work.chainladderFit r none) names
      (square 3 steady) = .ok u ∧ u.values.get 0 0 0 1 = .fin 150 := by
  have hs := standard (D := 3) (by omega) (by omega) steady
  have hn := inSquare 3 steady
  obtain ⟨rep, ult, r1, r2, r3⟩ := chainladder_ultimates hs hn
    fun i _ o d hod => steady_pos hod hn.reported
  obtain ⟨u, u1, -, -, -, -, -, u2⟩ := C59_steady (fun _ => 1) hs.toGrid le_rfl hn distinct r1
    (est := fun r => Work.chainladderFit r none) r2 r3
    (fun i _ o ho => ⟨fun d hd => steady_pos hd hn.paid, fun d hd => steady_pos hd hn.closed, by
      intro d hd
      rw [col_square (by omega), col_square (by omega)]
      rcases cases3 (o := o) (d := d) (by omega) with ⟨rfl, rfl⟩ | ⟨rfl, rfl⟩ | ⟨rfl, rfl⟩ | ⟨rfl, rfl⟩ | ⟨rfl, rfl⟩ | ⟨rfl, rfl⟩ <;>
        first | omega | norm_num [steady, ip, ii, ir, ic]⟩)
    (rate := fun _ d => [1 / 2, 8 / 10, 9 / 10].getD d 0) (by
      intro i hi o d hod
      rw [steady_ult (by omega), col_square hod]
      rcases cases3 hod with ⟨rfl, rfl⟩ | ⟨rfl, rfl⟩ | ⟨rfl, rfl⟩ | ⟨rfl, rfl⟩ | ⟨rfl, rfl⟩ | ⟨rfl, rfl⟩ <;>
        norm_num [steady, ip, ii, ir, ic])
    (by
      intro i hi o d hod
      right
      unfold reserve opened
      rw [col_square hod, col_square hod, col_square hod, col_square hod, col_square (by omega),
        col_square (by omega), col_square (by omega), col_square (by omega)]
      rcases cases3 hod with ⟨rfl, rfl⟩ | ⟨rfl, rfl⟩ | ⟨rfl, rfl⟩ | ⟨rfl, rfl⟩ | ⟨rfl, rfl⟩ | ⟨rfl, rfl⟩ <;>
        norm_num [steady, ip, ii, ir, ic])
  refine ⟨u, u1, ?_⟩
  rw [u2 0 (by decide) 0 (by decide) 0 (by omega) 1 (by omega)]
  show (if 0 + 1 < 3 then Num.fin (steady 0 0 1) else .nan).numToNan = _
  rw [if_pos (by omega), show steady 0 0 1 = 150 by norm_num [steady], Num.numToNan_fin_of_ne (by norm_num)]

end C44

end Berq
end CL
