import Verif.Lemmas.CaseMean
import Verif.Spec.Examples

set_option linter.unusedSectionVars false

/-! # C65: the case outstanding method -/

namespace CL
namespace CaseOut
open Tri
variable {K : Type} [Field K] [LinearOrder K] [IsStrictOrderedRing K]
variable {x : Tri K} {a : Int} {n D q : Nat} {p r : String} {φ γ : Nat → Nat → K} {F G : Nat → String → Nat → Nat → K}

/-- There is one way to complete the amounts. -/
theorem Completed.unique (hx : Grid x a n D q) (hF : Completed x p r n D q φ γ F) (hG : Completed x p r n D q φ γ G)
    {i o : Nat} (hi : i < x.kdims.length) (ho : o < n) (d : Nat) (hd : d < D) :
    F i p o d = G i p o d ∧ F i r o d = G i r o d := by
  induction d with
  | zero =>
    have := hx.row_le ho
    rw [Nat.mul_comm] at this
    rw [hF.known i hi p (Or.inl rfl) o ho 0 hd (by omega), hG.known i hi p (Or.inl rfl) o ho 0 hd (by omega),
      hF.known i hi r (Or.inr rfl) o ho 0 hd (by omega), hG.known i hi r (Or.inr rfl) o ho 0 hd (by omega)]
    exact ⟨rfl, rfl⟩
  | succ d ih =>
    obtain ⟨h1, h2⟩ := ih (by omega)
    by_cases h : q * o + (d + 1) < D
    · rw [hF.known i hi p (Or.inl rfl) o ho _ hd h, hG.known i hi p (Or.inl rfl) o ho _ hd h,
        hF.known i hi r (Or.inr rfl) o ho _ hd h, hG.known i hi r (Or.inr rfl) o ho _ hd h]
      exact ⟨rfl, rfl⟩
    · have f1 := hF.payments i hi o ho d hd (by omega)
      have g1 := hG.payments i hi o ho d hd (by omega)
      have f2 := hF.reserves i hi o ho d hd (by omega)
      have g2 := hG.reserves i hi o ho d hd (by omega)
      rw [h1, h2, ← g1] at f1
      rw [h1, h2, ← g2, f1] at f2
      exact ⟨f1, sub_left_injective f2⟩

/-- The amounts the estimator arrives at. -/
theorem full_completed (hx : Grid x a n D q) (hpr : p ≠ r) : Completed x p r n D q φ γ (full x p r φ γ D q) := by
  have hr : ∀ i o d, full x p r φ γ D q i r o d = fullIncurred (amount x p) (amount x r)
      (reserveAt (reserve x p r) φ D q) γ D q i o d := fun i o d => by
    unfold full; rw [if_neg (fun h => hpr h.symm)]
  have hp : ∀ i o d, full x p r φ γ D q i p o d = fullPaid (amount x p) (reserveAt (reserve x p r) φ D q) γ D q i o d :=
    fun i o d => by unfold full; rw [if_pos rfl]
  have hC : ∀ i o d, D ≤ q * o + (d + 1) → q * o < D → full x p r φ γ D q i r o d - full x p r φ γ D q i p o d =
      reserveAt (reserve x p r) φ D q i o d := by
    intro i o d h hq
    rw [hr, hp]
    unfold fullIncurred fullPaid
    by_cases h' : q * o + d < D
    · have e : reached D q o = d := by unfold reached; omega
      rw [if_pos h', if_pos h']
      unfold reserveAt
      rw [e]
      unfold carried reserve
      simp
    · rw [if_neg h', if_neg h']; ring
  refine ⟨?_, ?_, ?_⟩
  · rintro i hi col (rfl | rfl) o ho d hd h
    · rw [hp]; unfold fullPaid; rw [if_pos h]
    · rw [hr]; unfold fullIncurred; rw [if_pos h]
  · intro i hi o ho d hd h
    have hq := reached_lt hx ho
    rw [hC i o d h (by omega), hC i o (d + 1) (by omega) (by omega)]
    unfold reserveAt
    rw [carried_forth φ i (d := d + 1) (by omega), carried_forth φ i (d := d) (by omega),
      Finset.prod_Ico_succ_top (by omega)]
    ring
  · intro i hi o ho d hd h
    have hq := reached_lt hx ho
    rw [hC i o d h (by omega), hp, hp, ← sum_payment (by omega), ← sum_payment (by omega), Finset.sum_range_succ]
    congr 1
    unfold payment paidAt
    rw [if_neg (by omega), if_pos (by omega), Nat.add_sub_cancel]

/-- **C65**: `case_ldf_` and `paid_ldf_` are the average ratios of the reserves and payments to the prior reserves, and
`ldf_` are the ratios from age to age of the paid and incurred amounts completed with them. -/
theorem C65_fit_partial (hx : Standard x a n D q) (hq : Dev.valOffset x.dgrain x.ograin = some q)
    (hu : lastDate x a n D q < 12 * 2261) {np nc : Int}
    (hF : Completed x p r n D q (caseFactor (reserve x p r) n D q nc) (paidFactor (reserve x p r) (amount x p) n D q np) F)
    (h : Ready x p r n D q np nc F) :
    ∃ cf pf g, fit p r np nc x = .ok (cf, pf, g) ∧
      (∀ i < x.kdims.length, ∀ d < D - 1, cf.values.get i 0 0 d = .fin (caseFactor (reserve x p r) n D q nc i d)) ∧
      (∀ i < x.kdims.length, ∀ d < D - 1,
        pf.values.get i 0 0 d = .fin (paidFactor (reserve x p r) (amount x p) n D q np i d)) ∧
      g.kdims = x.kdims ∧ g.vdims = (x.vdims.filter fun c => c == p || c == r) ∧ g.odims = x.odims ∧
      g.ddims = x.ddims.dropLast ∧ g.isPattern = true ∧ g.isCum = some false ∧ g.vd = ultVal ∧
      ∀ i < x.kdims.length, ∀ c (h : c < g.vdims.length), ∀ o < n, ∀ d < D - 1, g.values.get i c o d =
        .fin (F i g.vdims[c] o (d + 1) / F i g.vdims[c] o d) := by
  have hg := hx.toGrid
  have hn3 := h.three_origins
  have hqn : q * 2 ≤ q * (n - 1) := Nat.mul_le_mul_left _ (by omega)
  have hrec := hg.recent
  have hq1 := hg.period
  have hD3 : 3 ≤ D := by omega
  obtain ⟨pw, hpw, p0, p1, p2, p3, p4⟩ := periodWeights_ok hx hn3 hD3 hq (h.periods.imp And.left id) h.amounts
  obtain ⟨cw, hcw, c0, c1, c2, c3, c4⟩ := periodWeights_ok hx hn3 hD3 hq (h.periods.imp And.right id) h.amounts
  obtain ⟨t, cf, ht, hcf, fcf⟩ := caseToPrior_ok hx hD3 h.paid h.incurred h.reserves c0 c1 c2 c3 c4 h.caseFactors
  obtain ⟨s, pf, hs, hpf, fpf⟩ := paidToPrior_ok hx hD3 h.paid h.incurred h.reserves p0 p1 p2 p3 p4 h.paidFactors
  have he : ∀ i < x.kdims.length, ∀ col, col = p ∨ col = r → ∀ o < n, ∀ d < D,
      full x p r (caseFactor (reserve x p r) n D q nc) (paidFactor (reserve x p r) (amount x p) n D q np) D q i col o d =
        F i col o d := by
    rintro i hi col (rfl | rfl) o ho d hd
    · exact ((full_completed hg h.distinct).unique hg hF hi ho d hd).1
    · exact ((full_completed hg h.distinct).unique hg hF hi ho d hd).2
  obtain ⟨g, hg1, gw, gk, gl, gv, go, gd, gi, gp, gc, gu, gcell⟩ := setLdf_ok hx hq hu hn3 h.paid h.incurred h.distinct
    h.columns h.reserves fcf (by simp) h.caseFactors fpf h.latest
    (by
      intro i hi col hcol o ho d hd
      rw [he i hi col hcol o ho d hd]
      exact h.completed i hi col hcol o ho d hd)
  refine ⟨cf, pf, g, ?_, fcf.cell, fpf.cell, gk, gv, go, gd, gp, gc, gu, ?_⟩
  · unfold fit
    simp only [hpw, bind, Except.bind]
    rw [hcw]; simp only
    rw [ht]; simp only
    rw [hcf]; simp only
    rw [hs]; simp only
    rw [hpf]; simp only
    rw [hg1]
  · intro i hi c hc o ho d hd
    have hcol : ∀ y ∈ g.vdims, y = p ∨ y = r := by
      intro y hy
      rw [gv] at hy
      simpa using (List.mem_filter.1 hy).2
    have hm := hcol _ (List.getElem_mem hc)
    rw [gcell i hi c hc o ho d hd, he i hi _ hm o ho (d + 1) (by omega), he i hi _ hm o ho d (by omega)]

/-- **C65**: every triangle has exactly one completion, so the previous statement is not about nothing. -/
theorem C65_completion (hx : Grid x a n D q) (hpr : p ≠ r) (φ γ : Nat → Nat → K) :
    (∃ F, Completed x p r n D q φ γ F) ∧ ∀ F G, Completed x p r n D q φ γ F → Completed x p r n D q φ γ G →
      ∀ i < x.kdims.length, ∀ o < n, ∀ d < D, F i p o d = G i p o d ∧ F i r o d = G i r o d :=
  ⟨⟨_, full_completed hx hpr⟩, fun _ _ hF hG _ hi _ ho d hd => hF.unique hx hG hi ho d hd⟩

namespace C65

/-- Annual triangles of paid and incurred amounts. -/
def mk (n D : Nat) (f : Nat → Nat → Nat → ℚ) : Tri ℚ :=
  { kdims := [["Total"]]
    keyLabels := ["Total"]
    vdims := ["paid", "incurred"]
    odims := (List.range n).map fun o : Nat => 24000 + (o * 12 : Nat)
    ddims := (List.range D).map fun d : Nat => (((d + 1) * 12 : Nat) : Int)
    isVal := false
    ograin := .Y
    dgrain := .Y
    vd := 24000 + (D * 12 : Nat) - 1
    isCum := some true
    isPattern := false
    isAdditive := none
    values := ⟨1, 2, n, D, fun _ c o d => if o + d < D then .fin (f c o d) else .nan⟩ }

theorem standard3 (f : Nat → Nat → Nat → ℚ) : Standard (mk 3 3 f) 24000 3 3 1 := by
  refine ⟨⟨⟨rfl, rfl, rfl, rfl⟩, ?_, rfl, Nat.le_refl 1, (by decide : 1 ≤ 2), by decide, by decide, by decide,
    rfl, rfl, rfl, (by decide : 3 * 12 < 9999), (by decide : (24000 + (3 * 12 : Nat) - 1 : Int) ≤ ultVal), ?_⟩,
    (by decide : some true ≠ some false), rfl, rfl⟩
  · intro i _ c _ o _ d _
    show (if o + d < 3 then Num.fin (f c o d) else .nan).NoInf
    split
    · exact Num.noInf_fin _
    · exact Num.noInf_nan
  · intro i _ c _ o ho d hd hlt
    show (if o + d < 3 then _ else .nan) = Num.nan
    rw [if_neg (by omega)]

theorem standard2 (f : Nat → Nat → Nat → ℚ) : Standard (mk 2 3 f) 24000 2 3 1 := by
  refine ⟨⟨⟨rfl, rfl, rfl, rfl⟩, ?_, rfl, Nat.le_refl 1, (by decide : 1 ≤ 2), by decide, by decide, by decide,
    rfl, rfl, rfl, (by decide : 3 * 12 < 9999), (by decide : (24000 + (3 * 12 : Nat) - 1 : Int) ≤ ultVal), ?_⟩,
    (by decide : some true ≠ some false), rfl, rfl⟩
  · intro i _ c _ o _ d _
    show (if o + d < 3 then Num.fin (f c o d) else .nan).NoInf
    split
    · exact Num.noInf_fin _
    · exact Num.noInf_nan
  · intro i _ c _ o ho d hd hlt
    show (if o + d < 3 then _ else .nan) = Num.nan
    rw [if_neg (by omega)]

def some3 (c o d : Nat) : ℚ := if c = 0 then 100 + 50 * d + 10 * o - 10 * d * o else 200 + 20 * d + 7 * o

abbrev tri : Tri ℚ := mk 3 3 some3
abbrev fc : Nat → Nat → ℚ := caseFactor (reserve tri "paid" "incurred") 3 3 1 (-1)
abbrev fp : Nat → Nat → ℚ := paidFactor (reserve tri "paid" "incurred") (amount tri "paid") 3 3 1 (-1)
abbrev done : Nat → String → Nat → Nat → ℚ := full tri "paid" "incurred" fc fp 3 1

theorem ready : Ready tri "paid" "incurred" 3 3 1 (-1) (-1) done := by
  refine ⟨by decide, by decide, by decide, by decide, by decide, by decide +kernel, by decide +kernel, by decide +kernel,
    by decide +kernel, by decide +kernel, by decide, ?_⟩
  rintro i hi col (rfl | rfl) <;> revert i <;> decide +kernel

/-- Three origins: the youngest reaches reserves of 94 × 1449/1940 and 94 × 1449/1940 × 4/7. -/
example : ∃ cf pf g, fit "paid" "incurred" (-1) (-1) tri = .ok (cf, pf, g) ∧
    cf.values.get 0 0 0 0 = .fin (1449 / 1940) ∧ pf.values.get 0 0 0 1 = .fin (5 / 7) ∧
    g.values.get 0 0 0 1 = .fin (4 / 3) ∧ g.values.get 0 1 2 0 = .fin (113049 / 103790) := by
  obtain ⟨cf, pf, g, hf, h1, h2, -, hv, -, -, -, -, -, h3⟩ := C65_fit_partial (standard3 some3) rfl (by decide)
    (np := -1) (nc := -1) (full_completed (standard3 some3).toGrid (by decide)) ready
  have hv' : g.vdims = ["paid", "incurred"] := hv.trans (by decide)
  refine ⟨cf, pf, g, hf, ?_, ?_, ?_, ?_⟩
  · rw [h1 0 (by decide) 0 (by decide)]; decide +kernel
  · rw [h2 0 (by decide) 1 (by decide)]; decide +kernel
  · rw [h3 0 (by decide) 0 (by rw [hv']; decide) 0 (by decide) 1 (by decide)]
    simp only [hv', List.getElem_cons_zero, List.getElem_cons_succ]
    decide +kernel
  · rw [h3 0 (by decide) 1 (by rw [hv']; decide) 2 (by decide) 0 (by decide)]
    simp only [hv', List.getElem_cons_zero, List.getElem_cons_succ]
    decide +kernel

/-- The same with `paid_n_periods=1`: the paid factor of the first age is that of the second origin. -/
example : ∃ cf pf g, fit "paid" "incurred" 1 (-1) tri = .ok (cf, pf, g) ∧
    cf.values.get 0 0 0 0 = .fin (1449 / 1940) ∧ pf.values.get 0 0 0 0 = .fin (40 / 97) := by
  obtain ⟨cf, pf, g, hf, h1, h2, -⟩ := C65_fit_partial (standard3 some3) rfl (by decide)
    (p := "paid") (r := "incurred") (np := 1) (nc := -1) (full_completed (standard3 some3).toGrid (by decide))
    ⟨by decide, by decide, by decide, by decide, by decide, by decide +kernel, by decide +kernel, by decide +kernel,
      by decide +kernel, by decide +kernel, by decide, by
        rintro i hi col (rfl | rfl) <;> revert i <;> decide +kernel⟩
  refine ⟨cf, pf, g, hf, ?_, ?_⟩
  · rw [h1 0 (by decide) 0 (by decide)]; decide +kernel
  · rw [h2 0 (by decide) 0 (by decide)]; decide +kernel

/-- **C65 is false of the code with two origins**: known incurred amounts change, since the one future reserve is
added to every cell. -/
theorem C65_two_origins_false : ∃ (x : Tri ℚ) (a : Int) (p r : String) (cf pf g : Tri ℚ), Standard x a 2 3 1 ∧
    x.vdims = [p, r] ∧ (∀ o < 2, ∀ d < 3, o + d < 3 → reserve x p r 0 o d ≠ 0) ∧ total (reserve x p r) 2 3 1 0 ≠ 0 ∧
    fit p r (-1) (-1) x = .ok (cf, pf, g) ∧ g.vdims = [p, r] ∧
    g.values.get 0 1 0 0 ≠ .fin (amount x r 0 0 1 / amount x r 0 0 0) := by
  obtain ⟨⟨cf, pf, g⟩, hf, h1, h2⟩ : ∃ F, fit "paid" "incurred" (-1) (-1) (mk 2 3 some3) = .ok F ∧
      F.2.2.vdims = ["paid", "incurred"] ∧ F.2.2.values.get 0 1 0 0 ≠
        .fin (amount (mk 2 3 some3) "incurred" 0 0 1 / amount (mk 2 3 some3) "incurred" 0 0 0) :=
    ok_of _ (by decide +kernel)
  exact ⟨_, _, "paid", "incurred", cf, pf, g, standard2 _, rfl, by decide +kernel, by decide +kernel, hf, h1, h2⟩

/-- The latest reserves are -2, 1 and 1. -/
def cancel (c o d : Nat) : ℚ :=
  if c = 0 then 10 * (d + 1) else 10 * (d + 1) + (if o + d = 2 then (if o = 0 then -2 else 1) else 3)

/-- **C65 is false of the code where the latest reserves add up to zero**: there are no future payments. -/
theorem C65_latest_false : ∃ (x : Tri ℚ) (a : Int) (p r : String) (cf pf g : Tri ℚ) (F : Nat → String → Nat → Nat → ℚ),
    Standard x a 3 3 1 ∧ x.vdims = [p, r] ∧ (∀ o < 3, ∀ d < 3, o + d < 3 → reserve x p r 0 o d ≠ 0) ∧
    Completed x p r 3 3 1 (caseFactor (reserve x p r) 3 3 1 (-1)) (paidFactor (reserve x p r) (amount x p) 3 3 1 (-1)) F ∧
    fit p r (-1) (-1) x = .ok (cf, pf, g) ∧ g.vdims = [p, r] ∧ g.values.get 0 0 2 0 = .fin 1 ∧
    F 0 p 2 1 / F 0 p 2 0 ≠ 1 := by
  obtain ⟨⟨cf, pf, g⟩, hf, h1, h2⟩ : ∃ F, fit "paid" "incurred" (-1) (-1) (mk 3 3 cancel) = .ok F ∧
      F.2.2.vdims = ["paid", "incurred"] ∧ F.2.2.values.get 0 0 2 0 = .fin 1 := ok_of _ (by decide +kernel)
  exact ⟨_, _, "paid", "incurred", cf, pf, g, _, standard3 _, rfl, by decide +kernel,
    full_completed (standard3 _).toGrid (by decide), hf, h1, h2, by decide +kernel⟩

/-- The second origin pays nothing in its second year. -/
def idle (c o d : Nat) : ℚ := if c = 0 then 100 + (if o = 1 then 0 else 50 * d) else 200 + 20 * d

/-- **C65 is false of the code where an origin pays nothing**: the average leaves it out. -/
theorem C65_no_payment_false : ∃ (x : Tri ℚ) (a : Int) (p r : String) (cf pf g : Tri ℚ), Standard x a 3 3 1 ∧
    x.vdims = [p, r] ∧ (∀ o < 3, ∀ d < 3, o + d < 3 → reserve x p r 0 o d ≠ 0) ∧ total (reserve x p r) 3 3 1 0 ≠ 0 ∧
    fit p r (-1) (-1) x = .ok (cf, pf, g) ∧ pf.values.get 0 0 0 0 ≠
      .fin (mean (Dev.linked 3 3 1 0) fun o => (amount x p 0 o 1 - amount x p 0 o 0) / reserve x p r 0 o 0) := by
  obtain ⟨⟨cf, pf, g⟩, hf, h1⟩ : ∃ F, fit "paid" "incurred" (-1) (-1) (mk 3 3 idle) = .ok F ∧
      F.2.1.values.get 0 0 0 0 ≠ .fin (mean (Dev.linked 3 3 1 0) fun o => (amount (mk 3 3 idle) "paid" 0 o 1 -
        amount (mk 3 3 idle) "paid" 0 o 0) / reserve (mk 3 3 idle) "paid" "incurred" 0 o 0) := ok_of _ (by decide +kernel)
  exact ⟨_, _, "paid", "incurred", cf, pf, g, standard3 _, rfl, by decide +kernel, by decide +kernel, hf, h1⟩

/-- **C65 is false of the code with two ages**: `fit` raises, the average of one ratio being a number. -/
theorem C65_two_ages_false : ∃ (x : Tri ℚ), x.values.d2 = 2 ∧ x.values.d3 = 2 ∧
    (∀ o < 2, ∀ d < 2, o + d < 2 → reserve x "paid" "incurred" 0 o d ≠ 0) ∧
    fit "paid" "incurred" (-1) (-1) x = .error .attributeError :=
  ⟨mk 2 2 some3, rfl, rfl, by decide +kernel, error_of (by decide +kernel)⟩

end C65

end CaseOut
end CL
