import Verif.Model.Munich
import Verif.Lemmas.LinkGrid

set_option linter.unusedSectionVars false

/-! # Lemmas on the Munich chain ladder -/


namespace CL
namespace Munich
open Reg

section
variable {K : Type} [Field K] [LinearOrder K] [IsStrictOrderedRing K]

theorem keep_fin (a b : K) : keep (.fin a) (.fin b) = .fin a := by
  simp [keep, Num.one_def, Num.zero_def]

theorem keep_nan (y : Num K) : keep .nan y = y := by
  cases y <;> simp [keep, Num.one_def, Num.zero_def]
  · show Num.add (.fin 0) (Num.mul (.fin 1) .ninf) = .ninf
    simp [Num.mul, Num.infMul, Num.add]
  · show Num.add (.fin 0) (Num.mul (.fin 1) .pinf) = .pinf
    simp [Num.mul, Num.infMul, Num.add]

theorem keep_missing (x : Num K) : keep x .nan = .nan := by simp [keep]

/-- Coefficients with which the projection from age `j` is a number. -/
structure Coef.Finite (c : Coef K) (j : Nat) : Prop where
  ldf : ∃ v, c.ldf j = .fin v
  sigma : ∃ v, c.sigma j = .fin v
  rho : ∃ v, v ≠ 0 ∧ c.rho j = .fin v
  q : ∃ v, c.q j = .fin v
  lam : ∃ v, c.lam = .fin v

theorem Coef.Finite.project {c : Coef K} {j : Nat} (h : c.Finite j) {a : K} (ha : a ≠ 0) (b : K) :
    ∃ v, c.project j (.fin a) (.fin b) = .fin v := by
  obtain ⟨⟨l, hl⟩, ⟨s, hs⟩, ⟨r, hr, hr'⟩, ⟨q, hq⟩, ⟨m, hm⟩⟩ := h
  unfold Coef.project
  rw [hl, hs, hr', hq, hm, Num.fin_mul_fin, Num.fin_div_fin_of_ne _ hr, Num.fin_div_fin_of_ne _ ha]
  exact ⟨_, rfl⟩

/-- The full triangle has the known amounts. -/
theorem full_known {P I : Nat → Num K} {p i : Coef K} {L : Nat}
    (hP : ∀ j ≤ L, ∃ v, v ≠ 0 ∧ P j = .fin v) (hI : ∀ j ≤ L, ∃ v, v ≠ 0 ∧ I j = .fin v)
    (hp : ∀ j < L, p.Finite j) (hi : ∀ j < L, i.Finite j) : ∀ j ≤ L, full P I p i j = (P j, I j) := by
  intro j
  induction j with
  | zero =>
    intro h0
    obtain ⟨v, -, e⟩ := hP 0 h0
    simp [full, e]
  | succ j ih =>
    intro hj
    obtain ⟨a, ha, ea⟩ := hP j (by omega)
    obtain ⟨b, hb, eb⟩ := hI j (by omega)
    obtain ⟨a', -, ea'⟩ := hP (j + 1) hj
    obtain ⟨b', -, eb'⟩ := hI (j + 1) hj
    obtain ⟨u, hu⟩ := (hp j (by omega)).project ha b
    obtain ⟨v, hv⟩ := (hi j (by omega)).project hb a
    simp only [full, ih (by omega), ea, eb, hu, hv, ea', eb', keep_fin]

/-- The known amounts of a row are kept only if the coefficients are numbers. -/
theorem full_nan {P I : Nat → Num K} {p i : Coef K} {j : Nat} (h : p.rho j = .nan ∨ p.lam = .nan) :
    (full P I p i (j + 1)).1 = .nan := by
  rcases h with h | h <;> simp [full, Coef.project, h, keep_missing]

theorem full_nan' {P I : Nat → Num K} {p i : Coef K} {j : Nat} (h : i.rho j = .nan ∨ i.lam = .nan) :
    (full P I p i (j + 1)).2 = .nan := by
  rcases h with h | h <;> simp [full, Coef.project, h, keep_missing]

/-- Without correlation the projection is the chain ladder. -/
theorem project_zero {c : Coef K} {j : Nat} (h : c.Finite j) (h0 : c.lam = .fin 0) {a : K} (ha : a ≠ 0)
    (b : K) : c.project j (.fin a) (.fin b) = c.ldf j * .fin a := by
  obtain ⟨⟨l, hl⟩, ⟨s, hs⟩, ⟨r, hr, hr'⟩, ⟨q, hq⟩, -⟩ := h
  unfold Coef.project
  rw [hl, hs, hr', hq, h0, Num.fin_mul_fin, Num.fin_div_fin_of_ne _ hr, Num.fin_div_fin_of_ne _ ha]
  simp

/-- Known positive amounts of paid and incurred at the same origins, nothing else. -/
structure Known (n : Nat) (s : Finset Nat) (x y : Nat → Num K) : Prop where
  sub : s ⊆ Finset.range n
  pos : ∀ o ∈ s, ∃ a b, 0 < a ∧ 0 < b ∧ x o = .fin a ∧ y o = .fin b
  nan : ∀ o < n, o ∉ s → x o = .nan ∧ y o = .nan

theorem Known.symm {n : Nat} {s : Finset Nat} {x y : Nat → Num K} (h : Known n s x y) : Known n s y x :=
  ⟨h.sub, fun o ho => by obtain ⟨a, b, h1, h2, h3, h4⟩ := h.pos o ho; exact ⟨b, a, h2, h1, h4, h3⟩,
    fun o ho hs => (h.nan o ho hs).symm⟩

/-- A sum over the known cells. -/
theorem Known.nansum {n : Nat} {s : Finset Nat} {x y : Nat → Num K} (h : Known n s x y)
    {f : Nat → Num K} {g : Nat → K} (hs : ∀ o ∈ s, f o = .fin (g o)) (hn : ∀ o < n, o ∉ s → f o = .nan) :
    nansum n f = .fin (∑ o ∈ s, g o) := by
  unfold Reg.nansum
  rw [← Finset.sum_subset h.sub, ← Num.sum_fin]
  · refine Finset.sum_congr rfl fun o ho => ?_
    rw [hs o ho]; rfl
  · intro o ho hos
    rw [hn o (Finset.mem_range.1 ho) hos]; rfl

variable {n : Nat} {s : Finset Nat} {x y : Nat → Num K}

theorem Known.origDen (h : Known n s x y) (hne : s.Nonempty) :
    origDen n (fun o => 1 / x o) x y = .fin (∑ o ∈ s, (x o).amt) ∧ 0 < ∑ o ∈ s, (x o).amt := by
  have hpos : 0 < ∑ o ∈ s, (x o).amt := by
    refine Finset.sum_pos (fun o ho => ?_) hne
    obtain ⟨a, b, h1, h2, h3, h4⟩ := h.pos o ho
    rw [h3]; exact h1
  refine ⟨?_, hpos⟩
  unfold Reg.origDen
  rw [h.nansum (g := fun o => (x o).amt), Num.numToNan_fin_of_ne hpos.ne']
  · intro o ho
    obtain ⟨a, b, h1, h2, h3, h4⟩ := h.pos o ho
    beta_reduce
    rw [h3, h4, Num.one_def, Num.fin_div_fin_of_ne _ h1.ne']
    simp [Num.zero_def, h1.ne']
  · intro o ho hos
    rw [(h.nan o ho hos).1]; simp

/-- The slope is the ratio of the totals. -/
theorem Known.origSlope (h : Known n s x y) (hne : s.Nonempty) :
    origSlope n (fun o => 1 / x o) x y = .fin ((∑ o ∈ s, (y o).amt) / ∑ o ∈ s, (x o).amt) := by
  obtain ⟨h1, h2⟩ := h.origDen hne
  have h3 := (h.symm.origDen hne).2
  unfold Reg.origSlope
  rw [h1, h.nansum (g := fun o => (y o).amt), Num.numToNan_fin_of_ne h3.ne',
    Num.fin_div_fin_of_ne _ h2.ne']
  · intro o ho
    obtain ⟨a, b, h1, h2, h3, h4⟩ := h.pos o ho
    beta_reduce
    rw [h3, h4, Num.one_def, Num.fin_div_fin_of_ne _ h1.ne']
    simp [h1.ne']
  · intro o ho hos
    rw [(h.nan o ho hos).1]; simp

/-- The mean squared residual. -/
theorem Known.origMse (h : Known n s x y) (h2 : 2 ≤ s.card) :
    origMse n (fun o => 1 / x o) x y = .fin ((∑ o ∈ s, ((y o).amt - (∑ o ∈ s, (y o).amt) /
      (∑ o ∈ s, (x o).amt) * (x o).amt) ^ 2 / (x o).amt) / ((s.card : K) - 1)) := by
  have hne : s.Nonempty := Finset.card_pos.1 (by omega)
  have hc : (s.card : K) - 1 ≠ 0 := by
    have : (2 : K) ≤ s.card := by exact_mod_cast h2
    linarith
  unfold Reg.origMse
  rw [h.origSlope hne, h.nansum (g := fun o => ((y o).amt - (∑ o ∈ s, (y o).amt) /
      (∑ o ∈ s, (x o).amt) * (x o).amt) ^ 2 / (x o).amt), h.nansum (g := fun _ => 1)]
  · rw [Finset.sum_const, nsmul_eq_mul, mul_one, Num.one_def, Num.fin_sub_fin, Num.numToNan_fin_of_ne hc,
      Num.fin_div_fin_of_ne _ hc]
  · intro o ho
    obtain ⟨a, b, h1, h2, h3, h4⟩ := h.pos o ho
    beta_reduce
    rw [h3, h4, Num.one_def, Num.fin_div_fin_of_ne _ h1.ne']
    simp [Num.eqb, Num.zero_def, h1.ne', Num.ofBool]
  · intro o ho hos
    rw [(h.nan o ho hos).2]; simp
  · intro o ho
    obtain ⟨a, b, h1, h2, h3, h4⟩ := h.pos o ho
    beta_reduce
    rw [h3, h4, Num.one_def, Num.fin_div_fin_of_ne _ h1.ne']
    have : (Num.fin (1 / a)).ltb 0 = false := by
      have : ¬ (1 / a < 0) := not_lt.2 (by positivity)
      simpa [Num.ltb, Num.zero_def] using this
    rw [sqResidual, this]
    simp only [Num.zero_def, Num.one_def, Num.fin_mul_fin, Num.fin_add_fin, Num.fin_sub_fin, Num.amt_fin,
      Bool.false_eq_true, if_false]
    congr 1
    ring
  · intro o ho hos
    rw [(h.nan o ho hos).1, (h.nan o ho hos).2]
    simp [sqResidual, Num.ltb]

end

theorem fill_logLinear {n : Nat} {y : Nat → Num ℝ} {d : Nat} {s : ℝ} (hs : 0 ≤ s) (h : y d = .fin s) :
    Interp.logLinear.fill n y d = Num.numToNan (.fin s) := by
  have hpos : 0 < if s = 0 then (1 / 10 ^ 320 : ℝ) else s := by
    split_ifs with h0
    · positivity
    · exact lt_of_le_of_ne hs (Ne.symm h0)
  have h0 : (if (y d).eqb 0 then Num.fin (1 / 10 ^ 320 : ℝ) else y d) =
      .fin (if s = 0 then (1 / 10 ^ 320 : ℝ) else s) := by
    rw [h, Num.zero_def]
    unfold Num.eqb
    by_cases hz : s = 0 <;> simp [hz]
  have hw : (Tail.log (if (y d).eqb 0 then Num.fin (1 / 10 ^ 320 : ℝ) else y d) * 0 + 1).nanToNum =
      .fin 1 := by
    rw [h0]
    unfold Tail.log
    simp only [not_lt.2 hpos.le, hpos.ne', if_false]
    simp [Num.zero_def, Num.one_def]
  unfold Interp.fill
  simp only [hw]
  generalize Tail.exp _ = E
  have : (E * (1 - Num.fin 1)).nanToNum = Num.fin 0 := by
    rw [Num.one_def, Num.fin_sub_fin, sub_self]
    cases E
    · simp
    · show Num.nanToNum (Num.mul .ninf (.fin 0)) = _
      simp [Num.mul, Num.infMul]
    · simp
    · show Num.nanToNum (Num.mul .pinf (.fin 0)) = _
      simp [Num.mul, Num.infMul]
  rw [this, h]
  simp

theorem fill_mack {n : Nat} {y : Nat → Num ℝ} {d : Nat} {s : ℝ} (hs : 0 ≤ s) (h : y d = .fin s) :
    Interp.mack.fill n y d = .fin (if s = 0 then 1 / 10 ^ 320 else s) := by
  have hpos : 0 < if s = 0 then (1 / 10 ^ 320 : ℝ) else s := by
    split_ifs with h0
    · positivity
    · exact lt_of_le_of_ne hs (Ne.symm h0)
  have h0 : (if (y d).eqb 0 then Num.fin (1 / 10 ^ 320 : ℝ) else y d) =
      .fin (if s = 0 then (1 / 10 ^ 320 : ℝ) else s) := by
    rw [h, Num.zero_def]
    unfold Num.eqb
    by_cases hz : s = 0 <;> simp [hz]
  unfold Interp.fill
  simp only [h0]
  generalize (if s = 0 then (1 / 10 ^ 320 : ℝ) else s) = S at hpos
  have hw : ((Num.fin S : Num ℝ) * 0 + 1).nanToNum = .fin 1 := by simp [Num.zero_def, Num.one_def]
  rw [hw, Num.one_def, Num.fin_sub_fin, sub_self]
  have : ∀ z : Num ℝ, (∃ v, z = .fin v) → ((Num.fin S).nanToNum + z * .fin 0).numToNan = .fin S := by
    rintro z ⟨v, rfl⟩
    simp [Num.numToNan_fin, hpos.ne']
  apply this
  by_cases hd : d < 2
  · rw [if_pos hd]; exact ⟨_, rfl⟩
  · rw [if_neg hd]; exact Num.nanToNum_isFin _

/-- The ratio of the two is the same at all known cells. -/
def Proportional (s : Finset Nat) (x y : Nat → Num ℝ) : Prop := ∃ c, ∀ o ∈ s, (y o).amt = c * (x o).amt

theorem Known.mse_zero_iff {n : Nat} {s : Finset Nat} {x y : Nat → Num ℝ} (h : Known n s x y)
    (h2 : 2 ≤ s.card) : ∃ v, 0 ≤ v ∧ Reg.origMse n (fun o => 1 / x o) x y = .fin v ∧
      (v = 0 ↔ Proportional s x y) := by
  have hne : s.Nonempty := Finset.card_pos.1 (by omega)
  have hc : 0 < (s.card : ℝ) - 1 := by
    have : (2 : ℝ) ≤ s.card := by exact_mod_cast h2
    linarith
  have hx : ∀ o ∈ s, 0 < (x o).amt := by
    intro o ho
    obtain ⟨a, b, h1, h2, h3, h4⟩ := h.pos o ho
    rw [h3]; exact h1
  have hX := (h.origDen hne).2
  have h0 : ∀ o ∈ s, 0 ≤ ((y o).amt - (∑ o ∈ s, (y o).amt) / (∑ o ∈ s, (x o).amt) * (x o).amt) ^ 2 /
      (x o).amt := fun o ho => div_nonneg (sq_nonneg _) (hx o ho).le
  refine ⟨_, div_nonneg (Finset.sum_nonneg h0) hc.le, h.origMse h2, ?_⟩
  rw [div_eq_zero_iff, or_iff_left hc.ne', Finset.sum_eq_zero_iff_of_nonneg h0]
  constructor
  · intro hz
    refine ⟨(∑ o ∈ s, (y o).amt) / (∑ o ∈ s, (x o).amt), fun o ho => ?_⟩
    have := hz o ho
    rw [div_eq_zero_iff, or_iff_left (hx o ho).ne'] at this
    have := pow_eq_zero_iff (two_ne_zero) |>.1 this
    linarith
  · rintro ⟨c, hcx⟩ o ho
    have : (∑ o ∈ s, (y o).amt) / (∑ o ∈ s, (x o).amt) = c := by
      rw [div_eq_iff hX.ne', Finset.mul_sum]
      exact Finset.sum_congr rfl hcx
    rw [this, hcx o ho]
    simp

theorem sqrt_fin {v : ℝ} (hv : 0 ≤ v) : Tail.sqrt (.fin v) = .fin (Real.sqrt v) := by
  unfold Tail.sqrt
  simp [not_lt.2 hv]

/-- `rho_sigma_` at an age with at least two known origins. -/
theorem rho_spec (m : Interp) {n D : Nat} {x y : Nat → Nat → Num ℝ} {d : Nat} {s : Finset Nat}
    (h : Known n s (fun o => x o d) (fun o => y o d)) (h2 : 2 ≤ s.card) :
    (m = .mack ∨ ¬ Proportional s (fun o => x o d) (fun o => y o d) →
      ∃ v, v ≠ 0 ∧ rho m n D x y d = .fin v) ∧
    (m = .logLinear → Proportional s (fun o => x o d) (fun o => y o d) → rho m n D x y d = .nan) := by
  obtain ⟨v, hv, e, hz⟩ := h.mse_zero_iff h2
  have hs : Tail.sqrt (ratioMse n x y d) = .fin (Real.sqrt v) := by
    unfold ratioMse
    rw [e, sqrt_fin hv]
  have h0 : Real.sqrt v = 0 ↔ v = 0 := Real.sqrt_eq_zero hv
  constructor
  · intro hm
    cases m with
    | mack =>
      refine ⟨_, ?_, fill_mack (Real.sqrt_nonneg v) hs⟩
      split_ifs with h1
      · positivity
      · exact h1
    | logLinear =>
      have hp : ¬ v = 0 := by
        rw [hz]
        rcases hm with hm | hm
        · cases hm
        · exact hm
      refine ⟨Real.sqrt v, fun h => hp (h0.1 h), ?_⟩
      unfold rho
      rw [fill_logLinear (Real.sqrt_nonneg v) hs, Num.numToNan_fin_of_ne (fun h => hp (h0.1 h))]
  · rintro rfl hp
    unfold rho
    rw [fill_logLinear (Real.sqrt_nonneg v) hs, (h0.2 (hz.2 hp)), Num.numToNan_fin_zero]

end Munich
end CL
