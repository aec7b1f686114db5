import Verif.Props.C37
import Verif.Props.C29

set_option linter.unusedSectionVars false

/-! # C57: a fitted tail curve -/

namespace CL
namespace Tail

/-- The fitted curve at the age of position `k`: `exp (a + b (k + 1))` or `exp a (k + 1) ^ b`. -/
noncomputable def curveAt (cv : Curve) (a b : ℝ) (k : Nat) : ℝ :=
  match cv with
  | .exponential => Real.exp (a + b * (k + 1))
  | .inversePower => Real.exp a * ((k : ℝ) + 1) ^ b

theorem curveAt_pos (cv : Curve) (a b : ℝ) (k : Nat) : 0 < curveAt cv a b k := by
  cases cv
  · exact Real.exp_pos _
  · exact mul_pos (Real.exp_pos _) (Real.rpow_pos_of_pos (by positivity) _)

theorem value_eq (cv : Curve) (a b : ℝ) (k : Nat) :
    cv.value (.fin b) (.fin a) k = .fin (curveAt cv a b k) := by
  cases cv
  · show exp (Num.fin b * Num.fin ((k : ℝ) + 1) + Num.fin a) = _
    rw [Num.fin_mul_fin, Num.fin_add_fin]
    show Num.fin (Real.exp _) = Num.fin (Real.exp _)
    rw [add_comm]
  · show exp (Num.fin a) * Num.fin (((k : ℝ) + 1) ^ b) = _
    show Num.fin (Real.exp a) * Num.fin (((k : ℝ) + 1) ^ b) = _
    rw [Num.fin_mul_fin]
    rfl

/-- **C57**: with fitted coefficients, the factors before the attachment age are kept, those after it
are one plus the curve, and the last one is the product of all further extrapolated factors.  False
when `extrap_periods` is less than the number of added periods. -/
theorem C57_tail_partial {t f : Tri ℝ} {p : CurveParams} {k : Nat} (hv : t.isVal = false)
    (wf : Tri.WF f) (hlen : f.ddims.length + 1 = t.ddims.length) (hpos : 1 ≤ f.ddims.length)
    (hatt : AttachedAt t p.age k) (hext : addedPeriods p.projection t.dgrain ≤ p.extrap)
    {a b : Nat → Nat → Nat → ℝ}
    (hcoef : ∀ i < f.values.d0, ∀ c < f.values.d1, ∀ o < f.values.d2,
      p.coef t.dgrain f.ddims.length (fun j => f.values.get i c o j) =
        (.fin (b i c o), .fin (a i c o))) :
    ∃ g, curve t f p = .ok g ∧
      HasTail f g k t.dgrain p.projection (fun i c o =>
        ∏ j ∈ Finset.Ico k (p.extrap + f.ddims.length), (1 + curveAt p.curve (a i c o) (b i c o) j)) ∧
      ∀ i < f.values.d0, ∀ c < f.values.d1, ∀ o < f.values.d2, ∀ d, k ≤ d →
        (d + 1 < g.values.d3 →
          g.values.get i c o d = .fin (1 + curveAt p.curve (a i c o) (b i c o) d)) ∧
        (d + 1 = g.values.d3 →
          g.values.get i c o d = .fin (∏ j ∈ Finset.Ico d (p.extrap + f.ddims.length),
            (1 + curveAt p.curve (a i c o) (b i c o) j))) := by
  have hk : k < t.ddims.length := by
    rcases hatt with ⟨-, h⟩ | ⟨_, -, -, ⟨h, -⟩, -⟩
    · omega
    · exact h
  have f3 : f.values.d3 = f.ddims.length := wf.2.2.2
  obtain ⟨last, hlast⟩ : ∃ last, f.ddims.getLast? = some last := by
    cases hf : f.ddims with
    | nil => rw [hf] at hpos; simp at hpos
    | cons x l => exact ⟨_, List.getLast?_eq_some_getLast (List.cons_ne_nil x l)⟩
  set n := f.ddims.length with hn
  set q := addedPeriods p.projection t.dgrain with hq
  have htn : t.ddims.length - 1 = n := by omega
  have hmin : min k (n + (q + 1)) + (min (n + q) (p.extrap + n) + 1 - k) = n + (q + 1) := by
    omega
  have hacc : n + (q + 1) - 1 = n + q := by omega
  have hcell : ∀ i < f.values.d0, ∀ c < f.values.d1, ∀ o < f.values.d2, ∀ d,
      tailPrediction (p.curve.value (p.coef t.dgrain n fun j => f.values.get i c o j).1
        (p.coef t.dgrain n fun j => f.values.get i c o j).2) (n + q) (p.extrap + n) d =
      .fin (if d < n + q then 1 + curveAt p.curve (a i c o) (b i c o) d
        else ∏ j ∈ Finset.Ico (n + q) (p.extrap + n), (1 + curveAt p.curve (a i c o) (b i c o) j)) := by
    intro i hi c hc o ho d
    rw [hcoef i hi c hc o ho]
    unfold tailPrediction
    rw [show min (n + q) (p.extrap + n) = n + q by omega]
    simp only [value_eq]
    by_cases hd : d < n + q
    · rw [if_pos hd, if_pos hd, Num.one_def, Num.fin_add_fin]
    · rw [if_neg hd, if_neg hd]
      rw [← Num.prod_fin]
      apply Finset.prod_congr rfl
      intro j _
      rw [Num.one_def, Num.fin_add_fin]
  refine ⟨{ f with
      ddims := f.ddims ++ (List.range (q + 1)).map fun j : Nat =>
        ((j + 1) * (t.dgrain.months : Int) + last : Int)
      values := ⟨f.values.d0, f.values.d1, f.values.d2, n + (q + 1), fun i c o d =>
        if d < k then (if d < n then f.values.get i c o d else 1)
        else tailPrediction (p.curve.value (p.coef t.dgrain n fun j => f.values.get i c o j).1
          (p.coef t.dgrain n fun j => f.values.get i c o j).2) (n + q) (p.extrap + n) d⟩ }, ?_, ?_, ?_⟩
  · unfold curve extend
    rw [if_neg (by rw [hv, f3]; simp; omega)]
    simp only [hlast, attachIdx_eq hatt, avePeriod_eq, bind, Except.bind, f3, htn, ← hq, hacc, hmin]
  · refine ⟨⟨wf.1, wf.2.1, wf.2.2.1, ?_⟩, ⟨rfl, rfl⟩, rfl, rfl, ⟨rfl, rfl⟩, ⟨rfl, rfl, rfl, rfl, rfl⟩,
      ⟨last, hlast, ?_⟩, ?_, ?_⟩
    · simp [hn]
    · show f.ddims ++ _ = f.ddims ++ _
      congr 1
      apply List.map_congr_left
      intro j _
      ring
    · intro i c o d hd
      show (if d < k then (if d < n then f.values.get i c o d else 1) else _) = _
      rw [if_pos hd, if_pos (by omega)]
    · intro i hi c hc o ho
      refine ⟨fun d => if d < n + q then 1 + curveAt p.curve (a i c o) (b i c o) d
        else ∏ j ∈ Finset.Ico (n + q) (p.extrap + n),
          (1 + curveAt p.curve (a i c o) (b i c o) j), ?_, ?_⟩
      · intro d hd hd'
        refine ⟨?_, ?_⟩
        · have hp : ∀ j, 1 + curveAt p.curve (a i c o) (b i c o) j ≠ 0 := fun j => by
            have := curveAt_pos p.curve (a i c o) (b i c o) j
            linarith
          dsimp only
          split_ifs
          · exact hp _
          · exact Finset.prod_ne_zero_iff.2 fun j _ => hp j
        · show (if d < k then _ else _) = _
          rw [if_neg (by omega)]
          exact hcell i hi c hc o ho d
      · show ∏ d ∈ Finset.Ico k (n + (q + 1)), _ = _
        rw [show n + (q + 1) = n + q + 1 by omega, Finset.prod_Ico_succ_top (by omega),
          if_neg (lt_irrefl _), ← Finset.prod_Ico_consecutive _ (show k ≤ n + q by omega)
            (show n + q ≤ p.extrap + n by omega)]
        congr 1
        apply Finset.prod_congr rfl
        intro j hj
        rw [if_pos (Finset.mem_Ico.1 hj).2]
  · intro i hi c hc o ho d hd
    constructor
    · intro hlt
      replace hlt : d + 1 < n + (q + 1) := hlt
      show (if d < k then _ else _) = _
      rw [if_neg (by omega), hcell i hi c hc o ho d, if_pos (by omega)]
    · intro he
      replace he : d + 1 = n + (q + 1) := he
      show (if d < k then _ else _) = _
      rw [if_neg (by omega), hcell i hi c hc o ho d, if_neg (by omega),
        show d = n + q by omega]

/-- The tail does not depend on the projection period: the factors from any age up to the latest
multiply to the same number. -/
theorem C57_projection_partial {t f g g' : Tri ℝ} {p : CurveParams} {m : Nat} {k : Nat}
    (hv : t.isVal = false)
    (wf : Tri.WF f) (hlen : f.ddims.length + 1 = t.ddims.length) (hpos : 1 ≤ f.ddims.length)
    (hatt : AttachedAt t p.age k) (hext : addedPeriods p.projection t.dgrain ≤ p.extrap)
    (hext' : addedPeriods m t.dgrain ≤ p.extrap) {a b : Nat → Nat → Nat → ℝ}
    (hcoef : ∀ i < f.values.d0, ∀ c < f.values.d1, ∀ o < f.values.d2,
      p.coef t.dgrain f.ddims.length (fun j => f.values.get i c o j) =
        (.fin (b i c o), .fin (a i c o)))
    (hg : curve t f p = .ok g) (hg' : curve t f { p with projection := m } = .ok g')
    {i c o d : Nat} (hi : i < f.values.d0) (hc : c < f.values.d1) (ho : o < f.values.d2)
    (hd : d ≤ k) :
    ∏ j ∈ Finset.Ico d g.values.d3, (g.values.get i c o j).amt =
      ∏ j ∈ Finset.Ico d g'.values.d3, (g'.values.get i c o j).amt := by
  have key : ∀ {p : CurveParams} {g : Tri ℝ}, AttachedAt t p.age k →
      addedPeriods p.projection t.dgrain ≤ p.extrap →
      (∀ i < f.values.d0, ∀ c < f.values.d1, ∀ o < f.values.d2,
      p.coef t.dgrain f.ddims.length (fun j => f.values.get i c o j) =
        (.fin (b i c o), .fin (a i c o))) → curve t f p = .ok g →
      ∏ j ∈ Finset.Ico d g.values.d3, (g.values.get i c o j).amt =
        (∏ j ∈ Finset.Ico d k, (f.values.get i c o j).amt) *
        ∏ j ∈ Finset.Ico k (p.extrap + f.ddims.length),
          (1 + curveAt p.curve (a i c o) (b i c o) j) := by
    intro p g h1 h2 h3 h4
    obtain ⟨g', e1, e2, -⟩ := C57_tail_partial hv wf hlen hpos h1 h2 h3
    rw [h4] at e1
    injection e1 with e1
    subst e1
    obtain ⟨x, x1, x2⟩ := e2.tail i hi c hc o ho
    have hk : k < t.ddims.length := by
      rcases h1 with ⟨-, h⟩ | ⟨_, -, -, ⟨h, -⟩, -⟩
      · omega
      · exact h
    have g3 : k ≤ g.values.d3 := by
      rw [e2.wf.2.2.2]
      obtain ⟨_, -, e⟩ := e2.ages
      rw [e, List.length_append]
      simp
      omega
    rw [← Finset.prod_Ico_consecutive _ hd g3, ← x2]
    congr 1
    · apply Finset.prod_congr rfl
      intro j hj
      rw [e2.before i c o j (Finset.mem_Ico.1 hj).2]
    · apply Finset.prod_congr rfl
      intro j hj
      have hj := Finset.mem_Ico.1 hj
      rw [(x1 j hj.1 hj.2).2, Num.amt_fin]
  rw [key hatt hext hcoef hg, key (p := { p with projection := m }) hatt hext' hcoef hg']

/-- A falling curve gives falling factors. -/
theorem C57_decreasing (cv : Curve) (a : ℝ) {b : ℝ} (hb : b < 0) {j k : Nat} (hjk : j < k) :
    curveAt cv a b k < curveAt cv a b j := by
  have h : (j : ℝ) < k := by exact_mod_cast hjk
  cases cv
  · apply Real.exp_lt_exp.2
    nlinarith
  · apply mul_lt_mul_of_pos_left _ (Real.exp_pos a)
    exact Real.rpow_lt_rpow_of_neg (by positivity) (by linarith) hb

/-! ## The regression -/

/-- Position `k` lies in the period of the fit, in months: from `start` on and before `stop`. -/
def InPeriod (g : Grain) (start stop : Option Int) (k : Nat) : Prop :=
  (∀ a ∈ start, a ≤ ((k + 1) * g.months : Nat)) ∧ ∀ a ∈ stop, (((k + 1) * g.months : Nat) : Int) < a

/-- Bounds of the fit are ages of the triangle. -/
def WholePeriods (g : Grain) (start stop : Option Int) : Prop :=
  (∀ a ∈ start, ∃ m : Nat, 1 ≤ m ∧ a = (m * g.months : Nat)) ∧
    ∀ a ∈ stop, ∃ m : Nat, 1 ≤ m ∧ a = (m * g.months : Nat)

theorem fitSlice_iff {g : Grain} {start stop : Option Int} (h : WholePeriods g start stop) {n k : Nat}
    (hk : k < n) : k ∈ fitSlice g start stop n ↔ InPeriod g start stop k := by
  have hg : 1 ≤ g.months := by cases g <;> decide
  have idx : ∀ m : Nat, 1 ≤ m →
      (((m * g.months : Nat) : Int) - (g.months : Int)).tdiv g.months = (m : Int) - 1 := by
    intro m hm
    have : ((m * g.months : Nat) : Int) - (g.months : Int) = ((m : Int) - 1) * g.months := by
      push_cast; ring
    rw [this]
    exact Int.mul_tdiv_cancel _ (by omega)
  have le : ∀ m : Nat, (((m * g.months : Nat) : Int) ≤ ((k + 1) * g.months : Nat)) ↔ m ≤ k + 1 := by
    intro m
    constructor
    · intro h
      exact Nat.le_of_mul_le_mul_right (by exact_mod_cast h) hg
    · intro h
      exact_mod_cast Nat.mul_le_mul_right _ h
  have lt : ∀ m : Nat, ((((k + 1) * g.months : Nat) : Int) < (m * g.months : Nat)) ↔ k + 1 < m := by
    intro m
    rw [← not_le, ← not_le, le]
  unfold fitSlice InPeriod
  simp only [List.mem_filter, List.mem_range, hk, true_and, decide_eq_true_eq]
  apply and_congr
  · cases start with
    | none => simp
    | some a =>
      obtain ⟨m, hm, rfl⟩ := h.1 a rfl
      simp only [idx m hm, Option.mem_def, Option.some.injEq, forall_eq']
      rw [if_neg (by omega), le]
      omega
  · cases stop with
    | none => simp [hk]
    | some a =>
      obtain ⟨m, hm, rfl⟩ := h.2 a rfl
      simp only [idx m hm, Option.mem_def, Option.some.injEq, forall_eq']
      rw [if_neg (by omega), lt]
      omega

/-- Positions used in the fit: in the period, above the lower threshold and not above the upper one. -/
noncomputable def used (p : CurveParams) (g : Grain) (n : Nat) (y : Nat → ℝ) : Finset Nat := by
  classical
  exact (Finset.range n).filter fun k => InPeriod g p.start p.stop k ∧ p.lower < y k ∧
    ∀ u ∈ p.upper, y k ≤ u

theorem mem_used {p : CurveParams} {g : Grain} {n : Nat} {y : Nat → ℝ} {k : Nat} :
    k ∈ used p g n y ↔ k < n ∧ InPeriod g p.start p.stop k ∧ p.lower < y k ∧
      ∀ u ∈ p.upper, y k ≤ u := by
  simp only [used, Finset.mem_filter, Finset.mem_range]

/-- The age on the scale of the regression. -/
noncomputable def xAt : Curve → Nat → ℝ
  | .exponential, k => k + 1
  | .inversePower, k => Real.log (k + 1)

theorem xAt_eq (cv : Curve) (k : Nat) : cv.x k = .fin (xAt cv k) := by cases cv <;> rfl

theorem xAt_ne (cv : Curve) {j k : Nat} (h : j ≠ k) : xAt cv j ≠ xAt cv k := by
  have h' : (j : ℝ) ≠ k := by exact_mod_cast h
  cases cv
  · intro e
    have : (j : ℝ) + 1 = k + 1 := e
    exact h' (by linarith)
  · intro e
    have := Real.log_injOn_pos (Set.mem_Ioi.2 (by positivity : (0 : ℝ) < j + 1))
      (Set.mem_Ioi.2 (by positivity : (0 : ℝ) < k + 1)) e
    exact h' (by linarith)

theorem log_curveAt (cv : Curve) (a b : ℝ) (k : Nat) :
    Real.log (curveAt cv a b k) = a + b * xAt cv k := by
  cases cv
  · exact Real.log_exp _
  · show Real.log (Real.exp a * ((k : ℝ) + 1) ^ b) = a + b * Real.log (k + 1)
    rw [Real.log_mul (Real.exp_pos a).ne' (Real.rpow_pos_of_pos (by positivity) _).ne', Real.log_exp,
      Real.log_rpow (by positivity)]

private theorem out_iff {p : CurveParams} (y : ℝ) :
    p.out (.fin y) = false ↔ p.lower < y ∧ ∀ u ∈ p.upper, y ≤ u := by
  unfold CurveParams.out
  have h : (Num.fin p.lower).ltb (.fin y) = decide (p.lower < y) := rfl
  rw [h]
  cases hu : p.upper with
  | none => simp [Num.isNan]
  | some u =>
    have h' : (Num.fin u).ltb (.fin y) = decide (u < y) := rfl
    simp [Num.isNan, h']

/-- The weights and the data of the regression. -/
private theorem setup {p : CurveParams} {g : Grain} {n : Nat} {f : Nat → Num ℝ} {y : Nat → ℝ}
    (hp : WholePeriods g p.start p.stop) (hl : 1 ≤ p.lower) (hf : ∀ k < n, f k = .fin (y k)) :
    let w : Nat → Num ℝ := fun k =>
      if (fitSlice g p.start p.stop n).contains k && !p.out (f k) then 1 else 0
    let ly : Nat → Num ℝ := fun k => log ((if p.out (f k) then .fin 1.01 else f k) - 1)
    Reg.ones n w = used p g n y ∧
      (∀ j < n, w j = 0 ∨ (w j = 1 ∧ (∃ a, p.curve.x j = .fin a) ∧ ∃ b, ly j = .fin b)) ∧
      (∀ j ∈ used p g n y, ly j = .fin (Real.log (y j - 1))) := by
  intro w ly
  have hw : ∀ k < n, w k = 1 ↔ k ∈ used p g n y := by
    intro k hk
    simp only [w, used, Finset.mem_filter, Finset.mem_range, hk, true_and]
    rw [hf k hk, ← fitSlice_iff hp hk, ← out_iff]
    by_cases h1 : k ∈ fitSlice g p.start p.stop n <;> by_cases h2 : p.out (.fin (y k)) = false <;>
      simp [h1, h2, Num.zero_def, Num.one_def]
  have hy : ∀ j ∈ used p g n y, ly j = .fin (Real.log (y j - 1)) := by
    intro j hj
    have hj' := hj
    simp only [used, Finset.mem_filter, Finset.mem_range] at hj
    obtain ⟨h1, -, h2, h3⟩ := hj
    have ho : p.out (.fin (y j)) = false := out_iff _ |>.2 ⟨h2, h3⟩
    simp only [ly]
    rw [hf j h1, ho]
    simp only [Bool.false_eq_true, if_false]
    rw [Num.one_def, Num.fin_sub_fin]
    show (if y j - 1 < 0 then Num.nan else if y j - 1 = 0 then Num.ninf
      else Num.fin (Real.log (y j - 1))) = _
    rw [if_neg (by linarith), if_neg (by intro e; linarith)]
  refine ⟨?_, ?_, hy⟩
  · ext k
    simp only [Reg.ones, Finset.mem_filter, Finset.mem_range]
    constructor
    · rintro ⟨h1, h2⟩; exact (hw k h1).1 h2
    · intro h
      have : k < n := by
        simp only [used, Finset.mem_filter, Finset.mem_range] at h
        exact h.1
      exact ⟨this, (hw k this).2 h⟩
  · intro j hj
    by_cases h : j ∈ used p g n y
    · exact Or.inr ⟨(hw j hj).2 h, ⟨_, xAt_eq _ _⟩, ⟨_, hy j h⟩⟩
    · left
      have : ¬ w j = 1 := fun e => h ((hw j hj).1 e)
      simp only [w] at this ⊢
      split_ifs with e
      · rw [if_pos e] at this; exact absurd rfl this
      · rfl

/-- **C57**, the fit: with two or more usable factors whose logarithms have a nonzero covariance with
the age, the coefficients minimise the squared error of `log (factor - 1)`.  False without
covariance. -/
theorem C57_fit_partial {p : CurveParams} {g : Grain} {n : Nat} {f : Nat → Num ℝ} {y : Nat → ℝ}
    (hp : WholePeriods g p.start p.stop) (hl : 1 ≤ p.lower) (hf : ∀ k < n, f k = .fin (y k))
    (h2 : 2 ≤ (used p g n y).card)
    (hcov : (∑ k ∈ used p g n y, xAt p.curve k * Real.log (y k - 1)) * (used p g n y).card ≠
      (∑ k ∈ used p g n y, xAt p.curve k) * ∑ k ∈ used p g n y, Real.log (y k - 1)) :
    ∃ a b, p.coef g n f = (.fin b, .fin a) ∧ ∀ a' b',
      ∑ k ∈ used p g n y, (Real.log (y k - 1) - Real.log (curveAt p.curve a b k)) ^ 2 ≤
        ∑ k ∈ used p g n y, (Real.log (y k - 1) - Real.log (curveAt p.curve a' b' k)) ^ 2 := by
  obtain ⟨e1, e2, e3⟩ := setup hp hl hf
  set w : Nat → Num ℝ := fun k =>
      if (fitSlice g p.start p.stop n).contains k && !p.out (f k) then 1 else 0 with hw
  set ly : Nat → Num ℝ := fun k => log ((if p.out (f k) then .fin 1.01 else f k) - 1) with hly
  obtain ⟨u, hu, v, hv, huv⟩ := Finset.one_lt_card.1 h2
  have hx : ∀ j, (p.curve.x j).amt = xAt p.curve j := fun j => by rw [xAt_eq]; rfl
  have s1 : ∑ j ∈ used p g n y, (p.curve.x j).amt * (ly j).amt =
      ∑ k ∈ used p g n y, xAt p.curve k * Real.log (y k - 1) :=
    Finset.sum_congr rfl fun j hj => by rw [hx, e3 j hj]; rfl
  have s2 : ∑ j ∈ used p g n y, (p.curve.x j).amt = ∑ k ∈ used p g n y, xAt p.curve k :=
    Finset.sum_congr rfl fun j hj => hx j
  have s3 : ∑ j ∈ used p g n y, (ly j).amt = ∑ k ∈ used p g n y, Real.log (y k - 1) :=
    Finset.sum_congr rfl fun j hj => by rw [e3 j hj]; rfl
  obtain ⟨a, b, c1, c2, -⟩ := Reg.line_fits e2 (e1 ▸ hu) (e1 ▸ hv)
    (by rw [hx, hx]; exact xAt_ne _ huv) (by rw [e1, s1, s2, s3]; exact hcov)
  refine ⟨a, b, ?_, ?_⟩
  · show (Reg.slope n w p.curve.x ly, Reg.intercept n w p.curve.x ly) = _
    rw [c1, c2]
  · intro a' b'
    have := Reg.C29_line_partial e2 c1 c2 a' b'
    rw [e1] at this
    unfold Reg.lineError at this
    have s4 : ∀ a b : ℝ, ∑ j ∈ used p g n y, ((ly j).amt - (a + b * (p.curve.x j).amt)) ^ 2 =
        ∑ k ∈ used p g n y, (Real.log (y k - 1) - Real.log (curveAt p.curve a b k)) ^ 2 := by
      intro a b
      apply Finset.sum_congr rfl
      intro j hj
      rw [e3 j hj, hx, log_curveAt]
      rfl
    rw [s4, s4] at this
    exact this

/-- Factors that lie on a curve (not a constant one) give that curve back, whatever the factors not
used in the fit. -/
theorem C57_exact_partial {p : CurveParams} {g : Grain} {n : Nat} {f : Nat → Num ℝ} {y : Nat → ℝ}
    (hp : WholePeriods g p.start p.stop) (hl : 1 ≤ p.lower) (hf : ∀ k < n, f k = .fin (y k))
    (h2 : 2 ≤ (used p g n y).card) {a b : ℝ} (hb : b ≠ 0)
    (hy : ∀ k ∈ used p g n y, y k = 1 + curveAt p.curve a b k) :
    p.coef g n f = (.fin b, .fin a) := by
  obtain ⟨e1, e2, e3⟩ := setup hp hl hf
  obtain ⟨u, hu, v, hv, huv⟩ := Finset.one_lt_card.1 h2
  have hx : ∀ j, (p.curve.x j).amt = xAt p.curve j := fun j => by rw [xAt_eq]; rfl
  obtain ⟨c1, c2⟩ := Reg.line_exact (a := a) (b := b) e2 (e1 ▸ hu) (e1 ▸ hv)
    (by rw [hx, hx]; exact xAt_ne _ huv) hb (by
      intro j hj
      rw [e1] at hj
      have e4 := e3 j hj
      simp only at e4
      rw [e4, hx, Num.amt_fin, hy j hj, add_sub_cancel_left, log_curveAt])
  show (Reg.slope n _ p.curve.x _, Reg.intercept n _ p.curve.x _) = _
  rw [c1, c2]

/-- Development, tail curve and chain ladder in sequence. -/
theorem C57_chainladder_partial {t f l : Tri ℝ} (ht : Tri.CumTri t) (hf : LinkPattern t f)
    (hl : t.latestDiagonal = .ok (.tri l)) {p : CurveParams} (hage : p.age = none)
    (hext : addedPeriods p.projection t.dgrain ≤ p.extrap) {a b : Nat → Nat → Nat → ℝ}
    (hcoef : ∀ i < f.values.d0, ∀ c < f.values.d1, ∀ o < f.values.d2,
      p.coef t.dgrain f.ddims.length (fun j => f.values.get i c o j) =
        (.fin (b i c o), .fin (a i c o))) :
    ∃ g u rows, curve t f p = .ok g ∧ t.chainladder g none = .ok u ∧
      Tri.UltimateOf t u rows fun i c o d => (t.values.get i c o d).amt *
        ((∏ j ∈ Finset.Ico d (t.ddims.length - 1), f.ageFactor i c j) *
          ∏ j ∈ Finset.Ico (t.ddims.length - 1) (p.extrap + f.ddims.length),
            (1 + curveAt p.curve
              (a (if f.kdims.length = 1 then 0 else i) (if f.vdims.length = 1 then 0 else c) 0)
              (b (if f.kdims.length = 1 then 0 else i) (if f.vdims.length = 1 then 0 else c) 0) j)) := by
  obtain ⟨hlen, hpos⟩ := hf.length
  have h2 := ht.ages_two
  obtain ⟨g, e1, e2, -⟩ := C57_tail_partial ht.ages hf.wf hlen hpos (k := t.ddims.length - 1)
    (Or.inl ⟨Or.inl hage, by omega⟩) hext hcoef
  obtain ⟨hpat, hult⟩ := e2.pattern hf
  obtain ⟨u, rows, e3, -, e4⟩ := Tri.C33_ultimate_partial ht hpat hl
  refine ⟨g, u, rows, e1, e3, ⟨e4.rows_inc, e4.mem_rows, e4.wf, e4.index, e4.columns, e4.origins,
    e4.grains, e4.development, e4.date, e4.cumulative, ?_⟩⟩
  intro i c o d hi hc ho hd hv
  rw [e4.cells i c o d hi hc ho hd hv, hult i (by rw [← ht.wf.1]; exact hi) c
    (by rw [← ht.wf.2.1]; exact hc) d hd]

namespace C57
/-- Factors `y 0` and `y 1` at ages 12 and 24. -/
noncomputable def pat (y : Nat → ℝ) : Tri ℝ :=
  { C37.pat with values := ⟨1, 1, 1, 2, fun _ _ _ d => .fin (y d)⟩ }

theorem attached : AttachedAt C37.tri ({} : CurveParams).age 2 := Or.inl ⟨Or.inl rfl, rfl⟩

theorem whole (g : Grain) : WholePeriods g ({} : CurveParams).start ({} : CurveParams).stop := by
  constructor <;> intro _ h <;> cases h

theorem used_all {y : Nat → ℝ} (h : ∀ k < 2, 1.00001 < y k) : used {} .Y 2 y = {0, 1} := by
  ext k
  rw [mem_used, Finset.mem_insert, Finset.mem_singleton]
  constructor
  · rintro ⟨h1, -⟩; omega
  · intro hk
    have hk : k < 2 := by omega
    refine ⟨hk, ⟨?_, ?_⟩, h k hk, ?_⟩ <;> intro _ h <;> cases h
end C57

/-- Factors 3/2 and 5/4 continue with 9/8. -/
example : ∃ g, curve C37.tri (C57.pat fun k => 1 + (1 / 2) ^ (k + 1)) {} = .ok g ∧
    g.ddims = [12, 24, 36, 48] ∧ g.values.get 0 0 0 0 = .fin (3 / 2) ∧
    g.values.get 0 0 0 2 = .fin (9 / 8) ∧
    g.values.get 0 0 0 3 = .fin (∏ j ∈ Finset.Ico 3 102, (1 + (1 / 2 : ℝ) ^ (j + 1))) := by
  have hc : ∀ k : Nat, curveAt .exponential 0 (Real.log (1 / 2)) k = (1 / 2 : ℝ) ^ (k + 1) := by
    intro k
    show Real.exp (0 + Real.log (1 / 2) * (k + 1)) = _
    rw [zero_add, mul_comm, show ((k : ℝ) + 1) = ((k + 1 : Nat) : ℝ) by push_cast; ring,
      Real.exp_nat_mul, Real.exp_log (by norm_num)]
  have hlow : ∀ k < 2, (1.00001 : ℝ) < 1 + (1 / 2) ^ (k + 1) := by
    intro k hk
    interval_cases k <;> norm_num
  have hcoef := C57_exact_partial (p := {}) (g := .Y) (n := 2)
    (f := fun k => Num.fin (1 + (1 / 2 : ℝ) ^ (k + 1))) (y := fun k => 1 + (1 / 2) ^ (k + 1))
    (C57.whole _) (by show (1 : ℝ) ≤ 1.00001; norm_num) (fun _ _ => rfl)
    (by rw [C57.used_all hlow]; decide) (a := 0) (b := Real.log (1 / 2))
    (Real.log_ne_zero_of_pos_of_ne_one (by norm_num) (by norm_num))
    (fun k _ => by
      show (1 : ℝ) + (1 / 2) ^ (k + 1) = 1 + curveAt .exponential 0 (Real.log (1 / 2)) k
      rw [hc])
  obtain ⟨g, h1, h2, h3⟩ := C57_tail_partial (t := C37.tri)
    (f := C57.pat fun k => 1 + (1 / 2) ^ (k + 1)) (p := {}) rfl ⟨rfl, rfl, rfl, rfl⟩ rfl (by decide)
    C57.attached (by decide) (a := fun _ _ _ => 0) (b := fun _ _ _ => Real.log (1 / 2))
    (fun i _ c _ o _ => hcoef)
  have hd : g.ddims = [12, 24, 36, 48] := by
    obtain ⟨last, e1, e2⟩ := h2.ages
    have e3 : (24 : Int) = last := Option.some.inj e1
    subst e3
    exact e2
  have g3 : g.values.d3 = 4 := by rw [h2.wf.2.2.2, hd]; rfl
  have h4 := h3 0 (by decide) 0 (by decide) 0 (by decide)
  refine ⟨g, h1, hd, ?_, ?_, ?_⟩
  · rw [h2.before 0 0 0 0 (by decide)]
    show Num.fin ((1 : ℝ) + (1 / 2) ^ (0 + 1)) = _
    norm_num
  · rw [(h4 2 le_rfl).1 (by rw [g3]; decide)]
    show Num.fin (1 + curveAt .exponential 0 (Real.log (1 / 2)) 2) = _
    rw [hc]
    norm_num
  · rw [(h4 3 (by decide)).2 (by rw [g3])]
    show Num.fin (∏ j ∈ Finset.Ico 3 102, (1 + curveAt .exponential 0 (Real.log (1 / 2)) j)) = _
    simp only [hc]

/-- **C57** is false when fewer periods are extrapolated than added: the factors have fewer columns
than there are ages. -/
theorem C57_short_false (y : Nat → ℝ) : ∃ g, curve C37.tri (C57.pat y) { extrap := 0 } = .ok g ∧
    g.ddims.length = 4 ∧ g.values.d3 = 3 := ⟨_, rfl, rfl, rfl⟩

/-- **C57** is false for equal factors: the curve is constant, but no coefficient is fitted and the
factors of the tail are missing. -/
theorem C57_flat_false : ∃ g, curve C37.tri (C57.pat fun _ => 3 / 2) {} = .ok g ∧
    (∀ k, 1 + curveAt .exponential (Real.log (1 / 2)) 0 k = 3 / 2) ∧
    g.values.get 0 0 0 2 = .nan := by
  refine ⟨_, rfl, ?_, ?_⟩
  · intro k
    show 1 + Real.exp (Real.log (1 / 2) + 0 * (k + 1)) = 3 / 2
    rw [zero_mul, add_zero, Real.exp_log (by norm_num)]
    norm_num
  · have hlow : ∀ k < 2, (1.00001 : ℝ) < 3 / 2 := fun _ _ => by norm_num
    obtain ⟨e1, e2, e3⟩ := setup (p := {}) (g := .Y) (n := 2) (f := fun _ => Num.fin (3 / 2))
      (y := fun _ => 3 / 2) (C57.whole _) (by show (1 : ℝ) ≤ 1.00001; norm_num) (fun _ _ => rfl)
    have hu : used {} .Y 2 (fun _ => (3 / 2 : ℝ)) = {0, 1} := C57.used_all hlow
    obtain ⟨-, hrest⟩ := Reg.line_eq e2
    obtain ⟨s1, -⟩ := hrest (by rw [e1, hu]; simp)
    rw [hu] at e3
    have ly0 := e3 0 (by simp)
    have ly1 := e3 1 (by simp)
    have hs : (CurveParams.coef {} .Y 2 fun _ => Num.fin (3 / 2 : ℝ)).1 = .nan := by
      refine Eq.trans s1 ?_
      rw [e1, hu]
      simp only at ly0 ly1
      simp only [Finset.sum_pair (zero_ne_one : (0 : Nat) ≠ 1), ly0, Num.amt_fin,
        Finset.card_pair (zero_ne_one : (0 : Nat) ≠ 1)]
      have : ∀ (x z L : ℝ), x * L + z * L - (x + z) * ((L + L) / ((2 : Nat) : ℝ)) = 0 := by
        intro x z L
        push_cast
        ring
      rw [this, Num.numToNan_fin_zero]
      cases (Num.numToNan (Num.fin _) : Num ℝ) <;> rfl
    show tailPrediction (Curve.value .exponential
      (CurveParams.coef {} .Y 2 fun _ => Num.fin (3 / 2 : ℝ)).1 _) 3 102 2 = _
    rw [hs]
    rfl

/-- A period of the fit that starts at 0 is not the whole period: the start is counted from the end. -/
theorem C57_start_false : fitSlice .Y (some 0) none 5 = [4] ∧ ∀ k, InPeriod .Y (some 0) none k :=
  ⟨by decide, fun k => ⟨fun a h => by cases h; positivity, fun a h => by cases h⟩⟩

end Tail
end CL
