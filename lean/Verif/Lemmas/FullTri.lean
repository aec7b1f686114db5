import Verif.Lemmas.Blocks
import Verif.Lemmas.BcastUp
import Verif.Spec.FullTri
import Verif.Model.Full

set_option linter.unusedSectionVars false

/-! # The full triangle -/

namespace CL

theorem Num.numToNan_zero' {K : Type} [Field K] [LinearOrder K] [IsStrictOrderedRing K] :
    (Num.fin (0 : K)).numToNan = .nan := by simp [Num.numToNan]

namespace Tri
variable {K : Type} [Field K] [LinearOrder K] [IsStrictOrderedRing K]

theorem grid_sorted (n : Nat) (g : Nat → Int) (h : ∀ j k, j < k → g j < g k) :
    ((List.range n).map g).Pairwise (· < ·) := by
  rw [List.pairwise_map]
  exact List.pairwise_lt_range.imp fun h' => h _ _ h'

namespace Grid
variable {t : Tri K} {a : Int} {n D q : Nat}

theorem odims_sorted (h : Grid t a n D q) : t.odims.Pairwise (· < ·) := by
  rw [h.odims]
  refine grid_sorted _ _ fun j k hjk => ?_
  have h1 : j * q * t.dgrain.months < k * q * t.dgrain.months := by
    have := h.period
    have := months_pos t.dgrain
    have h3 : 0 < q * t.dgrain.months := Nat.mul_pos (by omega) (by omega)
    rw [Nat.mul_assoc, Nat.mul_assoc]
    exact Nat.mul_lt_mul_of_pos_right hjk h3
  omega

end Grid

theorem ages_sorted (F : Nat) (g : Grain) :
    ((List.range F).map fun d : Nat => (((d + 1) * g.months : Nat) : Int)).Pairwise (· < ·) := by
  refine grid_sorted _ _ fun j k hjk => ?_
  have := months_pos g
  have : (j + 1) * g.months < (k + 1) * g.months := Nat.mul_lt_mul_of_pos_right (by omega) (by omega)
  omega

namespace GridPattern
variable {t f : Tri K} {a : Int} {n D q F : Nat}

theorem len (hf : GridPattern t f a n D q F) : f.ddims.length = F := by rw [hf.grid]; simp

theorem cell (hf : GridPattern t f a n D q F) {i c j n0 n1 : Nat} (hi : i < n0) (hc : c < n1)
    (h0 : f.kdims.length = n0 ∨ f.kdims.length = 1) (h1 : f.vdims.length = n1 ∨ f.vdims.length = 1)
    (hj : j < F) : f.values.get (Arr.bix f.values.d0 n0 i) (Arr.bix f.values.d1 n1 c) 0 j =
      .fin (f.ageFactor i c j) ∧ f.ageFactor i c j ≠ 0 := by
  obtain ⟨w0, w1, w2, w3⟩ := hf.wf
  have e : ∀ {m n i : Nat}, i < n → m = n ∨ m = 1 →
      Arr.bix m n i = (if m = 1 then 0 else i) ∧ (if m = 1 then 0 else i) < m := by
    intro m n i hi h
    unfold Arr.bix
    split_ifs <;> omega
  obtain ⟨b0, l0⟩ := e hi (by rw [← w0] at h0; exact h0)
  obtain ⟨b1, l1⟩ := e hc (by rw [← w1] at h1; exact h1)
  obtain ⟨x, hx, ex⟩ := hf.factors _ l0 _ l1 j (by rw [w3, hf.len]; exact hj)
  have ea : f.ageFactor i c j = x := by
    unfold ageFactor
    rw [← w0, ← w1, ex]; rfl
  rw [b0, b1, ex, ea]
  exact ⟨rfl, hx⟩

end GridPattern

/-- A triangle with the origins of `t` and the ages of a pattern, dated at the sentinel. -/
structure Wide (t e : Tri K) (F : Nat) : Prop where
  wf : WF e
  keyLabels : e.keyLabels = t.keyLabels
  index : e.kdims = t.kdims ∨ (e.kdims.length = 1 ∧ t.kdims.length = 1)
  columns : e.vdims = t.vdims ∨ (e.vdims.length = 1 ∧ t.vdims.length = 1)
  odims : e.odims = t.odims
  ograin : e.ograin = t.ograin
  dgrain : e.dgrain = t.dgrain
  isVal : e.isVal = false
  noPattern : e.isPattern = false
  vd : e.vd = ultVal

theorem Wide.d0 {t e : Tri K} {F : Nat} (w : Wide t e F) : e.kdims.length = t.kdims.length := by
  rcases w.index with h | ⟨h, h'⟩
  · rw [h]
  · omega

theorem Wide.d1 {t e : Tri K} {F : Nat} (w : Wide t e F) : e.vdims.length = t.vdims.length := by
  rcases w.columns with h | ⟨h, h'⟩
  · rw [h]
  · omega

theorem longer_fit {α : Type} {a b : List α} (h : a = b ∨ a.length = 1) (hb : 1 ≤ b.length) :
    longer a b = b ∨ ((longer a b).length = 1 ∧ b.length = 1) := by
  unfold longer
  rcases h with h | h
  · rw [h, ite_self]; exact Or.inl rfl
  · by_cases h1 : b.length > 1
    · rw [if_pos ⟨h, h1⟩]; exact Or.inl rfl
    · rw [if_neg (fun hh => h1 hh.2)]; exact Or.inr ⟨h, by omega⟩

theorem fit_of {α : Type} {a b : List α} (h : a = b ∨ a.length = 1) (hb : 1 ≤ b.length) : Fit a b := by
  rcases h with h | h
  · exact Or.inl h
  · exact Or.inr (Or.inr ⟨h, hb⟩)

theorem longer_len {α : Type} {a b : List α} (h : a = b ∨ a.length = 1) (hb : 1 ≤ b.length) :
    (longer a b).length = b.length := by
  unfold longer
  rcases h with h | h
  · rw [h, ite_self]
  · split_ifs <;> omega

variable {t f u : Tri K} {a : Int} {n D q F : Nat} {U : Nat → Nat → Nat → K}

/-- The factors for all origins. -/
theorem spread_spec (h : Standard t a n D q) (hf : GridPattern t f a n D q F) (hu : UltAmounts t u U) :
    ∃ r e, u.div u = .ok r ∧ f.mul r = .ok e ∧ Wide t e F ∧ e.ddims = f.ddims ∧
      ∀ i < t.kdims.length, ∀ c < t.vdims.length, ∀ o < n, ∀ d < F, e.values.get i c o d =
        if U i c o = 0 then .nan else .fin (f.ageFactor i c d) := by
  have n2 := h.two_origins
  have hlO := h.lenO
  have k1 := h.index_pos
  have v1 := h.columns_pos
  have hF : 2 ≤ F := le_trans h.two_ages hf.covers
  have cu : Compat u u := ⟨hu.wf, hu.wf, rfl, Or.inl rfl, rfl, Or.inl rfl, Or.inl rfl, Or.inl rfl,
    Or.inl rfl, fun _ _ => rfl⟩
  have hr := div_compat cu
  have lself : ∀ {α : Type} (l : List α), longer l l = l := fun l => by unfold longer; rw [ite_self]
  set r := combined (· / ·) u u with hrdef
  have rk : r.kdims = t.kdims := (lself _).trans hu.index
  have rv : r.vdims = t.vdims := (lself _).trans hu.columns
  have ro : r.odims = t.odims := (lself _).trans hu.origins
  have rd : r.ddims = u.ddims := lself _
  have cf : Compat f r := by
    refine ⟨hf.wf, wf_combined _ _ _, ?_, Or.inr ?_, ?_, ?_, ?_, ?_, ?_, ?_⟩
    · exact hf.ograin.symm.trans hu.ograin.symm
    · rw [(wf_combined (· / ·) u u).2.2.2]
      show min _ r.ddims.length ≤ 1
      rw [rd, hu.one]; omega
    · exact hf.keyLabels.symm.trans hu.keyLabels.symm
    · rw [rk]; exact fit_of hf.index k1
    · rw [rv]; exact fit_of hf.columns v1
    · rw [ro]; exact Or.inr (Or.inr ⟨hf.origin, by omega⟩)
    · rw [rd]; exact Or.inr (Or.inl ⟨hu.one, by rw [hf.len]; omega⟩)
    · intro _ h2
      rw [rd, hu.one] at h2; omega
  have he := mul_compat cf
  have ek : (longer f.kdims r.kdims).length = t.kdims.length := by
    rw [rk]; exact longer_len hf.index k1
  have ev : (longer f.vdims r.vdims).length = t.vdims.length := by
    rw [rv]; exact longer_len hf.columns v1
  have ek' : longer f.kdims r.kdims = t.kdims ∨ ((longer f.kdims r.kdims).length = 1 ∧
      t.kdims.length = 1) := by
    rw [rk]; exact longer_fit hf.index k1
  have ev' : longer f.vdims r.vdims = t.vdims ∨ ((longer f.vdims r.vdims).length = 1 ∧
      t.vdims.length = 1) := by
    rw [rv]; exact longer_fit hf.columns v1
  have eo : longer f.odims r.odims = t.odims := by
    unfold longer
    rw [if_pos ⟨hf.origin, by rw [ro]; omega⟩, ro]
  have ed : longer f.ddims r.ddims = f.ddims := by
    unfold longer
    rw [if_neg]
    rw [hf.len]; omega
  have hdd : ¬ (f.ddims.length = 1 ∧ r.ddims.length > 1) := by rw [hf.len]; omega
  refine ⟨r, combined (· * ·) f r, hr, he, ⟨wf_combined _ _ _, ?_, ek', ev', eo, ?_, ?_, ?_, ?_, ?_⟩,
    ed, ?_⟩
  · exact hf.keyLabels.symm
  · exact hf.ograin.symm
  · show (if _ then _ else _) = _
    rw [if_neg hdd]; exact hf.dgrain.symm
  · show (if _ then _ else _) = _
    rw [if_neg hdd]; exact hf.ages.trans h.isVal
  · show (f.isPattern && (u.isPattern && u.isPattern)) = false
    rw [hu.noPattern]; simp
  · show max f.vd (max u.vd u.vd) = ultVal
    rw [hu.date, max_self]; exact max_eq_right hf.date
  · intro i hi c hc o ho d hd
    have hU := hu.cells i hi c hc o (by omega)
    have rget : ∀ i < t.kdims.length, ∀ c < t.vdims.length, ∀ o < t.odims.length,
        r.values.get i c o 0 = u.values.get i c o 0 / u.values.get i c o 0 := by
      intro i hi c hc o ho
      show u.values.get (Arr.bix _ (longer _ _).length i) _ _ _ / u.values.get _ _ _ _ = _
      rw [lself, lself, lself, lself, hu.wf.1, hu.wf.2.1, hu.wf.2.2.1, hu.wf.2.2.2]
      simp only [Arr.bix, if_true]
    show f.values.get (Arr.bix _ (longer f.kdims r.kdims).length i)
        (Arr.bix _ (longer f.vdims r.vdims).length c) (Arr.bix _ (longer f.odims r.odims).length o)
        (Arr.bix _ (longer f.ddims r.ddims).length d) *
      r.values.get (Arr.bix _ (longer f.kdims r.kdims).length i)
        (Arr.bix _ (longer f.vdims r.vdims).length c) (Arr.bix _ (longer f.odims r.odims).length o)
        (Arr.bix _ (longer f.ddims r.ddims).length d) = _
    rw [ek, ev, eo, ed]
    have b1 : Arr.bix f.values.d2 t.odims.length o = 0 := by
      unfold Arr.bix
      rw [hf.wf.2.2.1, hf.origin, if_neg (by omega)]
    have b2 : Arr.bix f.values.d3 f.ddims.length d = d := by
      unfold Arr.bix; rw [hf.wf.2.2.2, if_pos rfl]
    have w := (wf_combined (· / ·) u u)
    have b3 : Arr.bix r.values.d0 t.kdims.length i = i := by
      unfold Arr.bix; rw [w.1, ← hrdef, rk, if_pos rfl]
    have b4 : Arr.bix r.values.d1 t.vdims.length c = c := by
      unfold Arr.bix; rw [w.2.1, ← hrdef, rv, if_pos rfl]
    have b5 : Arr.bix r.values.d2 t.odims.length o = o := by
      unfold Arr.bix; rw [w.2.2.1, ← hrdef, ro, if_pos rfl]
    have b6 : Arr.bix r.values.d3 f.ddims.length d = 0 := by
      unfold Arr.bix; rw [w.2.2.2, ← hrdef, rd, hu.one, hf.len, if_neg (by omega)]
    rw [b1, b2, b3, b4, b5, b6]
    obtain ⟨c1, c2⟩ := hf.cell hi hc (by rcases hf.index with e | e; exacts [Or.inl (by rw [e]), Or.inr e])
      (by rcases hf.columns with e | e; exacts [Or.inl (by rw [e]), Or.inr e]) hd
    rw [c1, rget i hi c hc o (by omega), hU]
    by_cases h0 : U i c o = 0
    · rw [if_pos h0, h0, Num.numToNan_zero']; rfl
    · rw [if_neg h0, Num.numToNan_fin_of_ne h0, Num.fin_div_fin_of_ne _ h0, div_self h0,
        Num.fin_mul_fin, mul_one]

namespace Wide
variable {e : Tri K}

theorem valuation (w : Wide t e F) (h : Standard t a n D q) (hf : GridPattern t f a n D q F)
    (hd : e.ddims = f.ddims) {o d : Nat} (ho : o < n) (hdF : d < F) :
    e.valuation o d = a + ((q * o + d + 1) * t.dgrain.months : Nat) - 1 := by
  unfold Tri.valuation valuationOf
  rw [w.isVal, hd, w.odims, w.vd]
  simp only [Bool.false_eq_true, if_false]
  have hvd := le_trans (h.origin_le ho) h.early
  rw [if_neg]
  · rw [h.getO ho, min_eq_left hvd, hf.grid, List.getD_eq_getElem?_getD]
    simp only [List.getElem?_map, List.getElem?_range hdF, Option.map_some, Option.getD_some]
    push_cast
    ring
  · rintro ⟨e9, -⟩
    have := List.mem_of_getLast? e9
    rw [hf.grid] at this
    simp only [List.mem_map, List.mem_range] at this
    obtain ⟨j, hj, ej⟩ := this
    have h1 : (j + 1) * t.dgrain.months ≤ F * t.dgrain.months := Nat.mul_le_mul_right _ hj
    have := hf.short
    omega

end Wide

/-- Positions of cells in time, in periods after the start of the first origin. -/
theorem period_lt {m : Nat} (hm : 1 ≤ m) {a : Int} {x y : Nat} :
    a + ((x * m : Nat) : Int) - 1 < a + ((y * m : Nat) : Int) - 1 ↔ x < y := by
  constructor
  · intro h
    have : x * m < y * m := by omega
    exact Nat.lt_of_mul_lt_mul_right this
  · intro h
    have : x * m < y * m := Nat.mul_lt_mul_of_pos_right h hm
    omega

theorem period_le {m : Nat} (hm : 1 ≤ m) {a : Int} {x y : Nat} :
    a + ((x * m : Nat) : Int) - 1 ≤ a + ((y * m : Nat) : Int) - 1 ↔ x ≤ y := by
  rw [← not_lt, ← not_lt, period_lt hm]

/-- The factors of all origins, with ones at the known ages. -/
theorem unknown_spec (h : Standard t a n D q) (hf : GridPattern t f a n D q F)
    (h2 : 2 ≤ linkRows n D q) {e : Tri K} (w : Wide t e F) (hd : e.ddims = f.ddims)
    {g : Nat → Nat → Nat → Nat → Num K} (hg : ∀ i c o d, g i c o d = .nan ∨ ∃ x, x ≠ 0 ∧ g i c o d = .fin x)
    (he : ∀ i < t.kdims.length, ∀ c < t.vdims.length, ∀ o < n, ∀ d < F,
      e.values.get i c o d = g i c o d) :
    ∃ x x' x'' y z, e.getVal (fun v => v < t.vd) = .ok x ∧ x.mulArr (Arr.scalar 0) = .ok x' ∧
      x'.addArr (Arr.scalar 1) = .ok x'' ∧ e.getVal (fun v => v ≥ t.vd) = .ok y ∧ x''.add y = .ok z ∧
      Wide t { z with vd := ultVal } F ∧ z.ddims = f.ddims ∧
      ∀ i < t.kdims.length, ∀ c < t.vdims.length, ∀ o < n, ∀ d < F, z.values.get i c o d =
        if d < D - 1 - q * o then 1 else g i c o d := by
  have n2 := h.two_origins
  have hq := h.period
  have hD := h.two_ages
  have hrec := h.recent
  have hcov := hf.covers
  have hm := months_pos t.dgrain
  have lO : e.odims.length = n := by rw [w.odims, h.lenO]
  have lD : e.ddims.length = F := by rw [hd, hf.len]
  have hval := fun {o d : Nat} (ho : o < n) (hdF : d < F) => w.valuation h hf hd ho hdF
  have hqn : ∀ o, o < n → q * o ≤ q * (n - 1) := fun o ho => Nat.mul_le_mul_left _ (by omega)
  have key1 : ∀ o < n, ∀ d < F, decide (e.valuation o d < t.vd) = true ↔ q * o + d + 1 < D := by
    intro o ho d hdF
    rw [decide_eq_true_iff, hval ho hdF, h.vd, period_lt hm]
  have key2 : ∀ o < n, ∀ d < F, decide (e.valuation o d ≥ t.vd) = true ↔ D ≤ q * o + d + 1 := by
    intro o ho d hdF
    rw [decide_eq_true_iff, ge_iff_le, hval ho hdF, h.vd, period_le hm]
  have ord : Ordered e := by
    intro _
    refine ⟨?_, ?_, ?_⟩
    · intro o ho
      rw [w.odims] at ho
      rw [w.vd]
      exact le_trans ((h.ordered h.isVal).1 o ho) h.early
    · rw [hd, hf.grid]
      intro d hd
      simp only [List.mem_map, List.mem_range] at hd
      obtain ⟨j, hj, rfl⟩ := hd
      have : 1 * 1 ≤ (j + 1) * t.dgrain.months := Nat.mul_le_mul (by omega) hm
      omega
    · rw [hd, hf.grid]
      intro hmem
      have := List.dropLast_subset _ hmem
      simp only [List.mem_map, List.mem_range] at this
      obtain ⟨j, hj, ej⟩ := this
      have h1 : (j + 1) * t.dgrain.months ≤ F * t.dgrain.months := Nat.mul_le_mul_right _ hj
      have := hf.short
      omega
  have dat : Dated e := fun _ => by rw [w.vd]
  have gra : Graded e := by
    intro o o' d d' h1 h2 h3 h4
    rw [lO] at h2
    rw [lD] at h4
    rw [hval (by omega) (by omega), hval h2 h4, period_le hm]
    have : q * o ≤ q * o' := Nat.mul_le_mul_left _ h1
    omega
  have hq1 : 1 ≤ q * (n - 1) := Nat.mul_pos hq (by omega)
  have hlr : ∀ o, o < linkRows n D q ↔ o < n ∧ q * o + 1 < D := fun o => lt_linkRows n2 hq hrec
  have hlrn : linkRows n D q ≤ n := by unfold linkRows; split_ifs <;> omega
  have hD3 : 3 ≤ D := by
    have := ((hlr 1).1 (by omega)).2
    omega
  obtain ⟨x, hx, xw, xk, xv, xl, xo, xd, xi, xp, xc, xbo, xlo, xbd, xld, xcell, xval, m, ⟨mo, md, hmo, hmd,
    hmk, hme⟩, hmx, xvd⟩ := getVal_block w.wf ord dat gra (by omega) (P := fun v => v < t.vd)
    (Or.inl fun v w' hvw hw => by simp only [decide_eq_true_eq] at hw ⊢; omega)
    (so := 0) (ko := linkRows n D q) (sd := 0) (kd := D - 1) (by omega) (by omega) (by omega)
    (by
      intro o ho
      rw [lO] at ho
      rw [lD, Nat.zero_add, hlr]
      constructor
      · rintro ⟨d, hdF, hk⟩
        have := (key1 o ho d hdF).1 hk
        exact ⟨Nat.zero_le _, ho, by omega⟩
      · rintro ⟨-, -, hk⟩
        exact ⟨0, by omega, (key1 o ho 0 (by omega)).2 (by omega)⟩)
    (by
      intro d hdF
      rw [lD] at hdF
      rw [lO, Nat.zero_add]
      constructor
      · rintro ⟨o, ho, hk⟩
        have := (key1 o ho d hdF).1 hk
        omega
      · rintro ⟨-, hk⟩
        exact ⟨0, by omega, (key1 0 (by omega) d hdF).2 (by omega)⟩)
  obtain ⟨y, hy, yw, yk, yv, yl, yo, yd, yi, yp, yc, ybo, ylo, ybd, yld, ycell, yval, m', ⟨mo', md', hmo', hmd',
    hmk', hme'⟩, hmx', yvd⟩ := getVal_block w.wf ord dat gra (by omega) (P := fun v => v ≥ t.vd)
    (Or.inr fun v w' hvw hw => by simp only [decide_eq_true_eq] at hw ⊢; omega)
    (so := 0) (ko := n) (sd := D - 1 - q * (n - 1)) (kd := F - (D - 1 - q * (n - 1))) (by omega)
    (by omega) (by omega)
    (by
      intro o ho
      rw [lO] at ho
      rw [lD]
      constructor
      · exact fun _ => ⟨Nat.zero_le _, by omega⟩
      · intro _
        exact ⟨F - 1, by omega, (key2 o ho (F - 1) (by omega)).2 (by omega)⟩)
    (by
      intro d hdF
      rw [lD] at hdF
      rw [lO]
      constructor
      · rintro ⟨o, ho, hk⟩
        have := (key2 o ho d hdF).1 hk
        have := hqn o ho
        omega
      · rintro ⟨hk, -⟩
        exact ⟨n - 1, by omega, (key2 (n - 1) (by omega) d hdF).2 (by omega)⟩)
  have e0 : e.values.d0 = t.kdims.length := w.wf.1.trans w.d0
  have e1 : e.values.d1 = t.vdims.length := w.wf.2.1.trans w.d1
  obtain ⟨x', hx'⟩ : ∃ x', x' = { x with values := { x.values with
    get := fun i c o d => x.values.get i c o d * 0 } } := ⟨_, rfl⟩
  have ex' : x.mulArr (Arr.scalar 0) = .ok x' := by
    unfold mulArr zipArr
    rw [Arr.zip_scalar, hx']; rfl
  obtain ⟨x'', hx''⟩ : ∃ x'', x'' = { x with values := { x.values with
    get := fun i c o d => (((x.values.get i c o d * 0).nanToNum + Num.nanToNum 1) *
      (x.nanTri o d).nanToNum).numToNan } } := ⟨_, rfl⟩
  have ex'' : x'.addArr (Arr.scalar 1) = .ok x'' := by
    unfold addArr zipArr
    rw [Arr.zip_scalar, hx', hx'']; rfl
  have hmt : m < t.vd := by rw [← hme]; exact of_decide_eq_true hmk
  have hmt' : t.vd ≤ m' := by rw [← hme']; exact of_decide_eq_true hmk'
  have hve : t.vd ≤ ultVal := h.early
  rw [w.vd] at xvd yvd
  have xm : x.vd = m := by rw [xvd]; exact min_eq_left (by omega)
  have hlt : ∀ o < n, ∀ d < F, e.valuation o d ≤ ultVal := by
    intro o ho d hdF
    rw [hval ho hdF]
    have := hf.early
    have h1 := hqn o ho
    have : (q * o + d + 1) * t.dgrain.months ≤ (q * (n - 1) + F + 1) * t.dgrain.months :=
      Nat.mul_le_mul_right _ (by omega)
    omega
  have ym : y.vd = m' := by
    rw [yvd, ← hme']; exact min_eq_left (hlt _ (by omega) _ (by omega))
  have hxn : ∀ o < linkRows n D q, ∀ d < D - 1, x.nanTri o d =
      if q * o + d + 1 < D then 1 else .nan := by
    intro o ho d hdD
    unfold nanTri
    rw [if_neg (by rw [xw.2.2.1, xw.2.2.2]; omega), xval o d ho hdD, Nat.zero_add, Nat.zero_add, xm]
    have k := key1 o (by omega) d (by omega)
    by_cases hk : q * o + d + 1 < D
    · have := hmx o d (by omega) (by omega) (k.2 hk)
      rw [if_neg (by omega), if_pos hk]
    · have : ¬ e.valuation o d < t.vd := fun hh => hk (k.1 (decide_eq_true hh))
      rw [if_pos (by omega), if_neg hk]
  have xc'' : ∀ i < t.kdims.length, ∀ c < t.vdims.length, ∀ o < linkRows n D q, ∀ d < D - 1,
      x''.values.get i c o d = if q * o + d + 1 < D then 1 else .nan := by
    intro i hi c hc o ho d hdD
    rw [hx'']
    show (((x.values.get i c o d * 0).nanToNum + Num.nanToNum 1) * (x.nanTri o d).nanToNum).numToNan = _
    have h0 : (x.values.get i c o d * 0).nanToNum = 0 := by
      rw [xcell i c o d (by omega) (by omega) ho hdD, Nat.zero_add, Nat.zero_add,
        he i hi c hc o (by omega) d (by omega)]
      split_ifs
      · rcases hg i c o d with hh | ⟨v, hv, hh⟩
        · rw [hh]; rfl
        · rw [hh, Num.numToNan_fin_of_ne hv, Num.zero_def, Num.fin_mul_fin, mul_zero]; rfl
      · rfl
    rw [h0, hxn o ho d hdD]
    split_ifs
    · show ((Num.fin 0 + Num.fin 1) * Num.fin 1 : Num K).numToNan = Num.fin 1
      rw [Num.fin_add_fin, zero_add, Num.fin_mul_fin, mul_one, Num.numToNan_fin_of_ne one_ne_zero]
    · show ((Num.fin 0 + Num.fin 1) * Num.fin 0 : Num K).numToNan = _
      rw [Num.fin_add_fin, zero_add, Num.fin_mul_fin, mul_zero, Num.numToNan_zero']
  have fo : x''.odims = x.odims := by rw [hx'']
  have fd : x''.ddims = x.ddims := by rw [hx'']
  have same : SameButDates x'' y := by
    rw [hx'']
    exact ⟨xk.trans yk.symm, xl.trans yl.symm, xv.trans yv.symm, xi.trans yi.symm, xo.trans yo.symm,
      xd.trans yd.symm⟩
  have wx'' : WF x'' := by rw [hx'']; exact xw
  have sO : e.odims.Pairwise (· < ·) := by rw [w.odims]; exact h.toGrid.odims_sorted
  have sD : e.ddims.Pairwise (· < ·) := by rw [hd, hf.grid]; exact ages_sorted _ _
  obtain ⟨z, hz, zeq, zw, z0, z1, zcell⟩ := add_blocks same wx'' yw sO sD (ox := 0) (dx := 0) (oy := 0)
    (dy := D - 1 - q * (n - 1)) (by rw [fo]; exact xbo) (by rw [fd]; exact xbd) ybo ybd
    (by rw [fo]; omega) (by rw [fd]; omega) (by omega) (by rw [yld]; omega)
    (by
      rw [hd, hf.grid]
      intro d hd
      simp only [List.mem_map, List.mem_range] at hd
      obtain ⟨j, hj, rfl⟩ := hd
      have : (j + 1) * t.dgrain.months ≤ F * t.dgrain.months := Nat.mul_le_mul_right _ hj
      have := hf.short
      omega)
    (by intro k hk; right; omega)
    (by intro k hk; rw [fd]; omega)
    (by rw [fd, fo]; omega)
  have zo : z.odims = e.odims := by rw [zeq]
  have zd : z.ddims = e.ddims := by rw [zeq]
  have zi : z.isVal = false := by rw [zeq]; show x''.isVal = false; rw [hx'']; exact xi.trans w.isVal
  have zvd : z.vd = m' := by
    rw [zeq]; show max x''.vd y.vd = m'
    rw [hx'']; show max x.vd y.vd = m'
    rw [xm, ym]; exact max_eq_right (by omega)
  have hmu : m' ≤ ultVal := by rw [← hme']; exact hlt _ (by omega) _ (by omega)
  have zval : ∀ o d, z.valuation o d ≤ e.valuation o d := by
    intro o d
    unfold valuation valuationOf
    rw [zi, w.isVal, zo, zd, zvd, w.vd]
    split_ifs <;> omega
  have znan : ∀ o < n, ∀ d < F, z.nanTri o d = 1 := by
    intro o ho d hdF
    rcases nanTri_eq z o d with hh | ⟨-, hh⟩
    · exact hh
    · exfalso
      have h1 := zval o d
      rw [zvd] at hh
      by_cases hk : t.vd ≤ e.valuation o d
      · have := hmx' o d (by omega) (by omega) (decide_eq_true hk)
        omega
      · omega
  refine ⟨x, x', x'', y, z, hx, ex', ex'', hy, hz, ?_, zd.trans hd, ?_⟩
  · refine ⟨zw, ?_, ?_, ?_, zo.trans w.odims, ?_, ?_, zi, ?_, rfl⟩
    · rw [zeq]; show x''.keyLabels = _; rw [hx'']; exact xl.trans w.keyLabels
    · have : z.kdims = e.kdims := by rw [zeq]; show x''.kdims = _; rw [hx'']; exact xk
      show z.kdims = _ ∨ _
      rw [this]; exact w.index
    · have : z.vdims = e.vdims := by rw [zeq]; show x''.vdims = _; rw [hx'']; exact xv
      show z.vdims = _ ∨ _
      rw [this]; exact w.columns
    · rw [zeq]; show x''.ograin = _; rw [hx'']; exact xo.trans w.ograin
    · rw [zeq]; show x''.dgrain = _; rw [hx'']; exact xd.trans w.dgrain
    · rw [zeq]; show (x''.isPattern && y.isPattern) = false
      rw [yp, w.noPattern, Bool.and_false]
  · intro i hi c hc o ho d hdF
    rw [zcell i c o d (by omega) (by omega), znan o ho d hdF]
    have hqo := hqn o ho
    have by' : blockCell y 0 (D - 1 - q * (n - 1)) i c o d =
        if d < D - 1 - q * o then .nan else g i c o d := by
      unfold blockCell
      rw [yld, ylo]
      by_cases hk : D - 1 - q * (n - 1) ≤ d
      · rw [if_pos ⟨⟨by omega, by omega⟩, by omega, by omega⟩,
          ycell i c _ _ (by omega) (by omega) (by omega) (by omega), Nat.zero_add, Nat.sub_zero,
          Nat.add_sub_cancel' hk, he i hi c hc o ho d hdF]
        have k := key2 o ho d hdF
        by_cases hk' : D ≤ q * o + d + 1
        · rw [if_pos (k.2 hk'), if_neg (by omega)]
          rcases hg i c o d with hh | ⟨v, hv, hh⟩
          · rw [hh]; rfl
          · rw [hh, Num.numToNan_fin_of_ne hv]
        · rw [if_neg (fun hh => hk' (k.1 hh)), if_pos (by omega)]
      · rw [if_neg (by omega), if_pos (by omega)]
    have bx' : blockCell x'' 0 0 i c o d = if d < D - 1 - q * o then 1 else .nan := by
      unfold blockCell
      rw [fo, fd, xlo, xld]
      by_cases hk : d < D - 1 - q * o
      · have := (hlr o).2 ⟨ho, by omega⟩
        rw [if_pos ⟨⟨by omega, by omega⟩, by omega, by omega⟩, Nat.sub_zero, Nat.sub_zero,
          xc'' i hi c hc o this d (by omega), if_pos (by omega), if_pos hk]
      · rw [if_neg hk]
        split_ifs with hb
        · rw [Nat.sub_zero, Nat.sub_zero, xc'' i hi c hc o (by omega) d (by omega), if_neg (by omega)]
        · rfl
    rw [by', bx']
    split_ifs with hk
    · show ((Num.fin 1 + Num.fin 0) * Num.fin 1 : Num K).numToNan = Num.fin 1
      rw [Num.fin_add_fin, add_zero, Num.fin_mul_fin, mul_one, Num.numToNan_fin_of_ne one_ne_zero]
    · rcases hg i c o d with hh | ⟨v, hv, hh⟩
      · rw [hh]
        show ((Num.fin 0 + Num.fin 0) * Num.fin 1 : Num K).numToNan = _
        rw [Num.fin_add_fin, add_zero, Num.fin_mul_fin, zero_mul, Num.numToNan_zero']
      · rw [hh]
        show ((Num.fin 0 + Num.fin v) * Num.fin 1 : Num K).numToNan = _
        rw [Num.fin_add_fin, zero_add, Num.fin_mul_fin, mul_one, Num.numToNan_fin_of_ne hv]

/-- The share of the remaining development of origin `o` that has emerged at the end of period `d`. -/
def share (f : Tri K) (D q F i c o d : Nat) : K :=
  (f.growth i c (D - 1 - q * o) d - 1) / (f.growth i c (D - 1 - q * o) F - 1)

/-- The ages of the unknown part: one period later, the last one is the ultimate. -/
def laterAges (F m : Nat) : List Int :=
  ((List.range (F - 1)).map fun d : Nat => (((d + 2) * m : Nat) : Int)) ++ [9999]

private theorem prod_ones {f : Tri K} {i c L : Nat} {v : Nat → Num K} {d : Nat}
    (hv : ∀ j < d, v j = if j < L then 1 else .fin (f.ageFactor i c j)) :
    ∏ j ∈ Finset.range d, v j = .fin (f.growth i c L d) := by
  unfold growth
  rw [Finset.prod_congr rfl fun j hj => hv j (Finset.mem_range.1 hj)]
  induction d with
  | zero => rw [Finset.prod_range_zero, Finset.Ico_eq_empty (by omega)]; rfl
  | succ d ih =>
    rw [Finset.prod_range_succ, ih fun j hj => hv j (by omega)]
    by_cases hd : d < L
    · rw [if_pos hd, _root_.mul_one, Finset.Ico_eq_empty (by omega), Finset.Ico_eq_empty (by omega)]
    · rw [if_neg hd, Num.fin_mul_fin, ← Finset.prod_Ico_succ_top (by omega)]

/-- `emergence` for all origins. -/
theorem emergence_spec (h : Standard t a n D q) (hf : GridPattern t f a n D q F)
    (h2 : 2 ≤ linkRows n D q) (hu : UltAmounts t u U) :
    ∃ g, emergence f u t.vd = .ok g ∧ Wide t g F ∧ g.ddims = laterAges F t.dgrain.months ∧
      ∀ i < t.kdims.length, ∀ c < t.vdims.length, ∀ o < n, ∀ d < F, g.values.get i c o d =
        if U i c o = 0 ∨ f.growth i c (D - 1 - q * o) F = 1 then .nan
        else .fin (f.share D q F i c o (d + 1)) := by
  obtain ⟨r, e, hr, he, ew, ed, ecell⟩ := spread_spec h hf hu
  have hF : 2 ≤ F := le_trans h.two_ages hf.covers
  obtain ⟨x, x', x'', y, z, hx, hx', hx'', hy, hz, zw, zd, zcell⟩ := unknown_spec h hf h2 ew ed
    (g := fun i c o d => if U i c o = 0 then .nan else
      if f.ageFactor i c d = 0 then .nan else .fin (f.ageFactor i c d))
    (by
      intro i c o d
      by_cases h0 : U i c o = 0
      · exact Or.inl (if_pos h0)
      · by_cases h1 : f.ageFactor i c d = 0
        · exact Or.inl (by simp only [h0, h1, if_true, if_false])
        · exact Or.inr ⟨_, h1, by simp only [h0, h1, if_false]⟩)
    (by
      intro i hi c hc o ho d hd
      rw [ecell i hi c hc o ho d hd]
      have := (hf.cell hi hc (by rcases hf.index with e | e; exacts [Or.inl (by rw [e]), Or.inr e])
        (by rcases hf.columns with e | e; exacts [Or.inl (by rw [e]), Or.inr e]) hd).2
      simp only [this, if_false])
  have zi : z.isVal = false := zw.isVal
  have zl : z.ddims.length = F := by rw [zd, hf.len]
  have z3 : z.values.d3 = F := zw.wf.2.2.2.trans zl
  obtain ⟨g, hg⟩ : ∃ g, g = ({ z with
      vd := ultVal
      ddims := (z.ddims.map (· + (z.dgrain.months : Int))).dropLast ++ [9999]
      values := { z.values with get := fun i c o d =>
        ((∏ j ∈ Finset.range (d + 1), z.values.get i c o j) - 1) /
        ((∏ j ∈ Finset.range (z.values.d3 - 1 + 1), z.values.get i c o j) - 1).numToNan } } : Tri K) :=
    ⟨_, rfl⟩
  have eg : emergence f u t.vd = .ok g := by
    unfold emergence
    simp only [hr, he, hx, hx', hx'', hy, hz, bind, Except.bind]
    rw [if_neg (by rw [zi]; simp), if_neg (by intro h; rw [h] at zl; simp at zl; omega), hg]
  have zg : z.dgrain = t.dgrain := zw.dgrain
  have gd : g.ddims = laterAges F t.dgrain.months := by
    rw [hg]
    show (z.ddims.map (· + (z.dgrain.months : Int))).dropLast ++ [9999] = _
    unfold laterAges
    congr 1
    rw [zd, hf.grid, zg, List.map_map]
    obtain ⟨k, rfl⟩ : ∃ k, F = k + 1 := ⟨F - 1, by omega⟩
    rw [List.range_succ, List.map_append, List.map_singleton, List.dropLast_concat, Nat.add_sub_cancel]
    refine List.map_congr_left fun j _ => ?_
    simp only [Function.comp]
    push_cast
    ring
  refine ⟨g, eg, ?_, gd, ?_⟩
  · have gl : g.ddims.length = F := by rw [gd]; unfold laterAges; simp; omega
    refine ⟨⟨?_, ?_, ?_, ?_⟩, ?_, ?_, ?_, ?_, ?_, ?_, ?_, ?_, ?_⟩
    · rw [hg]; exact zw.wf.1
    · rw [hg]; exact zw.wf.2.1
    · rw [hg]; exact zw.wf.2.2.1
    · rw [gl, hg]; exact z3
    · rw [hg]; exact zw.keyLabels
    · rw [hg]; exact zw.index
    · rw [hg]; exact zw.columns
    · rw [hg]; exact zw.odims
    · rw [hg]; exact zw.ograin
    · rw [hg]; exact zw.dgrain
    · rw [hg]; exact zw.isVal
    · rw [hg]; exact zw.noPattern
    · rw [hg]
  · intro i hi c hc o ho d hd
    have zc := zcell i hi c hc o ho
    have hq := h.period
    have hcov := hf.covers
    have hD := h.two_ages
    rw [hg]
    show ((∏ j ∈ Finset.range (d + 1), z.values.get i c o j) - 1) /
        ((∏ j ∈ Finset.range (z.values.d3 - 1 + 1), z.values.get i c o j) - 1).numToNan = _
    rw [z3, show F - 1 + 1 = F by omega]
    by_cases h0 : U i c o = 0
    · rw [if_pos (Or.inl h0)]
      have : ∏ j ∈ Finset.range F, z.values.get i c o j = .nan := by
        rw [show F = F - 1 + 1 by omega, Finset.prod_range_succ, zc (F - 1) (by omega),
          if_neg (by omega)]
        simp only [h0, if_true]
        exact Num.mul_nan _
      rw [this]
      exact Num.div_nan _
    · have hv : ∀ j < F, z.values.get i c o j =
          if j < D - 1 - q * o then 1 else .fin (f.ageFactor i c j) := by
        intro j hj
        rw [zc j hj]
        have := (hf.cell hi hc (by rcases hf.index with e | e; exacts [Or.inl (by rw [e]), Or.inr e])
          (by rcases hf.columns with e | e; exacts [Or.inl (by rw [e]), Or.inr e]) hj).2
        simp only [h0, this, if_false]
      rw [prod_ones (L := D - 1 - q * o) fun j hj => hv j (by omega),
        prod_ones (L := D - 1 - q * o) fun j hj => hv j (by omega), Num.one_def, Num.fin_sub_fin,
        Num.fin_sub_fin]
      by_cases h1 : f.growth i c (D - 1 - q * o) F = 1
      · rw [if_pos (Or.inr h1), h1, sub_self, Num.numToNan_zero']
        exact Num.div_nan _
      · rw [if_neg (by rintro (hh | hh); exacts [h0 hh, h1 hh]),
          Num.numToNan_fin_of_ne (sub_ne_zero.2 h1), Num.fin_div_fin_of_ne _ (sub_ne_zero.2 h1)]
        rfl

end Tri
end CL
