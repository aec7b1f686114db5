import Verif.Lemmas.Residuals

set_option linter.unusedSectionVars false

/-! # C71: the standardised residuals of `Development` -/

namespace CL
namespace Dev
open Tri Work

variable {t : Tri ℝ} {a : Int} {n D q : Nat} {p : Params ℝ} {m : Munich.Interp} {one : Bool}

/-- The origins whose link ratio of age `d` is in use. -/
noncomputable def inFit (t : Tri ℝ) (w : Arr ℝ) (i c d : Nat) : Finset Nat :=
  included t (fun i c o d => (w.get i c o d).amt) i c d

theorem inFit_pairs (h : Standard t a n D q) {w : Arr ℝ} {i c d : Nat} (hi : i < t.kdims.length)
    (hc : c < t.vdims.length) (hd : d + 1 < D) : inFit t w i c d ⊆ pairs n D q d := by
  intro o ho
  unfold inFit included at ho
  rw [Finset.mem_filter, Finset.mem_range, h.wf.2.2.1, h.lenO] at ho
  obtain ⟨ho, -, h2, -⟩ := ho
  unfold pairs
  rw [Finset.mem_filter, Finset.mem_range]
  refine ⟨ho, ?_⟩
  by_contra hlt
  refine h2 ?_
  unfold amount
  rw [h.known i hi c hc o ho (d + 1) hd (by omega)]
  rfl

theorem average_pos_of {i c d : Nat} {s : Finset Nat} (hs : s.Nonempty) (hx : ∀ o ∈ s, 0 < amount t i c o d)
    (hy : ∀ o ∈ s, 0 < amount t i c o (d + 1)) (v : Avg) : 0 < average t i c d s v := by
  cases v
  · exact div_pos (Finset.sum_pos (fun o ho => mul_pos (hx o ho) (hy o ho)) hs)
      (Finset.sum_pos (fun o ho => pow_pos (hx o ho) 2) hs)
  · exact div_pos (Finset.sum_pos (fun o ho => hy o ho) hs) (Finset.sum_pos (fun o ho => hx o ho) hs)
  · exact div_pos (Finset.sum_pos (fun o ho => div_pos (hy o ho) (hx o ho)) hs)
      (by exact_mod_cast Finset.card_pos.mpr hs)

/-- The weighted deviations from the average add up to zero. -/
theorem deviations_zero {i c d : Nat} {s : Finset Nat} (hs : s.Nonempty) (hx : ∀ o ∈ s, 0 < amount t i c o d)
    (v : Avg) : ∑ o ∈ s, amount t i c o d ^ (2 - v.exponent) *
      (amount t i c o (d + 1) / amount t i c o d - average t i c d s v) = 0 := by
  have key : ∀ g : Nat → ℝ, (∀ o ∈ s, g o = amount t i c o d ^ (2 - v.exponent) *
      (amount t i c o (d + 1) / amount t i c o d)) →
      average t i c d s v = (∑ o ∈ s, g o) / ∑ o ∈ s, amount t i c o d ^ (2 - v.exponent) →
      ∑ o ∈ s, amount t i c o d ^ (2 - v.exponent) *
        (amount t i c o (d + 1) / amount t i c o d - average t i c d s v) = 0 := by
    intro g hg e
    have hM : 0 < ∑ o ∈ s, amount t i c o d ^ (2 - v.exponent) :=
      Finset.sum_pos (fun o ho => pow_pos (hx o ho) _) hs
    rw [Finset.sum_congr rfl fun o ho => by rw [mul_sub, ← hg o ho], Finset.sum_sub_distrib, ← Finset.sum_mul, e,
      mul_div_cancel₀ _ hM.ne', sub_self]
  cases v
  · refine key (fun o => amount t i c o d * amount t i c o (d + 1)) (fun o ho => ?_) rfl
    have := (hx o ho).ne'
    show _ = amount t i c o d ^ 2 * _
    field_simp
  · refine key (fun o => amount t i c o (d + 1)) (fun o ho => ?_) ?_
    · have := (hx o ho).ne'
      show _ = amount t i c o d ^ 1 * _
      field_simp
    · show _ / _ = _ / _
      congr 1
      exact Finset.sum_congr rfl fun o _ => (pow_one _).symm
  · refine key (fun o => amount t i c o (d + 1) / amount t i c o d) (fun o ho => ?_) ?_
    · show _ = amount t i c o d ^ 0 * _
      rw [pow_zero, one_mul]
    · show _ / _ = _ / ∑ o ∈ s, amount t i c o d ^ 0
      simp

/-- The residual of a link ratio in use. -/
theorem residCell_used {w : Arr ℝ} {i c o d : Nat} {x y F v : ℝ} (hx : 0 < x) (hy : y ≠ 0) (hv : 0 < v)
    (ex : t.values.get i c o d = .fin x) (ey : t.values.get i c o (d + 1) = .fin y) (ew : w.get i c o d = 1)
    (ef : (ldfArr t p w).get i c 0 d = .fin F) (es : (sigmaArr t p m one w).get i c 0 d = .fin v) :
    residCell t p m one w i c o d =
      (Num.fin (y - F * x)).numToNan / .fin (v * Real.sqrt (x ^ (p.average d).exponent)) := by
  have hx' := pow_pos hx (p.average d).exponent
  have hr : regWeight (p.average d) (1 : Num ℝ) (.fin x) (.fin y) = .fin (1 / x ^ (p.average d).exponent) := by
    rcases regWeight_cases (p.average d) (w := 1) (x := .fin x) (y := .fin y) (Or.inr (Or.inr rfl))
      (Or.inr ⟨x, hx.ne', rfl⟩) (Or.inr ⟨y, hy, rfl⟩) with ⟨-, a, b, -, -, e1, -, e3⟩ | ⟨hn, -⟩
    · injection e1 with e1
      rw [e3, ← e1]
    · exact absurd ⟨hx.ne', hy, by simp [Num.one_def]⟩ hn
  unfold residCell residStd
  simp only
  rw [ex, ey, ew, ef, es, Num.numToNan_fin_of_ne hx.ne', Num.numToNan_fin_of_ne hy, hr,
    Num.numToNan_fin_of_ne (one_div_pos.mpr hx').ne']
  have h2 : (Num.fin v : Num ℝ).npow 2 = .fin (v ^ 2) := by simp [Num.npow]; ring
  rw [h2, Num.one_def, Num.fin_div_fin_of_ne _ (one_div_pos.mpr hx').ne', Num.fin_mul_fin, one_div_one_div]
  have hst : Real.sqrt (x ^ (p.average d).exponent * v ^ 2) = v * Real.sqrt (x ^ (p.average d).exponent) := by
    rw [Real.sqrt_mul hx'.le, Real.sqrt_sq hv.le, mul_comm]
  rw [sqrt_fin (mul_nonneg hx'.le (sq_nonneg v)), hst,
    Num.numToNan_fin_of_ne (mul_pos hv (Real.sqrt_pos.mpr hx')).ne']
  congr 2
  show (Num.nanToNum (Num.fin (-x * F)) + Num.fin y) = _
  simp only [Num.nanToNum, Num.fin_add_fin]
  congr 1
  ring

/-- A link ratio that is excluded has no residual. -/
theorem residCell_unused {w : Arr ℝ} {i c o d : Nat} (ew : w.get i c o d = .nan ∨ w.get i c o d = 0)
    {x y : ℝ} (hx : 0 < x) (hy : y ≠ 0) (ex : t.values.get i c o d = .fin x)
    (ey : t.values.get i c o (d + 1) = .fin y) : residCell t p m one w i c o d = .nan := by
  have hr : regWeight (p.average d) (w.get i c o d) (.fin x) (.fin y) = .nan := by
    rcases ew with e | e <;> rw [e] <;> unfold regWeight expo <;>
      cases p.average d <;> simp [Avg.exponent, Num.npow, Num.numToNan, Num.zero_def, hx.ne', Num.fin_div_fin_of_ne]
  unfold residCell residStd
  simp only
  rw [ex, ey, Num.numToNan_fin_of_ne hx.ne', Num.numToNan_fin_of_ne hy, hr]
  simp [Num.numToNan, Tail.sqrt]

/-- **C71**: the standardised residual of a link ratio in use is the deviation of the amount from the fitted one, over
sigma and the root of the amount to the power of the exponent of the average; other link ratios have none.
Partial: three ages or more, and positive amounts (see `C71_zero_false`). -/
theorem C71_residuals_partial (h : Standard t a n D q) (hp : Positive t n D q) (hD : 3 ≤ D) {r : Tri ℝ}
    (hr : stdResiduals t p m one = .ok r) :
    ∃ w f s e, weights t p = .ok w ∧ fitStats t p m one = .ok (f, s, e) ∧ WF r ∧ r.kdims = t.kdims ∧
      r.vdims = t.vdims ∧ r.odims = t.odims.take (linkRows n D q) ∧ r.ddims = t.ddims.dropLast ∧
      ∀ i < t.kdims.length, ∀ c < t.vdims.length, ∀ d, d + 1 < D →
        (∀ o < linkRows n D q, o ∉ inFit t w i c d → r.values.get i c o d = .nan) ∧
        ∀ v, 0 < v → s.values.get i c 0 d = .fin v → ∀ o ∈ inFit t w i c d,
          o < linkRows n D q ∧ (r.values.get i c o d).NoInf ∧ (r.values.get i c o d).amt =
            (amount t i c o (d + 1) - average t i c d (inFit t w i c d) (p.average d) * amount t i c o d) /
              (v * Real.sqrt (amount t i c o d ^ (p.average d).exponent)) := by
  have hr0 := hr
  unfold stdResiduals at hr0
  obtain ⟨⟨f, s, e⟩, hfs, hr0⟩ := bind_ok hr0
  obtain ⟨w, hw, -⟩ := bind_ok hr0
  obtain ⟨r', hr', rwf, rk, rv, ro, rd, hcell⟩ := resid_run h hD hw hfs
  rw [hr] at hr'
  injection hr' with hr'
  subst hr'
  obtain ⟨hf, ef, es, -⟩ := fitStats_values hw hfs
  obtain ⟨w0, w1, w2, w3⟩ := h.wf
  have lO := h.lenO
  have lD := h.lenD
  refine ⟨w, f, s, e, hw, hfs, rwf, rk, rv, ro, rd, ?_⟩
  intro i hi c hc d hd
  have hrow : ∀ o, o < linkRows n D q ↔ o < n ∧ q * o + 1 < D := fun o => lt_linkRows h.two_origins h.period h.recent
  have hsub := inFit_pairs (w := w) h hi hc hd
  have hpair : ∀ o < n, q * o + d + 1 < D → ∃ x y, 0 < x ∧ 0 < y ∧ t.values.get i c o d = .fin x ∧
      t.values.get i c o (d + 1) = .fin y := by
    intro o ho hod
    obtain ⟨x, hx, ex⟩ := hp i hi c hc o ho d (by omega) (by omega)
    obtain ⟨y, hy, ey⟩ := hp i hi c hc o ho (d + 1) (by omega) (by omega)
    exact ⟨x, y, hx, hy, ex, ey⟩
  have hmask : ∀ o, ZeroOne (w.get i c o d) := fun o => weights_zeroOne (by omega) hw i c o d
  have hmem : ∀ o < n, q * o + d + 1 < D → (o ∈ inFit t w i c d ↔ w.get i c o d = 1) := by
    intro o ho hod
    obtain ⟨x, y, hx, hy, ex, ey⟩ := hpair o ho hod
    unfold inFit included amount
    rw [Finset.mem_filter, Finset.mem_range, w2, lO, ex, ey]
    simp only [Num.amt_fin]
    rcases hmask o with e | e | e <;> rw [e] <;> simp [Num.zero_def, Num.one_def, hx.ne', hy.ne', ho]
  refine ⟨?_, ?_⟩
  · intro o ho hno
    have hon := ((hrow o).1 ho).1
    rw [hcell i hi c hc o ho d hd]
    split_ifs with hod
    · obtain ⟨x, y, hx, hy, ex, ey⟩ := hpair o hon hod
      have hw01 : w.get i c o d = .nan ∨ w.get i c o d = 0 := by
        rcases hmask o with e | e | e
        · exact Or.inl e
        · exact Or.inr e
        · exact absurd ((hmem o hon hod).2 e) hno
      rw [residCell_unused hw01 hx hy.ne' ex ey]
      rfl
    · rfl
  · intro v hv hs o ho
    have hop := hsub ho
    unfold pairs at hop
    rw [Finset.mem_filter, Finset.mem_range] at hop
    obtain ⟨hon, hod⟩ := hop
    have horow : o < linkRows n D q := (hrow o).2 ⟨hon, by omega⟩
    obtain ⟨x, y, hx, hy, ex, ey⟩ := hpair o hon hod
    have hpos : 0 < average t i c d (inFit t w i c d) (p.average d) :=
      average_pos_of ⟨o, ho⟩ (fun o' ho' => (amt_pos hp hi hc hd (hsub ho')).1)
        (fun o' ho' => (amt_pos hp hi hc hd (hsub ho')).2) _
    have hF : (ldfArr t p w).get i c 0 d = .fin (average t i c d (inFit t w i c d) (p.average d)) := by
      rw [← ef, fit_average h.finite hw hf (by omega) (by omega) (by omega)]
      exact Num.numToNan_fin_of_ne hpos.ne'
    have hst : v * Real.sqrt (x ^ (p.average d).exponent) ≠ 0 :=
      (mul_pos hv (Real.sqrt_pos.mpr (pow_pos hx _))).ne'
    have ax : amount t i c o d = x := by unfold amount; rw [ex]; rfl
    have ay : amount t i c o (d + 1) = y := by unfold amount; rw [ey]; rfl
    refine ⟨horow, ?_⟩
    rw [hcell i hi c hc o horow d hd, if_pos hod,
      residCell_used hx hy.ne' hv ex ey ((hmem o hon hod).1 ho) hF (by rw [← es]; exact hs), ax, ay]
    by_cases hz : y - average t i c d (inFit t w i c d) (p.average d) * x = 0
    · rw [hz, Num.numToNan_zero', Num.nan_div, zero_div]
      exact ⟨trivial, rfl⟩
    · rw [Num.numToNan_fin_of_ne hz, Num.fin_div_fin_of_ne _ hst,
        Num.numToNan_fin_of_ne (div_ne_zero hz hst)]
      exact ⟨trivial, rfl⟩

/-- Sums over the rows are sums over the link ratios in use. -/
theorem sum_rows {k : Nat} {S : Finset Nat} (hS : ∀ o ∈ S, o < k) {g : Nat → ℝ} (h0 : ∀ o < k, o ∉ S → g o = 0) :
    ∑ o ∈ Finset.range k, g o = ∑ o ∈ S, g o := by
  refine (Finset.sum_subset (fun o ho => Finset.mem_range.mpr (hS o ho)) fun o ho hn => ?_).symm
  exact h0 o (Finset.mem_range.mp ho) hn

/-- **C71**: the residuals of an age, weighted with the root of the weights, add up to zero. -/
theorem C71_centred_partial (h : Standard t a n D q) (hp : Positive t n D q) (hD : 3 ≤ D) {r f s e : Tri ℝ}
    (hr : stdResiduals t p m one = .ok r) (hfs : fitStats t p m one = .ok (f, s, e)) {i c d : Nat}
    (hi : i < t.kdims.length) (hc : c < t.vdims.length) (hd : d + 1 < D) {v : ℝ} (hv : 0 < v)
    (hs : s.values.get i c 0 d = .fin v) :
    ∑ o ∈ Finset.range (linkRows n D q), (r.values.get i c o d).amt *
      Real.sqrt (amount t i c o d ^ (2 - (p.average d).exponent)) = 0 := by
  obtain ⟨w, f', s', e', hw, hfs', -, -, -, -, -, hcell⟩ := C71_residuals_partial h hp hD hr
  rw [hfs] at hfs'
  injection hfs' with hfs'
  injection hfs' with _ h2
  injection h2 with h2 _
  subst h2
  obtain ⟨hmiss, hused⟩ := hcell i hi c hc d hd
  have hx : ∀ o ∈ inFit t w i c d, 0 < amount t i c o d := fun o ho =>
    (amt_pos hp hi hc hd (inFit_pairs h hi hc hd ho)).1
  rw [sum_rows (S := inFit t w i c d) (fun o ho => (hused v hv hs o ho).1)
    (fun o ho hn => by rw [hmiss o ho hn]; exact zero_mul _)]
  rcases (inFit t w i c d).eq_empty_or_nonempty with he | he
  · rw [he, Finset.sum_empty]
  have hz := deviations_zero he hx (p.average d)
  have : ∀ o ∈ inFit t w i c d, (r.values.get i c o d).amt *
      Real.sqrt (amount t i c o d ^ (2 - (p.average d).exponent)) =
      amount t i c o d ^ (2 - (p.average d).exponent) * (amount t i c o (d + 1) / amount t i c o d -
        average t i c d (inFit t w i c d) (p.average d)) * (1 / v) := by
    intro o ho
    rw [(hused v hv hs o ho).2.2]
    have hxo := hx o ho
    obtain ⟨x, hx0⟩ : ∃ x, x = amount t i c o d := ⟨_, rfl⟩
    rw [← hx0] at hxo ⊢
    cases p.average d
    · show _ / (v * Real.sqrt (x ^ 0)) * Real.sqrt (x ^ 2) = x ^ 2 * _ * _
      rw [pow_zero, Real.sqrt_one, Real.sqrt_sq hxo.le]
      field_simp
    · show _ / (v * Real.sqrt (x ^ 1)) * Real.sqrt (x ^ 1) = x ^ 1 * _ * _
      have := (Real.sqrt_pos.mpr (pow_pos hxo 1)).ne'
      field_simp
    · show _ / (v * Real.sqrt (x ^ 2)) * Real.sqrt (x ^ 0) = x ^ 0 * _ * _
      rw [pow_zero, Real.sqrt_one, Real.sqrt_sq hxo.le]
      field_simp
  rw [Finset.sum_congr rfl this, ← Finset.sum_mul, hz, zero_mul]

/-- **C71**: the squares of the residuals of an age add up to one less than the number of link ratios in use. -/
theorem C71_squares_partial (h : Standard t a n D q) (hp : Positive t n D q) (hD : 3 ≤ D) {r : Tri ℝ} {w : Arr ℝ}
    (hr : stdResiduals t p m one = .ok r) (hw : weights t p = .ok w) {i c d : Nat}
    (hi : i < t.kdims.length) (hc : c < t.vdims.length) (hd : d + 1 < D) (h2 : 2 ≤ (inFit t w i c d).card)
    (hv : 0 < variance t i c d (inFit t w i c d) (p.average d)) :
    ∑ o ∈ Finset.range (linkRows n D q), (r.values.get i c o d).amt ^ 2 = (inFit t w i c d).card - 1 := by
  obtain ⟨w', f, s, e, hw', hfs, -, -, -, -, -, hcell⟩ := C71_residuals_partial h hp hD hr
  rw [hw] at hw'
  injection hw' with hw'
  subst hw'
  obtain ⟨hf, ef, es, -⟩ := fitStats_values hw hfs
  obtain ⟨w0, w1, w2, w3⟩ := h.wf
  have lO := h.lenO
  have lD := h.lenD
  obtain ⟨hmiss, hused⟩ := hcell i hi c hc d hd
  obtain ⟨S, hS⟩ : ∃ S, S = inFit t w i c d := ⟨_, rfl⟩
  rw [← hS] at hmiss hused h2 hv ⊢
  have hsub : S ⊆ pairs n D q d := by rw [hS]; exact inFit_pairs h hi hc hd
  have hx : ∀ o ∈ S, 0 < amount t i c o d := fun o ho => (amt_pos hp hi hc hd (hsub ho)).1
  have hy : ∀ o ∈ S, 0 < amount t i c o (d + 1) := fun o ho => (amt_pos hp hi hc hd (hsub ho)).2
  have hne : S.Nonempty := Finset.card_pos.mp (by omega)
  have hraw := C68_age (i := i) (c := c) h.finite p w (by omega) (by omega) (by omega)
    (fun o _ => weights_zeroOne (by omega) hw i c o d) hS (by omega) hx (average_pos_of hne hx hy _).ne' (by
      intro _ o ho e1 e2
      rw [w2, lO] at ho
      exfalso
      by_cases hod : q * o + d + 1 ≤ D
      · obtain ⟨x, hx, ex⟩ := hp i hi c hc o ho d (by omega) hod
        unfold amount at e1
        rw [ex] at e1
        exact hx.ne' e1
      · unfold amount at e2
        rw [h.known i hi c hc o ho (d + 1) hd (by omega)] at e2
        exact e2 rfl)
  obtain ⟨V, hV⟩ : ∃ V, V = Real.sqrt (variance t i c d S (p.average d)) := ⟨_, rfl⟩
  have hVp : 0 < V := by rw [hV]; exact Real.sqrt_pos.mpr hv
  have hV2 : V ^ 2 = variance t i c d S (p.average d) := by rw [hV]; exact Real.sq_sqrt hv.le
  have hs : s.values.get i c 0 d = .fin V := by
    rw [es]
    unfold sigmaArr
    simp only
    have hr1 := hraw.1
    rw [if_pos h2, ← hV] at hr1
    cases one
    · exact fill_known m (t.values.d3 - 1) (y := fun d => rawSigma (p.average d) t.values.d2 (fun o => w.get i c o d)
        (fun o => (t.values.get i c o d).numToNan) (fun o => (t.values.get i c o (d + 1)).numToNan)) hVp hr1
    · exact hr1
  rw [sum_rows (S := S) (fun o ho => (hused V hVp hs o ho).1)
    (fun o ho hn => by rw [hmiss o ho hn]; exact zero_pow two_ne_zero)]
  have : ∀ o ∈ S, (r.values.get i c o d).amt ^ 2 =
      amount t i c o d ^ (2 - (p.average d).exponent) * (amount t i c o (d + 1) / amount t i c o d -
        average t i c d S (p.average d)) ^ 2 * (1 / V ^ 2) := by
    intro o ho
    rw [(hused V hVp hs o ho).2.2]
    have hxo := hx o ho
    obtain ⟨x, hx0⟩ : ∃ x, x = amount t i c o d := ⟨_, rfl⟩
    rw [← hx0] at hxo ⊢
    rw [div_pow, mul_pow, Real.sq_sqrt (pow_pos hxo _).le]
    cases p.average d
    · show _ / (V ^ 2 * x ^ 0) = x ^ 2 * _ * _
      field_simp
    · show _ / (V ^ 2 * x ^ 1) = x ^ 1 * _ * _
      field_simp
    · show _ / (V ^ 2 * x ^ 2) = x ^ 0 * _ * _
      field_simp
  rw [Finset.sum_congr rfl this, ← Finset.sum_mul, hV2]
  have hc1 : ((S.card : ℝ) - 1) ≠ 0 := by
    have : (2 : ℝ) ≤ S.card := by exact_mod_cast h2
    linarith
  unfold variance at hv ⊢
  have hN : (∑ o ∈ S, amount t i c o d ^ (2 - (p.average d).exponent) *
    (amount t i c o (d + 1) / amount t i c o d - average t i c d S (p.average d)) ^ 2) ≠ 0 := by
    intro e0
    rw [e0, zero_div] at hv
    exact lt_irrefl _ hv
  field_simp

theorem weight_one (h : Standard t a n D q) (hd : p.NoDrop) (hn : ∀ d, p.nPeriods d < 1) {w : Arr ℝ}
    (hw : weights t p = .ok w) {i c o d : Nat} (hi : i < t.kdims.length) (hc : c < t.vdims.length) (ho : o < n)
    (hod : q * o + d + 1 < D) {x : ℝ} (ex : t.values.get i c o d = .fin x) : w.get i c o d = 1 := by
  obtain ⟨w0, w1, w2, w3⟩ := h.wf
  have lO := h.lenO
  have lD := h.lenD
  obtain ⟨w', hw', hcell⟩ := weights_all (t := t) hd hn
  rw [hw] at hw'
  injection hw' with hw'
  subst hw'
  rw [hcell i (by omega) c (by omega) o (by omega) d (by omega), ex]
  have : t.nanTri o d = 1 := by
    rcases Tri.nanTri_eq t o d with e | ⟨-, e⟩
    · exact e
    · have := (h.valuation_gt ho (d := d) (by omega)).mp e
      omega
  rw [this]
  simp [Num.zero_def, Num.one_def]

theorem inFit_all (h : Standard t a n D q) (hp : Positive t n D q) (hd : p.NoDrop) (hn : ∀ d, p.nPeriods d < 1)
    {w : Arr ℝ} (hw : weights t p = .ok w) {i c d : Nat} (hi : i < t.kdims.length) (hc : c < t.vdims.length)
    (hd' : d + 1 < D) : inFit t w i c d = pairs n D q d := by
  refine Finset.Subset.antisymm (inFit_pairs h hi hc hd') fun o ho => ?_
  have hpos := amt_pos hp hi hc hd' ho
  unfold pairs at ho
  rw [Finset.mem_filter, Finset.mem_range] at ho
  obtain ⟨x, hx, ex⟩ := hp i hi c hc o ho.1 d (by omega) (by omega)
  unfold inFit included
  rw [Finset.mem_filter, Finset.mem_range, h.wf.2.2.1, h.lenO]
  refine ⟨ho.1, hpos.1.ne', hpos.2.ne', ?_⟩
  beta_reduce
  rw [weight_one h hd hn hw hi hc ho.1 ho.2 ex]
  simp [Num.one_def]

/-- **C71** without exclusions: the fit succeeds and the squares of the residuals of an age add up to one less than
its number of link ratios. -/
theorem C71_plain_partial (h : Standard t a n D q) (hp : Positive t n D q) (hD : 3 ≤ D) (hd : p.NoDrop)
    (hn : ∀ d, p.nPeriods d < 1) (m : Munich.Interp) (one : Bool) : ∃ r, stdResiduals t p m one = .ok r ∧
      ∀ i < t.kdims.length, ∀ c < t.vdims.length, ∀ d, q + d + 1 < D →
        0 < variance t i c d (pairs n D q d) (p.average d) →
        ∑ o ∈ Finset.range (linkRows n D q), (r.values.get i c o d).amt ^ 2 = (pairs n D q d).card - 1 := by
  obtain ⟨w, f, s, e, hw, -, hfs, -⟩ := stats_run h hd hn m one
  obtain ⟨r, hr, -⟩ := resid_run h hD hw hfs
  refine ⟨r, hr, ?_⟩
  intro i hi c hc d hd' hv
  have e1 := inFit_all h hp hd hn hw hi hc (d := d) (by omega)
  rw [← e1] at hv ⊢
  exact C71_squares_partial h hp hD hr hw hi hc (by omega) (by rw [e1]; exact two_pairs h.two_origins hd') hv

/-- **C71** is false where an amount is zero: the link ratio to a zero is not in the fit, but has a residual, as if
the fitted amount had the weight one. -/
theorem C71_zero_false (h : Standard t a n D q) (hD : 3 ≤ D) (hd : p.NoDrop) (hn : ∀ d, p.nPeriods d < 1)
    {r f s e : Tri ℝ} (hr : stdResiduals t p m one = .ok r) (hfs : fitStats t p m one = .ok (f, s, e)) {w : Arr ℝ}
    (hw : weights t p = .ok w) {i c o d : Nat} (hi : i < t.kdims.length) (hc : c < t.vdims.length) (ho : o < n)
    (hod : q * o + d + 1 < D) {x F v : ℝ} (hx : 0 < x) (hF : F ≠ 0) (hv : 0 < v) (ex : t.values.get i c o d = .fin x)
    (ey : t.values.get i c o (d + 1) = .fin 0) (ef : f.values.get i c 0 d = .fin F)
    (es : s.values.get i c 0 d = .fin v) :
    o ∉ inFit t w i c d ∧ r.values.get i c o d = .fin (-(F * x) / v) := by
  obtain ⟨r', hr', -, -, -, -, -, hcell⟩ := resid_run h hD hw hfs
  rw [hr] at hr'
  injection hr' with hr'
  subst hr'
  obtain ⟨-, ef', es', -⟩ := fitStats_values hw hfs
  refine ⟨?_, ?_⟩
  · unfold inFit included
    rw [Finset.mem_filter]
    rintro ⟨-, -, h2, -⟩
    exact h2 (by unfold amount; rw [ey]; rfl)
  rw [hcell i hi c hc o ((lt_linkRows h.two_origins h.period h.recent).2 ⟨ho, by omega⟩) d (by omega), if_pos hod]
  have hw1 := weight_one h hd hn hw hi hc ho hod ex
  have hne : -(F * x) / v ≠ 0 := div_ne_zero (neg_ne_zero.mpr (mul_ne_zero hF hx.ne')) hv.ne'
  have hr1 : regWeight (p.average d) (1 : Num ℝ) (.fin x) (Num.fin (0 : ℝ)).numToNan = .fin 1 := by
    rw [Num.numToNan_zero']
    show (Num.fin 1 / Num.fin 1 : Num ℝ).numToNan = _
    rw [Num.fin_div_fin_of_ne _ one_ne_zero, div_one, Num.numToNan_fin_of_ne one_ne_zero]
  unfold residCell residStd
  simp only
  rw [hw1, ex, ey, ← ef', ← es', ef, es, Num.numToNan_fin_of_ne hx.ne', hr1, Num.numToNan_fin_of_ne one_ne_zero]
  have h2 : (Num.fin v : Num ℝ).npow 2 = .fin (v ^ 2) := by simp [Num.npow]; ring
  rw [h2, Num.one_def, Num.fin_div_fin_of_ne _ one_ne_zero, Num.fin_mul_fin, div_one, one_mul, sqrt_fin (sq_nonneg v),
    Real.sqrt_sq hv.le, Num.numToNan_fin_of_ne hv.ne']
  have e3 : ((-(Num.fin x) * Num.fin F : Num ℝ).nanToNum + (Num.fin (0 : ℝ)).nanToNum) = .fin (-(F * x)) := by
    show (Num.nanToNum (Num.fin (-x * F)) + Num.fin 0) = _
    simp only [Num.nanToNum, Num.fin_add_fin]
    congr 1
    ring
  rw [e3, Num.numToNan_fin_of_ne (neg_ne_zero.mpr (mul_ne_zero hF hx.ne')), Num.fin_div_fin_of_ne _ hv.ne',
    Num.numToNan_fin_of_ne hne]

/-- Link ratios 1, 2 and 3 with a simple average: the residuals are -1, 0 (missing) and 1. -/
example : ∃ r, stdResiduals C68.tri C68.simple .mack false = .ok r ∧
    ∑ o ∈ Finset.range 3, (r.values.get 0 0 o 0).amt ^ 2 = 2 ∧ (r.values.get 0 0 0 0).amt = -1 := by
  have hd : C68.simple.NoDrop := ⟨rfl, rfl, rfl, rfl, rfl, rfl⟩
  have hn : ∀ d, C68.simple.nPeriods d < 1 := fun d => by show (-1 : Int) < 1; decide
  have v0 : variance C68.tri 0 0 0 (pairs 4 4 1 0) (C68.simple.average 0) = 1 := C68.variance0
  have h3 : pairs 4 4 1 0 = {0, 1, 2} := by decide
  obtain ⟨r, hr, hsq⟩ := C71_plain_partial C68.standard C68.positive (by decide) hd hn .mack false
  refine ⟨r, hr, ?_, ?_⟩
  · have := hsq 0 (by decide) 0 (by decide) 0 (by decide) (by rw [v0]; exact one_pos)
    have hl : linkRows 4 4 1 = 3 := by decide
    rw [hl, h3] at this
    rw [this]
    norm_num
  · obtain ⟨w, f, s, e, hw, hfs, -, -, -, -, -, hcell⟩ := C71_residuals_partial C68.standard C68.positive (by decide) hr
    obtain ⟨f', s', e', -, hr', -, -, -, -, -, -, hc68⟩ := C68_plain_partial C68.standard C68.positive hd hn .mack
    rw [hfs] at hr'
    injection hr' with hr'
    injection hr' with _ h2
    injection h2 with h2 _
    subst h2
    have hs := (hc68 0 (by decide) 0 (by decide) 0 (by decide)).1 (by decide) (by rw [v0]; exact one_pos)
    rw [v0, Real.sqrt_one] at hs
    have hS := inFit_all C68.standard C68.positive hd hn hw (i := 0) (c := 0) (d := 0) (by decide) (by decide) (by decide)
    have := ((hcell 0 (by decide) 0 (by decide) 0 (by decide)).2 1 one_pos hs 0 (by rw [hS, h3]; decide)).2.2
    rw [this, hS, h3]
    have e2 : average C68.tri 0 0 0 {0, 1, 2} (C68.simple.average 0) = 2 := by
      show (∑ o ∈ ({0, 1, 2} : Finset Nat), amount C68.tri 0 0 o 1 / amount C68.tri 0 0 o 0) / _ = 2
      simp only [Finset.sum_insert, Finset.sum_singleton, Finset.mem_insert, Finset.mem_singleton, not_or,
        (by decide : (0 : Nat) ≠ 1 ∧ (0 : Nat) ≠ 2), (by decide : (1 : Nat) ≠ 2), not_false_iff, and_self]
      have hc : (({0, 1, 2} : Finset Nat).card : ℝ) = 3 := by norm_num
      rw [hc]
      show ((2 : ℝ) / 2 + (4 / 2 + 6 / 2)) / 3 = 2
      norm_num
    rw [e2]
    show ((2 : ℝ) - 2 * 2) / (1 * Real.sqrt (2 ^ 2)) = -1
    rw [Real.sqrt_sq (by norm_num)]
    norm_num

namespace C71

/-- As `C68.tri`, but the third origin falls to zero. -/
noncomputable def zero : Tri ℝ :=
  { C68.tri with
    values := ⟨1, 1, 4, 4, fun _ _ o d => match o, d with
      | 0, 0 => .fin 2 | 0, 1 => .fin 2 | 0, 2 => .fin 3 | 0, 3 => .fin 6
      | 1, 0 => .fin 2 | 1, 1 => .fin 4 | 1, 2 => .fin 10
      | 2, 0 => .fin 2 | 2, 1 => .fin 0
      | 3, 0 => .fin 5
      | _, _ => .nan⟩ }

theorem standard : Tri.Standard zero 24240 4 4 1 where
  wf := ⟨rfl, rfl, rfl, rfl⟩
  finite := by
    intro i hi c hc o ho d hd
    replace ho : o < 4 := ho
    replace hd : d < 4 := hd
    interval_cases o <;> interval_cases d <;> trivial
  isVal := rfl
  cumulative := by decide
  noPattern := rfl
  multiplicative := rfl
  index_pos := le_rfl
  columns_pos := le_rfl
  two_origins := by decide
  period := le_rfl
  recent := by decide
  odims := rfl
  ddims := rfl
  vd := rfl
  short := by decide
  early := by decide
  known := by
    intro i hi c hc o ho d hd hlt
    interval_cases o <;> interval_cases d <;> first | rfl | omega

end C71

/-- The link ratios 1 and 2 are averaged to 3/2 with a variance of 1/2; the fall to zero has a residual of
-3 over the root of 1/2. -/
example : ∃ r, stdResiduals C71.zero C68.simple .mack false = .ok r ∧
    r.values.get 0 0 2 0 = .fin (-3 / Real.sqrt (1 / 2)) := by
  have hd : C68.simple.NoDrop := ⟨rfl, rfl, rfl, rfl, rfl, rfl⟩
  have hn : ∀ d, C68.simple.nPeriods d < 1 := fun d => by show (-1 : Int) < 1; decide
  obtain ⟨w, f, s, e, hw, hf, hfs, -⟩ := stats_run C71.standard hd hn .mack false
  obtain ⟨r, hr, -⟩ := resid_run C71.standard (by decide) hw hfs
  refine ⟨r, hr, ?_⟩
  obtain ⟨-, ef, es, -⟩ := fitStats_values hw hfs
  have hS : ({0, 1} : Finset Nat) = included C71.zero (fun i c o d => (w.get i c o d).amt) 0 0 0 := by
    have w0 : w.get 0 0 0 0 = 1 := weight_one C71.standard hd hn hw (by decide) (by decide) (by decide) (by decide) rfl
    have w1 : w.get 0 0 1 0 = 1 := weight_one C71.standard hd hn hw (by decide) (by decide) (by decide) (by decide) rfl
    ext o
    unfold included
    rw [Finset.mem_filter, Finset.mem_range, Finset.mem_insert, Finset.mem_singleton]
    constructor
    · rintro (rfl | rfl)
      · refine ⟨by decide, ?_, ?_, ?_⟩
        · show (2 : ℝ) ≠ 0
          norm_num
        · show (2 : ℝ) ≠ 0
          norm_num
        · beta_reduce
          rw [w0]
          simp [Num.one_def]
      · refine ⟨by decide, ?_, ?_, ?_⟩
        · show (2 : ℝ) ≠ 0
          norm_num
        · show (4 : ℝ) ≠ 0
          norm_num
        · beta_reduce
          rw [w1]
          simp [Num.one_def]
    · rintro ⟨ho, -, h2, -⟩
      replace ho : o < 4 := ho
      interval_cases o
      · left; rfl
      · right; rfl
      · exact absurd rfl h2
      · exact absurd rfl h2
  have hc : (({0, 1} : Finset Nat).card : ℝ) = 2 := by norm_num
  have e2 : average C71.zero 0 0 0 {0, 1} (C68.simple.average 0) = 3 / 2 := by
    show (∑ o ∈ ({0, 1} : Finset Nat), amount C71.zero 0 0 o 1 / amount C71.zero 0 0 o 0) / _ = 3 / 2
    rw [Finset.sum_pair (by decide), hc]
    show ((2 : ℝ) / 2 + 4 / 2) / 2 = 3 / 2
    norm_num
  have v0 : variance C71.zero 0 0 0 {0, 1} (C68.simple.average 0) = 1 / 2 := by
    unfold variance
    rw [Finset.sum_pair (by decide), hc, e2]
    show ((2 : ℝ) ^ 0 * (2 / 2 - 3 / 2) ^ 2 + 2 ^ 0 * (4 / 2 - 3 / 2) ^ 2) / (2 - 1) = 1 / 2
    norm_num
  have hF : f.values.get 0 0 0 0 = .fin (3 / 2) := by
    rw [fit_average C71.standard.finite hw hf (by decide) (by decide) (by decide), ← hS, e2]
    exact Num.numToNan_fin_of_ne (by norm_num)
  have hx : ∀ o ∈ ({0, 1} : Finset Nat), 0 < amount C71.zero 0 0 o 0 := by
    intro o ho
    rw [Finset.mem_insert, Finset.mem_singleton] at ho
    rcases ho with rfl | rfl
    · show (0 : ℝ) < 2
      norm_num
    · show (0 : ℝ) < 2
      norm_num
  have hraw := C68_age (i := 0) (c := 0) C71.standard.finite C68.simple w (by decide) (by decide) (by decide)
    (fun o _ => weights_zeroOne (by decide) hw 0 0 o 0) hS (by decide) hx (by rw [e2]; norm_num)
    (fun hh => by cases hh)
  have hroot : 0 < Real.sqrt (1 / 2 : ℝ) := Real.sqrt_pos.mpr (by norm_num)
  have hs : s.values.get 0 0 0 0 = .fin (Real.sqrt (1 / 2)) := by
    rw [es]
    have h1 := hraw.1
    rw [if_pos (by decide), v0] at h1
    exact fill_known .mack 3 (y := fun d => rawSigma (C68.simple.average d) C71.zero.values.d2 (fun o => w.get 0 0 o d)
      (fun o => (C71.zero.values.get 0 0 o d).numToNan) (fun o => (C71.zero.values.get 0 0 o (d + 1)).numToNan)) hroot h1
  have := (C71_zero_false C71.standard (by decide) hd hn hr hfs hw (i := 0) (c := 0) (o := 2) (d := 0) (by decide)
    (by decide) (by decide) (by decide) (x := 2) (F := 3 / 2) (by norm_num) (by norm_num) hroot rfl rfl hF hs).2
  rw [this]
  norm_num

end Dev
end CL
