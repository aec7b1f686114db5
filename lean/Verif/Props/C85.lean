import Verif.Model.FillDev
import Verif.Lemmas.Factor
import Verif.Lemmas.Weights
import Verif.Props.C84

set_option linter.unusedSectionVars false

/-! # C85: `Development` with `fillna` -/

namespace CL
namespace Dev
open Tri
variable {K : Type} [Field K] [LinearOrder K] [IsStrictOrderedRing K]

/-- Without `fillna` the estimator is the ordinary one. -/
theorem C85_none (t : Tri K) (p : Params K)
    (h : (p.dropHigh.isSome || p.dropLow.isSome || p.dropAbove.isSome || p.dropBelow.isSome) = false) :
    fitFilled t p none = fit t p := by
  unfold fitFilled fit
  rw [h]
  rfl

/-- **C85 (the filled array).**  `fillna` adds its value to every cell up to the valuation date, and to no other. -/
theorem C85_filled {t : Tri K} (ht : Regular t) (h1 : min t.values.d2 t.values.d3 ≠ 1) {v : K} (hv : v ≠ 0) :
    ∃ u, filled t (some v) = .ok u ∧ Arr.SameShape u.values t.values ∧
      ∀ i < t.values.d0, ∀ c < t.values.d1, ∀ o < t.values.d2, ∀ d < t.values.d3,
        u.values.get i c o d =
          if t.valuation o d ≤ t.vd then (Num.fin ((t.values.get i c o d).amt + v)).numToNan else .nan := by
  refine ⟨({ t with values := { t.values with get := fun i c o d =>
      (t.values.get i c o d).nanToNum + (Num.fin v).nanToNum } } : Tri K).cleanup, ?_, ⟨rfl, rfl, rfl, rfl⟩, ?_⟩
  · unfold filled
    simp only [if_neg hv, addArr, zipArr, Arr.zip_scalar, bind, Except.bind]
  · intro i hi c hc o ho d hd
    show (((t.values.get i c o d).nanToNum + (Num.fin v).nanToNum) * (t.nanTri o d).nanToNum).numToNan = _
    rw [Num.nanToNum_eq (ht.finite i hi c hc o ho d hd)]
    have hn : t.nanTri o d = if t.valuation o d > t.vd then .nan else 1 := by
      unfold nanTri
      rw [if_neg h1]
    rw [hn]
    rcases le_or_gt (t.valuation o d) t.vd with h | h
    · rw [if_neg (not_lt.mpr h), if_pos h, Num.one_def]
      simp [Num.nanToNum]
    · rw [if_pos h, if_neg (not_le.mpr h)]
      simp [Num.nanToNum, Num.numToNan]

/-- **C85 is false of the amounts that are not missing.**  `fillna` is documented to "fill in zero or nan values", but it changes
every known amount. -/
theorem C85_fill_false {t : Tri K} (ht : Regular t) (h1 : min t.values.d2 t.values.d3 ≠ 1) {v : K} (hv : v ≠ 0)
    {i c o d : Nat} (hi : i < t.values.d0) (hc : c < t.values.d1) (ho : o < t.values.d2) (hd : d < t.values.d3)
    (hk : t.valuation o d ≤ t.vd) :
    ∃ u, filled t (some v) = .ok u ∧ (u.values.get i c o d).amt ≠ (t.values.get i c o d).amt := by
  obtain ⟨u, eu, -, hu⟩ := C85_filled ht h1 hv
  refine ⟨u, eu, ?_⟩
  rw [hu i hi c hc o ho d hd, if_pos hk, Num.amt_numToNan]
  show (t.values.get i c o d).amt + v ≠ _
  intro h
  exact hv (by linarith)

/-- The origins known at age `d`. -/
def knownAt (t : Tri K) (d : Nat) : Finset Nat := (Finset.range t.values.d2).filter fun o => t.valuation o d ≤ t.vd

/-- The factor of the filled array, for every average, over the origins known at the next age. -/
theorem factor_filled {t : Tri K} (ht : Regular t) (hp : NonNeg t) (hs : DevSorted t)
    (h1 : min t.values.d2 t.values.d3 ≠ 1) {v : K} (hv : 0 < v) (p : Params K) {w : Arr K} {i c d : Nat}
    (hi : i < t.values.d0) (hc : c < t.values.d1) (hd : d + 1 < t.values.d3) (hw : ∀ o < t.values.d2, (w.get i c o d).NoInf) :
    ∃ u, filled t (some v) = .ok u ∧
      (ldfArr u p w).get i c 0 d = (Num.fin
        ((∑ o ∈ knownAt t (d + 1), numer (p.average d) (w.get i c o d).amt ((t.values.get i c o d).amt + v)
            ((t.values.get i c o (d + 1)).amt + v)) /
          ∑ o ∈ knownAt t (d + 1), denom (p.average d) (w.get i c o d).amt ((t.values.get i c o d).amt + v))).numToNan := by
  obtain ⟨u, eu, ⟨u0, u1, u2, u3⟩, hu⟩ := C85_filled ht h1 hv.ne'
  refine ⟨u, eu, ?_⟩
  have cell : ∀ o < t.values.d2, ∀ e < t.values.d3, (u.values.get i c o e).numToNan =
      if t.valuation o e ≤ t.vd then .fin ((t.values.get i c o e).amt + v) else .nan := by
    intro o ho e he
    rw [hu i hi c hc o ho e he]
    have hpos : (t.values.get i c o e).amt + v ≠ 0 := by
      have := hp i hi c hc o ho e he
      linarith
    split_ifs
    · simp [Num.numToNan, hpos]
    · rfl
  have clean : ∀ o < t.values.d2, ∀ e < t.values.d3, Clean (u.values.get i c o e).numToNan := by
    intro o ho e he
    rw [cell o ho e he]
    have hpos : (t.values.get i c o e).amt + v ≠ 0 := by
      have := hp i hi c hc o ho e he
      linarith
    split_ifs
    · exact Or.inr ⟨_, hpos, rfl⟩
    · exact Or.inl rfl
  show factor (p.average d) u.values.d2 _ _ _ = _
  rw [u2, factor_eq _ _ hw (fun o ho => clean o ho d (by omega)) (fun o ho => clean o ho (d + 1) hd)]
  have both : ∀ o < t.values.d2, (((u.values.get i c o d).numToNan.amt ≠ 0 ∧ (u.values.get i c o (d + 1)).numToNan.amt ≠ 0) ↔
      t.valuation o (d + 1) ≤ t.vd) := by
    intro o ho
    have q := hp i hi c hc o ho d (by omega)
    have q' := hp i hi c hc o ho (d + 1) hd
    have mono := hs o (by rw [← ht.wf.2.2.1]; exact ho) (d + 1) (by rw [← ht.wf.2.2.2]; exact hd) d (by omega)
    rw [cell o ho d (by omega), cell o ho (d + 1) hd]
    constructor
    · rintro ⟨-, h⟩
      by_contra hk
      rw [if_neg hk] at h
      exact h rfl
    · intro hk
      rw [if_pos hk, if_pos (mono.trans hk)]
      exact ⟨by show _ + v ≠ 0; linarith, by show _ + v ≠ 0; linarith⟩
  congr 2
  congr 1
  · unfold knownAt
    rw [Finset.sum_filter]
    refine Finset.sum_congr rfl fun o ho => ?_
    have ho' := Finset.mem_range.mp ho
    have mono := hs o (by rw [← ht.wf.2.2.1]; exact ho') (d + 1) (by rw [← ht.wf.2.2.2]; exact hd) d (by omega)
    by_cases hk : t.valuation o (d + 1) ≤ t.vd
    · rw [if_pos ((both o ho').mpr hk), if_pos hk, cell o ho' (d + 1) hd, if_pos hk, cell o ho' d (by omega),
        if_pos (mono.trans hk)]
      rfl
    · rw [if_neg (fun h => hk ((both o ho').mp h)), if_neg hk]
  · unfold knownAt
    rw [Finset.sum_filter]
    refine Finset.sum_congr rfl fun o ho => ?_
    have ho' := Finset.mem_range.mp ho
    have mono := hs o (by rw [← ht.wf.2.2.1]; exact ho') (d + 1) (by rw [← ht.wf.2.2.2]; exact hd) d (by omega)
    by_cases hk : t.valuation o (d + 1) ≤ t.vd
    · rw [if_pos ((both o ho').mpr hk), if_pos hk, cell o ho' d (by omega), if_pos (mono.trans hk)]
      rfl
    · rw [if_neg (fun h => hk ((both o ho').mp h)), if_neg hk]

theorem fit_filled {t : Tri K} (ht : Regular t) (hp : NonNeg t) (hs : DevSorted t) (h1 : min t.values.d2 t.values.d3 ≠ 1) {v : K}
    (hv : 0 < v) {p : Params K} {w : Arr K} (hw : weights t p = .ok w) {f : Tri K} (hf : fitFilled t p (some v) = .ok f)
    {i c d : Nat} (hi : i < t.values.d0) (hc : c < t.values.d1) (hd : d + 1 < t.values.d3) :
    f.values.get i c 0 d = (Num.fin
      ((∑ o ∈ knownAt t (d + 1), numer (p.average d) (w.get i c o d).amt ((t.values.get i c o d).amt + v)
          ((t.values.get i c o (d + 1)).amt + v)) /
        ∑ o ∈ knownAt t (d + 1), denom (p.average d) (w.get i c o d).amt ((t.values.get i c o d).amt + v))).numToNan := by
  have z := weights_zeroOne (by omega) hw
  obtain ⟨u, eu, hu⟩ := factor_filled ht hp hs h1 hv p hi hc hd
    (fun o _ => by rcases z i c o d with e | e | e <;> rw [e] <;> trivial)
  rw [← hu]
  unfold fitFilled at hf
  rw [eu, hw] at hf
  split at hf
  · cases hf
  simp only [bind, Except.bind, paramTri] at hf
  repeat' (split at hf)
  all_goals first | cases hf; done | skip
  all_goals cases hf; rfl

/-- **C85 (volume-weighted factor).**  With `fillna = v > 0` and no negative amount, the fitted factor of an age is the sum of the
amounts at the next age, each increased by `v`, over the sum of the amounts at the age, each increased by `v`, with the weights `w_`
of `n_periods`, `drop` and `drop_valuation`, over the origins known at the next age. -/
theorem C85_fit {t : Tri K} (ht : Regular t) (hp : NonNeg t) (hs : DevSorted t) (h1 : min t.values.d2 t.values.d3 ≠ 1) {v : K}
    (hv : 0 < v) {p : Params K} {w : Arr K} (hw : weights t p = .ok w) {f : Tri K} (hf : fitFilled t p (some v) = .ok f)
    {i c d : Nat} (hi : i < t.values.d0) (hc : c < t.values.d1) (hd : d + 1 < t.values.d3)
    (ha : p.average d = .volume) :
    f.values.get i c 0 d = (Num.fin
      ((∑ o ∈ knownAt t (d + 1), (w.get i c o d).amt * ((t.values.get i c o (d + 1)).amt + v)) /
        ∑ o ∈ knownAt t (d + 1), (w.get i c o d).amt * ((t.values.get i c o d).amt + v))).numToNan := by
  rw [fit_filled ht hp hs h1 hv hw hf hi hc hd, ha]
  rfl

/-- **C85 (simple average)**: the average of the link ratios of the increased amounts. -/
theorem C85_simple {t : Tri K} (ht : Regular t) (hp : NonNeg t) (hs : DevSorted t) (h1 : min t.values.d2 t.values.d3 ≠ 1) {v : K}
    (hv : 0 < v) {p : Params K} {w : Arr K} (hw : weights t p = .ok w) {f : Tri K} (hf : fitFilled t p (some v) = .ok f)
    {i c d : Nat} (hi : i < t.values.d0) (hc : c < t.values.d1) (hd : d + 1 < t.values.d3)
    (ha : p.average d = .simple) :
    f.values.get i c 0 d = (Num.fin
      ((∑ o ∈ knownAt t (d + 1), (w.get i c o d).amt * (((t.values.get i c o (d + 1)).amt + v) / ((t.values.get i c o d).amt + v))) /
        ∑ o ∈ knownAt t (d + 1), (w.get i c o d).amt)).numToNan := by
  rw [fit_filled ht hp hs h1 hv hw hf hi hc hd, ha]
  rfl

/-- **C85 (regression through the origin)** of the increased amounts. -/
theorem C85_regression {t : Tri K} (ht : Regular t) (hp : NonNeg t) (hs : DevSorted t) (h1 : min t.values.d2 t.values.d3 ≠ 1) {v : K}
    (hv : 0 < v) {p : Params K} {w : Arr K} (hw : weights t p = .ok w) {f : Tri K} (hf : fitFilled t p (some v) = .ok f)
    {i c d : Nat} (hi : i < t.values.d0) (hc : c < t.values.d1) (hd : d + 1 < t.values.d3)
    (ha : p.average d = .regression) :
    f.values.get i c 0 d = (Num.fin
      ((∑ o ∈ knownAt t (d + 1), (w.get i c o d).amt * ((t.values.get i c o d).amt + v) * ((t.values.get i c o (d + 1)).amt + v)) /
        ∑ o ∈ knownAt t (d + 1), (w.get i c o d).amt * ((t.values.get i c o d).amt + v) ^ 2)).numToNan := by
  rw [fit_filled ht hp hs h1 hv hw hf hi hc hd, ha]
  simp only [pow_two]
  rfl

/-- **C85 (no factor is missing).**  With `fillna = v > 0` the factor of an age is a positive number for every average as soon as an
origin known at the next age has a weight, also where all amounts are zero. -/
theorem C85_defined {t : Tri K} (ht : Regular t) (hp : NonNeg t) (hs : DevSorted t) (h1 : min t.values.d2 t.values.d3 ≠ 1) {v : K}
    (hv : 0 < v) {p : Params K} {w : Arr K} (hw : weights t p = .ok w) {f : Tri K} (hf : fitFilled t p (some v) = .ok f)
    {i c d : Nat} (hi : i < t.values.d0) (hc : c < t.values.d1) (hd : d + 1 < t.values.d3)
    {o : Nat} (ho : o ∈ knownAt t (d + 1)) (hwo : (w.get i c o d).amt ≠ 0) :
    ∃ x : K, 0 < x ∧ f.values.get i c 0 d = .fin x := by
  have z := weights_zeroOne (by omega) hw
  have w0 : ∀ o, 0 ≤ (w.get i c o d).amt := by
    intro o
    rcases z i c o d with e | e | e <;> rw [e] <;> simp [Num.zero_def, Num.one_def]
  have wo : 0 < (w.get i c o d).amt := lt_of_le_of_ne (w0 o) (Ne.symm hwo)
  have pos : ∀ o ∈ knownAt t (d + 1), 0 < (t.values.get i c o d).amt + v ∧ 0 < (t.values.get i c o (d + 1)).amt + v := by
    intro o ho
    have ho' : o < t.values.d2 := Finset.mem_range.mp (Finset.mem_filter.mp ho).1
    have q := hp i hi c hc o ho' d (by omega)
    have q' := hp i hi c hc o ho' (d + 1) hd
    exact ⟨by linarith, by linarith⟩
  rw [fit_filled ht hp hs h1 hv hw hf hi hc hd]
  have hN : 0 < ∑ o ∈ knownAt t (d + 1), numer (p.average d) (w.get i c o d).amt ((t.values.get i c o d).amt + v)
      ((t.values.get i c o (d + 1)).amt + v) := by
    refine Finset.sum_pos' (fun o ho => ?_) ⟨o, ho, ?_⟩
    · obtain ⟨a, b⟩ := pos o ho
      have := w0 o
      cases p.average d <;> simp only [numer] <;> positivity
    · obtain ⟨a, b⟩ := pos o ho
      cases p.average d <;> simp only [numer] <;> positivity
  have hD : 0 < ∑ o ∈ knownAt t (d + 1), denom (p.average d) (w.get i c o d).amt ((t.values.get i c o d).amt + v) := by
    refine Finset.sum_pos' (fun o ho => ?_) ⟨o, ho, ?_⟩
    · obtain ⟨a, b⟩ := pos o ho
      have := w0 o
      cases p.average d <;> simp only [denom] <;> positivity
    · obtain ⟨a, b⟩ := pos o ho
      cases p.average d <;> simp only [denom] <;> positivity
  have hq := div_pos hN hD
  exact ⟨_, hq, by simp only [Num.numToNan, if_neg hq.ne']⟩

/-- **C85 (pull towards one).**  A volume-weighted average above one is lower, and still above one, when `v > 0` is added to all
amounts: filling changes factors of triangles in which nothing is missing. -/
theorem C85_pull {S : Finset Nat} {w x y : Nat → K} {v : K} (hv : 0 < v)
    (hW : 0 < ∑ o ∈ S, w o) (hX : 0 < ∑ o ∈ S, w o * x o) (hF : 1 < (∑ o ∈ S, w o * y o) / ∑ o ∈ S, w o * x o) :
    1 < (∑ o ∈ S, w o * (y o + v)) / ∑ o ∈ S, w o * (x o + v) ∧
      (∑ o ∈ S, w o * (y o + v)) / ∑ o ∈ S, w o * (x o + v) < (∑ o ∈ S, w o * y o) / ∑ o ∈ S, w o * x o := by
  have e : ∀ z : Nat → K, ∑ o ∈ S, w o * (z o + v) = ∑ o ∈ S, w o * z o + (∑ o ∈ S, w o) * v := by
    intro z
    rw [Finset.sum_mul, ← Finset.sum_add_distrib]
    exact Finset.sum_congr rfl fun o _ => mul_add _ _ _
  rw [e, e]
  have hY := (one_lt_div hX).mp hF
  have hWv : 0 < (∑ o ∈ S, w o) * v := mul_pos hW hv
  have hXv : 0 < ∑ o ∈ S, w o * x o + (∑ o ∈ S, w o) * v := add_pos hX hWv
  refine ⟨(one_lt_div hXv).mpr (by linarith), ?_⟩
  rw [div_lt_div_iff₀ hXv hX]
  nlinarith [mul_pos hWv (sub_pos.mpr hY)]

/-- The hypotheses hold of the example triangle, in which nothing is missing, and its first factor changes. -/
example : min (Ex.tri3 (some true) Ex.cum3).values.d2 (Ex.tri3 (some true) Ex.cum3).values.d3 ≠ 1 ∧
    ∃ u : Tri ℚ, filled (Ex.tri3 (some true) Ex.cum3) (some 10) = .ok u ∧ u.values.get 0 0 0 0 = .fin 110 ∧
      u.values.get 0 0 1 1 = .fin 178 ∧ u.values.get 0 0 2 2 = .nan := by
  refine ⟨by decide, ok_of (x := filled (Ex.tri3 (some true) Ex.cum3) (some 10))
    (fun u : Tri ℚ => u.values.get 0 0 0 0 = .fin 110 ∧ u.values.get 0 0 1 1 = .fin 178 ∧ u.values.get 0 0 2 2 = .nan)
    (by decide +kernel)⟩

/-- The fitted first factor of the same triangle without and with `fillna`. -/
example : (∃ u : Tri ℚ, fitFilled (Ex.tri3 (some true) Ex.cum3) {} none = .ok u ∧ u.values.get 0 0 0 0 = .fin (53 / 35)) ∧
    ∃ u : Tri ℚ, fitFilled (Ex.tri3 (some true) Ex.cum3) {} (some 10) = .ok u ∧ u.values.get 0 0 0 0 = .fin (169 / 115) :=
  ⟨ok_of (x := fitFilled (Ex.tri3 (some true) Ex.cum3) {} none) (fun u : Tri ℚ => u.values.get 0 0 0 0 = .fin (53 / 35))
    (by decide +kernel),
   ok_of (x := fitFilled (Ex.tri3 (some true) Ex.cum3) {} (some 10)) (fun u : Tri ℚ => u.values.get 0 0 0 0 = .fin (169 / 115))
    (by decide +kernel)⟩

end Dev
end CL
