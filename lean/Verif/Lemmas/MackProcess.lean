import Verif.Lemmas.MackTri

set_option linter.unusedSectionVars false

/-! # The standard errors of single cells -/

namespace CL
variable {K : Type} [Field K] [LinearOrder K] [IsStrictOrderedRing K]

/-- The quotient of sigma by the weight of a cell that is worth `C`, missing ones replaced by zero. -/
theorem weight_quotient {s : K → K} (hs : IsSqrt s) (σ C : K) {α : Nat} (hα : α ≤ 2) :
    ∃ S, (Num.fin σ / (Num.sqrt s ((Num.fin C).numToNan.npow (2 - α))).numToNan).nanToNum = .fin S ∧
      ((C = 0 → α ≠ 0) → (C < 0 → α ≠ 1) → (C * S) ^ 2 = σ ^ 2 * C ^ α) := by
  have gen : ∀ y : Num K, y = .nan ∨ (∃ v, y = .fin v) →
      ∃ S, (Num.fin σ / y.numToNan).nanToNum = .fin S := by
    rintro y (e | ⟨v, e⟩)
    · rw [e]
      exact ⟨0, by rw [show (Num.nan : Num K).numToNan = .nan from rfl, Num.div_nan]; rfl⟩
    · rw [e]
      by_cases hv : v = 0
      · exact ⟨0, by rw [hv, Num.numToNan_zero', Num.div_nan]; rfl⟩
      · exact ⟨σ / v, by rw [Num.numToNan_fin_of_ne hv, Num.fin_div_fin_of_ne _ hv]; rfl⟩
  have sq : ∀ v : K, Num.sqrt s (.fin v) = .nan ∨ ∃ w, Num.sqrt s (.fin v) = .fin w := by
    intro v
    unfold Num.sqrt
    simp only
    split_ifs
    · exact Or.inl rfl
    · exact Or.inr ⟨_, rfl⟩
  by_cases h0 : C = 0
  · obtain ⟨S, hS⟩ := gen (Num.sqrt s ((Num.fin C).numToNan.npow (2 - α))) (by
      rw [h0, Num.numToNan_zero']
      generalize 2 - α = e
      cases e with
      | zero => exact sq 1
      | succ e =>
        left
        show Num.sqrt s (Num.npow .nan e * .nan) = _
        rw [Num.mul_nan]
        rfl)
    refine ⟨S, hS, fun h _ => ?_⟩
    rw [h0, zero_mul, zero_pow (h h0), mul_zero]
    simp
  · rw [Num.numToNan_fin_of_ne h0, Num.npow_fin]
    obtain ⟨S, hS⟩ := gen _ (sq (C ^ (2 - α)))
    refine ⟨S, hS, fun _ h => ?_⟩
    have hnn : 0 ≤ C ^ (2 - α) := by
      rcases lt_trichotomy C 0 with h1 | h1 | h1
      · have := h h1
        have h3 : α = 0 ∨ α = 2 := by omega
        rcases h3 with e | e <;> subst e
        · exact sq_nonneg C
        · simp
      · exact absurd h1 h0
      · exact (pow_pos h1 _).le
    have hr := (hs _ hnn).2
    have hne : s (C ^ (2 - α)) ≠ 0 := by
      intro e
      rw [e] at hr
      exact pow_ne_zero (2 - α) h0 (by rw [← hr]; ring)
    rw [show Num.sqrt s (.fin (C ^ (2 - α))) = .fin (s (C ^ (2 - α))) from if_neg (not_lt.2 hnn),
      Num.numToNan_fin_of_ne hne, Num.fin_div_fin_of_ne _ hne] at hS
    have hS' : S = σ / s (C ^ (2 - α)) := by
      injection hS with e
      exact e.symm
    have hc : C ^ 2 = C ^ α * C ^ (2 - α) := by rw [← pow_add]; congr 1; omega
    rw [hS', mul_pow, div_pow, hr, hc]
    have := pow_ne_zero (2 - α) h0
    field_simp

namespace Tri
variable {t f u : Tri K} {a : Int} {n D q F : Nat} {U : Nat → Nat → Nat → K}

/-- The weight of the link ratio of origin `o` from development `d`: one if it has none. -/
def linkWeight (w : Arr K) (D o d : Nat) : K :=
  if d + 1 < D then (if (w.get 0 0 o d).isNan then 1 else (w.get 0 0 o d).amt) else 1

/-- The exponent of the average used for development `d`; the last one is used for the tail. -/
def avgAt (avg : List Nat) (d : Nat) : Nat := (avg ++ [avg.getLastD 0]).getD d 0

/-- The standard errors of the cells. -/
theorem fullStdErr_spec {s : K → K} (hs : IsSqrt s) (h : Grid t a n D q) (hF : D ≤ F)
    {z : Tri K} (hz : Completed t z n D q F) {sigma w : Arr K} {avg : List Nat}
    (hsig : sigma.Up t.kdims.length t.vdims.length n D) {σ : Nat → Nat → Nat → Nat → K}
    (csig : ∀ i < t.kdims.length, ∀ c < t.vdims.length, ∀ o < n, ∀ d < D,
      sigma.lift t.kdims.length t.vdims.length n i c o d = .fin (σ i c o d))
    (hw : w.Dims 1 1 n (D - 1)) (cw : ∀ o < n, ∀ d < D - 1, (w.get 0 0 o d).NoInf)
    (havg : avg.length = D - 1) (h2 : ∀ x ∈ avg, x ≤ 2) :
    ∃ r, fullStdErr s t z sigma w avg = .ok r ∧ r.Dims t.kdims.length t.vdims.length n D ∧
      ∃ S : Nat → Nat → Nat → Nat → K,
        (∀ i < t.kdims.length, ∀ c < t.vdims.length, ∀ o < n, ∀ d < D,
          r.get i c o d = .fin (S i c o d)) ∧
        ∀ i < t.kdims.length, ∀ c < t.vdims.length, ∀ o < n, ∀ d < D,
          ((z.values.get i c o d).amt = 0 → avgAt avg d ≠ 0) →
          ((z.values.get i c o d).amt < 0 → avgAt avg d ≠ 1) →
          ((z.values.get i c o d).amt * S i c o d) ^ 2 =
            σ i c o d ^ 2 * (z.values.get i c o d).amt ^ avgAt avg d * linkWeight w D o d ^ 2 := by
  obtain ⟨w0, w1, w2, w3⟩ := h.wf
  obtain ⟨z0, z1, z2, z3⟩ := hz.wf
  have lO := h.lenO
  have lD := h.lenD
  have D2 := h.two_ages
  have zl : z.ddims.length = F + 1 := by rw [hz.ages, fullAges_length]
  have hne : avg ≠ [] := by intro e; rw [e] at havg; simp at havg; omega
  have h2' : ∀ d < D, avgAt avg d ≤ 2 := by
    intro d hd
    unfold avgAt
    rw [List.getD_eq_getElem _ _ (by simp [havg]; omega)]
    have := List.getElem_mem (l := avg ++ [avg.getLastD 0]) (n := d) (by simp [havg]; omega)
    rw [List.mem_append] at this
    rcases this with e | e
    · exact h2 _ e
    · rw [List.mem_singleton] at e
      rw [e, List.getLastD_eq_getLast?, List.getLast?_eq_some_getLast hne]
      exact h2 _ (List.getLast_mem hne)
  obtain ⟨x, hx, x0, x1, x2, x3, xc⟩ := Arr.sliceD_upto z.values (y := D) (by omega)
  obtain ⟨wt, hwt⟩ : ∃ wt : Arr K, wt = { x with get := fun i c o d =>
      (Num.sqrt s ((x.get i c o d).npow (2 - (avg ++ [avg.getLastD 0]).getD d 0))) } := ⟨_, rfl⟩
  have xd : x.Dims t.kdims.length t.vdims.length n D := ⟨by rw [x0, z0, hz.index],
    by rw [x1, z1, hz.columns], by rw [x2, z2, hz.origins, lO], x3⟩
  obtain ⟨p, hp, pd, pc⟩ := Arr.zip_up (· / ·) (a := sigma) (b := wt.map Num.numToNan) hsig
    (show Arr.Dims _ t.kdims.length t.vdims.length n D by rw [hwt]; exact xd)
  obtain ⟨k, hk, ⟨k0, k1, k2, k3⟩, kc, kc'⟩ := Arr.cat2_cols (a := w) (E := 1)
    (b := ⟨1, 1, t.values.d2, 1, fun _ _ _ _ => .fin 1⟩) hw ⟨rfl, rfl, by rw [← lO]; exact w2, rfl⟩
  obtain ⟨r, hr, rd, rc⟩ := Arr.zip_up' (· * ·) (a := p.map Num.nanToNum)
    (b := k.map fun x => if x.isNan then .fin 1 else x) pd
    ⟨Or.inr k0, Or.inr k1, Or.inl k2, by show k.d3 = D; rw [k3]; omega⟩
  have wcell : ∀ i c o d, i < t.kdims.length → c < t.vdims.length → o < n → d < D →
      (k.map fun x => if x.isNan then .fin 1 else x).lift t.kdims.length t.vdims.length n i c o d =
        .fin (linkWeight w D o d) := by
    intro i c o d hi hc ho hd
    have e0 : ∀ {m j : Nat}, j < m → Arr.bix 1 m j = 0 := by
      intro m j hj
      unfold Arr.bix
      split_ifs <;> omega
    have e1 : (k.map fun x => if x.isNan then .fin 1 else x).lift t.kdims.length t.vdims.length n i c o d =
        if (k.get 0 0 o d).isNan then .fin 1 else k.get 0 0 o d := by
      unfold Arr.lift
      show (if (k.get (Arr.bix k.d0 _ i) (Arr.bix k.d1 _ c) (Arr.bix k.d2 _ o) d).isNan then _ else _) = _
      rw [k0, k1, k2, e0 hi, e0 hc, Arr.bix_self]
      show (if _ then _ else k.get (Arr.bix k.d0 _ i) (Arr.bix k.d1 _ c) (Arr.bix k.d2 _ o) d) = _
      rw [k0, k1, k2, e0 hi, e0 hc, Arr.bix_self]
    rw [e1]
    unfold linkWeight
    by_cases hd' : d + 1 < D
    · rw [if_pos hd', kc 0 0 o d (by omega)]
      rcases Num.noInf_cases (cw o ho d (by omega)) with e | ⟨v, e⟩
      · rw [e]; rfl
      · rw [e]; rfl
    · rw [if_neg hd']
      have := kc' 0 0 o 0
      rw [show D - 1 + 0 = d by omega] at this
      rw [this]
      rfl
  have cell : ∀ i < t.kdims.length, ∀ c < t.vdims.length, ∀ o < n, ∀ d < D,
      p.get i c o d = Num.fin (σ i c o d) / (Num.sqrt s
        ((Num.fin (z.values.get i c o d).amt).numToNan.npow (2 - avgAt avg d))).numToNan := by
    intro i hi c hc o ho d hd
    rw [pc, csig i hi c hc o ho d hd, hwt]
    show _ / (Num.sqrt s ((x.get i c o d).npow (2 - avgAt avg d))).numToNan = _
    rw [xc _ _ _ d hd, ← hz.cells i hi c hc o ho d (by omega)]
  choose S hS using fun i c o d => weight_quotient hs (σ i c o d) (z.values.get i c o d).amt (α := min (avgAt avg d) 2)
    (min_le_right _ _)
  refine ⟨r, ?_, rd, fun i c o d => S i c o d * linkWeight w D o d, ?_, ?_⟩
  · unfold fullStdErr
    rw [if_neg hne, if_neg (by rw [w3, lD, havg]; omega)]
    simp only [bind, Except.bind]
    rw [lD, hx]
    simp only
    rw [← hwt, hp]
    simp only
    rw [hk]
    exact hr
  · intro i hi c hc o ho d hd
    rw [rc, wcell i c o d hi hc ho hd]
    show (p.get i c o d).nanToNum * _ = _
    have := (hS i c o d).1
    rw [min_eq_left (h2' d hd)] at this
    rw [cell i hi c hc o ho d hd, this, Num.fin_mul_fin]
  · intro i hi c hc o ho d hd n1 n2
    have := (hS i c o d).2
    rw [min_eq_left (h2' d hd)] at this
    rw [← this n1 n2]
    ring

/-- With more than one index entry or column there is no process risk: the weights of `Development`,
which have the shape of the triangle, cannot be joined with the array of ones. -/
theorem fullStdErr_many (s : K → K) (h : Grid t a n D q) (hF : D ≤ F) {z : Tri K}
    (hz : Completed t z n D q F) {sigma w : Arr K} {avg : List Nat}
    (hsig : sigma.Up t.kdims.length t.vdims.length n D) (hw : w.d0 ≠ 1 ∨ w.d1 ≠ 1)
    (havg : avg.length = D - 1) : fullStdErr s t z sigma w avg = .error .valueError := by
  obtain ⟨w0, w1, w2, w3⟩ := h.wf
  obtain ⟨z0, z1, z2, z3⟩ := hz.wf
  have lO := h.lenO
  have lD := h.lenD
  have D2 := h.two_ages
  have zl : z.ddims.length = F + 1 := by rw [hz.ages, fullAges_length]
  have hne : avg ≠ [] := by intro e; rw [e] at havg; simp at havg; omega
  obtain ⟨x, hx, x0, x1, x2, x3, xc⟩ := Arr.sliceD_upto z.values (y := D) (by omega)
  have xd : x.Dims t.kdims.length t.vdims.length n D := ⟨by rw [x0, z0, hz.index],
    by rw [x1, z1, hz.columns], by rw [x2, z2, hz.origins, lO], x3⟩
  obtain ⟨wt, hwt⟩ : ∃ wt : Arr K, wt = { x with get := fun i c o d =>
      (Num.sqrt s ((x.get i c o d).npow (2 - (avg ++ [avg.getLastD 0]).getD d 0))) } := ⟨_, rfl⟩
  obtain ⟨p, hp, pd, pc⟩ := Arr.zip_up (· / ·) (a := sigma) (b := wt.map Num.numToNan) hsig
    (show Arr.Dims _ t.kdims.length t.vdims.length n D by rw [hwt]; exact xd)
  unfold fullStdErr
  rw [if_neg hne, if_neg (by rw [w3, lD, havg]; omega)]
  simp only [bind, Except.bind]
  rw [lD, hx]
  simp only
  rw [← hwt, hp]
  simp only
  rw [show Arr.cat2 .development w ⟨1, 1, t.values.d2, 1, fun _ _ _ _ => .fin 1⟩ = .error .valueError by
    unfold Arr.cat2
    simp only
    rw [if_neg (by rintro ⟨e1, e2, -⟩; rcases hw with e | e; exacts [e e1, e e2])]]

end Tri
end CL
