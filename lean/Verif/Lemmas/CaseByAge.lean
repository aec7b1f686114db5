import Verif.Lemmas.CaseSpread

set_option linter.unusedSectionVars false

/-! # The completed case reserves of `CaseOutstanding` (continued) -/

namespace CL
namespace Tri
variable {K : Type} [Field K] [LinearOrder K] [IsStrictOrderedRing K]
variable {x b s : Tri K} {a : Int} {n D q : Nat} {V : Int} {fl : Flags} {f g : Nat → Nat → Nat → Num K}

/-- Some of the columns of a triangle by valuation. -/
theorem ValBox.getVal (hx : Grid x a n D q) (hs : ValBox x s a n D q fl f) {P : Int → Bool} {pd : List Nat}
    (hp : pd.Pairwise (· < ·)) (hm : ∀ k, k ∈ pd ↔ k < spans n D q ∧ P (a + x.dgrain.months - 1 + (k * x.dgrain.months : Nat)) = true)
    (hne : pd ≠ []) (hcv : ∀ i ∈ pd, ∀ j ∈ pd, ∀ k, i < k → k < j → k ∈ pd) :
    ∃ u, s.getVal P = .ok u ∧ u.values.d0 = x.kdims.length ∧ u.values.d1 = 1 ∧ u.values.d2 = n ∧
      u.values.d3 = pd.length ∧ ∀ i < x.kdims.length, ∀ o < n, ∀ d (h : d < pd.length),
        u.values.get i 0 o d = (f i o pd[d]).numToNan := by
  have hD := hx.two_ages
  have hn := hx.two_origins
  have w2 : s.values.d2 = n := by rw [hs.wf.2.2.1, hs.rows, hx.lenO]
  have w3 : s.values.d3 = spans n D q := by rw [hs.wf.2.2.2, hs.lenD]
  have hv : ∀ o k, k < spans n D q → P (s.valuation o k) = P (a + x.dgrain.months - 1 + (k * x.dgrain.months : Nat)) := by
    intro o k hk
    rw [hs.valuation hk, hs.dgrain]
  have hcols : keyCols s.values.d2 s.values.d3 (fun o d => P (s.valuation o d)) = pd := by
    refine List.Pairwise.eq_of_mem_iff (keyCols_pairwise _ _ _) hp fun k => ?_
    rw [mem_keyCols, hm, w2, w3]
    constructor
    · rintro ⟨h1, o, ho, h2⟩
      rw [hv o k h1] at h2
      exact ⟨h1, h2⟩
    · rintro ⟨h1, h2⟩
      exact ⟨h1, 0, by omega, by rw [hv 0 k h1]; exact h2⟩
  obtain ⟨k0, hk0⟩ := List.exists_mem_of_ne_nil _ hne
  have hrows : keyRows s.values.d2 s.values.d3 (fun o d => P (s.valuation o d)) = List.range n := by
    refine List.Pairwise.eq_of_mem_iff (keyRows_pairwise _ _ _) List.pairwise_lt_range fun o => ?_
    rw [mem_keyRows, List.mem_range, w2, w3]
    obtain ⟨h1, h2⟩ := (hm k0).1 hk0
    exact ⟨fun h => h.1, fun h => ⟨h, k0, h1, by rw [hv o k0 h1]; exact h2⟩⟩
  obtain ⟨u, h1, h2, -⟩ := filterMask_spec (t := s) hs.wf (fun h => absurd (hs.isVal.symm.trans h) (by simp))
    (fun h => absurd (hs.isVal.symm.trans h) (by simp)) (key := fun o d => P (s.valuation o d))
    (by rw [hrows]; exact List.ne_nil_of_mem (List.mem_range.2 (show 0 < n by omega)))
    (by
      rw [hrows]
      refine even_of_convex List.pairwise_lt_range fun i _ j hj k _ h => ?_
      rw [List.mem_range] at *; omega)
    (by rw [hcols]; exact even_of_convex hp hcv)
  rw [hrows, hcols] at h2
  refine ⟨u, ?_, ?_, ?_, ?_, ?_, ?_⟩
  · unfold Tri.getVal
    rw [if_pos (by rw [w3]; unfold spans; omega)]
    exact h1
  · rw [h2.wf.1, h2.index, hs.kdims]
  · rw [h2.wf.2.1, h2.columns, hs.one]
  · rw [h2.wf.2.2.1, h2.origins.1, List.length_range]
  · rw [h2.wf.2.2.2, h2.developments.1]
  · intro i hi o ho d hd
    rw [h2.cells i 0 o d (by rw [hs.wf.1, hs.kdims]; exact hi) (by rw [hs.wf.2.1, hs.one]; omega)
      (by rw [List.length_range]; exact ho) hd]
    obtain ⟨h3, h4⟩ := (hm _).1 (List.getElem_mem hd)
    rw [hv _ _ h3, if_pos h4, List.getElem_range, hs.cell i hi o ho _ h3]

/-- Other cells on the same axes. -/
theorem ValBox.withValues (hx : Grid x a n D q) (hs : ValBox x s a n D q fl f) {v : Arr K}
    (hv : Arr.SameShape v s.values)
    (hc : ∀ i < x.kdims.length, ∀ o < n, ∀ k < spans n D q, v.get i 0 o k = g i o k)
    (hg : ∀ i < x.kdims.length, ∀ o < n, ∀ k < spans n D q, (g i o k).NoInf ∧ (k < q * o → g i o k = .nan)) :
    ValBox x { s with values := v } a n D q fl g := by
  obtain ⟨e0, e1, e2, e3⟩ := hv
  have d1 : v.d1 = 1 := by rw [e1, hs.wf.2.1, hs.one]
  refine ⟨⟨⟨e0.trans hs.wf.1, e1.trans hs.wf.2.1, e2.trans hs.wf.2.2.1, e3.trans hs.wf.2.2.2⟩, ?_, hs.isVal, hs.origins,
    hs.period, hs.recent, hs.odims, hs.ddims, hs.lag, hs.vd, hs.early, ?_⟩, hs.kdims, hs.keyLabels, hs.one, hs.rows,
    hs.ograin, hs.dgrain, hs.flags, hc⟩
  · intro i hi c hc' o ho k hk
    have hi' : i < x.kdims.length := by rw [← hs.kdims, ← hs.wf.1, ← e0]; exact hi
    have ho' : o < n := by rw [← hx.lenO, ← hs.rows, ← hs.wf.2.2.1, ← e2]; exact ho
    have hk' : k < spans n D q := by rw [← hs.lenD, ← hs.wf.2.2.2, ← e3]; exact hk
    have hc'' : c < v.d1 := hc'
    have : c = 0 := by omega
    subst this
    show (v.get i 0 o k).NoInf
    rw [hc i hi' o ho' k hk']
    exact (hg i hi' o ho' k hk').1
  · intro i hi c hc' o ho k hk hlt
    have hi' : i < x.kdims.length := by rw [← hs.kdims]; exact hi
    have hc'' : c < s.vdims.length := hc'
    have : c = 0 := by rw [hs.one] at hc''; omega
    subst this
    show v.get i 0 o k = .nan
    rw [hc i hi' o ho k hk]
    exact (hg i hi' o ho k hk).2 hlt

/-- Back to ages. -/
theorem ValBox.toAges (hx : Grid x a n D q) (hq : Dev.valOffset x.dgrain x.ograin = some q)
    (hs : ValBox x s a n D q fl f) (hl : ∃ i < x.kdims.length, ∃ o < n, 0 < o ∧ ∃ k < spans n D q, f i o k ≠ .nan) :
    ∃ r u, s.valToDev = .ok r ∧ r.ilocD (.upto (D : Int)) = .ok u ∧
      Box x u (lastDate x a n D q) fl fun i o d => f i o (q * o + d) := by
  have hD := hx.two_ages
  have hn := hx.two_origins
  obtain ⟨g, h1, h2⟩ := hs.toValGrid.valToDev_eq (by rw [hs.dgrain, hs.ograin]; exact hq) (Or.inr (by
    obtain ⟨i, hi, o, ho, h0, k, hk, h⟩ := hl
    refine ⟨i, ?_, 0, ?_, o, ?_, k, ?_, by omega, ?_⟩
    · rw [hs.kdims]; exact hi
    · rw [hs.one]; omega
    · rw [hs.rows, hx.lenO]; exact ho
    · rw [hs.lenD]; exact hk
    · rw [hs.cell i hi o ho k hk]; exact h))
  set r := ValGrid.byAge s (spans n D q) x.dgrain.months g with hr
  have rw' : WF r := ⟨hs.wf.1, hs.wf.2.1, hs.wf.2.2.1, by simp [hr, ValGrid.byAge]⟩
  have hsp : D ≤ spans n D q := by unfold spans; omega
  obtain ⟨u, h3, h4⟩ := ilocD_cut (t := r) rw' (k := .upto (D : Int)) (pd := List.range D) (selS_upto _ _ hsp)
    (List.ne_nil_of_mem (List.mem_range.2 (show 0 < D by omega)))
  have hdd : (List.range D).map (r.ddims.getD · 0) = x.ddims := by
    rw [hx.ddims]
    refine List.map_congr_left fun d hd => ?_
    rw [List.mem_range] at hd
    show List.getD ((List.range _).map fun k : Nat => (k : Int) * s.dgrain.months + x.dgrain.months) d 0 = _
    rw [List.getD_eq_getElem _ _ (by simp; omega)]
    simp only [List.getElem_map, List.getElem_range]
    rw [hs.dgrain]
    push_cast; ring
  have hvd : r.vd = lastDate x a n D q := by
    show s.vd = _
    rw [hs.vd, hs.dgrain]
    unfold lastDate
    have e : spans n D q * x.dgrain.months = (spans n D q - 1) * x.dgrain.months + x.dgrain.months := by
      rw [← Nat.succ_mul]
      congr 1
      unfold spans; omega
    rw [e]
    push_cast; ring
  refine ⟨r, u, h1, h3, ⟨h4.wf, h4.kdims.trans hs.kdims, h4.keyLabels.trans hs.keyLabels,
    (congrArg List.length h4.vdims).trans hs.one, h4.odims.trans hs.rows, h4.ddims.trans hdd, h4.isVal,
    h4.ograin.trans hs.ograin, h4.dgrain.trans hs.dgrain, ?_, h4.flags.trans hs.flags, ?_⟩⟩
  · rw [h4.vd r.vd le_rfl, hvd]
    refine ⟨n - 1, ?_, D - 1, ?_, ?_⟩
    · show n - 1 < s.odims.length
      rw [hs.rows, hx.lenO]; omega
    · rw [List.length_range]; omega
    · rw [hdd, hvd, ← hx.valuation_is_last]
      show valuationOf false s.odims x.ddims _ _ _ = _
      rw [hs.rows]
      unfold Tri.valuation valuationOf
      rw [hx.isVal]
      have hu : ¬ (x.ddims.getLast? = some 9999 ∧ D - 1 + 1 = x.ddims.length) := by
        rintro ⟨e, -⟩
        exact hx.not_ult (List.mem_of_getLast? e)
      have h1 := hx.origin_le (o := n - 1) (by omega)
      have h2 := hx.le_last
      rw [← hx.valuation_is_last] at h2
      unfold Tri.valuation valuationOf at h2
      rw [hx.isVal] at h2
      simp only [Bool.false_eq_true, if_false] at h2 ⊢
      rw [if_neg hu] at h2
      rw [if_neg hu, if_neg hu]
      have h3 := hx.getO (o := n - 1) (by omega)
      rw [h3] at h2 ⊢
      rw [min_eq_left (le_trans h1 h2), min_eq_left h1]
  · intro i hi o ho d hd
    rw [hx.lenO] at ho
    rw [hx.lenD] at hd
    rw [h4.cell i (by show i < s.kdims.length; rw [hs.kdims]; exact hi) 0 (by show 0 < s.vdims.length; rw [hs.one]; omega)
      o (by show o < s.odims.length; rw [hs.rows, hx.lenO]; exact ho) d (by rw [List.length_range]; exact hd),
      List.getElem_range]
    show g i 0 o d = _
    have hlt : q * o + d < spans n D q := by
      have : q * o ≤ q * (n - 1) := Nat.mul_le_mul_left _ (by omega)
      unfold spans; omega
    rw [h2 i 0 o d ho, if_pos hlt, hs.cell i hi o ho _ hlt]

end Tri
end CL
