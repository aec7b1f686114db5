import Verif.Model.Residuals
import Verif.Lemmas.MackTotal
import Verif.Props.C68

set_option linter.unusedSectionVars false

/-! # Lemmas for `std_residuals_` -/

namespace CL
namespace Dev
open Tri

variable {t : Tri ℝ} {a : Int} {n D q : Nat} {p : Params ℝ} {m : Munich.Interp} {one : Bool}

/-- What `fitStats` returns. -/
theorem fitStats_values {f s e : Tri ℝ} {w : Arr ℝ} (hw : weights t p = .ok w)
    (h : fitStats t p m one = .ok (f, s, e)) :
    fit t p = .ok f ∧ f.values = ldfArr t p w ∧ s.values = sigmaArr t p m one w ∧ e.values = stdErrArr t p m one w := by
  unfold fitStats at h
  obtain ⟨f', hf, h⟩ := bind_ok h
  obtain ⟨w', hw', h⟩ := bind_ok h
  obtain ⟨s', hs, h⟩ := bind_ok h
  obtain ⟨e', he, h⟩ := bind_ok h
  injection h with h
  injection h with h1 h2
  injection h2 with h2 h3
  subst h1; subst h2; subst h3
  rw [hw] at hw'
  injection hw' with hw'
  subst hw'
  refine ⟨hf, fit_values hw hf, ?_, ?_⟩
  · unfold paramTri at hs
    obtain ⟨lr, -, hs⟩ := bind_ok hs
    injection hs with hs
    rw [← hs]
  · unfold paramTri at he
    obtain ⟨lr, -, he⟩ := bind_ok he
    injection he with he
    rw [← he]

/-- All but the last age, with other values. -/
noncomputable def earlier (t : Tri ℝ) (v : Int) (g : Nat → Nat → Nat → Nat → Num ℝ) : Tri ℝ :=
  { t.picked (List.range t.values.d0) (List.range t.values.d1) (List.range t.values.d2)
      (List.range (t.values.d3 - 1)) v with
    values := ⟨t.values.d0, t.values.d1, t.values.d2, t.values.d3 - 1, g⟩ }

theorem earlier_odims (wf : WF t) (v : Int) (g : Nat → Nat → Nat → Nat → Num ℝ) : (earlier t v g).odims = t.odims := by
  show (List.range t.values.d2).map (t.odims.getD · 0) = _
  rw [wf.2.2.1]; exact map_getD_range _ _

theorem earlier_kdims (wf : WF t) (v : Int) (g : Nat → Nat → Nat → Nat → Num ℝ) : (earlier t v g).kdims = t.kdims := by
  show (List.range t.values.d0).map (t.kdims.getD · []) = _
  rw [wf.1]; exact map_getD_range _ _

theorem earlier_vdims (wf : WF t) (v : Int) (g : Nat → Nat → Nat → Nat → Num ℝ) : (earlier t v g).vdims = t.vdims := by
  show (List.range t.values.d1).map (t.vdims.getD · "") = _
  rw [wf.2.1]; exact map_getD_range _ _

theorem earlier_ddims (wf : WF t) (v : Int) (g : Nat → Nat → Nat → Nat → Num ℝ) :
    (earlier t v g).ddims = t.ddims.dropLast := by
  show (List.range (t.values.d3 - 1)).map (t.ddims.getD · 0) = _
  rw [wf.2.2.2]
  apply List.ext_getElem
  · simp
  · intro i h1 h2
    have h1' : i < t.ddims.length - 1 := by simpa using h1
    simp [List.getD_eq_getElem?_getD, List.getElem?_eq_getElem (show i < t.ddims.length by omega)]

theorem earlier_wf (wf : WF t) (v : Int) (g : Nat → Nat → Nat → Nat → Num ℝ) : WF (earlier t v g) := by
  refine ⟨?_, ?_, ?_, ?_⟩
  · rw [earlier_kdims wf]; exact wf.1
  · rw [earlier_vdims wf]; exact wf.2.1
  · rw [earlier_odims wf]; exact wf.2.2.1
  · rw [earlier_ddims wf, List.length_dropLast, ← wf.2.2.2]; rfl

theorem earlier_valuation (wf : WF t) (ord : Ordered t) {v : Int} (h1 : t.isVal = false → ∀ o ∈ t.odims, o ≤ v)
    (g : Nat → Nat → Nat → Nat → Num ℝ) {o d : Nat} (ho : o < t.odims.length) (hd : d + 1 < t.ddims.length) :
    (earlier t v g).valuation o d = t.valuation o d := by
  obtain ⟨w0, w1, w2, w3⟩ := wf
  have : (earlier t v g).valuation o d = (t.picked (List.range t.values.d0) (List.range t.values.d1)
    (List.range t.values.d2) (List.range (t.values.d3 - 1)) v).valuation o d := rfl
  rw [this, valuation_picked ord List.pairwise_lt_range
    (by intro p hp; rw [List.mem_range] at hp; omega)
    (by intro p hp; rw [List.mem_range] at hp; omega)
    (fun hb p hp => h1 hb _ (by
      rw [List.mem_range] at hp
      rw [List.getD_eq_getElem _ _ (by omega)]; exact List.getElem_mem _))
    (by simp; omega) (by simp; omega), getD_range _ _ (by omega), getD_range _ _ (by omega)]

/-- The residual of a cell before those at the valuation date are removed. -/
noncomputable def residCell (t : Tri ℝ) (p : Params ℝ) (m : Munich.Interp) (one : Bool) (w : Arr ℝ) (i c o d : Nat) : Num ℝ :=
  ((-(t.values.get i c o d) * (ldfArr t p w).get i c 0 d).nanToNum +
      (t.values.get i c o (d + 1)).nanToNum).numToNan /
    (residStd t p w (sigmaArr t p m one w)).get i c o d

theorem LabelBlock.take {O l : List Int} {k : Nat} (b : LabelBlock O l 0) (hl : l.length = k) : l = O.take k := by
  obtain ⟨h1, h2⟩ := b
  apply List.ext_getElem
  · rw [List.length_take]; omega
  · intro j hj hj'
    have := h2 j hj
    rw [Nat.zero_add, List.getD_eq_getElem _ _ hj, List.getD_eq_getElem _ _ (by omega)] at this
    rw [this, List.getElem_take]

/-- **The run of `std_residuals_`** on a regular grid. -/
theorem resid_run (h : Standard t a n D q) (hD : 3 ≤ D) {f s e : Tri ℝ} {w : Arr ℝ} (hw : weights t p = .ok w)
    (hfs : fitStats t p m one = .ok (f, s, e)) :
    ∃ r, stdResiduals t p m one = .ok r ∧ WF r ∧ r.kdims = t.kdims ∧ r.vdims = t.vdims ∧
      r.odims = t.odims.take (linkRows n D q) ∧ r.ddims = t.ddims.dropLast ∧
      ∀ i < t.kdims.length, ∀ c < t.vdims.length, ∀ o < linkRows n D q, ∀ d, d + 1 < D →
        r.values.get i c o d = if q * o + d + 1 < D then (residCell t p m one w i c o d).numToNan else .nan := by
  have n2 := h.two_origins
  have hq := h.period
  have hrec := h.recent
  have hm := months_pos t.dgrain
  have lO := h.lenO
  have lD := h.lenD
  have wf := h.wf
  obtain ⟨w0, w1, w2, w3⟩ := h.wf
  obtain ⟨hf, ef, es, -⟩ := fitStats_values hw hfs
  obtain ⟨v, e1, hv1, hv2, hv3⟩ := pick_upto h.wf h.ordered h.dated (by omega)
  obtain ⟨v', h1', -⟩ := pick_contig h.ordered h.dated (List.range t.values.d0)
    (List.range t.values.d1) (List.range t.values.d2) (t.values.d3 - 1) 1
    (by intro p hp; rw [← w2]; simpa using hp) (by omega) (by omega)
  have e2 : t.ilocD (Key.from 1) = _ := t.ilocD_from 1
  rw [h1'] at e2
  have hval : ∀ (g : Nat → Nat → Nat → Nat → Num ℝ), ∀ o < n, ∀ d, d + 1 < D →
      (earlier t v g).valuation o d = t.valuation o d := fun g o ho d hd =>
    earlier_valuation wf h.ordered hv1 g (by omega) (by omega)
  have hvd : v = t.vd := by
    rcases hv3 with e | e
    · exact e
    · refine le_antisymm hv2 (le_trans ?_ (e 1 (by omega) (D - 1 - q) (by omega)))
      have hq1 : q * 1 ≤ q * (n - 1) := Nat.mul_le_mul_left _ (by omega)
      exact le_of_not_gt fun hlt => by
        have := (h.valuation_lt (o := 1) (d := D - 1 - q) (by omega) (by omega)).mp hlt
        omega
  subst hvd
  have z1 : (Tri.neg (t.picked (List.range t.values.d0) (List.range t.values.d1) (List.range t.values.d2)
      (List.range (t.values.d3 - 1)) t.vd)).mulArr f.values = .ok (earlier t t.vd fun i c o d =>
        -(t.values.get ((List.range t.values.d0).getD i 0) ((List.range t.values.d1).getD c 0)
          ((List.range t.values.d2).getD o 0) ((List.range (t.values.d3 - 1)).getD d 0)) *
          (ldfArr t p w).get i c 0 d) := by
    unfold mulArr zipArr
    rw [ef, Arr.zip_fits _ (by
      refine ⟨?_, ?_, ?_, ?_⟩ <;> simp [Tri.neg, picked, Arr.take, Arr.map, ldfArr])]
    simp only [bind, Except.bind, Tri.neg, picked, Arr.take, Arr.map, earlier, List.length_range, ldfArr, Arr.bix,
      if_true]
  obtain ⟨g1, hg1⟩ : ∃ g1 : Nat → Nat → Nat → Nat → Num ℝ, g1 = fun i c o d =>
    -(t.values.get ((List.range t.values.d0).getD i 0) ((List.range t.values.d1).getD c 0)
      ((List.range t.values.d2).getD o 0) ((List.range (t.values.d3 - 1)).getD d 0)) *
      (ldfArr t p w).get i c 0 d := ⟨_, rfl⟩
  rw [← hg1] at z1
  obtain ⟨y, hy⟩ : ∃ y, y = (t.picked (List.range t.values.d0) (List.range t.values.d1) (List.range t.values.d2)
        ((List.range (t.values.d3 - 1)).map (· + 1)) v').values := ⟨_, rfl⟩
  have hys : Arr.SameShape (earlier t t.vd g1).values y := by
    rw [hy]
    refine ⟨?_, ?_, ?_, ?_⟩ <;> simp [earlier, picked, Arr.take]
  have z2 := addArr_same hys
  obtain ⟨g2, hg2⟩ : ∃ g2 : Nat → Nat → Nat → Nat → Num ℝ, g2 = fun i c o d =>
    (((g1 i c o d).nanToNum + (y.get i c o d).nanToNum) * ((earlier t t.vd g1).nanTri o d).nanToNum).numToNan :=
    ⟨_, rfl⟩
  have z2' : (earlier t t.vd g1).addArr y = .ok (earlier t t.vd g2) := by
    rw [z2, hg2]
    rfl
  have z3 : (earlier t t.vd g2).divArr (residStd t p w s.values) = .ok (earlier t t.vd fun i c o d =>
      g2 i c o d / (residStd t p w s.values).get i c o d) := by
    unfold divArr zipArr
    rw [Arr.zip_same _ (by refine ⟨?_, ?_, ?_, ?_⟩ <;> rfl)]
    rfl
  obtain ⟨g3, hg3⟩ : ∃ g3 : Nat → Nat → Nat → Nat → Num ℝ, g3 = fun i c o d =>
    g2 i c o d / (residStd t p w s.values).get i c o d := ⟨_, rfl⟩
  rw [← hg3] at z3
  have hlr : ∀ o, o < linkRows n D q ↔ o < n ∧ q * o + 1 < D := fun o => lt_linkRows n2 hq hrec
  have hlrn : linkRows n D q ≤ n := by unfold linkRows; split_ifs <;> omega
  have hlr1 : 1 ≤ linkRows n D q := by
    have := (hlr 0).2 ⟨by omega, by omega⟩
    omega
  have lo : (earlier t t.vd g3).odims.length = n := by rw [earlier_odims wf, lO]
  have ld : (earlier t t.vd g3).ddims.length = D - 1 := by rw [earlier_ddims wf, List.length_dropLast, lD]
  have ord : Ordered (earlier t t.vd g3) := by
    intro hb
    have ho := h.ordered hb
    refine ⟨by rw [earlier_odims wf]; exact ho.1, ?_, ?_⟩
    · rw [earlier_ddims wf]
      exact fun d hd => ho.2.1 d (List.dropLast_subset _ hd)
    · rw [earlier_ddims wf]
      exact fun hd => ho.2.2 (List.dropLast_subset _ hd)
  have gra : Graded (earlier t t.vd g3) := by
    intro o o' d d' h1 h2 h3 h4
    rw [lo] at h2
    rw [ld] at h4
    rw [hval g3 o (by omega) d (by omega), hval g3 o' h2 d' (by omega)]
    exact h.graded o o' d d' h1 (by omega) h3 (by omega)
  have key : ∀ o < n, ∀ d, d + 1 < D → (decide ((earlier t t.vd g3).valuation o d < t.vd) = true ↔
      q * o + d + 1 < D) := by
    intro o ho d hd
    rw [decide_eq_true_iff, hval g3 o ho d hd, h.valuation_lt ho (by omega)]
  obtain ⟨r, hr, rw', rk, rv, -, -, -, -, -, -, rbo, rlo, rbd, rld, rcell, -⟩ := getVal_block (earlier_wf wf _ g3) ord
    (fun hb => h.dated hb) gra (by omega) (P := fun v => v < t.vd)
    (Or.inl fun v w' hvw hw => by simp only [decide_eq_true_eq] at hw ⊢; omega)
    (so := 0) (ko := linkRows n D q) (sd := 0) (kd := D - 1) hlr1 (by omega) (by omega)
    (by
      intro o ho
      rw [lo] at ho
      rw [ld, Nat.zero_add, hlr]
      constructor
      · rintro ⟨d, hdF, hk⟩
        have := (key o ho d (by omega)).1 hk
        exact ⟨Nat.zero_le _, ho, by omega⟩
      · rintro ⟨-, -, hk⟩
        exact ⟨0, by omega, (key o ho 0 (by omega)).2 (by omega)⟩)
    (by
      intro d hdF
      rw [ld] at hdF
      rw [lo, Nat.zero_add]
      constructor
      · rintro -
        omega
      · rintro -
        exact ⟨0, by omega, (key 0 (by omega) d (by omega)).2 (by omega)⟩)
  refine ⟨r, ?_, rw', ?_, ?_, ?_, ?_, ?_⟩
  · unfold stdResiduals
    simp only [hfs, hw, e1, e2, bind, Except.bind]
    rw [z1]
    simp only
    rw [← hy, z2']
    simp only
    rw [z3]
    exact hr
  · rw [rk, earlier_kdims wf]
  · rw [rv, earlier_vdims wf]
  · rw [← earlier_odims wf t.vd g3]
    exact LabelBlock.take rbo rlo
  · rw [LabelBlock.take rbd rld, earlier_ddims wf, List.take_of_length_le (by rw [List.length_dropLast]; omega)]
  · intro i hi c hc o ho d hd
    have hon : o < n := by omega
    rw [rcell i c o d (by show i < t.values.d0; omega) (by show c < t.values.d1; omega) ho (by omega)]
    simp only [Nat.zero_add]
    by_cases hk : q * o + d + 1 < D
    · rw [if_pos ((key o hon d hd).2 hk), if_pos hk]
      congr 1
      show g3 i c o d = _
      rw [hg3, hg2, hg1, hy]
      have hn1 : (earlier t t.vd g1).nanTri o d = 1 := by
        rcases Tri.nanTri_eq (earlier t t.vd g1) o d with e | ⟨-, e⟩
        · exact e
        · rw [hval g1 o hon d hd] at e
          have e' : t.valuation o d > t.vd := e
          have := (h.valuation_gt hon (d := d) (by omega)).mp e'
          omega
      rw [hg1] at hn1
      unfold residCell
      simp only [hn1, picked, Arr.take]
      rw [getD_range _ _ (by omega : i < t.values.d0), getD_range _ _ (by omega : c < t.values.d1),
        getD_range _ _ (by omega : o < t.values.d2), getD_range _ _ (by omega : d < t.values.d3 - 1),
        getD_range_add _ _ _ (by omega : d < t.values.d3 - 1), es]
      congr 2
      have : (1 : Num ℝ).nanToNum = 1 := rfl
      rw [this, mul_one]
    · rw [if_neg (fun hh => hk ((key o hon d hd).1 hh)), if_neg hk]

end Dev
end CL
