import Verif.Lemmas.CaseLdf
import Verif.Props.C32Grid

set_option linter.unusedSectionVars false

/-! # The average factors of `CaseOutstanding` -/

namespace CL
namespace CaseOut
open Tri
variable {K : Type} [Field K] [LinearOrder K] [IsStrictOrderedRing K]
variable {x c f s : Tri K} {a : Int} {n D q : Nat} {C : Nat → Nat → Nat → K} {fl fg : Flags} {φ γ : Nat → Nat → K}
  {R P I : Nat → Nat → Nat → K}

theorem nan0_fin (y : K) : (Num.fin y).numToNan.nan0 = .fin y := by
  rw [Num.numToNan_fin]
  split_ifs with h
  · rw [h]; rfl
  · rfl

theorem periodWeights_ok (hx : Standard x a n D q) (hn3 : 3 ≤ n) (hD3 : 3 ≤ D) (hq : Dev.valOffset x.dgrain x.ograin = some q) {np : Int}
    (hnp : np < 1 ∨ (D ≤ q * n ∧ Dev.valOffsetFunc x.dgrain x.ograin = some q))
    (hs : ∀ o < n, ∀ d < D, q * o + d < D → grand x o d ≠ 0) :
    ∃ w, periodWeights np x = .ok w ∧ w.d0 = 1 ∧ w.d1 = 1 ∧ w.d2 = n ∧ w.d3 = D - 1 ∧
      ∀ d < D - 1, ∀ o ∈ Dev.linked n D q d, w.get 0 0 o d = if o ∈ Dev.latestOf n D q np d then 1 else 0 := by
  have hg := hx.toGrid
  have hn := hg.two_origins
  have x0 := hg.wf.1
  have x1 := hg.wf.2.1
  have x2 : x.values.d2 = n := by rw [hg.wf.2.2.1, hg.lenO]
  have x3 : x.values.d3 = D := by rw [hg.wf.2.2.2, hg.lenD]
  -- the sum over the index
  obtain ⟨y, hy⟩ : ∃ y, y = x.sumKeep .index := ⟨_, rfl⟩
  have hys : x.sum .index = .tri y := by
    unfold Tri.sum toAgg
    rw [if_neg, hy]
    rintro ⟨-, -, -, h⟩
    have h : x.values.d3 = 1 := h
    omega
  have yk : y.kdims.length = 1 ∧ y.vdims = x.vdims ∧ y.odims = x.odims ∧ y.ddims = x.ddims ∧ y.isVal = false ∧
      y.ograin = x.ograin ∧ y.dgrain = x.dgrain ∧ y.vd = x.vd ∧ y.isCum = x.isCum ∧ y.isPattern = x.isPattern ∧
      y.isAdditive = x.isAdditive := by
    rw [hy]
    unfold sumKeep relabelAgg
    have := hg.index_pos
    simp only
    split_ifs with h
    · exact ⟨rfl, rfl, rfl, rfl, hg.isVal, rfl, rfl, rfl, rfl, rfl, rfl⟩
    · exact ⟨by show x.kdims.length = 1; omega, rfl, rfl, rfl, hg.isVal, rfl, rfl, rfl, rfl, rfl, rfl⟩
  obtain ⟨y1, y2, y3, y4, y5, y6, y7, y8, y9, y10, y11⟩ := yk
  have yc : ∀ c < x.vdims.length, ∀ o < n, ∀ d < D, y.values.get 0 c o d =
      (Num.fin (∑ i ∈ Finset.range x.kdims.length, (x.values.get i c o d).amt)).numToNan := by
    intro c hc o ho d hd
    rw [hy]
    show (∑ i ∈ Finset.range x.values.d0, (x.values.get i c o d).nan0).numToNan = _
    rw [x0, Num.sum_nan0]
    intro i hi
    rw [Finset.mem_range] at hi
    exact hg.finite i (by omega) c (by omega) o (by omega) d (by omega)
  -- the sum over the columns
  obtain ⟨z, hz⟩ : ∃ z, z = y.sumKeep .columns := ⟨_, rfl⟩
  have yd : y.values.d1 = x.values.d1 ∧ y.values.d2 = n ∧ y.values.d3 = D ∧ y.values.d0 = 1 := by
    rw [hy]; exact ⟨rfl, x2, x3, rfl⟩
  obtain ⟨yd1, yd2, yd3, yd0⟩ := yd
  have hzs : y.sum .columns = .tri z := by
    unfold Tri.sum toAgg
    rw [if_neg, hz]
    rintro ⟨-, -, -, h⟩
    have h : y.values.d3 = 1 := h
    omega
  have zk : z.kdims.length = 1 ∧ z.vdims.length = 1 ∧ z.odims = x.odims ∧ z.ddims = x.ddims ∧ z.isVal = false ∧
      z.ograin = x.ograin ∧ z.dgrain = x.dgrain ∧ z.vd = x.vd ∧ z.isCum = x.isCum ∧ z.isPattern = x.isPattern ∧
      z.isAdditive = x.isAdditive := by
    rw [hz]
    unfold sumKeep relabelAgg
    have := hg.columns_pos
    simp only
    split_ifs with h
    · exact ⟨y1, rfl, y3, y4, y5, y6, y7, y8, y9, y10, y11⟩
    · exact ⟨y1, by show y.vdims.length = 1; rw [y2] at h ⊢; omega, y3, y4, y5, y6, y7, y8, y9, y10, y11⟩
  obtain ⟨z1, z2, z3, z4, z5, z6, z7, z8, z9, z10, z11⟩ := zk
  have zd : z.values.d0 = 1 ∧ z.values.d1 = 1 ∧ z.values.d2 = n ∧ z.values.d3 = D := by
    rw [hz]; exact ⟨yd0, rfl, yd2, yd3⟩
  obtain ⟨zd0, zd1, zd2, zd3⟩ := zd
  have zc : ∀ o < n, ∀ d < D, z.values.get 0 0 o d = (Num.fin (grand x o d)).numToNan := by
    intro o ho d hd
    rw [hz]
    show (∑ c ∈ Finset.range y.values.d1, (y.values.get 0 c o d).nan0).numToNan = _
    rw [yd1, x1]
    congr 1
    unfold grand
    rw [← Num.sum_fin]
    refine Finset.sum_congr rfl fun c hc => ?_
    rw [Finset.mem_range] at hc
    rw [yc c hc o ho d hd, nan0_fin]
  have zcell : ∀ o < n, ∀ d < D, z.values.get 0 0 o d = if q * o + d < D then .fin (grand x o d) else .nan := by
    intro o ho d hd
    rw [zc o ho d hd]
    split_ifs with h
    · exact Num.numToNan_fin_of_ne (hs o ho d hd h)
    · have : grand x o d = 0 := by
        unfold grand
        refine Finset.sum_eq_zero fun c hc => Finset.sum_eq_zero fun i hi => ?_
        rw [Finset.mem_range] at hc hi
        rw [hg.known i hi c hc o ho d hd (by omega)]; rfl
      rw [this]; simp
  have zw : WF z := ⟨by rw [zd0, z1], by rw [zd1, z2], by rw [zd2, z3, hg.lenO], by rw [zd3, z4, hg.lenD]⟩
  have zs : Standard z a n D q := by
    refine ⟨⟨zw, ?_, z5, by omega, by omega, hn, hg.period, hg.recent, ?_, ?_, ?_, ?_, ?_, ?_⟩, ?_, ?_, ?_⟩
    · intro i hi c hc o ho d hd
      have hi : i = 0 := by omega
      have hc : c = 0 := by omega
      subst hi hc
      rw [zcell o (by omega) d (by omega)]
      split_ifs <;> simp
    · rw [z3, z7]; exact hg.odims
    · rw [z4, z7]; exact hg.ddims
    · rw [z8, z7]; exact hg.vd
    · rw [z7]; exact hg.short
    · rw [z8]; exact hg.early
    · intro i hi c hc o ho d hd h
      have hi : i = 0 := by omega
      have hc : c = 0 := by omega
      subst hi hc
      rw [zcell o ho d hd, if_neg (by omega)]
    · rw [z9]; exact hx.cumulative
    · rw [z10]; exact hx.noPattern
    · rw [z11]; exact hx.multiplicative
  have znz : ∀ i < z.kdims.length, ∀ c < z.vdims.length, ∀ o < n, ∀ d < D, q * o + d < D →
      (z.values.get i c o d).amt ≠ 0 := by
    intro i hi c hc o ho d hd h
    have hi : i = 0 := by omega
    have hc : c = 0 := by omega
    subst hi hc
    rw [zcell o ho d hd, if_pos h]
    exact hs o ho d hd h
  obtain ⟨lr, b, hlr, hb⟩ := Dev.nPeriodsFunc_ok zs hn3 (ns := fun _ => np) (Dev.noZeros_of zs.toGrid znz)
    (fun _ _ => hnp.elim Or.inl fun h => Dev.covered_of h.1)
    (hnp.imp (fun h _ _ => h) fun h => by rw [z7, z6]; exact h.2)
  have hnd : ({ nPeriods := fun _ => np } : Dev.Params K).NoDrop := ⟨rfl, rfl, rfl, rfl, rfl, rfl⟩
  obtain ⟨w, hw, hwc⟩ := Dev.C32_latest zs.toGrid (by rw [z7, z6]; exact hq) hnd (hnp.imp (fun h _ _ => h) And.left) znz
  have hwd : w.d0 = 1 ∧ w.d1 = 1 ∧ w.d2 = n ∧ w.d3 = D - 1 := by
    have := hw
    unfold Dev.weights at this
    obtain ⟨a1, h1, this⟩ := bind_ok this
    obtain ⟨a2, h2, this⟩ := bind_ok this
    injection this with this
    rw [← this]
    exact ⟨zd0, zd1, zd2, by show z.values.d3 - 1 = _; rw [zd3]⟩
  refine ⟨w, ?_, hwd.1, hwd.2.1, hwd.2.2.1, hwd.2.2.2, ?_⟩
  · unfold periodWeights
    rw [hys]
    simp only
    rw [hzs]
    simp only [Dev.fit, Dev.paramTri, hlr, hb, hw, Option.map_none, Dev.optWeight, bind, Except.bind]
  · intro d hd o ho
    exact hwc 0 (by omega) 0 (by omega) d hd o ho

/-- Ratios with the weights of the origins. -/
theorem ratios_ok (hg : Grid x a n D q) (hD3 : 3 ≤ D) {t c : Tri K} {v : Int} {f g : Nat → Nat → Nat → Num K}
    (ht : Box x t v fl f) (hc : Box x c v fg g) {w : Arr K} (w0 : w.d0 = 1) (w1 : w.d1 = 1) (w2 : w.d2 = n)
    (w3 : w.d3 = D - 1) :
    ∃ t1 t2 c1 r, t.ilocD (.from 1) = .ok t1 ∧ t1.mulArr w = .ok t2 ∧ c.ilocD (.upto (-1)) = .ok c1 ∧
      t2.divArr c1.values = .ok r ∧ WF r ∧ r.kdims = x.kdims ∧ r.keyLabels = x.keyLabels ∧ r.vdims.length = 1 ∧
      r.odims = x.odims ∧ r.ddims.length = D - 1 ∧ r.isVal = false ∧ r.ograin = x.ograin ∧ r.dgrain = x.dgrain ∧
      r.flags = fl ∧ ∀ i < x.kdims.length, ∀ o < n, ∀ d < D - 1, r.values.get i 0 o d =
        f i o (d + 1) * w.get 0 0 o d / g i o d := by
  have hn := hg.two_origins
  obtain ⟨e0, e1, e2, e3⟩ := ht.dims
  obtain ⟨k0, k1, k2, k3⟩ := hc.dims
  rw [hg.lenO] at e2 k2
  rw [hg.lenD] at e3 k3
  obtain ⟨t1, ht1, b1⟩ := ilocD_cut (t := t) ht.wf (k := .from 1) (pd := (List.range (D - 1)).map (· + 1))
    (by have := selS_from t.values.d3 1
        rw [e3] at this ⊢
        exact this)
    (by simp; omega)
  obtain ⟨c1, hc1, b2⟩ := ilocD_cut (t := c) hc.wf (k := .upto (-1)) (pd := List.range (D - 1))
    (by have := selS_upto_neg c.values.d3 1 (by omega) (by omega)
        rw [k3] at this ⊢
        exact this)
    (by simp; omega)
  have t0 : t1.values.d0 = x.kdims.length := by rw [b1.wf.1, b1.kdims, ht.kdims]
  have t1' : t1.values.d1 = 1 := by rw [b1.wf.2.1, b1.vdims, ht.one]
  have t2' : t1.values.d2 = n := by rw [b1.wf.2.2.1, b1.odims, ht.odims, hg.lenO]
  have t3' : t1.values.d3 = D - 1 := by rw [b1.wf.2.2.2, b1.ddims]; simp
  have c0 : c1.values.d0 = x.kdims.length := by rw [b2.wf.1, b2.kdims, hc.kdims]
  have c1' : c1.values.d1 = 1 := by rw [b2.wf.2.1, b2.vdims, hc.one]
  have c2' : c1.values.d2 = n := by rw [b2.wf.2.2.1, b2.odims, hc.odims, hg.lenO]
  have c3' : c1.values.d3 = D - 1 := by rw [b2.wf.2.2.2, b2.ddims]; simp
  have hfit : Arr.Fits w t1.values := ⟨Or.inr w0, Or.inr w1, Or.inl (by rw [w2, t2']), Or.inl (by rw [w3, t3'])⟩
  obtain ⟨t2, ht2, et2⟩ : ∃ t2, t1.mulArr w = .ok t2 ∧ t2 = { t1 with values := { t1.values with
      get := fun i c o d => t1.values.get i c o d * w.get (Arr.bix w.d0 t1.values.d0 i) (Arr.bix w.d1 t1.values.d1 c)
        (Arr.bix w.d2 t1.values.d2 o) (Arr.bix w.d3 t1.values.d3 d) } } := by
    refine ⟨_, ?_, rfl⟩
    unfold mulArr zipArr
    rw [Arr.zip_fits _ hfit]; rfl
  have hsame : Arr.SameShape t2.values c1.values := by
    rw [et2]
    exact ⟨t0.trans c0.symm, t1'.trans c1'.symm, t2'.trans c2'.symm, t3'.trans c3'.symm⟩
  obtain ⟨r, hr, er⟩ : ∃ r, t2.divArr c1.values = .ok r ∧ r = { t2 with values := { t2.values with
      get := fun i c o d => t2.values.get i c o d / c1.values.get i c o d } } := by
    refine ⟨_, ?_, rfl⟩
    unfold divArr zipArr
    rw [Arr.zip_same _ hsame]; rfl
  refine ⟨t1, t2, c1, r, ht1, ht2, hc1, hr, ?_, ?_, ?_, ?_, ?_, ?_, ?_, ?_, ?_, ?_, ?_⟩
  · rw [er, et2]; exact b1.wf
  · rw [er, et2]; exact b1.kdims.trans ht.kdims
  · rw [er, et2]; exact b1.keyLabels.trans ht.keyLabels
  · rw [er, et2]; show t1.vdims.length = 1; rw [b1.vdims, ht.one]
  · rw [er, et2]; exact b1.odims.trans ht.odims
  · rw [er, et2]; show t1.ddims.length = _; rw [b1.ddims]; simp
  · rw [er, et2]; exact b1.isVal.trans ht.isVal
  · rw [er, et2]; exact b1.ograin.trans ht.ograin
  · rw [er, et2]; exact b1.dgrain.trans ht.dgrain
  · rw [er, et2]; exact b1.flags.trans ht.flags
  · intro i hi o ho d hd
    rw [er, et2]
    show t1.values.get i 0 o d * w.get _ _ _ _ / c1.values.get i 0 o d = _
    have i0 : Arr.bix 1 x.kdims.length i = 0 := by unfold Arr.bix; split_ifs <;> omega
    rw [w0, w1, w2, w3, t0, t1', t2', t3', i0, Arr.bix_self, Arr.bix_self, Arr.bix_self]
    rw [b1.cell i (by rw [ht.kdims]; exact hi) 0 (by rw [ht.one]; omega) o (by rw [ht.odims, hg.lenO]; exact ho) d
      (by simpa using hd), b2.cell i (by rw [hc.kdims]; exact hi) 0 (by rw [hc.one]; omega) o
      (by rw [hc.odims, hg.lenO]; exact ho) d (by simpa using hd)]
    simp only [List.getElem_map, List.getElem_range]
    rw [ht.cell i hi o (by rw [hg.lenO]; exact ho) _ (by rw [hg.lenD]; omega),
      hc.cell i hi o (by rw [hg.lenO]; exact ho) _ (by rw [hg.lenD]; omega)]

theorem nanmean_eq {S : Finset Nat} (hS : S ⊆ Finset.range n) (hne : S.Nonempty) {g : Nat → K} {f : Nat → Num K}
    (hf : ∀ o < n, f o = if o ∈ S then .fin (g o) else .nan) : Reg.nanmean n f = .fin (mean S g) := by
  have h1 : Reg.nansum n f = .fin (∑ o ∈ S, g o) := by
    unfold Reg.nansum
    rw [← Finset.sum_subset hS, ← Num.sum_fin]
    · refine Finset.sum_congr rfl fun o ho => ?_
      rw [hf o (Finset.mem_range.1 (hS ho)), if_pos ho]; rfl
    · intro o ho hno
      rw [hf o (Finset.mem_range.1 ho), if_neg hno]; rfl
  have h2 : Reg.count n f = (S.card : K) := by
    unfold Reg.count
    rw [← Finset.sum_subset hS]
    · rw [Finset.sum_congr rfl (g := fun _ => (1 : K))]
      · simp
      · intro o ho
        rw [hf o (Finset.mem_range.1 (hS ho)), if_pos ho]
        simp [Num.isNan]
    · intro o ho hno
      rw [hf o (Finset.mem_range.1 ho), if_neg hno]
      simp [Num.isNan]
  unfold Reg.nanmean mean
  rw [h1, h2, Num.fin_div_fin_of_ne]
  have := Finset.card_pos.2 hne
  exact Nat.cast_ne_zero.2 (by omega)

theorem averaged_ok (hg : Grid x a n D q) (hD3 : 3 ≤ D) {t : Tri K} (wf : WF t) (h1 : t.kdims = x.kdims)
    (h2 : t.keyLabels = x.keyLabels) (h3 : t.vdims.length = 1) (h4 : t.odims = x.odims) (h5 : t.ddims.length = D - 1)
    (h6 : t.isVal = false) (h7 : t.ograin = x.ograin) (h8 : t.dgrain = x.dgrain) (h9 : t.flags = fl)
    {S : Nat → Nat → Finset Nat} {g : Nat → Nat → Nat → K}
    (hS : ∀ i < x.kdims.length, ∀ d < D - 1, S i d ⊆ Finset.range n)
    (hc : ∀ i < x.kdims.length, ∀ o < n, ∀ d < D - 1, t.values.get i 0 o d = if o ∈ S i d then .fin (g i o d) else .nan)
    (hm : ∀ i < x.kdims.length, ∀ d < D - 1, mean (S i d) (fun o => g i o d) ≠ 0) :
    ∃ u, averaged t = .ok u ∧ Factors x u D fl fun i d => mean (S i d) fun o => g i o d := by
  have hn := hg.two_origins
  obtain ⟨w0, w1, w2, w3⟩ := wf
  have hr : t.relabelAgg .origin = { t with odims := t.odims.take 1 } := by
    show (if t.odims.length > 1 then _ else t) = _
    rw [if_pos (by rw [h4, hg.lenO]; omega)]
  have hk : Berq.meanOrigin t = { t with
      odims := t.odims.take 1
      values := { t.values with
        d2 := 1
        get := fun i c _ d => (Reg.nanmean t.values.d2 fun o => t.values.get i c o d).numToNan } } := by
    unfold Berq.meanOrigin; rw [hr]
  refine ⟨Berq.meanOrigin t, ?_, ?_⟩
  · unfold averaged toAgg
    rw [if_neg]
    rintro ⟨-, -, -, h⟩
    have h' : t.values.d3 = 1 := h
    rw [w3, h5] at h'
    omega
  have ho : (t.odims.take 1).length = 1 := by rw [List.length_take, h4, hg.lenO]; omega
  rw [hk]
  refine ⟨⟨w0, w1, ho.symm, w3⟩, h1, h2, h3, ho, h5, h6, h7, h8, h9, ?_⟩
  intro i hi d hd
  show (Reg.nanmean t.values.d2 fun o => t.values.get i 0 o d).numToNan = _
  rw [w2, h4, hg.lenO, nanmean_eq (hS i hi d hd) ?_ fun o ho => hc i hi o ho d hd]
  · exact Num.numToNan_fin_of_ne (hm i hi d hd)
  · by_contra h
    rw [Finset.not_nonempty_iff_eq_empty] at h
    apply hm i hi d hd
    rw [h]
    simp [mean]

theorem caseToPrior_ok (hx : Standard x a n D q) (hD3 : 3 ≤ D) {p r : String} (hp : p ∈ x.vdims) (hr : r ∈ x.vdims)
    (nz : ∀ i < x.kdims.length, ∀ o < n, ∀ d < D, q * o + d < D → reserve x p r i o d ≠ 0)
    {w : Arr K} (w0 : w.d0 = 1) (w1 : w.d1 = 1) (w2 : w.d2 = n) (w3 : w.d3 = D - 1)
    {k : Int} (hw : ∀ d < D - 1, ∀ o ∈ Dev.linked n D q d, w.get 0 0 o d = if o ∈ Dev.latestOf n D q k d then 1 else 0)
    (hm : ∀ i < x.kdims.length, ∀ d < D - 1, caseFactor (reserve x p r) n D q k i d ≠ 0) :
    ∃ t u, caseToPrior p r w x = .ok t ∧ averaged t = .ok u ∧
      Factors x u D (some false, true, x.isAdditive) (caseFactor (reserve x p r) n D q k) := by
  have hg := hx.toGrid
  obtain ⟨p0, r0, c0, hp0, hr0, hc0, bp0, br0, hres⟩ := caseTri_ok hx hp hr nz
  obtain ⟨t1, t2, c1, t, h1, h2, h3, h4, tw, tk, tl, tv, to', td, ti, tg, tg', tf, tc⟩ :=
    ratios_ok hg hD3 hres.box hres.box w0 w1 w2 w3
  have hcf : c0.isAdditive = x.isAdditive := by rw [hres.std.multiplicative, hx.multiplicative]
  obtain ⟨u, hu1, hu2⟩ := averaged_ok hg hD3 (t := { t with
      isPattern := true
      isCum := some false
      values := t.values.map Num.numToNan }) (fl := (some false, true, x.isAdditive)) tw tk tl tv to' td ti tg tg'
    (by
      show (some false, true, t.isAdditive) = _
      rw [show t.isAdditive = c0.isAdditive from congrArg (fun t => t.2.2) tf, hcf])
    (S := fun _ d => Dev.latestOf n D q k d) (g := fun i o d => reserve x p r i o (d + 1) / reserve x p r i o d)
    (fun i _ d _ => (Finset.filter_subset _ _).trans (Finset.filter_subset _ _))
    (by
      intro i hi o ho d hd
      show (t.values.get i 0 o d).numToNan = _
      rw [tc i hi o ho d hd]
      by_cases h : q * o + d + 1 < D
      · have a1 := nz i hi o ho (d + 1) (by omega) (by omega)
        have a2 := nz i hi o ho d (by omega) (by omega)
        rw [hw d hd o (Dev.mem_linked.2 ⟨ho, h⟩), if_pos (c := q * o + (d + 1) < D) (by omega),
          if_pos (c := q * o + d < D) (by omega)]
        split_ifs with hl
        · rw [mul_one, Num.fin_div_fin_of_ne _ a2, Num.numToNan_fin_of_ne (div_ne_zero a1 a2)]
        · rw [Num.zero_def, Num.fin_mul_fin, mul_zero, Num.fin_div_fin_of_ne _ a2, zero_div]
          simp
      · rw [if_neg (c := q * o + (d + 1) < D) (by omega), if_neg (c := o ∈ Dev.latestOf n D q k d)
          fun h' => h (Dev.mem_linked.1 (Finset.mem_filter.1 h').1).2]
        simp)
    hm
  refine ⟨_, u, ?_, hu1, hu2⟩
  unfold caseToPrior caseTri
  simp only [hp0, hr0, bind, Except.bind]
  rw [hc0]; simp only
  rw [h1]; simp only
  rw [h2]; simp only
  rw [h3]; simp only
  rw [h4]

theorem paidToPrior_ok (hx : Standard x a n D q) (hD3 : 3 ≤ D) {p r : String} (hp : p ∈ x.vdims) (hr : r ∈ x.vdims)
    (nz : ∀ i < x.kdims.length, ∀ o < n, ∀ d < D, q * o + d < D → reserve x p r i o d ≠ 0)
    {w : Arr K} (w0 : w.d0 = 1) (w1 : w.d1 = 1) (w2 : w.d2 = n) (w3 : w.d3 = D - 1)
    {k : Int} (hw : ∀ d < D - 1, ∀ o ∈ Dev.linked n D q d, w.get 0 0 o d = if o ∈ Dev.latestOf n D q k d then 1 else 0)
    (hm : ∀ i < x.kdims.length, ∀ d < D - 1, paidFactor (reserve x p r) (amount x p) n D q k i d ≠ 0) :
    ∃ t u, paidToPrior p r w x = .ok t ∧ averaged t = .ok u ∧
      Factors x u D (some false, true, x.isAdditive) (paidFactor (reserve x p r) (amount x p) n D q k) := by
  have hg := hx.toGrid
  obtain ⟨p0, r0, c0, hp0, hr0, hc0, bp0, br0, hres⟩ := caseTri_ok hx hp hr nz
  obtain ⟨i0, hi0, bi0⟩ := increments_ok hx hD3 hp bp0
  obtain ⟨t1, t2, c1, t, h1, h2, h3, h4, tw, tk, tl, tv, to', td, ti, tg, tg', tf, tc⟩ :=
    ratios_ok hg hD3 bi0 hres.box w0 w1 w2 w3
  obtain ⟨u, hu1, hu2⟩ := averaged_ok hg hD3 (t := { t with
      isPattern := true
      values := t.values.map Num.numToNan }) (fl := (some false, true, x.isAdditive)) tw tk tl tv to' td ti tg tg'
    (by
      show (t.isCum, true, t.isAdditive) = _
      rw [show t.isAdditive = x.isAdditive from congrArg (fun t => t.2.2) tf,
        show t.isCum = some false from congrArg (fun t => t.1) tf])
    (S := fun i d => paying (amount x p) n D q k i d)
    (g := fun i o d => (amount x p i o (d + 1) - amount x p i o d) / reserve x p r i o d)
    (fun i _ d _ => ((Finset.filter_subset _ _).trans (Finset.filter_subset _ _)).trans (Finset.filter_subset _ _))
    (by
      intro i hi o ho d hd
      show (t.values.get i 0 o d).numToNan = _
      rw [tc i hi o ho d hd, if_neg (by omega), Nat.add_sub_cancel]
      have hmem : o ∈ paying (amount x p) n D q k i d ↔ o ∈ Dev.latestOf n D q k d ∧
          amount x p i o (d + 1) - amount x p i o d ≠ 0 := by
        unfold paying
        rw [Finset.mem_filter]
      by_cases h : q * o + d + 1 < D
      · have a2 := nz i hi o ho d (by omega) (by omega)
        rw [hw d hd o (Dev.mem_linked.2 ⟨ho, h⟩), if_pos (by omega), if_pos (c := q * o + d < D) (by omega), Num.numToNan_fin]
        by_cases hz : amount x p i o (d + 1) - amount x p i o d = 0
        · rw [if_pos hz, if_neg (c := o ∈ paying (amount x p) n D q k i d) (fun h' => (hmem.1 h').2 hz)]
          simp
        · rw [if_neg hz]
          by_cases hl : o ∈ Dev.latestOf n D q k d
          · rw [if_pos hl, if_pos (hmem.2 ⟨hl, hz⟩), mul_one, Num.fin_div_fin_of_ne _ a2,
              Num.numToNan_fin_of_ne (div_ne_zero hz a2)]
          · rw [if_neg hl, if_neg (fun h' => hl (hmem.1 h').1), Num.zero_def, Num.fin_mul_fin, mul_zero,
              Num.fin_div_fin_of_ne _ a2, zero_div]
            simp
      · rw [if_neg (c := q * o + (d + 1) < D) (by omega),
          if_neg (fun h' => h (Dev.mem_linked.1 (Finset.mem_filter.1 (hmem.1 h').1).1).2)]
        simp)
    hm
  refine ⟨_, u, ?_, hu1, hu2⟩
  unfold paidToPrior caseTri
  simp only [hp0, hr0, bind, Except.bind]
  rw [hc0]; simp only
  rw [hi0]; simp only
  rw [h1]; simp only
  rw [h2]; simp only
  rw [h3]; simp only
  rw [h4]

end CaseOut
end CL
