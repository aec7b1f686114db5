import Verif.Model.MackFit
import Verif.Lemmas.TailStats
import Verif.Props.C38
import Verif.Props.C56
import Verif.Props.C58
import Verif.Props.C69

set_option linter.unusedSectionVars false

/-! # `MackChainladder.fit`: the statistics of the tail -/

namespace CL

namespace Arr
variable {K : Type} [Field K] [LinearOrder K] [IsStrictOrderedRing K]

/-- As `mackLoop_upto`, using only the columns that are reached. -/
theorem mackLoop_part (s : K → K) {t1 ldf risk : Arr K} {nans : Option (Arr K)} {I C O D E X : Nat}
    (h1 : t1.Dims I C O D) (h2 : ldf.Up I C O E) (h3 : risk.Dims I C O 1)
    {T L : Nat → Nat → Nat → Nat → K} {M : Nat → Nat → K}
    (c1 : ∀ i < I, ∀ c < C, ∀ o < O, ∀ d < X, t1.get i c o d = .fin (T i c o d))
    (c2 : ∀ i < I, ∀ c < C, ∀ o < O, ∀ d < E, ldf.lift I C O i c o d = .fin (L i c o d))
    (c3 : ∀ i < I, ∀ c < C, ∀ o < O, risk.get i c o 0 = .fin 0)
    (hn : NansAre nans I C O D M) : ∀ x ≤ D, x ≤ E → x ≤ X →
    ∃ z, (List.range x).foldlM (mackStep s t1 ldf nans) risk = .ok z ∧ z.Dims I C O (x + 1) ∧
      ∀ i < I, ∀ c < C, ∀ o < O, ∀ d < x + 1,
        z.get i c o d = .fin (quad s (T i c o) (L i c o) (M o) d) := by
  intro x
  induction x with
  | zero =>
    intro _ _ _
    refine ⟨risk, rfl, h3, ?_⟩
    intro i hi c hc o ho d hd
    obtain rfl : d = 0 := by omega
    exact c3 i hi c hc o ho
  | succ x ih =>
    intro hx hE hX
    obtain ⟨y, hy, yd, yc⟩ := ih (by omega) (by omega) (by omega)
    obtain ⟨z, hz, zd, z1, z2⟩ := mackStep_spec s h1 h2 yd (x := x) (by omega) (by omega)
      (fun i hi c hc o ho => c1 i hi c hc o ho x (by omega))
      (fun i hi c hc o ho => c2 i hi c hc o ho x (by omega))
      (fun i hi c hc o ho => yc i hi c hc o ho x (by omega)) hn
    refine ⟨z, ?_, zd, ?_⟩
    · rw [List.range_succ, List.foldlM_append, hy]
      simp only [List.foldlM_cons, List.foldlM_nil, bind, Except.bind]
      rw [hz]
      rfl
    · intro i hi c hc o ho d hd
      by_cases hd' : d < x + 1
      · rw [z1 i c o d hd', yc i hi c hc o ho d hd']
      · obtain rfl : d = x + 1 := by omega
        rw [z2 i hi c hc o ho]
        rfl

/-- A round with a missing term gives a risk of zero. -/
theorem mackStep_nan (s : K → K) {t1 ldf risk : Arr K} {n : Arr K} {I C O D E x : Nat}
    (h1 : t1.Dims I C O D) (h2 : ldf.Up I C O E) (h3 : risk.Dims I C O (x + 1)) (hx : x < D) (hE : x < E)
    (c1 : ∀ i < I, ∀ c < C, ∀ o < O, t1.get i c o x = .nan) (hn : n.Up I C O (D + 1)) :
    ∃ z, mackStep s t1 ldf (some n) risk x = .ok z ∧ z.Dims I C O (x + 2) ∧
      (∀ i c o d, d < x + 1 → z.get i c o d = risk.get i c o d) ∧
      ∀ i < I, ∀ c < C, ∀ o < O, z.get i c o (x + 1) = .fin 0 := by
  obtain ⟨a, ha, ad, ac⟩ := sliceD_col' t1 h1 hx
  obtain ⟨l, hl, ld, -, lc⟩ := sliceD_col ldf h2 hE
  obtain ⟨k, hk, kd, kc⟩ := sliceD_col' risk h3 (x := x) (by omega)
  obtain ⟨b, hb, bd, bc⟩ := zip_up (· * ·) ld kd
  obtain ⟨v, hv, vd, vc⟩ := zip_up' (· + ·) (a := a.map fun x => x.npow 2) (b := b.map fun x => x.npow 2)
    (show Dims _ I C O 1 from ad) (show Up _ I C O 1 from bd.up)
  have vcell : ∀ i < I, ∀ c < C, ∀ o < O, v.get i c o 0 = .nan := by
    intro i hi c hc o ho
    rw [vc]
    show (a.get i c o 0).npow 2 + _ = _
    rw [ac, c1 i hi c hc o ho]
    have : (Num.nan : Num K).npow 2 = .nan := by
      show Num.npow _ 1 * _ = _
      exact Num.mul_nan _
    rw [this, Num.nan_add]
  obtain ⟨m, hm, md, -, mc⟩ := sliceD_col n hn (x := x + 1) (by omega)
  have hm' : n.sliceD (some ((x : Int) + 1)) (some ((x : Int) + 2)) = .ok m := by
    rw [← hm]; push_cast; rw [add_assoc]; norm_num
  obtain ⟨w, hw, wd, wc⟩ := zip_up' (· * ·) (a := v.map (Num.sqrt s)) (show Dims _ I C O 1 from vd) md
  have hw' : mackMask (some n) (v.map (Num.sqrt s)) x = .ok w := by
    simp only [mackMask, hm', bind, Except.bind]
    exact hw
  obtain ⟨z, hz, zd, z1, z2⟩ := cat2_cols h3 (b := w.map Num.nanToNum) (show Dims _ I C O 1 from wd)
  refine ⟨z, ?_, zd, z1, ?_⟩
  · unfold mackStep
    simp only [ha, hl, hk, hb, hv, hw', bind, Except.bind]
    exact hz
  · intro i hi c hc o ho
    have := z2 i c o 0
    rw [Nat.add_zero] at this
    rw [this]
    show (w.get i c o 0).nanToNum = _
    rw [wc]
    show (Num.sqrt s (v.get i c o 0) * _).nanToNum = _
    rw [vcell i hi c hc o ho]
    show Num.nanToNum (Num.nan * _) = _
    rw [Num.nan_mul]
    rfl

end Arr

namespace Tri
variable {K : Type} [Field K] [LinearOrder K] [IsStrictOrderedRing K]
variable {t f u : Tri K} {a : Int} {n D q F : Nat}

/-- The risk when the standard error of the tail is missing: zero at ultimate. -/
theorem mackRisk_nan (s : K → K) (h : Grid t a n D q) (hf : GridPattern t f a n D q F) (hF : D < F)
    {z : Tri K} (hz : Completed t z n D q F) {se : Arr K} (hse : se.Up t.kdims.length t.vdims.length n D)
    {S : Nat → Nat → Nat → Nat → K}
    (cse : ∀ i < t.kdims.length, ∀ c < t.vdims.length, ∀ o < n, ∀ d < D - 1,
      se.lift t.kdims.length t.vdims.length n i c o d = .fin (S i c o d))
    (hnan : ∀ i < t.kdims.length, ∀ c < t.vdims.length, ∀ o < n,
      se.lift t.kdims.length t.vdims.length n i c o (D - 1) = .nan) :
    ∃ r, mackRisk s t f z se = .ok r ∧ RiskTri t r t.odims fun i c o d => if d < D then
        .fin (quad s (fun d => (z.values.get i c o d).amt * S i c o d) (f.riskFactor D i c)
          (fun d => if q * o + d + 1 ≤ D then 0 else 1) d) else .fin 0 := by
  obtain ⟨w0, w1, w2, w3⟩ := h.wf
  obtain ⟨z0, z1, z2, z3⟩ := hz.wf
  have lO := h.lenO
  have lD := h.lenD
  have D2 := h.two_ages
  have zl : z.ddims.length = F + 1 := by rw [hz.ages, fullAges_length]
  obtain ⟨x, hx, x0, x1, x2, x3, xc⟩ := Arr.sliceD_upto z.values (y := D) (by omega)
  obtain ⟨y, hy, yd, yc⟩ := Arr.zip_up' (· * ·) (a := x.map Num.nanToNum) (b := se)
    (I := t.kdims.length) (C := t.vdims.length) (O := n) (D := D)
    ⟨by show x.d0 = _; rw [x0, z0, hz.index], by show x.d1 = _; rw [x1, z1, hz.columns],
      by show x.d2 = _; rw [x2, z2, hz.origins, lO], x3⟩ hse
  obtain ⟨l, hl, l2, l0, l1, l3, lc⟩ := mackLdf_spec h hf hF
  have hnans := mackNans_spec h t.kdims.length t.vdims.length
  obtain ⟨v, hv, vd, vc⟩ := Arr.mackLoop_part s (t1 := y) (ldf := l) (X := D - 1)
    (risk := Arr.zeros t.values.d0 t.values.d1 t.values.d2 1) (nans := some t.mackNans) yd ⟨l0, l1, Or.inr l2, l3⟩
    ⟨w0, w1, by rw [← lO]; exact w2, rfl⟩
    (T := fun i c o d => (z.values.get i c o d).amt * S i c o d) (L := fun i c _ d => f.riskFactor D i c d)
    (by
      intro i hi c hc o ho d hd
      rw [yc, cse i hi c hc o ho d hd]
      show (x.get i c o d).nanToNum * _ = _
      rw [xc _ _ _ d (by omega), hz.filled hi hc ho (by omega), Num.fin_mul_fin])
    (by
      intro i hi c hc o ho d hd
      exact lc i hi c hc n o d ho hd)
    (fun _ _ _ _ _ _ => rfl) hnans (D - 1) (by omega) (by omega) le_rfl
  obtain ⟨r, hr, ⟨r0, r1, r2, r3⟩, rc, rc'⟩ := Arr.mackStep_nan s (t1 := y) (ldf := l) (risk := v) (n := t.mackNans)
    (x := D - 1) yd ⟨l0, l1, Or.inr l2, l3⟩ vd (by omega) (by omega)
    (by
      intro i hi c hc o ho
      rw [yc, hnan i hi c hc o ho, Num.mul_nan]) hnans.1
  have hloop : Arr.mackLoop s y l (some t.mackNans) (Arr.zeros t.values.d0 t.values.d1 t.values.d2 1) = .ok r := by
    unfold Arr.mackLoop
    rw [yd.2.2.2, show D = (D - 1) + 1 by omega, List.range_succ, List.foldlM_append, hv]
    simp only [List.foldlM_cons, List.foldlM_nil, bind, Except.bind]
    rw [hr]
    rfl
  have hlab := mackLabels_spec h (by omega) hz r t.odims
  refine ⟨{ t with values := r, ddims := t.ddims ++ [9999], vd := ultVal }, ?_, ⟨r0, r1, ?_, ?_⟩, rfl, ?_⟩
  · unfold mackRisk
    simp only [bind, Except.bind]
    rw [lD, hx]
    simp only
    rw [hy]
    simp only
    rw [hl]
    simp only
    rw [hloop]
    exact hlab
  · rw [r2, ← lO]
  · show r.d3 = (t.ddims ++ [9999]).length
    rw [r3]; simp [lD]; omega
  · intro i hi c hc o ho d hd
    rw [lD] at hd
    rw [lO] at ho
    by_cases hd' : d < D
    · rw [if_pos hd']
      show r.get i c o d = _
      rw [rc i c o d (by omega)]
      exact vc i hi c hc o ho d (by omega)
    · rw [if_neg hd']
      have e := rc' i hi c hc o ho
      rw [show D - 1 + 1 = d by omega] at e
      exact e

/-- A missing sigma counts as zero. -/
theorem fullStdErr_zero (s : K → K) (t full : Tri K) (sigma w : Arr K) (avg : List Nat) :
    fullStdErr s t full sigma w avg = fullStdErr s t full (sigma.map Num.nan0) w avg := by
  unfold fullStdErr
  split_ifs
  · rfl
  · rfl
  cases hx : full.values.sliceD none (some ↑t.ddims.length) with
  | error e => rfl
  | ok x =>
    simp only [bind, Except.bind]
    have key : ∀ y : Num K, ∀ z : Num K, (y / z).nanToNum = (y.nan0 / z).nanToNum := by
      intro y z
      cases y with
      | nan =>
        have : ∀ z : Num K, (Num.fin (0 : K) / z).nanToNum = .fin 0 := by
          intro z
          cases z <;> (show Num.nanToNum (Num.div _ _) = _; simp [Num.div, Num.nanToNum])
          rename_i v
          by_cases h0 : v = 0
          · simp [h0]
          · simp [h0]
        rw [Num.nan_div]
        exact (this z).symm
      | fin _ => rfl
      | pinf => rfl
      | ninf => rfl
    have hz : ∀ W : Arr K, (Arr.zip (· / ·) sigma W).map (fun q => q.map Num.nanToNum) =
        (Arr.zip (· / ·) (sigma.map Num.nan0) W).map fun q => q.map Num.nanToNum := by
      intro W
      unfold Arr.zip
      simp only [Arr.map]
      split
      · simp only [Except.map, key (sigma.get _ _ _ _)]
      · rfl
    obtain ⟨W, hW⟩ : ∃ W : Arr K, W = Arr.map Num.numToNan { x with get := fun i c o d =>
      (Num.sqrt s ((x.get i c o d).npow (2 - (avg ++ [avg.getLastD 0]).getD d 0))) } := ⟨_, rfl⟩
    rw [← hW]
    have := hz W
    revert this
    cases Arr.zip (· / ·) sigma W <;> cases Arr.zip (· / ·) (sigma.map Num.nan0) W <;> intro this
    · injection this with e
      rw [e]
    · cases this
    · cases this
    · injection this with e
      simp only [e]

end Tri

namespace Dev
variable {K : Type} [Field K] [LinearOrder K] [IsStrictOrderedRing K]

/-- Shape of the weights without exclusions. -/
theorem weights_shape {t : Tri K} {p : Params K} (hp : p.NoDrop) (hn : ∀ d, p.nPeriods d < 1) (h3 : 1 < t.values.d3)
    {w : Arr K} (hw : weights t p = .ok w) :
    w.Dims t.values.d0 t.values.d1 t.values.d2 (t.values.d3 - 1) := by
  obtain ⟨h1, h2, h3', h4, h5, h6⟩ := hp
  unfold weights dropAdjustment at hw
  rw [nPeriodsWeight_all t _ hn] at hw
  simp only [h1, h2, h3', h4, h5, h6, Option.map_none, optWeight, Option.isSome_none, bind,
    Except.bind, Bool.or_self] at hw
  injection hw with hw
  subst hw
  exact ⟨rfl, rfl, rfl, rfl⟩

end Dev

namespace Tail

/-- A pattern with a tail is on the grid of the triangle. -/
theorem HasTail.gridPattern {t f g : Tri ℝ} {a : Int} {n D q : Nat} (h : Tri.Grid t a n D q) (hl : LinkPattern t f)
    {p : Nat} {tail : Nat → Nat → Nat → ℝ} (hg : HasTail f g (t.ddims.length - 1) t.dgrain p tail)
    (hv : f.vd ≤ ultVal) (hs : (D + addedPeriods p t.dgrain) * t.dgrain.months < 9999)
    (he : a + ((q * (n - 1) + (D + addedPeriods p t.dgrain) + 1) * t.dgrain.months : Nat) ≤ ultVal) :
    Tri.GridPattern t g a n D q (D + addedPeriods p t.dgrain) where
  toPatternFor := (hg.pattern hl).1
  grid := by
    obtain ⟨last, e1, e2⟩ := hl.developments
    obtain ⟨last', e3, e4⟩ := hg.ages
    rw [e1] at e3
    injection e3 with e3
    subst e3
    obtain ⟨D', rfl⟩ : ∃ D', D = D' + 1 := ⟨D - 1, by have := h.two_ages; omega⟩
    have e5 := h.ddims
    rw [e2, List.range_succ, List.map_append, List.map_singleton] at e5
    have hlen : f.ddims.length = D' := by
      have := congrArg List.length e5
      simpa using this
    obtain ⟨e6, e7⟩ := List.append_inj e5 (by simp [hlen])
    have e8 : last = ((D' * t.dgrain.months : Nat) : Int) := by
      injection e7 with e7
      push_cast at e7 ⊢
      linarith
    rw [e4, e6, show D' + 1 + addedPeriods p t.dgrain = D' + (addedPeriods p t.dgrain + 1) by omega]
    generalize addedPeriods p t.dgrain + 1 = N
    rw [List.range_add, List.map_append, List.map_map]
    congr 1
    refine List.map_congr_left fun j _ => ?_
    rw [e8]
    simp only [Function.comp]
    push_cast
    ring
  covers := by omega
  short := hs
  early := he
  date := by rw [hg.flags.2.2.2.2]; exact hv

/-- The trend that the code fits to the logarithms `l` of the numbers at the ages of `S` is not flat; ages without a
number count for the mean age. -/
def Tilted (n : Nat) (S : Finset Nat) (l : Nat → ℝ) : Prop :=
  (∑ k ∈ S, ((k : ℝ) + 1) * l k) * S.card ≠ (∑ k ∈ Finset.range n, ((k : ℝ) + 1)) * ∑ k ∈ S, l k

theorem Tilted.two {n : Nat} {S : Finset Nat} {l : Nat → ℝ} (h : Tilted n S l) (hS : ∀ k ∈ S, k < n) :
    2 ≤ n ∧ S.Nonempty := by
  have hne : S.Nonempty := by
    rw [Finset.nonempty_iff_ne_empty]
    rintro rfl
    exact h (by simp)
  refine ⟨?_, hne⟩
  by_contra hn
  obtain ⟨k, hk⟩ := hne
  have h1 := hS k hk
  have e : S = {0} := by
    ext j
    rw [Finset.mem_singleton]
    constructor
    · intro hj
      have := hS j hj
      omega
    · intro hj
      rw [hj, show 0 = k by omega]
      exact hk
  have hn1 : n = 1 := by omega
  subst e hn1
  exact h (by simp)

/-- A trend that is not flat is found by the code, a flat one is missing. -/
theorem Row.trend {n : Nat} (hn : 1 ≤ n) {y : Nat → Num ℝ} {S : Finset Nat} {l : Nat → ℝ} (h : Row n y S l) :
    (Tilted n S l → ∃ a b : ℝ, b ≠ 0 ∧ lineSlope n y = .fin b ∧ lineIntercept n y = .fin a) ∧
      (¬ Tilted n S l → lineSlope n y = .nan ∧ lineIntercept n y = .nan) := by
  constructor
  · intro ht
    obtain ⟨h2, hne⟩ := ht.two h.sub
    obtain ⟨a, b, hb, e1, e2, -⟩ := h.line h2 hne ht
    exact ⟨a, b, hb, e1, e2⟩
  · intro ht
    by_cases hne : S.Nonempty
    · exact h.flat hn hne (not_not.mp ht)
    · rw [Finset.not_nonempty_iff_eq_empty] at hne
      subst hne
      exact h.empty hn

/-- Without a tail its statistics are zero or missing. -/
theorem tailStat_none {f g : Tri ℝ} {m i c n : Nat} (h : NoTail g m) (x : Nat → Num ℝ) :
    (tailStat f g m i c n x).nan0 = .fin 0 := by
  unfold tailStat
  simp only [if_pos h]
  generalize timePeriod f g m i c * lineSlope n (fun k => log (x k)) + lineIntercept n (fun k => log (x k)) = y
  cases y
  · show Num.nan0 (Num.nan * 0) = _
    rw [Num.nan_mul]; rfl
  · show Num.nan0 (0 * 0) = _
    rw [Num.zero_def, Num.fin_mul_fin, mul_zero]; rfl
  · rw [exp_fin, Num.zero_def, Num.fin_mul_fin, mul_zero]; rfl
  · show Num.nan0 (Num.mul .pinf (.fin 0)) = _
    simp [Num.mul, Num.infMul, Num.nan0]

/-- Without a tail: zero exactly if there are trends of the factors and of the numbers. -/
theorem tailStat_zero {f g : Tri ℝ} {m i c n : Nat} (h : ¬ AboveOne g m ∧ NoTail g m) (hn : 1 ≤ n)
    (h3 : 1 ≤ f.values.d3) {S : Finset Nat} {l : Nat → ℝ} (hf : Row f.values.d3 (fun k => logExcess (f.values.get i c 0 k)) S l)
    {S' : Finset Nat} {l' : Nat → ℝ} {x : Nat → Num ℝ} (hx : Row n (fun k => log (x k)) S' l') :
    (Tilted f.values.d3 S l ∧ Tilted n S' l' → tailStat f g m i c n x = .fin 0) ∧
      (¬ (Tilted f.values.d3 S l ∧ Tilted n S' l') → tailStat f g m i c n x = .nan) := by
  constructor
  · rintro ⟨h1, h2⟩
    obtain ⟨a, b, hb, e1, e2⟩ := (hf.trend h3).1 h1
    obtain ⟨a', b', -, e3, e4⟩ := (hx.trend hn).1 h2
    unfold tailStat timePeriod
    simp only [if_pos h.2, if_neg h.1, e1, e2, e3, e4]
    rw [Num.one_def, Num.fin_sub_fin, log_pos (by norm_num), Num.fin_sub_fin, Num.fin_div_fin_of_ne _ hb,
      Num.fin_mul_fin, Num.fin_add_fin, exp_fin, Num.zero_def, Num.fin_mul_fin, mul_zero]
  · intro hno
    by_cases h1 : Tilted f.values.d3 S l
    · obtain ⟨e3, e4⟩ := (hx.trend hn).2 fun h2 => hno ⟨h1, h2⟩
      unfold tailStat
      simp only [if_pos h.2, e3, e4, Num.mul_nan, Num.add_nan]
      exact Num.nan_mul _
    · exact stat_missing ((hf.trend h3).2 h1).1 _ _

end Tail
end CL
